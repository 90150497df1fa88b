import Verif.Lemmas.VarInit
import Verif.Lemmas.ParamNames

/-! # Binding of macro arguments -/

namespace Verif

/-- What binding arguments may change. -/
structure ArgFrame (s s' : St) : Prop where
  same : ∃ ns ys c k m, s' = { s with
    nodes := ns, syms := ys, symValueChanged := c, macroParamIndex := k, maxMacroParam := m }
  names : CNames s'
  keep : ∀ n j, CStr n → look s n = some j → look s' n = some j
  back : ∀ n j, look s' n = some j → j < s.syms.length → look s n = some j
  len : s.syms.length ≤ s'.syms.length
  trees : ∀ e q, (∀ n ∈ e.names, CStr n ∧ ∃ j, look s n = some j) → TreeAt s e q → TreeAt s' e q

theorem ArgFrame.refl {s : St} (h : CNames s) : ArgFrame s s :=
  ⟨⟨_, _, _, _, _, rfl⟩, h, fun _ _ _ h => h, fun _ _ h _ => h, Nat.le_refl _, fun _ _ _ h => h⟩

theorem ArgFrame.trans {s t u : St} (h : ArgFrame s t) (h' : ArgFrame t u) : ArgFrame s u := by
  obtain ⟨_, _, _, _, _, e⟩ := h.same
  obtain ⟨ns, ys, c, k, m, e'⟩ := h'.same
  refine ⟨⟨ns, ys, c, k, m, by rw [e', e]⟩, h'.names, fun n j hn hj => h'.keep n j hn (h.keep n j hn hj),
    fun n j hj hl => h.back n j (h'.back n j hj (Nat.lt_of_lt_of_le hl h.len)) hl, Nat.le_trans h.len h'.len, ?_⟩
  intro e q hn hq
  refine h'.trees e q (fun n hm => ?_) (h.trees e q hn hq)
  obtain ⟨hc, j, hj⟩ := hn n hm
  exact ⟨hc, j, h.keep n j hc hj⟩

theorem CStr.of_new {s : St} {name : Str} (hs : CNames s) (hn : CStr name) : CStr (newSym s name).fullname := by
  unfold newSym
  rw [sanitizeSym_fullname]
  have hkn := CStr.key hs.label hn
  have hsc' : (addSymbolKey s name).1 = none ∨ (addSymbolKey s name).1 = s.currentScope := by
    unfold addSymbolKey
    split
    · exact Or.inl rfl
    · exact Or.inr rfl
  cases hk : addSymbolKey s name with
  | mk sc key =>
    rw [hk] at hkn hsc'
    cases sc with
    | none => exact hkn
    | some sc =>
      refine CStr.dotted (hs.scope sc ?_) hkn
      rcases hsc' with h | h
      · cases h
      · exact h.symm

/-- Names do not get older symbols. -/
theorem look_back {s : St} {n : Str} {y : Sym} {j : SymPtr} (h : look { s with syms := s.syms ++ [y] } n = some j)
    (hj : j < s.syms.length) : look s n = some j := by
  have e : ∀ k, symFind (s.syms ++ [y]) k = some s.syms.length ∨ symFind (s.syms ++ [y]) k = symFind s.syms k := by
    intro k
    rw [symFind_append]
    split
    · exact Or.inl rfl
    · exact Or.inr rfl
  have h : lookUpSymbol (addSymbolKey s n).1 (s.syms ++ [y]) (addSymbolKey s n).2 = some j := h
  show lookUpSymbol (addSymbolKey s n).1 s.syms (addSymbolKey s n).2 = some j
  unfold lookUpSymbol at h ⊢
  cases hsc : (addSymbolKey s n).1 with
  | none =>
    rw [hsc] at h
    simp only at h ⊢
    rcases e (addSymbolKey s n).2 with h' | h' <;> rw [h'] at h
    · cases h; exact absurd hj (Nat.lt_irrefl _)
    · exact h
  | some sc =>
    rw [hsc] at h
    simp only at h ⊢
    rcases e (dotted sc (addSymbolKey s n).2) with h' | h' <;> rw [h'] at h
    · cases h; exact absurd hj (Nat.lt_irrefl _)
    · cases hf : symFind s.syms (dotted sc (addSymbolKey s n).2) with
      | some i => rw [hf] at h; exact h
      | none =>
        rw [hf] at h
        simp only at h ⊢
        rcases e (addSymbolKey s n).2 with h' | h' <;> rw [h'] at h
        · cases h; exact absurd hj (Nat.lt_irrefl _)
        · exact h

/-- The symbol for a parameter, existing or new. -/
theorem paramSym_run {s : St} (hs : CNames s) (k : Nat) :
    ∃ i ys x, addSymbol (paramName k) s = (.ok (some i), { s with syms := ys }) ∧ ys[i]? = some x ∧
      (∀ j, j ≠ i → ys[j]? = s.syms[j]?) ∧ look { s with syms := ys } (paramName k) = some i ∧
      (∀ n j, CStr n → look s n = some j → look { s with syms := ys } n = some j) ∧
      (∀ z ∈ ys, CStr z.fullname) ∧ (∀ j, j < s.syms.length → ys[j]? = s.syms[j]?) ∧
      (∀ n j, look { s with syms := ys } n = some j → j < s.syms.length → look s n = some j) ∧ s.syms.length ≤ ys.length ∧
      (look s (paramName k) = some i ∨ i = s.syms.length) := by
  cases hl : look s (paramName k) with
  | some i =>
    have hlt := look_lt hl
    exact ⟨i, s.syms, _, addSymbol_run (paramName_plain k) hl, List.getElem?_eq_getElem hlt, fun _ _ => rfl, hl,
      fun _ _ _ h => h, hs.syms, fun _ _ => rfl, fun _ _ h _ => h, Nat.le_refl _, Or.inl rfl⟩
  | none =>
    refine ⟨s.syms.length, _, _, addSymbol_new (paramName_plain k) hl, by simp; rfl, ?_, look_new _ _ rfl,
      fun n j hn hj => look_old _ rfl hs (CStr.param k) hn (paramName_dot k) hl hj, ?_, ?_,
      fun n j h hj => look_back h hj, by simp, Or.inr rfl⟩
    · intro j hj
      rcases Nat.lt_or_ge j s.syms.length with h | h
      · rw [List.getElem?_append_left h]
      · rw [List.getElem?_append_right h, List.getElem?_eq_none h]
        cases h' : j - s.syms.length with
        | zero => exact absurd (Nat.le_antisymm (Nat.le_of_sub_eq_zero h') h) hj
        | succ k => rfl
    · intro z hz
      rcases List.mem_append.1 hz with h | h
      · exact hs.syms z h
      · rw [List.mem_singleton.1 h]
        exact CStr.of_new hs (CStr.param k)
    · intro j hj
      rw [List.getElem?_append_left hj]

/-- What is known about an argument: its value, and that it does not mention the first `m` parameters. -/
structure ArgOk (s : St) (m : Nat) (e : Expr) (v : Int) : Prop where
  value : Spec.itemValue (envOf s) s.pc e = some v
  lo : 0 ≤ v
  hi : v ≤ 65535
  names : ∀ n ∈ e.names, CStr n ∧ ∃ j, look s n = some j ∧ ∀ i, 1 ≤ i → i ≤ m → look s (paramName i) ≠ some j

/-- One argument. -/
theorem arg_run {f : Nat} {s : St} {q : Ptr} {e : Expr} {v : Int} (acc : Option SymPtr) (het : s.expansionType = .macroParameter)
    (hs : CNames s) (hq : TreeAt s e q) (hd : e.depth < f) (he : s.endExpansion = false) (ha : ArgOk s 0 e v) :
    ∃ i s' y, exprListItem (expandNode f) (hasUninit f) acc q s = (.ok (some (some i)), s') ∧ ArgFrame s s' ∧
      s'.macroParamIndex = s.macroParamIndex + 1 ∧ look s' (paramName (s.macroParamIndex + 1)) = some i ∧
      s'.syms[i]? = some y ∧ y.isInit = true ∧ y.value = v ∧ (∀ j, j ≠ i → s'.syms[j]? = s.syms[j]?) ∧
      (look s (paramName (s.macroParamIndex + 1)) = some i ∨ i = s.syms.length) := by
  obtain ⟨hev, hkids⟩ := itemValue_some ha.value
  obtain ⟨n, hb, hn, hmk, hk, ho⟩ := ExprAt.kind hq
  obtain ⟨ns1, sim1, r1, _⟩ := kids_run (f := f) (Nat.le_of_lt hd) he hq hn hkids
  let s1 : St := { s with nodes := ns1 }
  have hq1 : TreeAt s1 e q := ExprAt.sim sim1 hq
  obtain ⟨n1, hb1, hn1, hmk1, _, _⟩ := ExprAt.kind hq1
  have hl : Live s q n := ⟨hb, hn⟩
  have hl1 : Live s1 q n1 := ⟨hb1, hn1⟩
  have e0 : exprListItem (expandNode f) (hasUninit f) acc q s = macroArg (expandNode f) q n1 s1 := by
    unfold exprListItem
    rw [bind_ok hl.run, if_neg hk, bind_ok (operands_run ho s), bind_ok r1, bind_ok hl1.run, getS_bind]
    have het1 : s1.expansionType = .macroParameter := het
    simp only [het1]
  let K := s.macroParamIndex + 1
  let s2 : St := { s1 with macroParamIndex := K, maxMacroParam := max s.maxMacroParam K }
  obtain ⟨i, ys, x, r2, hx, hoth, hlk, hold, hcn, hlow, hback, hlen, hne⟩ := paramSym_run (s := s2) ⟨hs.syms, hs.label, hs.scope⟩ K
  let s3 : St := { s2 with syms := ys }
  have lk3 : ∀ n ∈ e.names, look s n = look s3 n := by
    intro n hn
    obtain ⟨hc, j, hj, _⟩ := ha.names n hn
    rw [hj]
    exact (hold n j hc hj).symm
  have henv : ∀ n ∈ e.names, envOf s n = envOf s3 n := by
    intro n hn
    obtain ⟨hc, j, hj, _⟩ := ha.names n hn
    unfold envOf
    rw [← lk3 n hn, hj]
    show (if plainName n = true then (match s.syms[j]? with | _ => _) else none) = (if plainName n = true then (match ys[j]? with | _ => _) else none)
    rw [hlow j (look_lt hj)]
  have hq3 : TreeAt s3 e q := ExprAt.congr lk3 hq1
  obtain ⟨ns2, r3, sim2, _⟩ := expand_ok (f := f) (s := s3) hd he hq3 (v := v) (by rw [← eval_congr henv]; exact hev)
  let s4 : St := { s3 with nodes := ns2 }
  obtain ⟨c, r4⟩ := setSym_run (s := s4) hx ha.lo ha.hi
  have hlt : i < ys.length := (List.getElem?_eq_some_iff.1 hx).1
  have hx5 : (ys.set i { x with value := v })[i]? = some { x with value := v } := List.getElem?_set_self hlt
  let s5 : St := { s4 with syms := ys.set i { x with value := v }, symValueChanged := c }
  let y : Sym := { x with value := v, isInit := true }
  let s6 : St := { s5 with syms := ys.set i y }
  have r5 : modSym i (fun x => { x with isInit := true }) s5 = (.ok (), s6) := by
    rw [modSym_run (s := s5) (show i < (ys.set i _).length by rw [List.length_set]; exact hlt)]
    show (Res.ok _, _) = _
    congr 2
    show (ys.set i { x with value := v }).modify i _ = _
    rw [modify_set hx5, List.set_set]
  have hnm : look s6 = look s3 := look_names (s := s3) (names_set (y := y) hx rfl)
  refine ⟨i, s6, y, ?_, ⟨⟨_, _, _, _, _, rfl⟩, ⟨?_, hs.label, hs.scope⟩, ?_, ?_, ?_, ?_⟩, rfl, ?_, List.getElem?_set_self hlt, rfl, rfl, ?_, hne⟩
  · rw [e0]
    unfold macroArg
    rw [if_pos hmk1, modS_bind, getS_bind]
    show (addSymbol (paramName K) >>= _) s2 = _
    rw [bind_ok r2]
    show (expandNode f q >>= _) s3 = _
    rw [bind_ok r3, bind_ok r4, bind_ok r5]
    rfl
  · exact cnames_set (y := y) hx rfl hcn
  · intro n j hc hj
    rw [hnm]
    exact hold n j hc hj
  · intro n j hj hl
    rw [hnm] at hj
    exact hback n j hj hl
  · show _ ≤ (ys.set i y).length
    rw [List.length_set]
    exact hlen
  · intro e' q' hn' hq'
    have lk' : ∀ n ∈ e'.names, look s n = look s3 n := by
      intro n hn
      obtain ⟨hc, j, hj⟩ := hn' n hn
      rw [hj]
      exact (hold n j hc hj).symm
    show ExprAt (look s6) _ _ _ _
    rw [hnm]
    exact ExprAt.sim sim2 (ExprAt.congr lk' (ExprAt.sim sim1 hq'))
  · rw [hnm]
    exact hlk
  · intro j hj
    show (ys.set i y)[j]? = _
    rw [List.getElem?_set_ne (Ne.symm hj)]
    exact hoth j hj

/-! ## The whole list -/

/-- All arguments, last one first. -/
def ArgsOk (s : St) : List (Expr × Int) → Prop
  | [] => True
  | z :: zs => ArgOk s zs.length z.1 z.2 ∧ ArgsOk s zs

/-- The items of an argument list. -/
abbrev argItems (zs : List (Expr × Int)) : List Item := zs.map fun z => .expr z.1

/-- The values of the parameters after the arguments. -/
structure Bound (s s' : St) (zs : List (Expr × Int)) : Prop where
  frame : ArgFrame s s'
  index : s'.macroParamIndex = zs.length
  vals : ∀ (j : Nat) (z : Expr × Int), zs[j]? = some z → envOf s' (paramName (zs.length - j)) = some z.2
  rest : ∀ j, j < s.syms.length → (∀ i, 1 ≤ i → i ≤ zs.length → look s (paramName i) ≠ some j) → s'.syms[j]? = s.syms[j]?

theorem envOf_at {s : St} {n : Str} {i : SymPtr} {y : Sym} (hp : plainName n = true) (h : look s n = some i) (hy : s.syms[i]? = some y)
    (hi : y.isInit = true) : envOf s n = some y.value := by
  unfold envOf
  rw [if_pos hp, h]
  simp only [hy, hi, if_true]

/-- The item after the items of `zs`. -/
theorem bound_step {f : Nat} {s s1 : St} {q : Ptr} {z : Expr × Int} {zs : List (Expr × Int)} (acc : Option SymPtr)
    (hb : Bound s s1 zs) (het : s.expansionType = .macroParameter) (hq : TreeAt s z.1 q) (hd : z.1.depth < f)
    (he : s.endExpansion = false) (ha : ArgOk s zs.length z.1 z.2) :
    ∃ i s2, exprListItem (expandNode f) (hasUninit f) acc q s1 = (.ok (some (some i)), s2) ∧ Bound s s2 (z :: zs) := by
  obtain ⟨ns, ys, c, k, m, e1⟩ := hb.frame.same
  have hq1 : TreeAt s1 z.1 q := hb.frame.trees _ _ (fun n hn => ⟨(ha.names n hn).1, _, (ha.names n hn).2.choose_spec.1⟩) hq
  have henv : ∀ n ∈ z.1.names, envOf s n = envOf s1 n := by
    intro n hn
    obtain ⟨hc, j, hj, hne⟩ := ha.names n hn
    unfold envOf
    rw [hj, hb.frame.keep n j hc hj]
    show (if plainName n = true then (match s.syms[j]? with | _ => _) else none) = (if plainName n = true then (match s1.syms[j]? with | _ => _) else none)
    rw [hb.rest j (look_lt hj) hne]
  have hpc : s1.pc = s.pc := by rw [e1]
  have ha1 : ArgOk s1 0 z.1 z.2 := by
    refine ⟨?_, ha.lo, ha.hi, fun n hn => ?_⟩
    · rw [hpc, ← itemValue_congr henv]
      exact ha.value
    · obtain ⟨hc, j, hj, _⟩ := ha.names n hn
      exact ⟨hc, j, hb.frame.keep n j hc hj, fun i h1 h0 => absurd h1 (by omega)⟩
  obtain ⟨i, s2, y, r, hf, hidx, hlk, hy, hyi, hyv, hoth, hne⟩ := arg_run (f := f) (s := s1) acc (by rw [e1]; exact het)
    hb.frame.names hq1 hd (by rw [e1]; exact he) ha1
  rw [hb.index] at hidx hlk hne
  refine ⟨i, s2, r, hb.frame.trans hf, by rw [hidx]; rfl, ?_, ?_⟩
  · intro j w hw
    cases j with
    | zero =>
      cases hw
      rw [← hyv]
      exact envOf_at (paramName_plain _) hlk hy hyi
    | succ j =>
      have hjl : j < zs.length := by
        have : zs[j]? = some w := hw
        exact (List.getElem?_eq_some_iff.1 this).1
      have hv := hb.vals j w hw
      rw [show (z :: zs).length - (j + 1) = zs.length - j by simp]
      unfold envOf at hv
      rw [if_pos (paramName_plain _)] at hv
      cases hl : look s1 (paramName (zs.length - j)) with
      | none => rw [hl] at hv; cases hv
      | some b =>
        rw [hl] at hv
        simp only at hv
        cases hg : s1.syms[b]? with
        | none => rw [hg] at hv; cases hv
        | some x =>
          rw [hg] at hv
          simp only at hv
          split at hv
          · rename_i hxi
            have hv := Option.some.inj hv
            rw [← hv]
            have hbi : b ≠ i := by
              rintro rfl
              rcases hne with h | h
              · have := look_param_inj hb.frame.names h hl
                omega
              · exact absurd (look_lt hl) (by rw [h]; exact Nat.lt_irrefl _)
            exact envOf_at (paramName_plain _) (hf.keep _ _ (CStr.param _) hl) (by rw [hoth b hbi]; exact hg) hxi
          · cases hv
  · intro j hj hno
    have hji : j ≠ i := by
      rintro rfl
      rcases hne with h | h
      · exact hno (zs.length + 1) (by omega) (by simp) (hb.frame.back _ _ h hj)
      · have := hb.frame.len
        exact absurd hj (by rw [h]; omega)
    rw [hoth j hji]
    exact hb.rest j hj fun i h1 h2 => hno i h1 (by simp only [List.length_cons]; omega)

/-- Expanding the argument list binds the parameters. -/
theorem args_run : ∀ {zs : List (Expr × Int)} {f : Nat} {s : St} {p : Ptr}, s.expansionType = .macroParameter → CNames s →
    s.endExpansion = false → s.macroParamIndex = 0 → ListAt (look s) s.nodeBase s.nodes (argItems zs) p →
    (∀ z ∈ zs, z.1.depth + zs.length < f) → ArgsOk s zs → ∃ s', expandNode f p s = (.ok 0, s') ∧ Bound s s' zs
  | [], _, _, _, _, _, _, _, hl, _, _ => hl.elim
  | [z], f, s, p, het, hs, he, h0, hl, hd, ha => by
    obtain ⟨hb, q, hn, hq⟩ := hl
    have hd := hd z (List.mem_singleton_self z)
    obtain ⟨f, rfl⟩ : ∃ g, f = g + 1 := ⟨f - 1, by simp only [List.length_cons] at hd; omega⟩
    have b0 : Bound s s [] := ⟨.refl hs, h0, fun j z h => by simp at h, fun _ _ _ => rfl⟩
    obtain ⟨i, s2, r, b⟩ := bound_step (f := f) none b0 het hq (by simp only [List.length_cons] at hd; omega) he ha.1
    refine ⟨s2, ?_, b⟩
    rw [expandNode_run (s := s) he ⟨hb, hn⟩]
    show expandExprList (expandNode f) (hasUninit f) ⟨.opr .exprList, 1, [q]⟩ s = _
    unfold expandExprList
    rw [bind_ok (operands_run (n := ⟨.opr .exprList, 1, [q]⟩) (Nat.le_refl _) _)]
    have q2 : eachM (exprListItem (expandNode f) (hasUninit f)) [q] none s = (.ok (some (some i)), s2) := by
      show (exprListItem (expandNode f) (hasUninit f) none q >>= _) _ = _
      rw [bind_ok r]
      rfl
    exact (bind_ok q2).trans rfl
  | z :: w :: zs, f, s, p, het, hs, he, h0, hl, hd, ha => by
    obtain ⟨hb, l, q, hn, hr, hq⟩ := hl
    have hdz := hd z (List.mem_cons_self ..)
    obtain ⟨f, rfl⟩ : ∃ g, f = g + 1 := ⟨f - 1, by simp only [List.length_cons] at hdz; omega⟩
    obtain ⟨s1, r1, b1⟩ := args_run (zs := w :: zs) (f := f) het hs he h0 hr (fun x hx => by
      have := hd x (List.mem_cons_of_mem _ hx)
      simp only [List.length_cons] at this ⊢
      omega) ha.2
    obtain ⟨i, s2, r, b⟩ := bound_step (f := f) none b1 het hq (by simp only [List.length_cons] at hdz; omega) he ha.1
    refine ⟨s2, ?_, b⟩
    rw [expandNode_run (s := s) he ⟨hb, hn⟩]
    show expandExprList (expandNode f) (hasUninit f) ⟨.opr .exprList, 2, [l, q]⟩ s = _
    unfold expandExprList
    rw [bind_ok (operands_run (n := ⟨.opr .exprList, 2, [l, q]⟩) (Nat.le_refl _) _)]
    have q1 : exprListItem (expandNode f) (hasUninit f) none l s = (.ok (some none), s1) := by
      have hll : ∃ n, Live s l n ∧ n.kind = .opr .exprList := by
        cases zs with
        | nil => exact ⟨_, ⟨hr.1, hr.2.choose_spec.1⟩, rfl⟩
        | cons z' zs => exact ⟨_, ⟨hr.1, hr.2.choose_spec.choose_spec.1⟩, rfl⟩
      obtain ⟨n, hln, hk⟩ := hll
      unfold exprListItem
      rw [bind_ok hln.run, if_pos hk, bind_ok r1]
      rfl
    have q2 : eachM (exprListItem (expandNode f) (hasUninit f)) [l, q] none s = (.ok (some (some i)), s2) := by
      show (exprListItem (expandNode f) (hasUninit f) none l >>= _) _ = _
      rw [bind_ok q1]
      show (exprListItem (expandNode f) (hasUninit f) none q >>= _) _ = _
      rw [bind_ok r]
      rfl
    exact (bind_ok q2).trans rfl

theorem argsOk_of {s : St} : ∀ {zs : List (Expr × Int)},
    (∀ i z, zs[i]? = some z → ArgOk s (zs.length - 1 - i) z.1 z.2) → ArgsOk s zs
  | [], _ => trivial
  | z :: zs, h => by
    refine ⟨h 0 z rfl, argsOk_of fun i w hw => ?_⟩
    have := h (i + 1) w hw
    rw [List.length_cons, show zs.length + 1 - 1 - (i + 1) = zs.length - 1 - i by omega] at this
    exact this

/-- A macro call starts the body with the parameters bound to the arguments. -/
theorem call_bound {f : Nat} {s : St} {name : Str} {body q : Ptr} {args : List (Expr × Int)} (hs : CNames s)
    (he : s.endExpansion = false) (hp : ∀ k, 1 ≤ k → k ≤ s.maxMacroParam → (paramOf s k).isSome = true)
    (hq : ListAt (look s) s.nodeBase s.nodes (argItems args.reverse) q) (hd : ∀ z ∈ args, z.1.depth + args.length < f)
    (ha : ∀ j z, args[j]? = some z → ArgOk s j z.1 z.2) :
    ∃ s1 found vs d, paramValues s.syms 1 s.maxMacroParam = some vs ∧
      Bound { s with macroDict := d, paramStack := vs :: s.paramStack, expansionType := .macroParameter, macroParamIndex := 0 } s1
        args.reverse ∧
      expandMacroEx (expandNode f) name body (some q) s = (do
        let cnt ← entryCount name found
        modS fun s => { s with lastLabel := some (name ++ [58, 58] ++ hexStr 4 cnt) }
        let _ ← expandNode f body
        bumpMacro name found
        modS fun s' => { s' with lastLabel := s.lastLabel }
        popMacroParams
        M.pure 0) s1 := by
  obtain ⟨found, d, r1⟩ : ∃ found d, createMacroEntry name s = (.ok found, { s with macroDict := d }) := by
    unfold createMacroEntry
    rw [getS_bind]
    cases macroCount s.macroDict name with
    | some _ => exact ⟨true, _, rfl⟩
    | none => exact ⟨false, _, rfl⟩
  obtain ⟨vs, hvs⟩ := paramValues_some (l := s.syms) (n := s.maxMacroParam) (k := 1) fun j h1 h2 => hp j h1 (by omega)
  let t : St := { s with macroDict := d, paramStack := vs :: s.paramStack, expansionType := .macroParameter, macroParamIndex := 0 }
  have r2 : pushMacroParams { s with macroDict := d } = (.ok (), { s with macroDict := d, paramStack := vs :: s.paramStack }) := by
    unfold pushMacroParams
    rw [getS_bind]
    simp only [hvs]
    rfl
  have ht : CNames t := ⟨hs.syms, hs.label, hs.scope⟩
  have hok : ArgsOk t args.reverse := by
    apply argsOk_of
    intro i z hz
    have hlt : i < args.length := by
      have := (List.getElem?_eq_some_iff.1 hz).1
      rwa [List.length_reverse] at this
    rw [List.getElem?_reverse hlt] at hz
    rw [List.length_reverse]
    obtain ⟨h1, h2, h3, h4⟩ := ha _ z hz
    exact ⟨h1, h2, h3, h4⟩
  obtain ⟨s1, r3, b⟩ := args_run (s := t) rfl ht he rfl hq (by
    intro z hz
    rw [List.length_reverse]
    exact hd z (List.mem_reverse.1 hz)) hok
  refine ⟨s1, found, vs, d, hvs, b, ?_⟩
  unfold expandMacroEx
  rw [bind_ok r1, bind_ok r2, modS_bind]
  obtain ⟨ns, ys, c, k, m, e1⟩ := b.frame.same
  have hlab : s1.lastLabel = s.lastLabel := by rw [e1]
  have r4 : (match some q with
    | some q => do
      let _ ← expandNode f q
      M.pure ()
    | none => M.pure ()) t = (.ok (), s1) := by
    show (expandNode f q >>= _) t = _
    rw [bind_ok r3]
    rfl
  refine (bind_ok r4).trans ?_
  rw [getS_bind, hlab]

end Verif
