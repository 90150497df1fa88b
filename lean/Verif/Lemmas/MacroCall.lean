import Verif.Lemmas.BlockLeaf

/-! # Macro calls -/

namespace Verif

theorem paramName_global (k : Nat) : globalName (paramName k) = true := rfl

/-- The tables differ at most in the values of the symbols in `P`. -/
def ParSet (P : Nat → Prop) (y y' : List Sym) : Prop :=
  y'.length = y.length ∧ ∀ (j : Nat) (x : Sym), y[j]? = some x → ∃ x', y'[j]? = some x' ∧
    (x' = x ∨ (P j ∧ ∃ v, 0 ≤ v ∧ v ≤ 65535 ∧ x' = { x with value := v }))

theorem ParSet.refl (P : Nat → Prop) (y : List Sym) : ParSet P y y := ⟨rfl, fun _ x hx => ⟨x, hx, Or.inl rfl⟩⟩

theorem ParSet.trans {P : Nat → Prop} {a b c : List Sym} (h : ParSet P a b) (h' : ParSet P b c) : ParSet P a c := by
  refine ⟨h'.1.trans h.1, fun j x hx => ?_⟩
  obtain ⟨x1, h1, h2⟩ := h.2 j x hx
  obtain ⟨x2, h3, h4⟩ := h'.2 j x1 h1
  refine ⟨x2, h3, ?_⟩
  rcases h2 with rfl | ⟨p, v, v0, v1, rfl⟩ <;> rcases h4 with rfl | ⟨p', w, w0, w1, rfl⟩
  · exact Or.inl rfl
  · exact Or.inr ⟨p', w, w0, w1, rfl⟩
  · exact Or.inr ⟨p, v, v0, v1, rfl⟩
  · exact Or.inr ⟨p, w, w0, w1, rfl⟩

theorem ParSet.set {P : Nat → Prop} {y : List Sym} {i : Nat} {x : Sym} {v : Int} (hx : y[i]? = some x) (hp : P i) (h0 : 0 ≤ v)
    (h1 : v ≤ 65535) : ParSet P y (y.set i { x with value := v }) := by
  refine ⟨List.length_set, fun j z hz => ?_⟩
  have hlt : i < y.length := (List.getElem?_eq_some_iff.1 hx).1
  rcases Nat.decEq i j with hij | hij
  · exact ⟨z, by rw [List.getElem?_set_ne hij]; exact hz, Or.inl rfl⟩
  · subst hij
    rw [hx] at hz
    cases hz
    exact ⟨_, List.getElem?_set_self hlt, Or.inr ⟨hp, v, h0, h1, rfl⟩⟩

theorem ParSet.names {P : Nat → Prop} {y y' : List Sym} (h : ParSet P y y') : y'.map (·.fullname) = y.map (·.fullname) := by
  apply List.ext_getElem?
  intro j
  rw [List.getElem?_map, List.getElem?_map]
  cases hx : y[j]? with
  | none =>
    rw [List.getElem?_eq_none (by rw [h.1]; exact List.getElem?_eq_none_iff.1 hx)]
  | some x =>
    obtain ⟨x', h1, h2⟩ := h.2 j x hx
    rw [h1]
    rcases h2 with rfl | ⟨_, _, _, _, rfl⟩ <;> rfl

/-- The symbols of the parameters. -/
def IsPar (C : Spec.Context) (s : St) (j : Nat) : Prop := ∃ i, 1 ≤ i ∧ i ≤ C.arity ∧ look s (paramName i) = some j

theorem look_same {s s' : St} (hc : s'.currentScope = s.currentScope) (hl : s'.lastLabel = s.lastLabel)
    (hn : s'.syms.map (·.fullname) = s.syms.map (·.fullname)) : look s' = look s := by
  have e : look s' = look { s with syms := s'.syms } := by
    funext n
    have : addSymbolKey s' n = addSymbolKey s n := by
      unfold addSymbolKey
      rw [hl, hc]
    unfold look
    rw [this]
    rfl
  rw [e, look_names hn]

theorem look_global {s s' : St} (hc : s'.currentScope = s.currentScope)
    (hn : s'.syms.map (·.fullname) = s.syms.map (·.fullname)) {n : Str} (hg : globalName n = true) : look s' n = look s n := by
  rw [← look_label (s := s') s.lastLabel s'.nodes hg]
  exact congrFun (look_same (s := s) (s' := { s' with lastLabel := s.lastLabel }) hc rfl hn) n

theorem slotOf_par {P : Nat → Prop} {s s' : St} (hlk : look s' = look s) (hs : ParSet P s.syms s'.syms)
    (hc : s'.currentScope = s.currentScope) : slotOf s' = slotOf s := by
  funext name
  unfold slotOf
  rw [hlk, hc]
  split
  · cases hl : look s name with
    | none => rfl
    | some i =>
      have hlt := look_lt hl
      obtain ⟨x', h1, h2⟩ := hs.2 i _ (List.getElem?_eq_getElem hlt)
      simp only [h1, List.getElem?_eq_getElem hlt]
      rcases h2 with rfl | ⟨_, _, _, _, rfl⟩ <;> rfl
  · rfl

/-- The trees stay when parameters get values and the label changes. -/
theorem ParSet.keeps {P : Nat → Prop} {s s' : St} (hp : ParSet P s.syms s'.syms) (hb : s'.nodeBase = s.nodeBase)
    (h1 : s'.cpu = s.cpu) (h2 : s'.allowIllegal = s.allowIllegal) (hc : s'.currentScope = s.currentScope)
    (hn : WSim true (look s) s.nodes s'.nodes) : Keeps true s s' := by
  refine ⟨hb, h1, h2, fun n hg => look_global hc hp.names (hg rfl), fun i x hx hi => ?_, hn⟩
  obtain ⟨x', a1, a2⟩ := hp.2 i x hx
  refine ⟨x', a1, ?_⟩
  rcases a2 with rfl | ⟨_, _, _, _, rfl⟩ <;> exact hi

theorem Calls.move {C : Spec.Context} {slot : Str → Option Nat} {s s' : St} (h : Calls C slot s)
    (hp : ParSet (IsPar C s) s.syms s'.syms) (hk : Keeps true s s') (hc : s'.currentScope = s.currentScope)
    (hl : Spec.CLabel s'.lastLabel) (hm : s'.maxMacroParam = s.maxMacroParam) : Calls C slot s' := by
  have hlk : ∀ n, globalName n = true → look s' n = look s n := fun n hg => look_global hc hp.names hg
  refine ⟨hc.trans h.scope, ?_, hl, ?_, hm.trans h.arity, ?_, ?_, ?_⟩
  · intro x hx
    have : x.fullname ∈ s'.syms.map (·.fullname) := List.mem_map_of_mem hx
    rw [hp.names] at this
    obtain ⟨y, hy, e⟩ := List.mem_map.1 this
    rw [← e]
    exact h.names y hy
  · intro ll hll
    rw [← h.slots ll hll]
    exact slotOf_par (s := { s with lastLabel := ll }) (s' := { s' with lastLabel := ll }) (look_same hc rfl hp.names) hp hc
  · intro i h1 h2
    obtain ⟨j, x, a1, a2, a3, a4, a5, a6, a7⟩ := h.params i h1 h2
    obtain ⟨x', b1, b2⟩ := hp.2 j x a2
    refine ⟨j, x', by rw [hlk _ (paramName_global i)]; exact a1, b1, ?_⟩
    rcases b2 with rfl | ⟨_, v, v0, v1, rfl⟩
    · exact ⟨a3, a4, a5, a6, a7⟩
    · exact ⟨a3, a4, a5, v0, v1⟩
  · intro n i hg
    rw [hlk n hg, hlk _ (paramName_global i)]
    exact h.param n i hg
  · intro name body hb
    obtain ⟨a1, a2, a3, i, x, b, a4, a5, a6, a7⟩ := h.bodies name body hb
    obtain ⟨x', b1, b2⟩ := hp.2 i x a5
    refine ⟨a1, a2, a3, i, x', b, by rw [hlk name a2]; exact a4, b1, ?_, a7.keep hk⟩
    rcases b2 with rfl | ⟨_, v, v0, v1, rfl⟩ <;> exact a6

/-! ## Arguments -/

/-- Arguments have been bound. -/
def ArgsDone (C : Spec.Context) (s s' : St) (n : Nat) : Prop :=
  ∃ ns ys, s' = { s with nodes := ns, syms := ys, macroParamIndex := n } ∧ HeapSim true (look s) s.nodes ns ∧
    ParSet (IsPar C s) s.syms ys

theorem ArgsDone.look {C : Spec.Context} {s s' : St} {n : Nat} (h : ArgsDone C s s' n) : look s' = look s := by
  obtain ⟨ns, ys, rfl, _, h⟩ := h
  exact look_same rfl rfl h.names

theorem ArgsDone.trans {C : Spec.Context} {s s1 s2 : St} {n m : Nat} (h : ArgsDone C s s1 n) (h' : ArgsDone C s1 s2 m) : ArgsDone C s s2 m := by
  have hlk := h.look
  obtain ⟨ns, ys, rfl, h1, h2⟩ := h
  obtain ⟨ns', ys', rfl, h3, h4⟩ := h'
  rw [hlk] at h3
  refine ⟨ns', ys', rfl, h1.trans h3, h2.trans ?_⟩
  have : IsPar C { s with nodes := ns, syms := ys, macroParamIndex := n } = IsPar C s := by
    funext j
    unfold IsPar
    rw [hlk]
  rw [this] at h4
  exact h4

theorem ArgsDone.calls {C : Spec.Context} {slot : Str → Option Nat} {s s' : St} {n : Nat} (h : ArgsDone C s s' n) (hc : Calls C slot s) :
    Calls C slot s' := by
  obtain ⟨ns, ys, rfl, h1, h2⟩ := h
  exact hc.move h2 (h2.keeps rfl rfl rfl rfl (h1.weak true)) rfl hc.label rfl

/-- Assigning to a parameter. -/
theorem setParam_run {s : St} {i : SymPtr} {x : Sym} (hx : s.syms[i]? = some x) (hm : x.isMacroParam = true) {v : Int} (h0 : 0 ≤ v)
    (h1 : v ≤ 65535) : setSymbolValue i v s = (.ok (), { s with syms := s.syms.set i { x with value := v } }) := by
  have hlt : i < s.syms.length := (List.getElem?_eq_some_iff.1 hx).1
  have hs : sym i s = (.ok x, s) := by
    unfold sym
    rw [hx]
  unfold setSymbolValue
  rw [bind_ok hs]
  by_cases hv : x.value = v
  · rw [if_neg (by omega)]
    show (Res.ok _, _) = _
    have : s.syms.set i { x with value := v } = s.syms := by
      subst hv
      apply List.ext_getElem?
      intro j
      rw [List.getElem?_set]
      split
      · rename_i e; subst e; rw [hx]
      · rfl
    rw [this]
  · have hm' : cand v (cnot 0xFFFF) = 0 := (cand_not_ffff ⟨by omega, by omega⟩).2 ⟨h0, by omega⟩
    rw [if_pos (by omega), if_neg (by rw [hm']; simp), bind_ok (modSym_run hlt _), if_neg (by rw [hm]; simp)]
    have e := modify_set hx (fun x => { x with value := v })
    rw [e]
    rfl

/-- One argument. -/
theorem arg_known {C : Spec.Context} {slot : Str → Option Nat} {f : Nat} {s : St} {q : Ptr} {e : Expr} {v : Int}
    {env : Str → Option Int} (acc : Option SymPtr) (hC : Calls C slot s) (hi : s.macroParamIndex + 1 ≤ C.arity)
    (het : s.expansionType = .macroParameter) (he : s.endExpansion = false) (hq : TreeAt s e q)
    (hg : ∀ n ∈ e.names, globalName n = true) (hd : e.depth < f) (henv : EnvEq true (envOf s) env)
    (hv : Spec.itemValue env s.pc e = some v) (h0 : 0 ≤ v) (h1 : v ≤ 65535) :
    ∃ s' r, exprListItem (expandNode f) (hasUninit f) acc q s = (.ok (some r), s') ∧ ArgsDone C s s' (s.macroParamIndex + 1) ∧
      EnvEq true (envOf s') (fun n => if C.param n = some (s.macroParamIndex + 1) then some v else env n) := by
  rw [← itemValue_congr fun n hn => henv n fun _ => hg n hn] at hv
  obtain ⟨hev, hkids⟩ := itemValue_some hv
  obtain ⟨n, hb, hn, hmk, hk, ho⟩ := ExprAt.kind hq
  obtain ⟨ns1, sim1, r1, _⟩ := kids_run (f := f) (Nat.le_of_lt hd) he hq hn hkids
  let s1 : St := { s with nodes := ns1 }
  have hq1 : TreeAt s1 e q := ExprAt.sim sim1 hq
  obtain ⟨n1, hb1, hn1, hmk1, _, _⟩ := ExprAt.kind hq1
  have hl : Live s q n := ⟨hb, hn⟩
  have hl1 : Live s1 q n1 := ⟨hb1, hn1⟩
  have e0 : exprListItem (expandNode f) (hasUninit f) acc q s = macroArg (expandNode f) q n1 s1 := by
    unfold exprListItem
    rw [bind_ok hl.run, if_neg hk, bind_ok (operands_run ho s), bind_ok r1, bind_ok hl1.run, getS_bind]
    have het1 : s1.expansionType = .macroParameter := het
    simp only [het1]
  let K := s.macroParamIndex + 1
  let s2 : St := { s1 with macroParamIndex := K }
  obtain ⟨j, x, a1, a2, a3, a4, a5, _⟩ := hC.params K (by omega) hi
  have hmax : max s.maxMacroParam (s.macroParamIndex + 1) = s.maxMacroParam := by
    have := hC.arity
    omega
  have r2 : addSymbol (paramName K) s2 = (.ok (some j), s2) := addSymbol_run (s := s2) (paramName_plain K) a1
  obtain ⟨ns2, r3, sim2, _⟩ := expand_ok (f := f) (s := s2) hd he hq1 (v := v) hev
  let s3 : St := { s2 with nodes := ns2 }
  have r4 := setParam_run (s := s3) a2 a3 h0 h1
  have hlt : j < s.syms.length := (List.getElem?_eq_some_iff.1 a2).1
  let s4 : St := { s3 with syms := s.syms.set j { x with value := v } }
  have r5 : modSym j (fun x => { x with isInit := true }) s4 = (.ok (), s4) := by
    rw [modSym_run (s := s4) (show j < (s.syms.set j _).length by rw [List.length_set]; exact hlt)]
    show (Res.ok _, _) = _
    congr 2
    show (s.syms.set j { x with value := v }).modify j _ = _
    rw [modify_set (List.getElem?_set_self hlt), List.set_set, a4]
  have hpar : ParSet (IsPar C s) s.syms (s.syms.set j { x with value := v }) := ParSet.set a2 ⟨K, by omega, hi, a1⟩ h0 h1
  have hlk : look s4 = look s := look_same rfl rfl hpar.names
  refine ⟨s4, some j, ?_, ⟨ns2, _, rfl, (HeapSim.mono sim1).trans (HeapSim.mono sim2), hpar⟩, ?_⟩
  · rw [e0]
    unfold macroArg
    rw [if_pos hmk1, modS_bind, getS_bind]
    show (addSymbol (paramName K) >>= _) { s2 with maxMacroParam := max s.maxMacroParam (s.macroParamIndex + 1) } = _
    rw [hmax]
    show (addSymbol (paramName K) >>= _) s2 = _
    rw [bind_ok r2]
    show (expandNode f q >>= _) s2 = _
    rw [bind_ok r3, bind_ok r4, bind_ok r5]
    rfl
  · intro m hm
    have hgm := hm rfl
    show _ = if C.param m = some K then some v else env m
    by_cases hp : C.param m = some K
    · rw [if_pos hp]
      obtain ⟨_, _, p3, p4⟩ := (hC.param m K hgm).1 hp
      have : look s4 m = some j := by rw [hlk, p4, a1]
      unfold envOf
      rw [if_pos p3, this]
      simp only [s4, List.getElem?_set_self hlt, a4, if_true]
    · rw [if_neg hp, ← henv m hm]
      unfold envOf
      rw [hlk]
      split
      · rename_i hpl
        cases hlm : look s m with
        | none => rfl
        | some b =>
          have hjb : j ≠ b := by
            rintro rfl
            exact hp ((hC.param m K hgm).2 ⟨by omega, hi, hpl, by rw [hlm, a1]⟩)
          simp only [s4, List.getElem?_set_ne hjb]
      · rfl

theorem bind_snoc {param : Str → Option Nat} {pc : Int} : ∀ {xs : List Item} {i : Nat} {x : Item} {env env' : Str → Option Int},
    Spec.Bind param pc i (xs ++ [x]) env env' → ∃ env1, Spec.Bind param pc i xs env env1 ∧
      ∃ e v, x = .expr e ∧ Spec.itemValue env1 pc e = some v ∧ 0 ≤ v ∧ v ≤ 65535 ∧
        env' = fun n => if param n = some (i + xs.length) then some v else env1 n
  | [], i, .expr e, env, env', h => by
    obtain ⟨v, h1, h2, h3, h4⟩ := h
    exact ⟨env, rfl, e, v, rfl, h1, h2, h3, h4⟩
  | [], i, .str _, _, _, h => h.elim
  | .str _ :: xs, i, x, _, _, h => h.elim
  | .expr e :: xs, i, x, env, env', h => by
    obtain ⟨v, h1, h2, h3, h4⟩ := h
    obtain ⟨env1, g1, e', v', g2, g3, g4, g5, g6⟩ := bind_snoc h4
    refine ⟨env1, ⟨v, h1, h2, h3, g1⟩, e', v', g2, g3, g4, g5, ?_⟩
    rw [g6, List.length_cons, show i + 1 + xs.length = i + (xs.length + 1) by omega]

/-- The list of arguments, last one first. -/
theorem args_known {C : Spec.Context} {slot : Str → Option Nat} {env : Str → Option Int} :
    ∀ (xs : List Item) {f : Nat} {s : St} {p : Ptr} {env' : Str → Option Int}, Calls C slot s → s.expansionType = .macroParameter →
      s.endExpansion = false → s.macroParamIndex = 0 → xs.length ≤ C.arity → ListAt (look s) s.nodeBase s.nodes xs p →
      (∀ x ∈ xs, ∀ n ∈ x.names, globalName n = true) → (∀ x ∈ xs, x.depth + xs.length < f) → EnvEq true (envOf s) env →
      Spec.Bind C.param s.pc 1 xs.reverse env env' →
      ∃ s', expandNode f p s = (.ok 0, s') ∧ ArgsDone C s s' xs.length ∧ EnvEq true (envOf s') env'
  | [], _, _, _, _, _, _, _, _, _, hl, _, _, _, _ => hl.elim
  | [x], f, s, p, env', hC, het, he, h0, hn, hl, hg, hd, henv, hb => by
    obtain ⟨hbase, q, hnd, hq⟩ := hl
    obtain ⟨env1, rfl, e, v, rfl, hv, v0, v1, rfl⟩ := bind_snoc (xs := []) hb
    have hd := hd _ (List.mem_singleton_self _)
    obtain ⟨f, rfl⟩ : ∃ g, f = g + 1 := ⟨f - 1, by simp only [List.length_cons] at hd; omega⟩
    obtain ⟨s', r, run, ha, hen⟩ := arg_known (f := f) none hC (by rw [h0]; exact hn) het he hq
      (hg _ (List.mem_singleton_self _)) (by simp only [List.length_cons, Item.depth] at hd ⊢; omega) henv hv v0 v1
    rw [h0] at ha hen
    refine ⟨s', ?_, ha, hen⟩
    rw [expandNode_run (s := s) he ⟨hbase, hnd⟩]
    show expandExprList (expandNode f) (hasUninit f) ⟨.opr .exprList, 1, [q]⟩ s = _
    unfold expandExprList
    rw [bind_ok (operands_run (n := ⟨.opr .exprList, 1, [q]⟩) (Nat.le_refl _) _)]
    have q2 : eachM (exprListItem (expandNode f) (hasUninit f)) [q] none s = (.ok (some r), s') := by
      show (exprListItem (expandNode f) (hasUninit f) none q >>= _) _ = _
      rw [bind_ok run]
      rfl
    exact (bind_ok q2).trans rfl
  | x :: y :: ys, f, s, p, env', hC, het, he, h0, hn, hl, hg, hd, henv, hb => by
    obtain ⟨hbase, l, q, hnd, hr, hq⟩ := hl
    rw [List.reverse_cons] at hb
    obtain ⟨env1, hb1, e, v, rfl, hv, v0, v1, rfl⟩ := bind_snoc hb
    have hdx := hd _ (List.mem_cons_self ..)
    obtain ⟨f, rfl⟩ : ∃ g, f = g + 1 := ⟨f - 1, by simp only [List.length_cons] at hdx; omega⟩
    obtain ⟨s1, r1, a1, e1⟩ := args_known (y :: ys) (f := f) hC het he h0 (by simp only [List.length_cons] at hn ⊢; omega) hr
      (fun x hx => hg x (List.mem_cons_of_mem _ hx)) (fun x hx => by
        have := hd x (List.mem_cons_of_mem _ hx)
        simp only [List.length_cons] at this ⊢
        omega) henv hb1
    have hlk1 := a1.look
    have hC1 := a1.calls hC
    have hst : s1.macroParamIndex = (y :: ys).length ∧ s1.expansionType = s.expansionType ∧ s1.endExpansion = s.endExpansion ∧
        s1.pc = s.pc ∧ HeapSim true (look s) s.nodes s1.nodes ∧ s1.nodeBase = s.nodeBase := by
      obtain ⟨ns, ys, rfl, h1, _⟩ := a1
      exact ⟨rfl, rfl, rfl, rfl, h1, rfl⟩
    obtain ⟨b1, b2, b3, b4, b5, b6⟩ := hst
    have hq1 : TreeAt s1 e q := by
      show ExprAt (look s1) s1.nodeBase s1.nodes e q
      rw [hlk1, b6]
      exact ExprAt.sim b5 hq
    obtain ⟨s2, r, run, a2, e2⟩ := arg_known (f := f) none hC1 (by rw [b1]; exact hn) (b2.trans het) (b3.trans he) hq1
      (hg _ (List.mem_cons_self ..)) (by simp only [List.length_cons, Item.depth] at hdx ⊢; omega) e1 (by rw [b4]; exact hv) v0 v1
    rw [b1] at a2 e2
    refine ⟨s2, ?_, a1.trans a2, ?_⟩
    · rw [expandNode_run (s := s) he ⟨hbase, hnd⟩]
      show expandExprList (expandNode f) (hasUninit f) ⟨.opr .exprList, 2, [l, q]⟩ s = _
      unfold expandExprList
      rw [bind_ok (operands_run (n := ⟨.opr .exprList, 2, [l, q]⟩) (Nat.le_refl _) _)]
      have q1 : exprListItem (expandNode f) (hasUninit f) none l s = (.ok (some none), s1) := by
        have hll : ∃ n, Live s l n ∧ n.kind = .opr .exprList := by
          cases ys with
          | nil => exact ⟨_, ⟨hr.1, hr.2.choose_spec.1⟩, rfl⟩
          | cons z' zs => exact ⟨_, ⟨hr.1, hr.2.choose_spec.choose_spec.1⟩, rfl⟩
        obtain ⟨n, hln, hk⟩ := hll
        unfold exprListItem
        rw [bind_ok hln.run, if_pos hk, bind_ok r1]
        rfl
      have q2 : eachM (exprListItem (expandNode f) (hasUninit f)) [l, q] none s = (.ok (some r), s2) := by
        show (exprListItem (expandNode f) (hasUninit f) none l >>= _) _ = _
        rw [bind_ok q1]
        show (exprListItem (expandNode f) (hasUninit f) none q >>= _) _ = _
        rw [bind_ok run]
        rfl
      exact (bind_ok q2).trans rfl
    · rw [show 1 + (y :: ys).reverse.length = (y :: ys).length + 1 by rw [List.length_reverse]; omega]
      exact e2

/-! ## Restoring the parameters -/

theorem restore_syms : ∀ (vs : List Int) {k : Nat} {s : St},
    (∀ j v, vs[j]? = some v → 0 ≤ v ∧ v ≤ 65535 ∧ ∃ i x, symFind s.syms (paramName (k + j)) = some i ∧ s.syms[i]? = some x ∧
      x.isMacroParam = true) →
    ∃ ys, restoreParams k vs s = (.ok (), { s with syms := ys }) ∧ ys.map (·.fullname) = s.syms.map (·.fullname) ∧
      ∀ (i : Nat) (x : Sym), s.syms[i]? = some x → ∃ x', ys[i]? = some x' ∧
        ((∃ j v, vs[j]? = some v ∧ symFind s.syms (paramName (k + j)) = some i ∧ x' = { x with value := v }) ∨
          ((∀ j, j < vs.length → symFind s.syms (paramName (k + j)) ≠ some i) ∧ x' = x))
  | [], k, s, _ => ⟨s.syms, rfl, rfl, fun i x hx => ⟨x, hx, Or.inr ⟨fun j hj => absurd hj (Nat.not_lt_zero j), rfl⟩⟩⟩
  | v :: vs, k, s, h => by
    obtain ⟨v0, v1, i, x, h1, h2, h3⟩ := h 0 v rfl
    have hlt : i < s.syms.length := (List.getElem?_eq_some_iff.1 h2).1
    let s1 : St := { s with syms := s.syms.set i { x with value := v } }
    have r1 := setParam_run (s := s) h2 h3 v0 v1
    have hnm : s1.syms.map (·.fullname) = s.syms.map (·.fullname) := names_set (y := { x with value := v }) h2 rfl
    have hf : ∀ key, symFind s1.syms key = symFind s.syms key := fun key => symFind_names key 0 hnm
    obtain ⟨ys, r2, g1, g2⟩ := restore_syms vs (k := k + 1) (s := s1) (fun j w hw => by
      obtain ⟨w0, w1, i', x', a1, a2, a3⟩ := h (j + 1) w hw
      refine ⟨w0, w1, i', ?_⟩
      rw [hf, show k + 1 + j = k + (j + 1) by omega]
      rcases Nat.decEq i i' with hne | rfl
      · exact ⟨x', a1, by show (s.syms.set i _)[i']? = _; rw [List.getElem?_set_ne hne]; exact a2, a3⟩
      · exact ⟨_, a1, List.getElem?_set_self hlt, h3⟩)
    refine ⟨ys, ?_, g1.trans hnm, ?_⟩
    · show (getS >>= _) s = _
      rw [getS_bind]
      unfold lookUpMacroParam
      rw [show symFind s.syms (92 :: decStr k) = some i from h1]
      simp only
      rw [bind_ok r1]
      exact r2
    · intro i' x' hx'
      rcases Nat.decEq i i' with hne | rfl
      · obtain ⟨y, y1, y2⟩ := g2 i' x' (by show (s.syms.set i _)[i']? = _; rw [List.getElem?_set_ne hne]; exact hx')
        refine ⟨y, y1, ?_⟩
        rcases y2 with ⟨j, w, w1, w2, w3⟩ | ⟨w1, w2⟩
        · rw [hf, show k + 1 + j = k + (j + 1) by omega] at w2
          exact Or.inl ⟨j + 1, w, w1, w2, w3⟩
        · refine Or.inr ⟨fun j hj => ?_, w2⟩
          cases j with
          | zero =>
            intro e
            exact hne (Option.some.inj (h1.symm.trans e))
          | succ j =>
            have := w1 j (by simpa using hj)
            rw [hf, show k + 1 + j = k + (j + 1) by omega] at this
            exact this
      · rw [h2] at hx'
        cases hx'
        obtain ⟨y, y1, y2⟩ := g2 i { x with value := v } (List.getElem?_set_self hlt)
        refine ⟨y, y1, Or.inl ?_⟩
        rcases y2 with ⟨j, w, w1, w2, w3⟩ | ⟨w1, w2⟩
        · rw [hf] at w2
          have := param_ne w2 h1
          omega
        · exact ⟨0, v, rfl, h1, w2⟩

theorem look_symFind {s : St} (hc : s.currentScope = none) (k : Nat) : look s (paramName k) = symFind s.syms (paramName k) := by
  unfold look
  rw [paramKey, hc]
  rfl

theorem createMacroEntry_run (name : Str) (s : St) : ∃ found d, createMacroEntry name s = (.ok found, { s with macroDict := d }) := by
  unfold createMacroEntry
  rw [getS_bind]
  cases macroCount s.macroDict name with
  | some _ => exact ⟨true, _, rfl⟩
  | none => exact ⟨false, _, rfl⟩

theorem entryCount_run (name : Str) (found : Bool) (s : St) : ∃ n, entryCount name found s = (.ok n, s) := ⟨_, rfl⟩

theorem bumpMacro_run (name : Str) (found : Bool) (s : St) : ∃ d, bumpMacro name found s = (.ok (), { s with macroDict := d }) := by
  unfold bumpMacro
  cases found
  · exact ⟨s.macroDict, rfl⟩
  · exact ⟨_, rfl⟩

theorem global_head {name : Str} (h : globalName name = true) : (name.head? == some 64) = false := by
  cases name with
  | nil => rfl
  | cons c r =>
    by_cases hc : c = 64
    · subst hc
      exact absurd h (by simp [globalName, dropDot])
    · simpa using hc

theorem clabel_call {name : Str} (hn : CStr name) (w n : Nat) : Spec.CLabel (some (name ++ [58, 58] ++ hexStr w n)) := by
  intro l hl h0
  cases hl
  rcases List.mem_append.1 h0 with h | h
  · rcases List.mem_append.1 h with h | h
    · exact hn 0 h rfl
    · simp at h
  · exact (hex_range w n 0 h).2.2 rfl

/-- Expanding the name of a macro expands its text, under the label of the call. -/
theorem macroId_run {f : Nat} {s : St} {p b : Ptr} {name : Str} {c : Option SymPtr} {i : SymPtr} {x : Sym}
    (hl : Live s p ⟨.id .macroId name c, 0, []⟩) (hc : c = none ∨ c = look s name) (hg : globalName name = true)
    (hp : plainName name = true) (hn : CStr name) (hi : look s name = some i) (hx : s.syms[i]? = some x)
    (hb : x.macroNode = some b) (he : s.endExpansion = false) :
    ∃ d ns ll, WSim true (look s) s.nodes ns ∧ Spec.CLabel ll ∧
      ∀ v s2, expandNode f b { s with macroDict := d, nodes := ns, lastLabel := ll } = (.ok v, s2) →
        (∃ y, s2.syms[i]? = some y) → ∃ w, expandNode (f + 1) p s = (.ok w, { s2 with lastLabel := s.lastLabel }) := by
  obtain ⟨found, d, r1⟩ := createMacroEntry_run name s
  let s1 : St := { s with macroDict := d }
  obtain ⟨n, r2⟩ := entryCount_run name found s1
  let ll : Option Str := some (name ++ [58, 58] ++ hexStr 8 n)
  let s2 : St := { s1 with lastLabel := ll }
  have hlk : look s2 name = look s name := look_label (s := s1) ll s.nodes hg
  obtain ⟨ns, r3, sim, hnd⟩ := resolveKind_run (s := s2) false hl (by rw [hlk]; exact hc) hp (by rw [hlk]; exact hi)
  let s3 : St := { s2 with nodes := ns }
  have hsim : WSim true (look s) s.nodes ns := (sim.weak true).congr fun m hm => look_label (s := s1) ll s.nodes (hm rfl)
  refine ⟨d, ns, ll, hsim, clabel_call hn 8 n, fun v t hv ⟨y, hy⟩ => ?_⟩
  refine ⟨y.value, ?_⟩
  rw [expandNode_run he hl]
  show expandMacroId (expandNode f) p name s = _
  unfold expandMacroId
  rw [bind_ok r1, getS_bind, bind_ok r2, modS_bind]
  have hid : expandId p name s2 = (.ok (if x.isInit then x.value else 0), s3) := by
    unfold expandId
    have hpm : isPmName name = false := by
      unfold plainName at hp
      simp only [Bool.and_eq_true, Bool.not_eq_true'] at hp
      exact hp.1.1.1
    rw [if_neg (by rw [hpm]; simp), global_head hg, bind_ok r3]
    show symValue i s3 = _
    unfold symValue
    have : sym i s3 = (.ok x, s3) := by
      unfold sym
      rw [show s3.syms[i]? = some x from hx]
    rw [bind_ok this]
    rfl
  rw [bind_ok hid]
  have hl3 : Live s3 p ⟨.id .macroId name (some i), 0, []⟩ := ⟨hl.1, hnd⟩
  rw [bind_ok hl3.run]
  simp only
  have hs3 : sym i s3 = (.ok x, s3) := by
    unfold sym
    rw [show s3.syms[i]? = some x from hx]
  have ht : ∀ ll, sym i { t with lastLabel := ll } = (.ok y, { t with lastLabel := ll }) := fun ll => by
    unfold sym
    rw [show ({ t with lastLabel := ll } : St).syms[i]? = some y from hy]
  rw [bind_ok hs3]
  simp only [hb]
  rw [bind_ok hv, modS_bind, bind_ok (ht _)]
  rfl

/-- A macro call. -/
theorem call_run {C : Spec.Context} {slot : Str → Option Nat} {f : Nat} {s : St} {p : Ptr} {first : Bool} {name : Str}
    {args : Option (Item × List Item)} {body : Stmt} {env : Str → Option Int} {k k1 : Spec.Cfg} {bs : List Nat}
    (hfit : Fits true C slot s) (href : Ref true s k) (hat : StmtAt true s (.word first name args) p)
    (hm : C.macros name = some body) (hn : (Spec.argList args).length ≤ C.arity)
    (ha : Spec.Bind C.param k.pc 1 (Spec.argList args) k.env env)
    (hd : ∀ x ∈ Spec.argList args, x.depth + (Spec.argList args).length < f + 1)
    (hb : ∀ s p, Fits true C slot s → Ref true s ⟨fun n => if Spec.global n then env n else none, k.pc, k.fresh⟩ → StmtAt true s body p →
      ∃ v s', expandNode f p s = (.ok v, s') ∧ Eff true s s' bs ∧ Ref true s' k1) :
    ∃ v s', expandNode (f + 2) p s = (.ok v, s') ∧ Eff true s s' bs ∧
      Ref true s' ⟨fun n => if (slot n).isSome then k1.env n else k.env n, k1.pc, k1.fresh⟩ := by
  have hC : Calls C slot s := by
    rcases hfit.macros with h | h
    · rw [h] at hm; cases hm
    · exact h.2
  obtain ⟨m1, m2, m3, i, x, b, m4, m5, m6, m7⟩ := hC.bodies name body hm
  obtain ⟨mp, c, q, hl, hmp, hc, hg, hargs⟩ := hat
  obtain ⟨found, d, r1⟩ := createMacroEntry_run name s
  -- saving the parameters
  obtain ⟨vs, hvs⟩ := paramValues_some (l := s.syms) (n := s.maxMacroParam) (k := 1) fun j h1 h2 => by
    obtain ⟨j', x', a1, a2, _⟩ := hC.params j h1 (by rw [hC.arity] at h2; omega)
    rw [look_symFind hC.scope] at a1
    rw [a1, Option.bind_some, a2]
    rfl
  obtain ⟨hvl, hvg⟩ := paramValues_get hvs
  rw [hC.arity] at hvl hvg
  let s1 : St := { s with macroDict := d, paramStack := vs :: s.paramStack, expansionType := .macroParameter, macroParamIndex := 0 }
  have r2 : pushMacroParams { s with macroDict := d } = (.ok (), { s with macroDict := d, paramStack := vs :: s.paramStack }) := by
    unfold pushMacroParams
    rw [getS_bind]
    simp only [hvs]
    rfl
  have hk1 : Keeps true s s1 := (ParSet.refl (IsPar C s) s.syms).keeps (s' := s1) rfl rfl rfl rfl (WSim.refl _ _ _)
  have hC1 : Calls C slot s1 := hC.move (s' := s1) (ParSet.refl _ _) hk1 rfl hC.label rfl
  -- binding the arguments
  obtain ⟨s2, r3, a3, e3⟩ : ∃ s2, (match q with
      | some q => do
        let _ ← expandNode (f + 1) q
        M.pure ()
      | none => M.pure ()) s1 = (.ok (), s2) ∧ ArgsDone C s1 s2 (Spec.argList args).length ∧ EnvEq true (envOf s2) env := by
    cases args with
    | none =>
      rw [show q = none from hargs]
      refine ⟨s1, rfl, ⟨s1.nodes, s1.syms, rfl, HeapSim.refl _ _ _, ParSet.refl _ _⟩, ?_⟩
      rw [show env = k.env from ha]
      exact href.env
    | some z =>
      obtain ⟨hd', tl⟩ := z
      obtain ⟨r, rfl, h1, h2⟩ := hargs
      obtain ⟨s2, r3, a3, e3⟩ := args_known ((hd' :: tl).reverse) (f := f + 1) (s := s1) (p := r) (env := k.env) (env' := env) hC1
        rfl href.flat.running rfl (by rw [List.length_reverse]; exact hn) h1
        (fun x hx => h2 rfl x (List.mem_reverse.1 hx)) (fun x hx => by
          rw [List.length_reverse]
          exact hd x (List.mem_reverse.1 hx)) href.env (by
          rw [List.reverse_reverse, show s1.pc = k.pc from href.pc]
          exact ha)
      rw [List.length_reverse] at a3
      refine ⟨s2, ?_, a3, e3⟩
      show (expandNode (f + 1) r >>= _) s1 = _
      rw [bind_ok r3]
      rfl
  have hC2 := a3.calls hC1
  obtain ⟨ns2, ys2, rfl, sim2, par2⟩ := a3
  let s2 : St := { s1 with nodes := ns2, syms := ys2, macroParamIndex := (Spec.argList args).length }
  obtain ⟨cnt, r4⟩ := entryCount_run name found s2
  let l4 : Option Str := some (name ++ [58, 58] ++ hexStr 4 cnt)
  let s3 : St := { s2 with lastLabel := l4 }
  have sim2' : WSim true (look s) s.nodes ns2 := sim2.weak true
  have hk3 : Keeps true s s3 := par2.keeps (s := s) (s' := s3) rfl rfl rfl rfl sim2'
  have hlk3 : ∀ m, globalName m = true → look s3 m = look s m := fun m hm => hk3.look m fun _ => hm
  -- the text
  obtain ⟨c', hmp3, hc3⟩ := hk3.id hmp hg
  obtain ⟨x3, hx3, hxv⟩ := par2.2 i x m5
  have hx3m : x3.macroNode = some b := by
    rcases hxv with rfl | ⟨_, _, _, _, rfl⟩ <;> exact m6
  obtain ⟨d', ns4, l8, sim4, hl8, r5⟩ := macroId_run (f := f) (s := s3) (b := b) (i := i) (x := x3) hmp3 (by
      rw [hlk3 name m2]
      rcases hc3 with rfl | ⟨h, _⟩
      · exact hc
      · exact Or.inr h) m2 m1 m3 (by rw [hlk3 name m2]; exact m4) hx3 hx3m href.flat.running
  let s4 : St := { s3 with macroDict := d', nodes := ns4, lastLabel := l8 }
  have sim4' : WSim true (look s) s.nodes ns4 := sim2'.trans (sim4.congr fun m hm => hlk3 m (hm rfl))
  have hk4 : Keeps true s s4 := par2.keeps (s := s) (s' := s4) rfl rfl rfl rfl sim4'
  have hC4 : Calls C slot s4 := hC.move (s' := s4) par2 hk4 rfl hl8 rfl
  have hfit4 : Fits true C slot s4 := ⟨hfit.cpu, hfit.raw, hfit.files, hfit.text, hC4.slots l8 hl8, Or.inr ⟨rfl, hC4⟩⟩
  have href4 : Ref true s4 ⟨fun n => if Spec.global n then env n else none, k.pc, k.fresh⟩ := by
    refine ⟨fun m hm => ?_, href.pc, ⟨href.flat.running, Nat.le_trans href.flat.heap sim4'.1, href.flat.origin, href.flat.count,
      href.flat.image, href.flat.started⟩⟩
    have hgm := hm rfl
    show _ = if Spec.global m then env m else none
    rw [if_pos (by rw [global_eq]; exact hgm), ← e3 m hm]
    exact envOf_label (s := { s4 with lastLabel := s2.lastLabel, nodes := ns2 }) l8 ns4 hgm
  obtain ⟨v, s5, r6, e6, hr6⟩ := hb s4 b hfit4 href4 (m7.keep hk4)
  have hs6 := e6.syms
  have hlk6 := e6.look
  obtain ⟨ys, ns, cg, ds, bd, et, md, mi, hd', ls, g1, g2, g3, hs5⟩ := e6
  obtain ⟨y5, hy5, _⟩ := hs6.get (i := i) hx3
  obtain ⟨w, r7⟩ := r5 v s5 r6 ⟨y5, hy5⟩
  let s6 : St := { s5 with lastLabel := s3.lastLabel }
  obtain ⟨d6, r8⟩ := bumpMacro_run name found s6
  let s7 : St := { s6 with macroDict := d6, lastLabel := s.lastLabel, paramStack := s.paramStack }
  -- the parameters get their values back
  have hsc5 : s5.currentScope = none := by rw [hs5]; exact hC.scope
  have hnm : s5.syms.map (·.fullname) = s.syms.map (·.fullname) := hs6.names.trans par2.names
  have hfind : ∀ key, symFind s5.syms key = symFind s.syms key := fun key => symFind_names key 0 hnm
  have hback : ∀ j, 1 ≤ j → j ≤ C.arity → ∀ (m : Nat) (z : Sym), symFind s.syms (paramName j) = some m → s.syms[m]? = some z →
      z.isMacroParam = true ∧ 0 ≤ z.value ∧ z.value ≤ 65535 ∧ z.isVar = false := by
    intro j h1 h2 m z hm hz
    obtain ⟨j', x', a1, a2, a3, a4, a5, a6, a7⟩ := hC.params j h1 h2
    rw [look_symFind hC.scope, hm] at a1
    cases a1
    rw [hz] at a2
    cases a2
    exact ⟨a3, a6, a7, a5⟩
  have hval : ∀ j v, vs[j]? = some v → ∃ m z, symFind s.syms (paramName (1 + j)) = some m ∧ s.syms[m]? = some z ∧ z.value = v ∧ j < C.arity := by
    intro j v hv
    have hj : j < C.arity := by rw [← hvl]; exact (List.getElem?_eq_some_iff.1 hv).1
    have := hvg j hj
    rw [hv] at this
    cases hf : symFind s.syms (paramName (1 + j)) with
    | none => rw [hf] at this; cases this
    | some m =>
      rw [hf, Option.bind_some] at this
      cases hz : s.syms[m]? with
      | none => rw [hz] at this; cases this
      | some z =>
        rw [hz] at this
        exact ⟨m, z, rfl, hz, Option.some.inj this, hj⟩
  have hmid : ∀ (m : Nat) (z : Sym), s.syms[m]? = some z → ∃ z5, s5.syms[m]? = some z5 ∧
      (z5.blank = z.blank ∨ (IsPar C s m ∧ ∃ v, z5 = { z with value := v })) := by
    intro m z hz
    obtain ⟨z2, h1, h2⟩ := par2.2 m z hz
    obtain ⟨z5, h3, h4⟩ := hs6.get h1
    refine ⟨z5, h3, ?_⟩
    rcases h2 with rfl | ⟨p, v, _, _, rfl⟩
    · exact Or.inl h4
    · obtain ⟨j, j1, j2, j3⟩ := p
      obtain ⟨_, _, _, hv⟩ := hback j j1 j2 m z (by rw [← look_symFind hC.scope]; exact j3) hz
      refine Or.inr ⟨⟨j, j1, j2, j3⟩, v, ?_⟩
      have hv5 : z5.isVar = false := by
        rw [← blank_var z5, h4, blank_var]
        exact hv
      unfold Sym.blank at h4
      rw [if_neg (by rw [hv5]; simp), if_neg (by rw [hv]; simp)] at h4
      exact h4
  obtain ⟨ys7, r9, _, hys7⟩ := restore_syms vs (k := 1) (s := s7) (fun j v hv => by
    obtain ⟨m, z, h1, h2, h3, h4⟩ := hval j v hv
    obtain ⟨a1, a2, a3, _⟩ := hback (1 + j) (by omega) (by omega) m z h1 h2
    refine ⟨by rw [← h3]; exact a2, by rw [← h3]; exact a3, m, ?_⟩
    obtain ⟨z5, b1, b2⟩ := hmid m z h2
    refine ⟨z5, by show symFind s5.syms _ = _; rw [hfind]; exact h1, b1, ?_⟩
    rcases b2 with b2 | ⟨_, v, rfl⟩
    · have := congrArg Sym.isMacroParam b2
      have hbl : ∀ z : Sym, z.blank.isMacroParam = z.isMacroParam := fun z => by unfold Sym.blank; split <;> rfl
      rw [hbl, hbl] at this
      rw [this]
      exact a1
    · exact a1)
  have hsame : SameVars s.syms ys7 := by
    have hlen : s5.syms.length = s.syms.length := by
      have := congrArg List.length hnm
      simpa using this
    unfold SameVars
    apply List.ext_getElem?
    intro m
    rw [List.getElem?_map, List.getElem?_map]
    cases hz : s.syms[m]? with
    | none =>
      have : ys7[m]? = none := by
        have hl7 : ys7.length = s5.syms.length := by
          have := congrArg List.length ‹ys7.map (·.fullname) = s7.syms.map (·.fullname)›
          simpa using this
        rw [List.getElem?_eq_none]
        rw [hl7, hlen]
        exact List.getElem?_eq_none_iff.1 hz
      rw [this]
    | some z =>
      obtain ⟨z5, b1, b2⟩ := hmid m z hz
      obtain ⟨z7, c1, c2⟩ := hys7 m z5 b1
      rw [c1]
      show some z7.blank = some z.blank
      rcases c2 with ⟨j, v, j1, j2, rfl⟩ | ⟨j1, rfl⟩
      · obtain ⟨m', z', h1, h2, h3, h4⟩ := hval j v j1
        rw [show s7.syms = s5.syms from rfl, hfind, h1] at j2
        cases j2
        rw [hz] at h2
        cases h2
        obtain ⟨_, _, _, hv⟩ := hback (1 + j) (by omega) (by omega) m z h1 hz
        rcases b2 with b2 | ⟨_, v', rfl⟩
        · have hv5 : z5.isVar = false := by
            rw [← blank_var z5, b2, blank_var]
            exact hv
          unfold Sym.blank at b2
          rw [if_neg (by rw [hv5]; simp), if_neg (by rw [hv]; simp)] at b2
          subst b2
          rw [← h3]
        · rw [← h3]
      · rcases b2 with b2 | ⟨⟨j, p1, p2, p3⟩, _⟩
        · rw [b2]
        · exfalso
          refine j1 (j - 1) (by rw [hvl]; omega) ?_
          show symFind s5.syms _ = _
          rw [hfind, show 1 + (j - 1) = j by omega, ← look_symFind hC.scope]
          exact p3
  let s8 : St := { s7 with syms := ys7 }
  have hlk8 : look s8 = look s := look_syms (s := s) (s' := s8) rfl (by show s5.currentScope = _; rw [hs5]) hsame
  have he8 : Eff true s s8 bs := by
    refine ⟨ys7, ns, cg, ds, bd, et, d6, mi, hd', ls, hsame, sim4'.trans (g2.congr fun m hm => hk4.look m hm), g3, ?_⟩
    show ({ ({ s5 with lastLabel := s3.lastLabel } : St) with
      macroDict := d6, lastLabel := s.lastLabel, paramStack := s.paramStack, syms := ys7 } : St) = _
    rw [hs5]
    rfl
  refine ⟨0, s8, ?_, he8, ?_⟩
  · rw [expandNode_run href.flat.running hl]
    show expandMacroEx (expandNode (f + 1)) name mp q s = _
    unfold expandMacroEx
    rw [bind_ok r1, bind_ok r2, modS_bind]
    refine (bind_ok r3).trans ?_
    rw [getS_bind, bind_ok r4, modS_bind]
    refine (bind_ok r7).trans ?_
    rw [bind_ok r8, modS_bind]
    have hpop : popMacroParams { s6 with macroDict := d6, lastLabel := s.lastLabel } = (.ok (), s8) := by
      unfold popMacroParams
      rw [getS_bind, show ({ s6 with macroDict := d6, lastLabel := s.lastLabel } : St).paramStack = vs :: s.paramStack by
        show s5.paramStack = _
        rw [hs5]]
      simp only
      rw [modS_bind]
      exact r9
    exact (bind_ok hpop).trans rfl
  · refine ⟨fun m hm => ?_, hr6.pc, ?_⟩
    · have hgm := hm rfl
      show envOf s8 m = if (slot m).isSome then k1.env m else k.env m
      cases hsl : slot m with
      | none =>
        rw [if_neg (by simp)]
        rw [envOf_const hlk8 hsame hC.scope (by rw [hfit.slots]; exact hsl)]
        exact href.env m hm
      | some c =>
        rw [if_pos (show (some c).isSome = true from rfl), ← hr6.env m hm]
        have hsl' : slotOf s m = some c := by rw [hfit.slots]; exact hsl
        obtain ⟨p1, p2, xc, p3, p4, p5, _⟩ := slotOf_some hsl'
        have l8 : look s8 m = some c := by rw [hlk8]; exact p2
        have l5 : look s5 m = some c := by
          rw [hlk6, hk4.look m hm]
          exact p2
        obtain ⟨z5, b1, b2⟩ := hmid c xc p3
        obtain ⟨z7, c1, c2⟩ := hys7 c z5 b1
        have hz : z7 = z5 := by
          rcases c2 with ⟨j, v, j1, j2, rfl⟩ | ⟨_, h⟩
          · exfalso
            obtain ⟨m', z', h1, h2, _, h4⟩ := hval j v j1
            rw [show s7.syms = s5.syms from rfl, hfind] at j2
            obtain ⟨_, _, _, hv⟩ := hback (1 + j) (by omega) (by omega) c xc j2 p3
            rw [p4] at hv
            cases hv
          · exact h
        unfold envOf
        rw [l8, l5]
        simp only [show s8.syms = ys7 from rfl, c1, b1, hz]
    · have hf := hr6.flat
      exact ⟨hf.running, hf.heap, hf.origin, hf.count, hf.image, hf.started⟩

end Verif
