import Verif.Lemmas.VarList

/-! # Properties: initialisers of `.var` -/

namespace Verif

/-- **C45**, as far as it holds.  Let `e` be an initialiser that is not just a symbol and has a value in which `x` does not
occur.  Then `.var x = e` makes `x` a variable whose value is that of `e`, whether `x` existed before or not; all other
symbols, the location counter, the output and the error messages stay as they were.  Missing: the initialisers of
`C45_symbol_false` and `C45_self_false`, for which the property does not hold, and names with a dot. -/
theorem C45_init_partial {s : St} {name : Str} {e : Expr} {v : Int} {f : Nat} (file : Str) (line : Int)
    (he : s.endExpansion = false) (hb : s.nodeBase ≤ s.nodes.length) (hs : CNames s)
    (hp : plainName name = true) (hn : CStr name) (hd : 46 ∉ name)
    (hsym : ∀ n, e ≠ .sym n) (hv : Spec.itemValue (envOf s) s.pc e = some v)
    (hx : ∀ n ∈ e.names, CStr n ∧ ∃ j, look s n = some j ∧ look s name ≠ some j) (hf : e.depth + 2 < f) :
    ∃ s' i y, runTop (expandNode f) (hasUninit f) (.stmt file line (.var (name, some e) [])) s = (.ok true, s') ∧
      look s' name = some i ∧ s'.syms[i]? = some y ∧ y.isVar = true ∧ y.isInit = true ∧ y.value = v ∧
      (∀ j, j ≠ i → s'.syms[j]? = s.syms[j]?) ∧ s'.pc = s.pc ∧ s'.out = s.out ∧ s'.log = s.log ∧
      s'.errorCount = s.errorCount ∧ s'.symValueChanged = s.symValueChanged := by
  obtain ⟨f, rfl⟩ : ∃ g, f = g + 2 := ⟨f - 2, by omega⟩
  let s0 : St := { s with file := file, line := line }
  obtain ⟨l, q, rb, hq⟩ := buildExpr_run (lk := look s) e s0 hb
  let p := (s.nodes ++ l).length
  let H : List Node := s.nodes ++ l ++ [⟨.id .id name none, 0, []⟩, ⟨.opr .exprList, 2, [p, q]⟩, ⟨.opr .var, 1, [p + 1]⟩]
  let s1 : St := { s0 with nodes := H }
  have hH : HeapSim true (look s) (s.nodes ++ l) H := HeapSim.append true _ _ _
  have hbp : s.nodeBase ≤ p := by show _ ≤ (s.nodes ++ l).length; rw [List.length_append]; omega
  have build : buildStmt (expandNode (f + 2)) (hasUninit (f + 2)) false (.var (name, some e) []) s0 = (.ok (some (p + 2)), s1) := by
    apply built_run (m := do
      let p ← buildVars (name, some e) []
      operatorNode .var [p])
    have : buildVars (name, some e) [] s0 = (.ok (p + 1), { s0 with nodes := s.nodes ++ l ++ [⟨.id .id name none, 0, []⟩] ++ [⟨.opr .exprList, 2, [p, q]⟩] }) := by
      unfold buildVars
      refine (bind_ok ((bind_ok rb).trans rfl)).trans ?_
      show (Res.ok (s.nodes ++ l ++ [(⟨.id .id name none, 0, []⟩ : Node)]).length, _) = _
      congr 1
      rw [List.length_append]
      rfl
    rw [bind_ok this]
    let a : Node := ⟨.id .id name none, 0, []⟩
    let b : Node := ⟨.opr .exprList, 2, [p, q]⟩
    let c : Node := ⟨.opr .var, 1, [p + 1]⟩
    show (Res.ok (s.nodes ++ l ++ [a] ++ [b]).length, { s0 with nodes := s.nodes ++ l ++ [a] ++ [b] ++ [c] }) = _
    rw [List.append_assoc (s.nodes ++ l ++ [_]), List.append_assoc (s.nodes ++ l), List.append_assoc (s.nodes ++ l),
      List.length_append]
    rfl
  have get : ∀ k, H[p + k]? = ([⟨.id .id name none, 0, []⟩, ⟨.opr .exprList, 2, [p, q]⟩, ⟨.opr .var, 1, [p + 1]⟩] : List Node)[k]? := by
    intro k
    rw [List.getElem?_append_right (by show p ≤ p + k; omega)]
    congr 1
    show p + k - p = k
    omega
  have hLi : Live { s1 with expansionType := .symbol } p ⟨.id .id name none, 0, []⟩ := ⟨hbp, get 0⟩
  have hLl : Live { s1 with expansionType := .symbol } (p + 1) ⟨.opr .exprList, 2, [p, q]⟩ := ⟨Nat.le_succ_of_le hbp, get 1⟩
  have hLv : Live s1 (p + 2) ⟨.opr .var, 1, [p + 1]⟩ := ⟨Nat.le_succ_of_le (Nat.le_succ_of_le hbp), get 2⟩
  obtain ⟨i, ys, y, r1, hy, hvar, hinit, hoth, hlk, hold, hne⟩ := varName_declare (s := { s1 with expansionType := .symbol }) hLi hp
    ⟨hs.syms, hs.label, hs.scope⟩ hn hd
  let s2 : St := { s1 with expansionType := .symbol, syms := ys, nodes := H.set p ⟨.id .id name (some i), 0, []⟩ }
  have lk2 : ∀ n ∈ e.names, look s n = look s2 n := by
    intro n hn
    obtain ⟨hc, j, hj, _⟩ := hx n hn
    rw [hj]
    exact (hold n j hc hj).symm
  have henv : ∀ n ∈ e.names, envOf s n = envOf s2 n := by
    intro n hn
    obtain ⟨hc, j, hj, hj'⟩ := hx n hn
    unfold envOf
    rw [← lk2 n hn, hj]
    have hji : j ≠ i := by
      rintro rfl
      rcases hne with h | h
      · exact hj' h
      · have := look_lt hj
        rw [h] at this
        exact Nat.lt_irrefl _ this
    show (if plainName n = true then (match s.syms[j]? with | _ => _) else none) = (if plainName n = true then (match ys[j]? with | _ => _) else none)
    rw [hoth j hji]
  have hsim2 : HeapSim true (look s2) H s2.nodes := HeapSim.set (get 0)
    ⟨rfl, rfl, Or.inr (Or.inr (Or.inl ⟨_, _, _, rfl, by rw [show look s2 name = some i from hlk], by rw [show look s2 name = some i from hlk]; rfl⟩))⟩
  have hq2 : TreeAt s2 e q := ExprAt.sim hsim2 ((ExprAt.sim hH hq).congr lk2)
  obtain ⟨ns, r2⟩ := varInit_run (f := f) (s := s2) rfl hq2 (by omega) he hsym
    (by rw [← itemValue_congr henv]; exact hv) hy hvar
  have hnm := look_names (s := s2) (names_set (y := { y with value := v }) (show s2.syms[i]? = some y from hy) rfl)
  have hlt : i < ys.length := by
    rcases Nat.lt_or_ge i ys.length with h | h
    · exact h
    · rw [List.getElem?_eq_none h] at hy; cases hy
  refine ⟨{ s2 with nodes := ns, syms := ys.set i { y with value := v } }, i, { y with value := v }, ?_, ?_,
    List.getElem?_set_self hlt, hvar, hinit, rfl, ?_, rfl, rfl, rfl, rfl, rfl⟩
  · refine runTop_stmt (by intros; simp) build (v := 0) ?_
    rw [expandNode_run (s := s1) he hLv]
    show expandVariable (expandNode (f + 1)) ⟨.opr .var, 1, [p + 1]⟩ s1 = _
    unfold expandVariable
    rw [bind_ok (opAt_run (show [p + 1][0]? = some (p + 1) from rfl) s1), modS_bind,
      expandNode_run (s := { s1 with expansionType := .symbol }) he hLl]
    show expandExprList (expandNode f) (hasUninit f) ⟨.opr .exprList, 2, [p, q]⟩ _ = _
    unfold expandExprList
    rw [bind_ok (operands_run (n := ⟨.opr .exprList, 2, [p, q]⟩) (Nat.le_refl _) _)]
    have q1 : exprListItem (expandNode f) (hasUninit f) none p { s1 with expansionType := .symbol } = (.ok (some (some i)), s2) := by
      unfold exprListItem
      rw [bind_ok hLi.run, if_neg (by intro h; cases h)]
      rw [bind_ok (operands_run (n := ⟨.id .id name none, 0, []⟩) (Nat.zero_le _) _)]
      show ((forEachM _ []) >>= _) _ = _
      rw [show forEachM (fun o => do let _ ← expandNode f o; M.pure ()) ([] : List Ptr) = M.pure () from rfl, pure_bind']
      rw [bind_ok hLi.run, getS_bind]
      exact r1
    have q2 : eachM (exprListItem (expandNode f) (hasUninit f)) [p, q] none { s1 with expansionType := .symbol } =
        (.ok (some none), { s2 with nodes := ns, syms := ys.set i { y with value := v } }) := by
      show (exprListItem (expandNode f) (hasUninit f) none p >>= _) _ = _
      rw [bind_ok q1]
      show (exprListItem (expandNode f) (hasUninit f) (some i) q >>= _) _ = _
      rw [bind_ok r2]
      rfl
    exact (bind_ok q2).trans rfl
  · exact (congrFun hnm name).trans hlk
  · intro j hj
    rw [← hoth j hj]
    exact List.getElem?_set_ne (Ne.symm hj)

/-- `.var x = y*2 + 1` with `y = 5`: `x` is new and becomes 11. -/
example : let s : St := { syms := [{ value := 5, isInit := true, name := [121], fullname := [121] }] }
    ∃ s' i z, runTop (expandNode 9) (hasUninit 9)
        (.stmt [97] 1 (.var ([120], some (.bin .add (.bin .mul (.sym [121]) (.int 2)) (.int 1))) [])) s = (.ok true, s') ∧
      look s' [120] = some i ∧ s'.syms[i]? = some z ∧ z.isVar = true ∧ z.isInit = true ∧ z.value = 11 ∧
      (∀ j, j ≠ i → s'.syms[j]? = s.syms[j]?) := by
  obtain ⟨s', i, y, h1, h2, h3, h4, h5, h6, h7, _⟩ := C45_init_partial
    (s := { syms := [{ value := 5, isInit := true, name := [121], fullname := [121] }] }) (name := [120])
    (e := .bin .add (.bin .mul (.sym [121]) (.int 2)) (.int 1)) (v := 11) (f := 9) [97] 1 rfl (by decide)
    ⟨by simp [CStr], fun l hl => (by cases hl), fun sc h => (by cases h)⟩ (by decide +kernel) (by simp [CStr]) (by decide)
    (by intro n h; cases h) (by decide +kernel)
    (by
      intro n hn
      simp only [Expr.names, List.append_nil, List.mem_singleton] at hn
      subst hn
      exact ⟨by simp [CStr], 0, by decide +kernel, by decide +kernel⟩) (by decide)
  exact ⟨s', i, y, h1, h2, h3, h4, h5, h6, h7⟩

/-- The same for a name that was a defined symbol before. -/
example : ∃ s : St, ∃ i, look s [120] = some i ∧ (s.syms[i]?.map (·.isVar)) = some false ∧
    ∃ s' i z, runTop (expandNode 9) (hasUninit 9)
        (.stmt [97] 1 (.var ([120], some (.un .neg (.int 3))) [])) s = (.ok true, s') ∧
      look s' [120] = some i ∧ s'.syms[i]? = some z ∧ z.isVar = true ∧ z.value = -3 := by
  refine ⟨{ syms := [{ value := 5, isInit := true, name := [120], fullname := [120] }] }, 0, by decide +kernel, rfl, ?_⟩
  obtain ⟨s', i, y, h1, h2, h3, h4, h5, h6, h7, _⟩ := C45_init_partial
    (s := { syms := [{ value := 5, isInit := true, name := [120], fullname := [120] }] }) (name := [120])
    (e := .un .neg (.int 3)) (v := -3) (f := 9) [97] 1 rfl (by decide)
    ⟨by simp [CStr], fun l hl => (by cases hl), fun sc h => (by cases h)⟩ (by decide +kernel) (by simp [CStr]) (by decide)
    (by intro n h; cases h) (by decide +kernel) (by intro n hn; cases hn) (by decide)
  exact ⟨s', i, y, h1, h2, h3, h4, h6⟩

/-- Each declaration, at its turn, has a name that is new or a variable already, and an initialiser, if any, that is not just a
symbol, has a value and does not use the name. -/
def Declarable (f : Nat) (file : Str) (line : Int) : List (Str × Option Expr) → St → Prop
  | [], _ => True
  | d :: ds, s => (∃ v, DeclOk s d v) ∧ ∀ s', runTop (expandNode f) (hasUninit f) (.stmt file line (.var d [])) s = (.ok true, s') →
      Declarable f file line ds s'

/-- One declaration: the named symbol becomes a variable with the value of the initialiser, or 0. -/
theorem C45_declaration_partial {s : St} {d : Str × Option Expr} {v : Int} {f : Nat} (file : Str) (line : Int)
    (he : s.endExpansion = false) (hb : s.nodeBase ≤ s.nodes.length) (hs : CNames s) (h : DeclOk s d v) (hf : varFuel d + 2 < f) :
    ∃ s' i y, runTop (expandNode f) (hasUninit f) (.stmt file line (.var d [])) s = (.ok true, s') ∧
      look s' d.1 = some i ∧ s'.syms[i]? = some y ∧ y.isVar = true ∧ y.isInit = true ∧ y.value = v ∧
      (∀ j, j ≠ i → s'.syms[j]? = s.syms[j]?) ∧ s'.pc = s.pc ∧ s'.out = s.out ∧ s'.log = s.log ∧
      s'.errorCount = s.errorCount ∧ s'.symValueChanged = s.symValueChanged := by
  obtain ⟨f, rfl⟩ : ∃ g, f = g + 1 := ⟨f - 1, by omega⟩
  obtain ⟨ns, ln, r, hl⟩ := varStmt_run (tl := []) file line he hb hs (by
    intro x hx
    rw [List.mem_singleton.1 hx]
    show varFuel d + 1 < f
    omega) (.cons h .nil)
  obtain ⟨y, hy, h1, h2, h3, _⟩ := varSyms_self (s := s) (name := d.1) v
  exact ⟨_, varIndex s d.1, y, r, varSyms_look v, hy, h1, h2, h3, fun j hj => varSyms_other v hj, rfl, rfl, rfl, rfl, rfl⟩

/-- The separate statements. -/
theorem declarable_chain {f : Nat} {file : Str} {line : Int} : ∀ (ds : List (Str × Option Expr)) (s : St), s.endExpansion = false → s.nodeBase ≤ s.nodes.length → CNames s →
    (∀ d ∈ ds, varFuel d + 2 < f) → Declarable f file line ds s → ∃ s2,
    runFile (expandNode f) (hasUninit f) (ds.map fun d => .stmt file line (.var d [])) s = (.ok (), s2) ∧ Chain s ds s2.syms := by
  intro ds
  induction ds with
  | nil => intro s _ _ _ _ _; exact ⟨s, rfl, .nil⟩
  | cons d ds ih =>
    intro s he hb hs hf h
    obtain ⟨⟨v, ok⟩, hrest⟩ := h
    have hfd := hf d (by simp)
    obtain ⟨f, rfl⟩ : ∃ g, f = g + 1 := ⟨f - 1, by omega⟩
    obtain ⟨ns, ln, r, hl⟩ := varStmt_run (tl := []) file line he hb hs (by
      intro x hx
      rw [List.mem_singleton.1 hx]
      show varFuel d + 1 < f
      omega) (.cons ok .nil)
    have hs' := varSyms_cnames v hs ok.cstr ok.nodot
    let t : St := { s with nodes := ns, file := file, line := ln, expansionType := .symbol, syms := varSyms s d.1 v }
    obtain ⟨s2, r2, c2⟩ := ih t (by exact he) (by exact Nat.le_trans hb hl) ⟨hs'.syms, hs'.label, hs'.scope⟩
      (fun x hx => hf x (List.mem_cons_of_mem _ hx)) (hrest _ r)
    refine ⟨s2, ?_, .cons ok ?_⟩
    · rw [List.map_cons, runFile_cons r]
      exact r2
    · exact c2.change s.nodes s.file s.line s.expansionType

/-- **C45** for lists: `.var d₁, …, dₙ` does to the symbols what the statements `.var d₁` to `.var dₙ` do in turn; a later
initialiser may use the variables before it.  The location counter, the output and the error messages stay as they were. -/
theorem C45_list_partial {hd : Str × Option Expr} {tl : List (Str × Option Expr)} {s : St} {f : Nat} (file : Str) (line : Int)
    (he : s.endExpansion = false) (hb : s.nodeBase ≤ s.nodes.length) (hs : CNames s)
    (hf : ∀ d ∈ hd :: tl, varFuel d + (hd :: tl).length + 1 < f) (h : Declarable f file line (hd :: tl) s) :
    ∃ s1 s2, runTop (expandNode f) (hasUninit f) (.stmt file line (.var hd tl)) s = (.ok true, s1) ∧
      runFile (expandNode f) (hasUninit f) ((hd :: tl).map fun d => .stmt file line (.var d [])) s = (.ok (), s2) ∧
      s1.syms = s2.syms ∧ s1.pc = s.pc ∧ s1.out = s.out ∧ s1.log = s.log ∧ s1.errorCount = s.errorCount ∧
      s1.symValueChanged = s.symValueChanged := by
  obtain ⟨s2, r2, c2⟩ := declarable_chain (hd :: tl) s he hb hs (fun d hm => by
    have := hf d hm
    simp only [List.length_cons] at this
    omega) h
  obtain ⟨f, rfl⟩ : ∃ g, f = g + 1 := ⟨f - 1, by have := hf hd (by simp); omega⟩
  obtain ⟨ns, ln, r, _⟩ := varStmt_run (f := f) file line he hb hs (fun x hx => by have := hf x hx; omega) c2
  exact ⟨_, s2, r, r2, rfl, rfl, rfl, rfl, rfl, rfl⟩

/-- A checker for the premises of a declaration. -/
def declOkB (s : St) (d : Str × Option Expr) (v : Int) : Bool :=
  plainName d.1 && d.1.all (· != 0) && !d.1.contains 46 &&
    (match look s d.1 with
      | some i => (s.syms[i]?.map (·.isVar)).getD true
      | none => true) &&
    match d.2 with
    | none => v == 0
    | some e => (match e with | .sym _ => false | _ => true) && (Spec.itemValue (envOf s) s.pc e == some v) &&
      e.names.all fun n => n.all (· != 0) && (look s n).isSome && (look s n != look s d.1)

theorem declOkB_sound {s : St} {d : Str × Option Expr} {v : Int} (h : declOkB s d v = true) : DeclOk s d v := by
  obtain ⟨name, e⟩ := d
  unfold declOkB at h
  simp only [Bool.and_eq_true, List.all_eq_true, bne_iff_ne, ne_eq, Bool.not_eq_true', List.contains_eq_mem,
    decide_eq_false_iff_not] at h
  obtain ⟨⟨⟨⟨h1, h2⟩, h3⟩, h4⟩, h5⟩ := h
  refine ⟨h1, h2, h3, ?_, ?_, ?_⟩
  · intro i x hi hx
    simp only at hi
    rw [hi] at h4
    simp only [hx, Option.map_some, Option.getD_some] at h4
    exact h4
  · intro h0
    simp only at h0
    subst h0
    simp only [beq_iff_eq] at h5
    exact h5
  · intro e' h0
    simp only at h0
    subst h0
    simp only [Bool.and_eq_true, beq_iff_eq, List.all_eq_true, bne_iff_ne, ne_eq, Option.isSome_iff_exists] at h5
    obtain ⟨⟨g1, g2⟩, g3⟩ := h5
    refine ⟨?_, g2, ?_⟩
    · rintro n rfl
      simp at g1
    · intro n hn
      obtain ⟨⟨k1, j, k2⟩, k3⟩ := g3 n hn
      exact ⟨k1, j, k2, fun h => k3 (k2.trans h.symm)⟩

/-- `.var a1=3, b=a1+1, c` on an empty table. -/
example : let ds : List (Str × Option Expr) := [(cstr! "a1", some (.int 3)), (cstr! "b", some (.bin .add (.sym (cstr! "a1")) (.int 1))), (cstr! "c", none)]
    Declarable 9 [97] 1 ds {} := by
  have one : ∀ {s : St} {d : Str × Option Expr} {ds : List (Str × Option Expr)} {v : Int} {r : Res Bool × St},
      runTop (expandNode 9) (hasUninit 9) (.stmt [97] 1 (.var d [])) s = r → declOkB s d v = true → Declarable 9 [97] 1 ds r.2 →
      Declarable 9 [97] 1 (d :: ds) s := by
    intro s d ds v r hr h1 h2
    refine ⟨⟨v, declOkB_sound h1⟩, fun s' h => ?_⟩
    rw [hr] at h
    rw [h] at h2
    exact h2
  refine one rfl (v := 3) (by decide +kernel) (one rfl (v := 4) (by decide +kernel) (one rfl (v := 0) (by decide +kernel) trivial))

/-- The table that results. -/
example : let r := runTop (expandNode 9) (hasUninit 9) (.stmt [97] 1 (.var (cstr! "a1", some (.int 3))
      [(cstr! "b", some (.bin .add (.sym (cstr! "a1")) (.int 1))), (cstr! "c", none)])) {}
    r.1 = .ok true ∧ r.2.syms.map (fun x => (x.fullname, x.value, x.isVar)) =
      [(cstr! "a1", 3, true), (cstr! "b", 4, true), (cstr! "c", 0, true)] := by decide +kernel

/-- **C45**, negation: `y = 5`, `.var x = y` leaves `x` at 0 and makes `y` a variable with value 0. -/
theorem C45_symbol_false :
    let r := runFile (expandNode 9) (hasUninit 9)
      [.stmt [97] 1 (.assign [121] (.int 5)), .stmt [97] 2 (.var ([120], some (.sym [121])) [])] {}
    r.1 = .ok () ∧ r.2.log = [] ∧
      r.2.syms.map (fun x => (x.fullname, x.value, x.isVar)) = [([121], 0, true), ([120], 0, true)] := by decide +kernel

/-- **C45**, negation: with `x = 7`, `.var x = x + 1` gives 1, since `x` is set to 0 before the initialiser is
evaluated. -/
theorem C45_self_false :
    let r := runFile (expandNode 9) (hasUninit 9)
      [.stmt [97] 1 (.var ([120], some (.int 7)) []),
        .stmt [97] 2 (.var ([120], some (.bin .add (.sym [120]) (.int 1))) [])] {}
    r.1 = .ok () ∧ r.2.log = [] ∧
      r.2.syms.map (fun x => (x.fullname, x.value, x.isVar)) = [([120], 1, true)] := by decide +kernel

end Verif
