import Verif.Lemmas.Draft
import Verif.Lemmas.MacroProgram

/-! # Property C23: assignments inside a section -/

namespace Verif

/-- **C23** (assignment).  Inside the section `sc` the name `name` refers to a global symbol, and `sc` has no symbol of that
name.  Then the assignment `name = e` leaves all symbols as they are and gives the section a symbol of its own, which has
the value of `e` and to which `name` refers from then on, until the section is left; then `name` refers to the global symbol
again. -/
theorem C23_assign {s : St} {sc name : Str} {c : Nat} {r : Str} {e : Expr} {v : Int} {i : SymPtr} {x : Sym} {f : Nat} (file : Str) (line : Int)
    (he : s.endExpansion = false) (hb : s.nodeBase ≤ s.nodes.length) (hs : CNames s) (hsc : s.currentScope = some sc)
    (hc : sc = c :: r ∧ c ≠ 43 ∧ c ≠ 45 ∧ c ≠ 46 ∧ c ≠ 64 ∧ c ≠ 92) (hn : Spec.Identifier name)
    (hi : lookUpSymbol none s.syms name = some i) (hx : s.syms[i]? = some x) (hg : x.scope = none ∧ x.name = x.fullname)
    (ho : lookUpSymbol none s.syms (sc ++ cstr! "." ++ name) = none)
    (hv : Spec.eval (envOf s) s.pc e = some (v, false)) (hne : x.value ≠ v) (h0 : 0 ≤ v) (h1 : v ≤ 65535) (hd : e.depth < f) :
    ∃ s' y, runTop (expandNode (f + 1)) (hasUninit (f + 1)) (.stmt file line (.assign name e)) s = (.ok true, s') ∧
      s'.syms = s.syms ++ [y] ∧ y.fullname = sc ++ cstr! "." ++ x.name ∧ y.isInit = true ∧ y.value = v ∧ y.isVar = false ∧
      y.scope = some sc ∧
      look s' name = some s.syms.length ∧ look { s' with currentScope := none } name = some i ∧
      s'.pc = s.pc ∧ s'.out = s.out ∧ s'.log = s.log ∧ s'.errorCount = s.errorCount := by
  obtain ⟨rfl, c1, c2, c3, c4, c5⟩ := hc
  let sc := c :: r
  have hp := ident_plain hn
  have hcn := ident_cstr hn
  have hkey : addSymbolKey s name = (some sc, name) := by rw [ident_key hn, hsc]
  rw [show sc ++ cstr! "." ++ name = dotted sc name by simp [dotted]] at ho
  rw [show sc ++ cstr! "." ++ x.name = dotted sc x.name by simp [dotted]]
  have hlk : look s name = some i := by
    unfold look
    rw [hkey]
    show (match symFind s.syms (dotted sc name) with | some i => some i | none => symFind s.syms name) = _
    rw [show symFind s.syms (dotted sc name) = none from ho]
    exact hi
  let s0 : St := atLine s file line
  obtain ⟨l1, q1, b1, b2⟩ := buildExpr_run (lk := look s0) e s0 hb
  let I : Node := ⟨.id .id name none, 0, []⟩
  let s1 : St := { s0 with nodes := s.nodes ++ l1 }
  let N : Node := ⟨.opr .equ, 2, [s1.nodes.length, q1]⟩
  let s2 : St := { s0 with nodes := s1.nodes ++ [I] }
  let s3 : St := { s0 with nodes := s1.nodes ++ [I] ++ [N] }
  have hb1 : s.nodeBase ≤ s1.nodes.length := by simp only [s1, List.length_append]; omega
  have hbuild : buildStmt (expandNode (f + 1)) (hasUninit (f + 1)) false (.assign name e) s0 = (.ok (some s2.nodes.length), s3) := by
    refine built_run ?_
    show (buildExpr e >>= fun p => idNode .id name >>= fun i => operatorNode .equ [i, p]) s0 = _
    rw [bind_ok b1]
    show (idNode .id name >>= fun i => operatorNode .equ [i, q1]) s1 = _
    rw [bind_ok (show idNode .id name s1 = (.ok s1.nodes.length, s2) from alloc_run _ _ _)]
    exact alloc_run _ _ _
  obtain ⟨ns, sim, run⟩ := equNode_pre (mb := false) (f := f) (s := s3) (p := s2.nodes.length) (q0 := s1.nodes.length) (q1 := q1)
    (name := name) (e := e) (v := v) (i := i) he
    ⟨by simp only [s2, List.length_append]; exact Nat.le_trans hb1 (Nat.le_add_right _ _), by simp [s3, s2, N]⟩
    ⟨⟨none, ⟨hb1, by simp [s3, I]⟩, Or.inl rfl⟩, by intro h; cases h⟩
    ⟨(b2.sim (HeapSim.append false _ _ [I])).sim (HeapSim.append false _ _ [N]), by intro h; cases h⟩ hd hv hp hlk
  have hxm : x ∈ s.syms := List.mem_of_getElem? hx
  have hfold : Spec.foldCase x.name = Spec.foldCase name := by
    obtain ⟨x', hx', he'⟩ := symFind_some hi
    rw [hx] at hx'
    cases hx'
    rw [hg.2]
    exact (stricmp_fold (hs.syms x hxm) hcn).1 he'
  have hid : Spec.Identifier x.name := ident_fold hfold hn
  have hidc := ident_cstr hid
  have hscc : CStr sc := hs.scope _ hsc
  have h46 : 46 ∉ x.name := fun hm => by have := hid.2.1 46 hm; revert this; decide
  let s4 : St := { s3 with nodes := ns }
  have hkey2 : addSymbolKey s4 (dotted sc x.name) = (none, dotted sc x.name) := by
    have h1 : (dotted sc x.name).getLast? ≠ some 58 := by
      obtain ⟨a, b, hxn⟩ := List.exists_cons_of_ne_nil hid.1
      unfold dotted
      rw [List.getLast?_append, hxn, List.getLast?_cons_cons]
      intro h
      cases hl : (a :: b).getLast? with
      | none => simp at hl
      | some z =>
        rw [hl] at h
        cases h
        have := hid.2.1 58 (by rw [hxn]; exact List.mem_of_getLast? hl)
        revert this
        decide
    unfold addSymbolKey
    rw [if_pos (by simp [dotted])]
    have hd1 : dropDot (dotted sc x.name) = dotted sc x.name := by
      unfold dropDot
      split
      · rename_i heq; cases heq; exact absurd rfl c3
      · rfl
    have hm : (match dotted sc x.name, s4.lastLabel with
      | 64 :: _, some l => formatLocal (dotted sc x.name) l
      | _, _ => dotted sc x.name) = dotted sc x.name := by
      split
      · rename_i heq _; cases heq; exact absurd rfl c4
      · rfl
    rw [hd1]
    refine congrArg (Prod.mk _) ((congrArg stripColon hm).trans ?_)
    unfold stripColon
    rw [if_neg h1]
  have hpl : plainName (dotted sc x.name) = true := by
    have h2 : stricmp (dotted sc x.name) [65] ≠ 0 := by
      rw [Ne, stricmp_fold (hscc.dotted hidc) (by unfold CStr; decide)]
      intro h
      have := congrArg List.length h
      simp only [Spec.foldCase, dotted, List.length_map, List.length_append, List.length_cons, List.length_nil, sc] at this
      omega
    simp only [plainName, Bool.and_eq_true, bne_iff_ne, ne_eq]
    refine ⟨⟨⟨?_, h2⟩, by simp [dotted]⟩, by simp [dotted, sc]⟩
    simp [isPmName, dotted, sc, c1, c2]
  have hdf : Spec.foldCase (dotted sc x.name) = Spec.foldCase (dotted sc name) := by
    simp only [dotted, foldCase_append]
    rw [show Spec.foldCase (46 :: x.name) = 46 :: Spec.foldCase x.name from rfl, hfold]
    rfl
  have hnone : look s4 (dotted sc x.name) = none := by
    unfold look
    rw [hkey2]
    show symFind s.syms (dotted sc x.name) = none
    rw [symFind_fold (hscc.dotted hidc) (hscc.dotted hcn) hdf hs.syms]
    exact ho
  let y0 : Sym := { name := x.name, fullname := dotted sc x.name, scope := some sc }
  have hnew : newSym s4 (dotted sc x.name) = y0 := by
    unfold newSym
    rw [hkey2]
    have h1 : ((dropDot (dotted sc x.name)).head? = some 92) = False := by simp [dropDot, dotted, sc, c3, c5]
    have h2 : ((dotted sc x.name).head? = some 64) = False := by simp [dotted, sc, c4]
    simp only [h1, h2, sanitizeSym, decide_false, Bool.false_and, Bool.false_eq_true, if_false]
    rw [show dotted sc x.name = sc ++ 46 :: x.name from rfl, splitLastDot_dot sc h46]
    rfl
  have hadd := addSymbol_new (s := s4) hpl hnone
  rw [hnew] at hadd
  let s5 : St := { s4 with syms := s.syms ++ [y0] }
  have htar : equTarget i x s4 = (.ok s.syms.length, s5) := by
    unfold equTarget
    rw [getS_bind, hg.1, show s4.currentScope = some sc from hsc]
    show (addSymbol (dotted sc x.name) >>= fun r => liftO r) s4 = _
    rw [bind_ok hadd]
    rfl
  have hy0 : s5.syms[s.syms.length]? = some y0 := by simp [s5]
  have hlt : s.syms.length < s5.syms.length := by simp [s5]
  let y : Sym := { y0 with value := v, isInit := true }
  have hset : ∃ n', (setSymbolValue s.syms.length v >>= fun _ => modSym s.syms.length fun x => { x with isInit := true }) s5 =
      (.ok (), { s5 with syms := s.syms ++ [y], symValueChanged := n' }) := by
    have hm : ∀ (z z' : Sym), (s.syms ++ [z]).set s.syms.length z' = s.syms ++ [z'] := by
      intro z z'
      rw [List.set_append_right _ _ (Nat.le_refl _), Nat.sub_self]
      rfl
    have hg : ∀ z : Sym, (s.syms ++ [z])[s.syms.length]? = some z := fun z => by simp
    unfold setSymbolValue
    rw [run_bind, bind_ok (sym_run hy0)]
    by_cases hv0 : v = 0
    · rw [if_neg (by rw [hv0]; exact fun h => h rfl)]
      refine ⟨s.symValueChanged, ?_⟩
      show modSym s.syms.length _ s5 = _
      rw [modSym_run hlt, modify_set hy0, show s5.syms = s.syms ++ [y0] from rfl, hm]
      simp only [s5, y, hv0]
      rfl
    · have hand : cand v (cnot 0xFFFF) = 0 := (cand_not_ffff ⟨by omega, by omega⟩).2 ⟨h0, by omega⟩
      rw [if_pos (by intro h; exact hv0 h.symm), if_neg (by rw [hand]; exact fun h => h.1 rfl), bind_ok (modSym_run hlt _), modify_set hy0,
        if_pos ⟨rfl, rfl⟩]
      refine ⟨s.symValueChanged + 1, ?_⟩
      show modSym s.syms.length _ { s5 with syms := s5.syms.set s.syms.length { y0 with value := v }, symValueChanged := s.symValueChanged + 1 } = _
      rw [modSym_run (by show _ < (s5.syms.set _ _).length; rw [List.length_set]; exact hlt)]
      show (Res.ok (), { s5 with syms := (s5.syms.set s.syms.length { y0 with value := v }).modify s.syms.length _, symValueChanged := s.symValueChanged + 1 }) = _
      rw [show s5.syms = s.syms ++ [y0] from rfl, hm, modify_set (hg _), hm]
  obtain ⟨n', hset⟩ := hset
  refine ⟨{ s5 with syms := s.syms ++ [y], symValueChanged := n' }, y, ?_, rfl, rfl, rfl, rfl, rfl, rfl, ?_, ?_, rfl, rfl, rfl, rfl⟩
  · refine runTop_stmt (v := v) (p := s2.nodes.length) (s1 := s3) (by intro b n a h; cases h) hbuild ?_
    rw [run, bind_ok (sym_run (s := s4) (x := x) hx), if_pos (Or.inr hne), run_bind, bind_ok htar]
    rw [hset]
    rfl
  · unfold look
    rw [ident_key hn]
    show lookUpSymbol s.currentScope (s.syms ++ [y]) name = _
    rw [hsc]
    show (match symFind (s.syms ++ [y]) (dotted sc name) with | some i => some i | none => symFind (s.syms ++ [y]) name) = _
    rw [symFind_append, if_pos]
    exact (stricmp_fold (hscc.dotted hidc) (hscc.dotted hcn)).2 hdf
  · unfold look
    rw [ident_key hn]
    show symFind (s.syms ++ [y]) name = _
    rw [symFind_append, if_neg]
    · exact hi
    · rw [stricmp_fold (hscc.dotted hidc) hcn]
      intro h
      have h1 := congrArg List.length h
      have h2 := congrArg List.length hfold
      simp only [Spec.foldCase, dotted, List.length_map, List.length_append, List.length_cons] at h1 h2
      omega

/-- `n = n + 2` in the section `s`, where the global symbol `n` is 5. -/
example : let st : St := { currentScope := some (cstr! "s"), syms := [{ name := cstr! "N", fullname := cstr! "N", value := 5, isInit := true }] }
    st.endExpansion = false ∧ st.nodeBase ≤ st.nodes.length ∧ CNames st ∧ Spec.Identifier (cstr! "n") ∧
    lookUpSymbol none st.syms (cstr! "n") = some 0 ∧ lookUpSymbol none st.syms (cstr! "s" ++ cstr! "." ++ cstr! "n") = none ∧
    Spec.eval (envOf st) st.pc (.bin .add (.sym (cstr! "n")) (.int 2)) = some (7, false) := by
  refine ⟨rfl, by decide, ⟨by unfold CStr; decide, (by intro l h; cases h), ?_⟩, by decide, by decide +kernel, by decide +kernel, by decide +kernel⟩
  intro sc h
  cases h
  unfold CStr
  decide

/-- **C23** fails when the section assigns the value the global symbol happens to have: in

```
n = 5
        .section s
n = 5
        .ends
```

the section gets no symbol `s.n`. -/
theorem C23_equal_false :
    let r := runFile (expandNode 5) (hasUninit 5) [.stmt [97] 1 (.assign (cstr! "n") (.int 5)), .stmt [97] 2 (.sect (cstr! "s")),
      .stmt [97] 3 (.assign (cstr! "n") (.int 5)), .stmt [97] 4 .endSect] {}
    r.1 = .ok () ∧ r.2.errorCount = 0 ∧ lookUpSymbol none r.2.syms (cstr! "n") = some 0 ∧
      lookUpSymbol none r.2.syms (cstr! "s.n") = none := by decide +kernel

end Verif
