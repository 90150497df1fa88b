import Verif.Lemmas.NewSym
import Verif.Lemmas.BlockLeaf

/-! # Declaration and initialisation of a variable -/

namespace Verif

/-- The two assignments that make a symbol a variable. -/
theorem mark_run {s : St} {i : SymPtr} {x : Sym} (hx : s.syms[i]? = some x) :
    ((if (none : Option SymPtr).isSome = false then modSym i fun x => { x with isVar := true } else M.pure ()) >>= fun _ => do
      let s ← getS
      modSym i fun x => { x with value := if false = true then s.pc else 0, isInit := true }
      (M.pure (some (some i)) : M (Option (Option SymPtr)))) s =
    (.ok (some (some i)), { s with syms := s.syms.set i { x with isVar := true, value := 0, isInit := true } }) := by
  have hlt : i < s.syms.length := by
    rcases Nat.lt_or_ge i s.syms.length with h | h
    · exact h
    · rw [List.getElem?_eq_none h] at hx; cases hx
  rw [if_pos (show (none : Option SymPtr).isSome = false from rfl), bind_ok (modSym_run hlt _), getS_bind,
    bind_ok (modSym_run (by rw [List.length_modify]; exact hlt) _)]
  show (Res.ok _, _) = _
  congr 2
  show (s.syms.modify i _).modify i _ = _
  rw [modify_set hx, modify_set (List.getElem?_set_self hlt), List.set_set]
  rfl

/-- The symbol table after the name of `.var` was read: a variable with the value 0. -/
theorem varName_declare {s : St} {p : Ptr} {name : Str} (hL : Live s p ⟨.id .id name none, 0, []⟩)
    (hp : plainName name = true) (hs : CNames s) (hn : CStr name) (hd : 46 ∉ name) :
    ∃ i ys y, varName false false p s = (.ok (some (some i)), { s with syms := ys, nodes := s.nodes.set p ⟨.id .id name (some i), 0, []⟩ }) ∧
      ys[i]? = some y ∧ y.isVar = true ∧ y.isInit = true ∧ (∀ j, j ≠ i → ys[j]? = s.syms[j]?) ∧
      look { s with syms := ys } name = some i ∧
      (∀ n j, CStr n → look s n = some j → look { s with syms := ys } n = some j) ∧ (look s name = some i ∨ i = s.syms.length) := by
  cases hl : look s name with
  | some i =>
    have hlt := look_lt hl
    obtain ⟨x, hx⟩ : ∃ x, s.syms[i]? = some x := ⟨_, List.getElem?_eq_getElem hlt⟩
    have hres : resolveId false p s = (.ok (some i), { s with nodes := s.nodes.set p ⟨.id .id name (some i), 0, []⟩ }) := by
      unfold resolveId
      rw [bind_ok hL.run]
      show (addSymbol name >>= _) s = _
      rw [bind_ok (addSymbol_run hp hl), bind_ok (hL.set _)]
      rfl
    have hnm := look_names (s := s) (names_set (y := { x with isVar := true, value := 0, isInit := true }) hx rfl)
    refine ⟨i, s.syms.set i { x with isVar := true, value := 0, isInit := true }, { x with isVar := true, value := 0, isInit := true }, ?_, ?_, rfl, rfl, ?_, ?_, ?_, ?_⟩
    rotate_left
    · exact List.getElem?_set_self hlt
    · intro j hj
      exact List.getElem?_set_ne (Ne.symm hj)
    · rw [hnm]
      exact hl
    · intro n j _ h
      rw [hnm]
      exact h
    · exact Or.inl rfl
    · unfold varName
      rw [bind_ok hres]
      exact mark_run hx
  | none =>
    let y0 := newSym s name
    let s1 : St := { s with syms := s.syms ++ [y0] }
    let y : Sym := { y0 with isVar := true, value := 0, isInit := true }
    have hlt : s.syms.length < s1.syms.length := by show _ < (s.syms ++ [y0]).length; simp
    have hg : (s.syms ++ [y0])[s.syms.length]? = some y0 := by simp
    have hL1 : Live s1 p ⟨.id .id name none, 0, []⟩ := hL
    have hres : resolveId false p s = (.ok (some s.syms.length), { s1 with nodes := s.nodes.set p ⟨.id .id name (some s.syms.length), 0, []⟩ }) := by
      unfold resolveId
      rw [bind_ok hL.run]
      show (addSymbol name >>= _) s = _
      rw [bind_ok (addSymbol_new hp hl), bind_ok (hL1.set _)]
      rfl
    refine ⟨s.syms.length, s.syms ++ [y], y, ?_, by simp, rfl, rfl, ?_, look_new name y rfl,
      fun n j hn' hj => look_old y rfl hs hn hn' hd hl hj, Or.inr rfl⟩
    · unfold varName
      rw [bind_ok hres]
      refine (mark_run (s := { s1 with nodes := _ }) hg).trans ?_
      show (Res.ok _, _) = _
      congr 2
      show (s.syms ++ [y0]).set s.syms.length _ = _
      simp [y]
    · intro j hj
      rcases Nat.lt_or_ge j s.syms.length with h | h
      · rw [List.getElem?_append_left h]
      · rw [List.getElem?_append_right h, List.getElem?_eq_none h]
        cases h' : j - s.syms.length with
        | zero => exact absurd (Nat.le_antisymm (Nat.le_of_sub_eq_zero h') h) hj
        | succ k => rfl

/-- The initialiser sets the variable. -/
theorem varInit_sim {f : Nat} {s : St} {q : Ptr} {e : Expr} {i : SymPtr} {y : Sym} {v : Int}
    (het : s.expansionType = .symbol) (hq : TreeAt s e q) (hd : e.depth < f) (he : s.endExpansion = false)
    (hs : ∀ n, e ≠ .sym n) (hv : Spec.itemValue (envOf s) s.pc e = some v) (hy : s.syms[i]? = some y) (hvar : y.isVar = true) :
    ∃ ns, exprListItem (expandNode f) (hasUninit f) (some i) q s =
      (.ok (some none), { s with nodes := ns, syms := s.syms.set i { y with value := v } }) ∧ HeapSim true (look s) s.nodes ns := by
  obtain ⟨hev, hkids⟩ := itemValue_some hv
  obtain ⟨n, hb, hn, _, hk, ho⟩ := ExprAt.kind hq
  obtain ⟨ns1, sim1, r1, _⟩ := kids_run (f := f) (Nat.le_of_lt hd) he hq hn hkids
  let s1 : St := { s with nodes := ns1 }
  have hq1 : TreeAt s1 e q := ExprAt.sim sim1 hq
  obtain ⟨n1, hb1, hn1, _, _, _⟩ := ExprAt.kind hq1
  obtain ⟨ns2, r2, sim2, _⟩ := expand_ok (f := f) (s := s1) hd he hq1 hev
  refine ⟨ns2, ?_, (sim1.trans sim2).mono⟩
  have hl : Live s q n := ⟨hb, hn⟩
  have hl1 : Live s1 q n1 := ⟨hb1, hn1⟩
  have e0 : exprListItem (expandNode f) (hasUninit f) (some i) q s = varItem (expandNode f) (some i) q n1 s1 := by
    unfold exprListItem
    rw [bind_ok hl.run, if_neg hk, bind_ok (operands_run ho s), bind_ok r1, bind_ok hl1.run, getS_bind]
    have het1 : s1.expansionType = .symbol := het
    simp only [het1]
  rw [e0]
  have hkind : ∀ a b d, n1.kind ≠ .id a b d := by
    cases e with
    | int w => rw [hq1.2] at hn1; cases hn1; intro _ _ _ h; cases h
    | pc => obtain ⟨_, w, hw⟩ := hq1; rw [hw] at hn1; cases hn1; intro _ _ _ h; cases h
    | sym nm => exact absurd rfl (hs nm)
    | un op e => obtain ⟨_, w, hw, _⟩ := hq1; rw [hw] at hn1; cases hn1; intro _ _ _ h; cases h
    | bin op a b => obtain ⟨_, w, w', hw, _⟩ := hq1; rw [hw] at hn1; cases hn1; intro _ _ _ h; cases h
  have e1 : varItem (expandNode f) (some i) q n1 = (do
      let v ← expandNode f q
      setSymbolValue i v
      M.pure (some none)) := by
    unfold varItem
    cases hkk : n1.kind with
    | id a b d => exact absurd hkk (hkind a b d)
    | _ => rfl
  rw [e1, bind_ok r2, bind_ok (setVar_run (show ({ s1 with nodes := ns2 } : St).syms[i]? = some y from hy) hvar v)]
  rfl

theorem varInit_run {f : Nat} {s : St} {q : Ptr} {e : Expr} {i : SymPtr} {y : Sym} {v : Int}
    (het : s.expansionType = .symbol) (hq : TreeAt s e q) (hd : e.depth < f) (he : s.endExpansion = false)
    (hs : ∀ n, e ≠ .sym n) (hv : Spec.itemValue (envOf s) s.pc e = some v) (hy : s.syms[i]? = some y) (hvar : y.isVar = true) :
    ∃ ns, exprListItem (expandNode f) (hasUninit f) (some i) q s =
      (.ok (some none), { s with nodes := ns, syms := s.syms.set i { y with value := v } }) :=
  (varInit_sim het hq hd he hs hv hy hvar).imp fun _ h => h.1

end Verif
