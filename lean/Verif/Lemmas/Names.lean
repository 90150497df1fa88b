import Verif.Lemmas.Str
import Verif.Lemmas.PassInv
import Verif.Spec.FinMap

/-! # Names: case folding, dots, symbol search -/

namespace Verif

theorem foldCase_map (a : Str) : Spec.foldCase a = a.map tolower := rfl

theorem stricmp_fold {a b : Str} (ha : CStr a) (hb : CStr b) :
    stricmp a b = 0 ↔ Spec.foldCase a = Spec.foldCase b := by
  rw [foldCase_map, foldCase_map]
  exact stricmp_eq_zero_iff ha hb

theorem foldCase_append (a b : Str) : Spec.foldCase (a ++ b) = Spec.foldCase a ++ Spec.foldCase b := by
  simp [Spec.foldCase]

theorem foldCase_dot (a : Str) : 46 ∈ Spec.foldCase a ↔ 46 ∈ a := by
  rw [foldCase_map, List.mem_map]
  constructor
  · rintro ⟨c, hc, he⟩
    unfold tolower at he
    split at he
    · omega
    · rw [← he]; exact hc
  · intro h
    exact ⟨46, h, rfl⟩

theorem splitLastDot_none {b : Str} (h : 46 ∉ b) : splitLastDot b = none := by
  induction b with
  | nil => rfl
  | cons c cs ih =>
    simp only [List.mem_cons, not_or] at h
    simp only [splitLastDot, ih h.2]
    rw [if_neg (Ne.symm h.1)]

theorem splitLastDot_dot (a : Str) {b : Str} (h : 46 ∉ b) : splitLastDot (a ++ 46 :: b) = some (a, b) := by
  induction a with
  | nil => simp [splitLastDot, splitLastDot_none h]
  | cons c cs ih => simp only [List.cons_append, splitLastDot, ih]

theorem append_dot_inj {a b c d : Str} (hb : 46 ∉ b) (hd : 46 ∉ d) (h : a ++ 46 :: b = c ++ 46 :: d) :
    a = c ∧ b = d := by
  have h1 := splitLastDot_dot a hb
  rw [h, splitLastDot_dot c hd] at h1
  simp only [Option.some.injEq, Prod.mk.injEq] at h1
  exact ⟨h1.1.symm, h1.2.symm⟩

theorem symFind_none {key : Str} {l : List Sym} (h : symFind l key = none) :
    ∀ y ∈ l, stricmp y.fullname key ≠ 0 := by
  intro y hy he
  obtain ⟨i, hi⟩ := List.mem_iff_getElem?.1 hy
  unfold symFind at h
  obtain ⟨j, hj, _⟩ := symFindAux_of_mem (k := 0) hi he
  rw [h] at hj
  cases hj

theorem modify_of_get {α : Type} {l : List α} {i : Nat} {x : α} (h : l[i]? = some x) (f : α → α) :
    l.modify i f = l.set i (f x) := by
  apply List.ext_getElem?
  intro j
  rw [List.getElem?_modify, List.getElem?_set]
  by_cases hij : i = j
  · subst hij
    have : i < l.length := by
      rcases Nat.lt_or_ge i l.length with h' | h'
      · exact h'
      · rw [List.getElem?_eq_none h'] at h; cases h
    rw [if_pos rfl, if_pos this, h]; simp
  · simp [hij]

end Verif
