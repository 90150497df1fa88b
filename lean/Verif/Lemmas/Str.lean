import Verif.Model.Str
import Verif.Model.Hash

/-! Lemmas about C strings. -/

namespace Verif

/-- A list of bytes that can be the contents of a NUL-terminated string. -/
def CStr (s : Str) : Prop := ∀ c ∈ s, c ≠ 0

theorem tolower_eq_zero {c : Nat} : tolower c = 0 ↔ c = 0 := by unfold tolower; split <;> omega

theorem tolower_idem (c : Nat) : tolower (tolower c) = tolower c := by unfold tolower; grind

theorem toupper_eq_of_tolower_eq {c d : Nat} (h : tolower c = tolower d) :
    toupper c = toupper d := by
  unfold tolower at h
  unfold toupper
  grind

theorem stricmp_eq_zero_iff {a b : Str} (ha : CStr a) (hb : CStr b) :
    stricmp a b = 0 ↔ a.map tolower = b.map tolower := by
  induction a generalizing b with
  | nil =>
    cases b with
    | nil => simp [stricmp]
    | cons d b =>
      have h1 := hb d (by simp)
      have := mt tolower_eq_zero.1 h1
      simp only [stricmp, List.map_nil, List.map_cons, reduceCtorEq, iff_false]
      omega
  | cons c a ih =>
    cases b with
    | nil =>
      have h1 := ha c (by simp)
      have := mt tolower_eq_zero.1 h1
      simp only [stricmp, List.map_nil, List.map_cons, reduceCtorEq, iff_false]
      omega
    | cons d b =>
      have ih := ih (b := b) (fun x hx => ha x (by simp [hx])) (fun x hx => hb x (by simp [hx]))
      simp only [stricmp, List.map_cons, List.cons.injEq, ← ih]
      split
      · rename_i h
        constructor
        · intro h'; exact absurd h' h
        · intro h'; rw [h'.1] at h; omega
      · rename_i h
        constructor
        · intro h'; exact ⟨by omega, h'⟩
        · intro h'; exact h'.2

theorem hashLoop_congr {a b : Str} (h : a.map tolower = b.map tolower) (x i : Nat) :
    hashLoop x i a = hashLoop x i b := by
  induction a generalizing b x i with
  | nil => cases b with
    | nil => rfl
    | cons d b => simp at h
  | cons c a ih => cases b with
    | nil => simp at h
    | cons d b =>
      simp only [List.map_cons, List.cons.injEq] at h
      have h2 : hashStep x i c = hashStep x i d := by
        unfold hashStep; rw [h.1, toupper_eq_of_tolower_eq h.1]
      simp only [hashLoop, h2]
      exact ih h.2 _ _

theorem hashFunction_congr {a b : Str} (h : a.map tolower = b.map tolower) :
    hashFunction a = hashFunction b := by
  unfold hashFunction; rw [hashLoop_congr h]

end Verif
