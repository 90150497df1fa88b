import Verif.Model.Numbers
import Verif.Spec.Literals

/-! # Reading numbers -/

namespace Verif

open Spec

theorem digitVal_ok {base : Nat} {d : Digit} (h : d.ok base) : digitVal d.char = some d.val := by
  obtain ⟨_, h | h⟩ := h
  · have : d.char = 48 + d.val := h.2
    unfold digitVal; grind
  · have : d.char = 65 + (d.val - 10) ∨ d.char = 97 + (d.val - 10) := h.2.2
    unfold digitVal; grind

theorem strtolDigits_ok {base : Nat} (ds : List Digit) (h : ∀ d ∈ ds, d.ok base) (acc : Nat) :
    strtolDigits base acc (numText ds) = ds.foldl (fun acc d => acc * base + d.val) acc := by
  induction ds generalizing acc with
  | nil => rfl
  | cons d ds ih =>
    have h1 := h d (by simp)
    simp only [numText, List.map_cons, strtolDigits, digitVal_ok h1, h1.1, if_true, List.foldl_cons]
    exact ih (fun d hd => h d (by simp [hd])) _

theorem char_range {base : Nat} {d : Digit} (h : d.ok base) :
    48 ≤ d.char ∧ d.char ≤ 102 ∧ d.char ≠ 88 ∧ d.char ≠ 120 := by
  obtain ⟨_, h | h⟩ := h
  · have : d.char = 48 + d.val := h.2
    omega
  · have : d.char = 65 + (d.val - 10) ∨ d.char = 97 + (d.val - 10) := h.2.2
    omega

theorem strtol_ok {base : Nat} (ds : List Digit) (h : ∀ d ∈ ds, d.ok base)
    (hs : (numVal base ds : Int) ≤ 9223372036854775807) : strtol base (numText ds) = numVal base ds := by
  have hdw : (numText ds).dropWhile isspace = numText ds := by
    cases ds with
    | nil => rfl
    | cons d ds =>
      have hc := char_range (h d (by simp))
      have : isspace d.char = false := by
        simp only [isspace, Bool.or_eq_false_iff, beq_eq_false_iff_ne, Bool.and_eq_false_iff,
          decide_eq_false_iff_not]
        omega
      simp only [numText, List.map_cons]
      rw [List.dropWhile_cons_of_neg (by simp [this])]
  have hsk : skipHexPrefix base (numText ds) = numText ds := by
    unfold skipHexPrefix
    split
    · rename_i x d rest heq
      rw [if_neg, heq]
      intro hh
      match ds, h, heq with
      | [], _, heq => cases heq
      | [a], _, heq => simp [numText] at heq
      | a :: b :: ds, h, heq =>
        have hb := char_range (h b (by simp))
        simp only [numText, List.map_cons, List.cons.injEq] at heq
        omega
    · rfl
  have hp : splitSign (numText ds) = (false, numText ds) := by
    unfold splitSign
    cases ds with
    | nil => rfl
    | cons d ds =>
      have hc := char_range (h d (by simp))
      simp only [numText, List.map_cons]
      split
      · rename_i heq; simp only [List.cons.injEq] at heq; omega
      · rename_i heq; simp only [List.cons.injEq] at heq; omega
      · rfl
  unfold strtol
  simp only [hdw]
  simp only [hp, hsk, strtolDigits_ok ds h, Bool.false_eq_true, if_false]
  unfold numVal at hs ⊢
  rw [if_neg (by omega), if_neg (by omega)]

theorem toInt32_small {v : Int} (h0 : 0 ≤ v) (h1 : v < 2147483648) : toInt32 v = v := by
  unfold toInt32
  rw [BitVec.toInt_ofInt, Int.bmod_eq_of_le] <;> omega

end Verif
