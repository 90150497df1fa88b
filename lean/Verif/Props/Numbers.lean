import Verif.Lemmas.Numbers

/-! # Properties C46 (number literals) and C38 (`-d` values) -/

namespace Verif

open Spec

/-- **C46.** A hexadecimal, binary or decimal literal that fits an `int` is read as the number it
denotes (any number of digits, letters in either case). -/
theorem C46_literals (ds : List Digit) :
    ((∀ d ∈ ds, d.ok 16) → numVal 16 ds < 2147483648 →
      lexInt ('$'.toNat :: numText ds) = numVal 16 ds) ∧
    ((∀ d ∈ ds, d.ok 2) → numVal 2 ds < 2147483648 →
      lexInt ('%'.toNat :: numText ds) = numVal 2 ds ∧
      lexInt ('0'.toNat :: 'b'.toNat :: numText ds) = numVal 2 ds) ∧
    ((∀ d ∈ ds, d.ok 10) → numVal 10 ds < 2147483648 → lexInt (numText ds) = numVal 10 ds) := by
  refine ⟨fun h hs => ?_, fun h hs => ⟨?_, ?_⟩, fun h hs => ?_⟩
  · show toInt32 (strtol 16 (numText ds)) = _
    rw [strtol_ok ds h (by omega), toInt32_small (by omega) (by omega)]
  · show toInt32 (strtol 2 (numText ds)) = _
    rw [strtol_ok ds h (by omega), toInt32_small (by omega) (by omega)]
  · have : lexInt ('0'.toNat :: 'b'.toNat :: numText ds) = toInt32 (strtol 2 (numText ds)) := by
      unfold lexInt; rfl
    rw [this, strtol_ok ds h (by omega), toInt32_small (by omega) (by omega)]
  · have : lexInt (numText ds) = toInt32 (strtol 10 (numText ds)) := by
      match ds, h with
      | [], _ => rfl
      | [a], h =>
        have ha := char_range (h a (by simp))
        simp only [numText, List.map_cons, List.map_nil]
        unfold lexInt
        split
        · rename_i heq; simp only [List.cons.injEq] at heq; omega
        · rename_i heq; simp only [List.cons.injEq] at heq; omega
        · rename_i heq; simp at heq
        · rfl
      | a :: b :: ds, h =>
        have ha := char_range (h a (by simp))
        have hb := h b (by simp)
        have hb' : b.char ≤ 57 := by
          obtain ⟨h1, h2 | h2⟩ := hb
          · have : b.char = 48 + b.val := h2.2
            omega
          · omega
        simp only [numText, List.map_cons]
        unfold lexInt
        split
        · rename_i heq; simp only [List.cons.injEq] at heq; omega
        · rename_i heq; simp only [List.cons.injEq] at heq; omega
        · rename_i heq
          simp only [List.cons.injEq] at heq
          obtain ⟨h48, hbb, rfl⟩ := heq
          rw [if_neg (by omega), h48, hbb]
        · rfl
    rw [this, strtol_ok ds h (by omega), toInt32_small (by omega) (by omega)]

example : lexInt (cstr! "$fFfF") = 65535 ∧ lexInt (cstr! "%1010") = 10 ∧ lexInt (cstr! "0b11") = 3 ∧
    lexInt (cstr! "49152") = 49152 := by decide

/-- **C46**, the limit: literals of 2^31 and above wrap around. -/
theorem C46_overflow_wraps : lexInt (cstr! "$80000000") = -2147483648 ∧
    lexInt (cstr! "4294967296") = 0 := by decide

/-- **C38** (`_partial`).  `$`, `%`, `0x` and `0b` values, and decimal values of one or two digits, are
read as the number they denote.  Missing from the full statement: decimal values of three or more
digits, see `C38_false_decimal`. -/
theorem C38_define_value_partial (ds : List Digit) :
    ((∀ d ∈ ds, d.ok 16) → numVal 16 ds < 2147483648 →
      defineValue ('$'.toNat :: numText ds) = numVal 16 ds ∧
      (ds ≠ [] → defineValue ('0'.toNat :: 'x'.toNat :: numText ds) = numVal 16 ds)) ∧
    ((∀ d ∈ ds, d.ok 2) → numVal 2 ds < 2147483648 →
      defineValue ('%'.toNat :: numText ds) = numVal 2 ds ∧
      (ds ≠ [] → defineValue ('0'.toNat :: 'b'.toNat :: numText ds) = numVal 2 ds)) ∧
    ((∀ d ∈ ds, d.ok 10) → ds.length ≤ 2 → defineValue (numText ds) = numVal 10 ds) := by
  refine ⟨fun h hs => ⟨?_, fun hne => ?_⟩, fun h hs => ⟨?_, fun hne => ?_⟩, fun h hl => ?_⟩
  · show toInt32 (strtol 16 (numText ds)) = _
    rw [strtol_ok ds h (by omega), toInt32_small (by omega) (by omega)]
  · have hl : ('0'.toNat :: 'x'.toNat :: numText ds).length > 2 := by
      have := List.length_pos_iff.2 hne
      simp [numText]; omega
    show (if _ then toInt32 (strtol 16 (numText ds)) else _) = _
    rw [if_pos hl, strtol_ok ds h (by omega), toInt32_small (by omega) (by omega)]
  · show toInt32 (strtol 2 (numText ds)) = _
    rw [strtol_ok ds h (by omega), toInt32_small (by omega) (by omega)]
  · have hl : ('0'.toNat :: 'b'.toNat :: numText ds).length > 2 := by
      have := List.length_pos_iff.2 hne
      simp [numText]; omega
    show (if _ then toInt32 (strtol 2 (numText ds)) else _) = _
    rw [if_pos hl, strtol_ok ds h (by omega), toInt32_small (by omega) (by omega)]
  · have hlt : numVal 10 ds < 100 := by
      match ds, h, hl with
      | [], _, _ => simp [numVal]
      | [a], h, _ =>
        have := (h a (by simp)).1
        simp [numVal]; omega
      | [a, b], h, _ =>
        have := (h a (by simp)).1
        have := (h b (by simp)).1
        simp [numVal]; omega
    have : defineValue (numText ds) = toInt32 (strtol 10 (numText ds)) := by
      have hlen : ¬ (numText ds).length > 2 := by simp [numText]; omega
      have h0 : ∀ c r, numText ds = c :: r → c ≠ 36 ∧ c ≠ 37 := by
        intro c r heq
        cases ds with
        | nil => cases heq
        | cons d ds =>
          have := char_range (h d (by simp))
          simp only [numText, List.map_cons, List.cons.injEq] at heq
          omega
      unfold defineValue
      split
      · rename_i r heq; exact absurd rfl (h0 _ _ heq).1
      · rename_i r heq; exact absurd rfl (h0 _ _ heq).2
      · rw [if_neg hlen]
    rw [this, strtol_ok ds h (by omega), toInt32_small (by omega) (by omega)]

example : defineValue (cstr! "$C000") = 49152 ∧ defineValue (cstr! "0x10") = 16 ∧
    defineValue (cstr! "42") = 42 := by decide

/-- **C38**, negation: decimal values with three or more digits define 0, for every such numeral not
starting with `0`. -/
theorem C38_false_decimal (ds : List Digit) (h : ∀ d ∈ ds, d.ok 10) (hl : 3 ≤ ds.length)
    (hz : ∀ d, ds.head? = some d → d.val ≠ 0) : defineValue (numText ds) = 0 ∧ numVal 10 ds ≠ 0 := by
  constructor
  · have hlen : (numText ds).length > 2 := by simp [numText]; omega
    have h0 : ∀ c r, numText ds = c :: r → c ≠ 36 ∧ c ≠ 37 ∧ c ≠ 48 := by
      intro c r heq
      cases ds with
      | nil => cases heq
      | cons d ds =>
        have h1 := char_range (h d (by simp))
        have h2 := hz d rfl
        have h3 := h d (by simp)
        simp only [numText, List.map_cons, List.cons.injEq] at heq
        obtain ⟨h31, h4 | h4⟩ := h3
        · have : d.char = 48 + d.val := h4.2
          omega
        · omega
    unfold defineValue
    split
    · rename_i r heq; exact absurd rfl (h0 _ _ heq).1
    · rename_i r heq; exact absurd rfl (h0 _ _ heq).2.1
    · rw [if_pos hlen]
      split
      · rename_i r heq; exact absurd rfl (h0 _ _ heq).2.2
      · rename_i r heq; exact absurd rfl (h0 _ _ heq).2.2
      · rfl
  · cases ds with
    | nil => simp at hl
    | cons d ds =>
      have h2 := hz d rfl
      have mono : ∀ (l : List Digit) (acc : Nat), 0 < acc →
          0 < l.foldl (fun acc d => acc * 10 + d.val) acc := by
        intro l
        induction l with
        | nil => intro acc h; exact h
        | cons x l ih => intro acc h; exact ih _ (show 0 < acc * 10 + x.val by omega)
      have := mono ds (0 * 10 + d.val) (by omega)
      simp only [numVal, List.foldl_cons]
      omega

example : defineValue (cstr! "100") = 0 ∧ defineValue (cstr! "1024") = 0 := by decide

end Verif
