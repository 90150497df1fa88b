import Verif.Model.CInt

/-! # Facts about the masks used by the C++ code -/

namespace Verif

theorem ofInt_toNat (x : Int) : (BitVec.ofInt 32 x).toNat = (x % 4294967296).toNat := by
  simp [BitVec.toNat_ofInt]

theorem toInt_ofNat_small {n : Nat} (h : n < 2147483648) : (BitVec.ofNat 32 n).toInt = (n : Int) := by
  rw [BitVec.toInt_eq_toNat_cond, BitVec.toNat_ofNat]
  split <;> omega

/-- Masking with `2^k - 1`. -/
theorem cand_mask (x : Int) (k : Nat) (hk : k ≤ 31) : cand x ((2 ^ k - 1 : Nat) : Int) = x % ((2 ^ k : Nat) : Int) := by
  unfold cand
  have hp : (2 : Nat) ^ k ≤ 2 ^ 31 := Nat.pow_le_pow_right (by decide) hk
  have h1 : (1 : Nat) ≤ 2 ^ k := Nat.one_le_two_pow
  have e : BitVec.ofInt 32 x &&& BitVec.ofInt 32 ((2 ^ k - 1 : Nat) : Int) =
      BitVec.ofNat 32 ((x % ((2 ^ k : Nat) : Int)).toNat) := by
    apply BitVec.eq_of_toNat_eq
    rw [BitVec.toNat_and, ofInt_toNat, ofInt_toNat, BitVec.toNat_ofNat]
    have : ((((2 ^ k - 1 : Nat) : Int)) % 4294967296).toNat = 2 ^ k - 1 := by
      have : 2 ^ k - 1 < 4294967296 := by
        have : (2:Nat) ^ 31 = 2147483648 := by decide
        omega
      omega
    rw [this, Nat.and_two_pow_sub_one_eq_mod]
    have hd : ((2 ^ k : Nat) : Int) ∣ 4294967296 := by
      have : (2 ^ k : Nat) ∣ 2 ^ 32 := Nat.pow_dvd_pow 2 (by omega)
      have e : ((4294967296 : Nat) : Int) = 4294967296 := rfl
      rw [← e]
      exact Int.natCast_dvd_natCast.mpr this
    have hm : (x % 4294967296) % ((2 ^ k : Nat) : Int) = x % ((2 ^ k : Nat) : Int) := Int.emod_emod_of_dvd x hd
    have hpos : (0 : Int) < ((2 ^ k : Nat) : Int) := by omega
    have a1 := Int.emod_nonneg x (show (4294967296 : Int) ≠ 0 by decide)
    have a2 := Int.emod_nonneg x (show ((2 ^ k : Nat) : Int) ≠ 0 by omega)
    have a3 := Int.emod_lt_of_pos x hpos
    have l : (x % 4294967296).toNat % 2 ^ k = (x % ((2 ^ k : Nat) : Int)).toNat := by
      apply Int.ofNat.inj
      show (((x % 4294967296).toNat % 2 ^ k : Nat) : Int) = _
      rw [Int.natCast_emod, Int.toNat_of_nonneg a1, hm]
      show _ = (((x % ((2 ^ k : Nat) : Int)).toNat : Nat) : Int)
      rw [Int.toNat_of_nonneg a2]
    rw [l, Nat.mod_eq_of_lt]
    have : (2:Nat) ^ 31 = 2147483648 := by decide
    omega
  rw [e, toInt_ofNat_small]
  · have := Int.emod_nonneg x (show ((2 ^ k : Nat) : Int) ≠ 0 by omega)
    omega
  · have hpos : (0 : Int) < ((2 ^ k : Nat) : Int) := by omega
    have := Int.emod_lt_of_pos x hpos
    have : (2:Nat) ^ 31 = 2147483648 := by decide
    omega

theorem cand_ff (x : Int) : cand x 0xFF = x % 256 := cand_mask x 8 (by decide)
theorem cand_ffff (x : Int) : cand x 0xFFFF = x % 65536 := cand_mask x 16 (by decide)

/-- `(x & 0xFF00) >> 8`. -/
theorem cand_ff00 (x : Int) : cand x 0xFF00 / 256 = x % 65536 / 256 := by
  unfold cand
  have e : BitVec.ofInt 32 x &&& BitVec.ofInt 32 0xFF00 =
      BitVec.ofNat 32 ((x % 65536 / 256 * 256).toNat) := by
    apply BitVec.eq_of_toNat_eq
    rw [BitVec.toNat_and, ofInt_toNat, BitVec.toNat_ofNat]
    have h2 : (BitVec.ofInt 32 0xFF00).toNat = (2 ^ 8 - 1) * 2 ^ 8 := by decide
    rw [h2]
    have h3 : (x % 4294967296).toNat &&& (2 ^ 8 - 1) * 2 ^ 8 =
        ((x % 4294967296).toNat / 2 ^ 8 % 2 ^ 8) * 2 ^ 8 := by
      apply Nat.eq_of_testBit_eq
      intro i
      rw [Nat.testBit_and, Nat.testBit_mul_two_pow, Nat.testBit_mul_two_pow]
      rw [Nat.testBit_two_pow_sub_one, Nat.testBit_mod_two_pow, Nat.testBit_div_two_pow]
      by_cases h : 8 ≤ i
      · simp only [h, decide_true, Bool.true_and]
        rw [Nat.sub_add_cancel h]
        exact Bool.and_comm _ _
      · simp [h]
    rw [h3]
    have a1 := Int.emod_nonneg x (show (4294967296 : Int) ≠ 0 by decide)
    omega
  rw [e, toInt_ofNat_small]
  · omega
  · omega

theorem cand_mod (x y : Int) (hy : 0 ≤ y) (h : y < 2147483648) : cand x y ≤ y := by
  unfold cand
  rw [BitVec.toInt_eq_toNat_cond, BitVec.toNat_and, ofInt_toNat, ofInt_toNat]
  have : (x % 4294967296).toNat &&& (y % 4294967296).toNat ≤ (y % 4294967296).toNat := Nat.and_le_right
  split <;> omega

private theorem and_not_mask (x k : Nat) : x &&& (2 ^ 32 - 1 - (2 ^ k - 1)) = x % 2 ^ 32 / 2 ^ k * 2 ^ k ∨ 32 < k := by
  by_cases hk : 32 < k
  · exact Or.inr hk
  · left
    apply Nat.eq_of_testBit_eq
    intro i
    have e : 2 ^ 32 - 1 - (2 ^ k - 1) = (2 ^ (32 - k) - 1) * 2 ^ k := by
      rw [Nat.sub_mul, ← Nat.pow_add]
      have : 32 - k + k = 32 := by omega
      rw [this]
      have : 1 ≤ 2 ^ k := Nat.one_le_two_pow
      omega
    rw [e, Nat.testBit_and, Nat.testBit_mul_two_pow, Nat.testBit_mul_two_pow, Nat.testBit_two_pow_sub_one,
      Nat.testBit_div_two_pow, Nat.testBit_mod_two_pow]
    by_cases h : k ≤ i
    · simp only [h, decide_true, Bool.true_and]
      rw [Nat.sub_add_cancel h]
      have : decide (i - k < 32 - k) = decide (i < 32) := by
        apply decide_eq_decide.mpr; omega
      rw [this]; exact Bool.and_comm _ _
    · simp [h]

/-- `x & ~(2^k-1)` is zero exactly for `0 ≤ x < 2^k`. -/
theorem cand_not_mask {x : Int} (hx : InInt x) (k : Nat) (hk : k ≤ 30) :
    cand x (cnot ((2 ^ k - 1 : Nat) : Int)) = 0 ↔ 0 ≤ x ∧ x < ((2 ^ k : Nat) : Int) := by
  have hp : (2 : Nat) ^ k ≤ 2 ^ 30 := Nat.pow_le_pow_right (by decide) hk
  have h1 : (1 : Nat) ≤ 2 ^ k := Nat.one_le_two_pow
  have p30 : (2:Nat) ^ 30 = 1073741824 := by decide
  unfold cand cnot
  rw [BitVec.ofInt_toInt]
  have z : ∀ b : BitVec 32, b.toInt = 0 ↔ b.toNat = 0 := by
    intro b
    rw [BitVec.toInt_eq_toNat_cond]
    have := b.isLt
    split <;> omega
  rw [z, BitVec.toNat_and, BitVec.toNat_not, ofInt_toNat, ofInt_toNat]
  have : ((((2 ^ k - 1 : Nat) : Int)) % 4294967296).toNat = 2 ^ k - 1 := by omega
  rw [this]
  rcases and_not_mask (x % 4294967296).toNat k with h | h
  · rw [h]
    have hpos : 0 < 2 ^ k := by omega
    have hlt : (x % 4294967296).toNat % 2 ^ 32 = (x % 4294967296).toNat := by omega
    rw [hlt, Nat.mul_eq_zero]
    have : (x % 4294967296).toNat / 2 ^ k = 0 ↔ (x % 4294967296).toNat < 2 ^ k := by
      rw [Nat.div_eq_zero_iff]; omega
    unfold InInt at hx
    constructor
    · rintro (h | h)
      · have := this.mp h; omega
      · omega
    · intro h
      left; rw [this]; omega
  · omega

theorem cand_not_ff {x : Int} (hx : InInt x) : cand x (cnot 0xFF) = 0 ↔ 0 ≤ x ∧ x < 256 :=
  cand_not_mask hx 8 (by decide)
theorem cand_not_ffff {x : Int} (hx : InInt x) : cand x (cnot 0xFFFF) = 0 ↔ 0 ≤ x ∧ x < 65536 :=
  cand_not_mask hx 16 (by decide)

theorem cchk_some {x y : Int} (h : cchk x = some y) : y = x ∧ InInt x := by
  unfold cchk at h; split at h <;> simp_all

theorem cchk_of {x : Int} (h : InInt x) : cchk x = some x := if_pos h

theorem inInt_toInt (b : BitVec 32) : InInt b.toInt := by
  unfold InInt
  have := b.isLt
  rw [BitVec.toInt_eq_toNat_cond]
  split <;> omega

end Verif
