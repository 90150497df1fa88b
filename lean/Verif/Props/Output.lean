import Verif.Lemmas.OutRun
import Verif.Spec.Bytes

/-! # Properties C05, C06, C13 (single items) -/

namespace Verif

open Spec

/-! ## C05 -/

/-- **C05**, bytes: exactly one byte is appended, the value modulo 256, and nothing else changes. -/
theorem C05_byte (v : Int) (s : St) : ∃ b, writeByte v s =
      (.ok (), { s with out := s.out ++ [b], totalBytes := s.totalBytes + 1 }) ∧
    b < 256 ∧ (b : Int) = v % 256 ∧ b = (BitVec.ofInt 8 v).toNat := by
  refine ⟨(v % 256).toNat, rfl, by omega, by omega, ?_⟩
  rw [BitVec.toNat_ofInt]
  rfl

/-- **C05**, words: exactly two bytes are appended; a little-endian reader decodes them to the value modulo 65536,
for negative values its two's complement. -/
theorem C05_word (v : Int) (s : St) : ∃ bs, writeWord v s =
      (.ok (), { s with out := s.out ++ bs, totalBytes := s.totalBytes + 2 }) ∧
    bs.length = 2 ∧ Bytes bs ∧ (le bs : Int) = v % 65536 ∧ le bs = (BitVec.ofInt 16 v).toNat := by
  refine ⟨_, writeWord_run v s, rfl, ?_, ?_, ?_⟩
  · intro b hb
    simp only [List.mem_cons, List.not_mem_nil, or_false] at hb
    omega
  · simp only [le]
    omega
  · rw [BitVec.toNat_ofInt]
    show _ = (v % 65536).toNat
    simp only [le]
    omega

/-- The value decides the bytes and the bytes decide the value modulo 65536: nothing is lost. -/
theorem C05_injective (v w : Int) (s : St) (h : (writeWord v s).2.out = (writeWord w s).2.out) :
    v % 65536 = w % 65536 := by
  obtain ⟨a, ha, _, _, ea, _⟩ := C05_word v s
  obtain ⟨b, hb, _, _, eb, _⟩ := C05_word w s
  rw [ha, hb] at h
  have := List.append_cancel_left h
  rw [← ea, ← eb, this]

example : (writeWord (-2) {}).2.out = [0xFE, 0xFF] ∧ (writeWord 0x12345 {}).2.out = [0x45, 0x23] := by
  decide +kernel

/-! ## C06 -/

/-- The values a data item of `size` bytes accepts, in bytes and words. -/
def accepted (size v : Int) : Prop :=
  (size = 1 ∧ -254 ≤ v ∧ v ≤ 255) ∨ (size = 2 ∧ -65534 ≤ v ∧ v ≤ 65535)

instance (size v : Int) : Decidable (accepted size v) := by unfold accepted; infer_instance

/-- **C06**, accepted values: exactly the bytes of the value are written, and no error is reported. -/
theorem C06_emit (v : Int) (s : St) (hv : InInt v) (ha : accepted s.dataSize v) :
    ∃ bs, writeDataValue v s = (.ok (), { s with out := s.out ++ bs, totalBytes := s.totalBytes + s.dataSize }) ∧
      (bs.length : Int) = s.dataSize ∧ Bytes bs ∧ (le bs : Int) = v % 256 ^ bs.length := by
  have e1 := cand_not_ff hv
  have e2 := cand_not_ffff hv
  rcases ha with ⟨hd, h1, h2⟩ | ⟨hd, h1, h2⟩
  · refine ⟨[(v % 256).toNat], ?_, by rw [hd]; rfl, ?_, ?_⟩
    · unfold writeDataValue
      rw [getS_bind]
      by_cases hneg : v < 0
      · rw [if_pos ⟨fun h => by omega, hneg⟩, if_neg (by omega), if_neg (by omega), writeByte_run, cand_ff]
        unfold outBytes
        rw [hd, show v % 256 % 256 = v % 256 by omega]
        rfl
      · rw [if_neg (by omega), if_neg (by omega), if_pos (Or.inl hd), writeByte_run]
        unfold outBytes
        rw [hd]
        rfl
    · intro b hb
      simp only [List.mem_cons, List.not_mem_nil, or_false] at hb
      omega
    · simp only [le, List.length_cons, List.length_nil]
      omega
  · refine ⟨[(v % 256).toNat, (v % 65536 / 256).toNat], ?_, by rw [hd]; rfl, ?_, ?_⟩
    · unfold writeDataValue
      rw [getS_bind]
      have w : writeWord v s = (.ok (), { s with
          out := s.out ++ [(v % 256).toNat, (v % 65536 / 256).toNat], totalBytes := s.totalBytes + s.dataSize }) := by
        have e : s.totalBytes + s.dataSize = s.totalBytes + 2 := by rw [hd]
        rw [writeWord_run, e]
        rfl
      by_cases hneg : v < 0
      · rw [if_pos ⟨fun h => by omega, hneg⟩, if_pos (by omega), if_neg (by omega), w]
      · rw [if_neg (by omega), if_neg (by omega), if_neg (by omega), w]
    · intro b hb
      simp only [List.mem_cons, List.not_mem_nil, or_false] at hb
      omega
    · simp only [le, List.length_cons, List.length_nil]
      omega

/-- **C06**, other values: exactly one error, nothing is written. -/
theorem C06_reject (v : Int) (s : St) (hv : InInt v) (hs : s.dataSize = 1 ∨ s.dataSize = 2)
    (ha : ¬ accepted s.dataSize v) :
    writeDataValue v s = (.ok (), { s with errorCount := s.errorCount + 1, log := s.log ++ [.valueOutOfRange] }) := by
  have e1 := cand_not_ff hv
  have e2 := cand_not_ffff hv
  unfold accepted at ha
  have e : error .valueOutOfRange s = (.ok (), { s with
      errorCount := s.errorCount + 1, log := s.log ++ [.valueOutOfRange] }) := rfl
  unfold writeDataValue
  rw [getS_bind]
  rcases hs with hd | hd
  · by_cases hneg : v < 0
    · rw [if_pos ⟨fun h => by omega, hneg⟩, if_neg (by omega), if_pos (by omega), e]
    · rw [if_neg (by omega), if_pos (by omega), e]
  · by_cases hneg : v < 0
    · rw [if_pos ⟨fun h => by omega, hneg⟩, if_pos (by omega), if_pos (by omega), e]
    · rw [if_neg (by omega), if_pos (by omega), e]

example : accepted 1 (-254) ∧ ¬ accepted 1 (-255) ∧ ¬ accepted 1 300 ∧ accepted 2 300 ∧ InInt 300 := by decide

/-- **C06 fails for the directive as a whole**: the listing of `.byte 300`, produced before the item is written,
frees its line buffer and prints it, so the behaviour is undefined (node.cc:1684-1689). -/
theorem C06_directive_false : (runPass 20 [[.stmt [97] 1 (.org (.int 0x1000)),
    .stmt [97] 2 (.data 1 (.expr (.int 300)) [])]] true true {}).1 = .ub := by
  decide +kernel

/-! ## C13, single items -/

/-- **C13**, one item of any kind in any state with room for it (otherwise the assembler stops): a header precedes
the item exactly when the format is C64 and nothing has been written yet; it is the origin in little-endian
order. -/
theorem C13_item (f : Nat) (p : Ptr) (s : St) (hf : s.finalPass = true) (ho : s.outputOpen = true)
    (hs : s.originSpecified = true) (h0 : 0 ≤ s.totalBytes) :
    ∃ hdr rest, (generateOutput (expandNode f) p s).2.out = s.out ++ hdr ++ rest ∧
      (s.format = .c64 ∧ s.totalBytes = 0 → hdr.length = 2 ∧ Bytes hdr ∧ (le hdr : Int) = s.origin % 65536) ∧
      (s.format = .bin ∨ s.totalBytes ≠ 0 → hdr = []) := by
  obtain ⟨d, hd⟩ := withHeader_eq s
  refine ⟨if s.totalBytes = 0 then headerBytes s.format s.origin else [], ?_⟩
  have hpre : s.out ++ (if s.totalBytes = 0 then headerBytes s.format s.origin else []) <+:
      (generateOutput (expandNode f) p s).2.out := by
    have h := (generateOutput_steps (T := fun _ => true) (expandNode_pr true true f) p s hf ho hs h0).frame.out
    rw [hd] at h
    exact h
  obtain ⟨rest, hr⟩ := hpre
  refine ⟨rest, hr.symm, ?_, ?_⟩
  · intro ⟨h1, h2⟩
    rw [if_pos h2, h1]
    refine ⟨rfl, ?_, ?_⟩
    · intro b hb
      simp only [headerBytes, List.mem_cons, List.not_mem_nil, or_false] at hb
      omega
    · simp only [headerBytes, le]
      omega
  · rintro (h | h)
    · rw [h]
      split <;> rfl
    · rw [if_neg h]

end Verif
