import Verif.Model.Opcodes
import Verif.Spec.Cpu

/-! Helper lemmas about the opcode tables. -/

namespace Verif

/-- All (instruction, mode number, opcode) triples of a table with a non-negative entry. -/
def tableEntries (t : List (Int × List Int)) : List (Int × Int × Int) :=
  (t.zipIdx.map fun (row, k) =>
    (row.2.zipIdx.filter fun (v, _) => decide (0 ≤ v)).map fun (v, m) =>
      ((k : Int), (m : Int), v)).flatten

theorem mem_tableEntries {t : List (Int × List Int)} {ins mode v : Int}
    (h : tableRead t ins mode = some v) (hv : 0 ≤ v) : (ins, mode, v) ∈ tableEntries t := by
  unfold tableRead at h
  split at h
  · rename_i hb
    split at h
    · rename_i row hrow
      simp only [tableEntries, List.mem_flatten, List.mem_map]
      refine ⟨_, ⟨(row, ins.toNat), ?_, rfl⟩, ?_⟩
      · rw [List.mk_mem_zipIdx_iff_getElem?]; exact hrow
      · simp only [List.mem_map, List.mem_filter]
        refine ⟨(v, mode.toNat), ⟨?_, by simpa using hv⟩, ?_⟩
        · rw [List.mk_mem_zipIdx_iff_getElem?]; exact h
        · simp only [Int.toNat_of_nonneg hb.1, Int.toNat_of_nonneg hb.2]
    · cases h
  · cases h

/-- Every row of both tables has fifteen columns with entries -1 or a byte. -/
def tableOk (t : List (Int × List Int)) : Bool :=
  t.length == 118 && t.all fun row =>
    row.2.length == 15 && row.2.all fun v => v == -1 || (decide (0 ≤ v) && decide (v ≤ 255))

theorem ops6502_ok : tableOk ops6502 = true := by decide +kernel
theorem ops65c02_ok : tableOk ops65c02 = true := by decide +kernel

theorem tableRead_ok {t : List (Int × List Int)} (ht : tableOk t = true) {ins mode : Int}
    (hi : 0 ≤ ins) (hi' : ins < 118) (hm : 0 ≤ mode) (hm' : mode < 15) :
    ∃ v, tableRead t ins mode = some v ∧ (v = -1 ∨ (0 ≤ v ∧ v ≤ 255)) := by
  simp only [tableOk, Bool.and_eq_true, beq_iff_eq, List.all_eq_true, Bool.or_eq_true,
    decide_eq_true_eq] at ht
  obtain ⟨hl, hrows⟩ := ht
  have h1 : ins.toNat < t.length := by omega
  have hr := hrows t[ins.toNat] (List.getElem_mem h1)
  have h2 : mode.toNat < t[ins.toNat].2.length := by omega
  refine ⟨t[ins.toNat].2[mode.toNat], ?_, hr.2 _ (List.getElem_mem h2)⟩
  unfold tableRead
  rw [if_pos ⟨hi, hm⟩, List.getElem?_eq_getElem h1]
  simp only [List.getElem?_eq_getElem h2]

/-- The table used for a CPU. -/
def opsOf : Cpu → List (Int × List Int)
  | .c6502 => ops6502
  | .c65C02 => ops65c02

theorem opsOf_ok (c : Cpu) : tableOk (opsOf c) = true := by
  cases c
  · exact ops6502_ok
  · exact ops65c02_ok

theorem getOpCodeRaw_cases (cpu : Cpu) (ill : Bool) (ins mode : Int) :
    getOpCodeRaw cpu ill ins mode = some (-1) ∨
    (0 ≤ ins ∧ ins < 118 ∧ 0 ≤ mode ∧ mode < 15 ∧
      (ill = true ∨ ins < 98 ∨ cpu = .c65C02) ∧
      getOpCodeRaw cpu ill ins mode = tableRead (opsOf cpu) ins mode) := by
  unfold getOpCodeRaw
  split
  · rename_i h
    simp only [maxOpcode, maxAddressingMode] at h
    split
    · exact Or.inl rfl
    · rename_i h2
      refine Or.inr ⟨by omega, by omega, by omega, by omega, ?_, by cases cpu <;> rfl⟩
      simp only [illegalStart] at h2
      cases cpu <;> cases ill <;> simp at h2 ⊢
      omega
  · exact Or.inl rfl

theorem getOpCodeRaw_some (cpu : Cpu) (ill : Bool) (ins mode : Int) :
    ∃ v, getOpCodeRaw cpu ill ins mode = some v ∧ (v = -1 ∨ (0 ≤ v ∧ v ≤ 255)) := by
  rcases getOpCodeRaw_cases cpu ill ins mode with h | ⟨h1, h2, h3, h4, _, h6⟩
  · exact ⟨-1, h, Or.inl rfl⟩
  · rw [h6]; exact tableRead_ok (opsOf_ok cpu) h1 h2 h3 h4

theorem getOpCode_range (cpu : Cpu) (ill : Bool) (ins : Int) (m : Mode) :
    getOpCode cpu ill ins m = -1 ∨
      (0 ≤ getOpCode cpu ill ins m ∧ getOpCode cpu ill ins m ≤ 255) := by
  obtain ⟨v, h, hv⟩ := getOpCodeRaw_some cpu ill ins m.toInt
  simp only [getOpCode, h, Option.getD_some]; exact hv

/-- An accepted pair is an entry of the table, of a documented instruction if undocumented ones are
switched off (6502). -/
theorem getOpCode_mem {cpu : Cpu} {ill : Bool} {ins : Int} {m : Mode}
    (h : getOpCode cpu ill ins m ≠ -1) :
    (ins, m.toInt, getOpCode cpu ill ins m) ∈ tableEntries (opsOf cpu) ∧
      (ill = true ∨ ins < 98 ∨ cpu = .c65C02) := by
  rcases getOpCodeRaw_cases cpu ill ins m.toInt with h' | ⟨h1, h2, h3, h4, h5, h6⟩
  · simp [getOpCode, h'] at h
  · obtain ⟨v, hv, hr⟩ := tableRead_ok (opsOf_ok cpu) h1 h2 h3 h4
    have : getOpCode cpu ill ins m = v := by simp [getOpCode, h6, hv]
    rw [this] at h ⊢
    refine ⟨mem_tableEntries hv (by omega), h5⟩

theorem modeToInt_inj {m m' : Mode} (h : m.toInt = m'.toInt) : m = m' := by
  cases m <;> cases m' <;> simp [Mode.toInt] at h ⊢

theorem mem_Mode_all (m : Mode) : m ∈ Mode.all := by cases m <;> decide

theorem getOpCode_eq_of_lt {cpu : Cpu} {ins : Int} (h : ins < 98) (m : Mode) (b b' : Bool) :
    getOpCode cpu b ins m = getOpCode cpu b' ins m := by
  have : ¬ illegalStart ≤ ins := by simp [illegalStart]; omega
  unfold getOpCode getOpCodeRaw
  simp [this]

end Verif
