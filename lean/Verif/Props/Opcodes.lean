import Verif.Lemmas.Opcodes

/-! # Properties C01-C04, C49: opcode tables -/

namespace Verif

/-- **C01.** Opcode lookup is total, in bounds, and yields -1 or a byte; -1 outside the ranges. -/
theorem C01_lookup_total (cpu : Cpu) (ill : Bool) (ins mode : Int) :
    (∃ v, getOpCodeRaw cpu ill ins mode = some v ∧ (v = -1 ∨ (0 ≤ v ∧ v ≤ 255))) ∧
    ((ins < 0 ∨ 118 ≤ ins ∨ mode < 0 ∨ 15 ≤ mode) →
      getOpCodeRaw cpu ill ins mode = some (-1)) := by
  refine ⟨getOpCodeRaw_some cpu ill ins mode, fun h => ?_⟩
  rcases getOpCodeRaw_cases cpu ill ins mode with h' | ⟨h1, h2, h3, h4, _, _⟩
  · exact h'
  · omega

example : getOpCodeRaw .c6502 false (-7) 900 = some (-1) := (C01_lookup_total _ _ _ _).2 (by omega)
example : getOpCodeRaw .c6502 false Ins._lda 1 = some 0xA9 := by decide +kernel

/-- Distinct pairs of a table that share an opcode byte belong to the same instruction. -/
private def unambiguous (l : List (Int × Int × Int)) : Bool :=
  l.all fun e => l.all fun e' => e.2.2 != e'.2.2 || e.1 == e'.1

private theorem unambiguous_spec {l : List (Int × Int × Int)} (h : unambiguous l = true)
    {i m v i' m' : Int} (h1 : (i, m, v) ∈ l) (h2 : (i', m', v) ∈ l) : i = i' := by
  simp only [unambiguous, List.all_eq_true, Bool.or_eq_true, bne_iff_ne, beq_iff_eq] at h
  rcases h _ h1 _ h2 with h | h
  · exact absurd rfl h
  · exact h

/-- **C02** (6502, with or without undocumented opcodes).  Equal opcode bytes come from the same
mnemonic. -/
theorem C02_unambiguous_6502 (ill : Bool) (ins ins' : Int) (m m' : Mode)
    (h : getOpCode .c6502 ill ins m ≠ -1)
    (heq : getOpCode .c6502 ill ins m = getOpCode .c6502 ill ins' m') : ins = ins' := by
  have h1 := (getOpCode_mem h).1
  have h2 := (getOpCode_mem (heq ▸ h)).1
  rw [← heq] at h2
  exact unambiguous_spec (l := tableEntries ops6502) (by decide +kernel) h1 h2

example : getOpCode .c6502 true Ins._slo .zp = 7 ∧ getOpCode .c6502 true Ins._slo .zp ≠ -1 := by
  decide +kernel

/-- **C02** (65C02, documented instructions). -/
theorem C02_unambiguous_65C02_partial (ill : Bool) (ins ins' : Int) (m m' : Mode)
    (hd : ins < Ins._slo) (hd' : ins' < Ins._slo)
    (h : getOpCode .c65C02 ill ins m ≠ -1)
    (heq : getOpCode .c65C02 ill ins m = getOpCode .c65C02 ill ins' m') : ins = ins' := by
  have h1 := (getOpCode_mem h).1
  have h2 := (getOpCode_mem (heq ▸ h)).1
  rw [← heq] at h2
  exact unambiguous_spec
    (l := (tableEntries ops65c02).filter fun e => decide (e.1 < 98)) (by decide +kernel)
    (List.mem_filter.2 ⟨h1, by simpa using hd⟩) (List.mem_filter.2 ⟨h2, by simpa using hd'⟩)

example : getOpCode .c65C02 false Ins._bra .r = 0x80 := by decide +kernel

/-- **C02**, negation for the 65C02 as a whole: `stp` and `dcp abs,y` are both encoded as $DB, with
the undocumented-opcode switch off. -/
theorem C02_ambiguous_65C02 :
    ¬ ∀ (ins ins' : Int) (m m' : Mode), getOpCode .c65C02 false ins m ≠ -1 →
      getOpCode .c65C02 false ins m = getOpCode .c65C02 false ins' m' → ins = ins' := by
  intro h
  have := h Ins._stp Ins._dcp .i .ay (by decide +kernel) (by decide +kernel)
  revert this; decide

/-- **C03** (6502). Without the switch no undocumented instruction is encodable. -/
theorem C03_illegal_needs_switch_6502 (ins : Int) (m : Mode) (h : Ins._slo ≤ ins) :
    getOpCode .c6502 false ins m = -1 := by
  apply Classical.byContradiction
  intro hne
  have := (getOpCode_mem hne).2
  simp only [reduceCtorEq, or_false, false_or] at this
  have h98 : (98 : Int) ≤ ins := h
  omega

example : Ins._slo ≤ Ins._lax := by decide

/-- **C03**, second part (both CPUs): the switch does not affect documented instructions. -/
theorem C03_switch_keeps_documented (cpu : Cpu) (ins : Int) (m : Mode) (h : ins < Ins._slo) :
    getOpCode cpu true ins m = getOpCode cpu false ins m :=
  getOpCode_eq_of_lt h m true false

/-- **C03**, third part: with the switch on, every undocumented instruction has an encoding. -/
theorem C03_switch_enables (ins : Int) (h : Ins._slo ≤ ins) (h' : ins < 118) :
    ∃ m, getOpCode .c6502 true ins m ≠ -1 := by
  have key : ∀ k : Fin 20, ∃ m ∈ Mode.all, getOpCode .c6502 true (98 + (k.val : Int)) m ≠ -1 := by
    decide +kernel
  have h98 : (98 : Int) ≤ ins := h
  obtain ⟨m, _, hm⟩ := key ⟨(ins - 98).toNat, by omega⟩
  refine ⟨m, ?_⟩
  have e : (98 : Int) + (((ins - 98).toNat : Nat) : Int) = ins := by omega
  simp only [e] at hm
  exact hm

/-- **C03**, negation for the 65C02: undocumented opcodes are accepted without the switch. -/
theorem C03_false_65C02 :
    ¬ ∀ (cpu : Cpu) (ins : Int) (m : Mode), Ins._slo ≤ ins → getOpCode cpu false ins m = -1 := by
  intro h
  have := h .c65C02 Ins._dcp .ay (by decide)
  revert this; decide +kernel

private def lengthsAgree (len : Nat → Nat) (l : List (Int × Int × Int)) : Bool :=
  l.all fun e => Mode.all.all fun m =>
    m.toInt != e.2.1 || decide (1 + opByteCount m = ((len e.2.2.toNat : Nat) : Int))

private theorem lengthsAgree_spec {len : Nat → Nat} {l : List (Int × Int × Int)}
    (h : lengthsAgree len l = true) {i v : Int} {m : Mode} (hm : (i, m.toInt, v) ∈ l) :
    1 + opByteCount m = ((len v.toNat : Nat) : Int) := by
  simp only [lengthsAgree, List.all_eq_true, Bool.or_eq_true, bne_iff_ne,
    decide_eq_true_eq] at h
  rcases h _ hm m (mem_Mode_all m) with h | h
  · exact absurd rfl h
  · exact h

/-- **C04** (6502, documented and undocumented instructions).  Opcode byte plus operand bytes is the
length the processor uses for that opcode byte. -/
theorem C04_length_6502 (ill : Bool) (ins : Int) (m : Mode)
    (h : getOpCode .c6502 ill ins m ≠ -1) :
    1 + opByteCount m = ((Spec.length6502 (getOpCode .c6502 ill ins m).toNat : Nat) : Int) :=
  lengthsAgree_spec (l := tableEntries ops6502) (by decide +kernel) (getOpCode_mem h).1

example : getOpCode .c6502 false Ins._jmp .ind = 0x6C ∧
    1 + opByteCount .ind = ((Spec.length6502 0x6C : Nat) : Int) := by decide +kernel

/-- **C04** (65C02).  Missing from the full statement: the `(zp)` operands (stored in the tables under
the two-byte indirect mode), `bbr`/`bbs`, and the undocumented instructions. -/
theorem C04_length_65C02_partial (ill : Bool) (ins : Int) (m : Mode)
    (hd : ins < Ins._slo) (hzp : m = .ind → ins = Ins._jmp)
    (hb : ¬ (Ins._bbr0 ≤ ins ∧ ins ≤ Ins._bbs7))
    (h : getOpCode .c65C02 ill ins m ≠ -1) :
    1 + opByteCount m = ((Spec.length65C02 (getOpCode .c65C02 ill ins m).toNat : Nat) : Int) := by
  refine lengthsAgree_spec (l := (tableEntries ops65c02).filter fun e =>
    decide (e.1 < 98) && (e.2.1 != 12 || e.1 == Ins._jmp) &&
      !(decide (Ins._bbr0 ≤ e.1) && decide (e.1 ≤ Ins._bbs7))) (by decide +kernel)
    (i := ins) (List.mem_filter.2 ⟨(getOpCode_mem h).1, ?_⟩)
  simp only [Bool.and_eq_true, decide_eq_true_eq, Bool.or_eq_true, bne_iff_ne, beq_iff_eq,
    Bool.not_eq_true', Bool.and_eq_false_iff, decide_eq_false_iff_not]
  refine ⟨⟨hd, ?_⟩, by omega⟩
  by_cases hm : m = .ind
  · exact Or.inr (hzp hm)
  · left; intro h'; exact hm (modeToInt_inj (m' := .ind) h')

example : getOpCode .c65C02 false Ins._bra .r = 0x80 ∧ Ins._bra < Ins._slo ∧
    (Mode.r = .ind → Ins._bra = Ins._jmp) ∧ ¬ (Ins._bbr0 ≤ Ins._bra ∧ Ins._bra ≤ Ins._bbs7) := by
  decide +kernel

/-- **C04**, negation for the 65C02: `lda (zp)` is emitted as three bytes, the processor reads two. -/
theorem C04_false_65C02 :
    ¬ ∀ (ins : Int) (m : Mode), ins < Ins._slo → getOpCode .c65C02 false ins m ≠ -1 →
      1 + opByteCount m =
        ((Spec.length65C02 (getOpCode .c65C02 false ins m).toNat : Nat) : Int) := by
  intro h
  have := h Ins._lda .ind (by decide) (by decide +kernel)
  revert this; decide +kernel

/-- **C04**, second witness: `bbr0` is emitted as two bytes, the processor reads three. -/
theorem C04_false_bbr :
    getOpCode .c65C02 false Ins._bbr0 .r = 0x0F ∧
      1 + opByteCount .r ≠ ((Spec.length65C02 0x0F : Nat) : Int) := by decide +kernel

/-! ## C49: the encodings are those of the processor documentation -/

/-- The reading of the assembler's mode enumerators as processor addressing modes.  `none` means the
enumerator is one the 6502 does not have. -/
def Mode.spec : Mode → Option Spec.AMode
  | .i => some .implied | .I => some .immediate | .zp => some .zeroPage
  | .zpi => some .zeroPageIndirect | .zpx => some .zeroPageX | .zpy => some .zeroPageY
  | .izx => some .indexedIndirect | .izy => some .indirectIndexed | .a => some .absolute
  | .aix => some .absoluteIndexedIndirect | .ax => some .absoluteX | .ay => some .absoluteY
  | .ind => some .indirect | .r => some .relative | .A => some .accumulator

/-- `decode` agrees with `(mnemonic, mode)`; the shift instructions also accept the accumulator form
written without operand. -/
private def agrees (decode : Nat → Option (String × Spec.AMode)) (op : Nat) (n : String) (m : Mode) :
    Bool :=
  match decode op with
  | some (n', am) => n' == n && (m.spec == some am || (m == .i && am == .accumulator))
  | none => false

private def soundCheck (decode : Nat → Option (String × Spec.AMode)) (l : List (Int × Int × Int)) :
    Bool :=
  l.all fun e => Mode.all.all fun m =>
    m.toInt != e.2.1 || agrees decode e.2.2.toNat (instrNames[e.1.toNat]?.getD "") m

private theorem soundCheck_spec {d} {l : List (Int × Int × Int)}
    (h : soundCheck d l = true) {i v : Int} {m : Mode} (hm : (i, m.toInt, v) ∈ l) :
    agrees d v.toNat (instrNames[i.toNat]?.getD "") m = true := by
  simp only [soundCheck, List.all_eq_true, Bool.or_eq_true, bne_iff_ne] at h
  rcases h _ hm m (mem_Mode_all m) with h | h
  · exact absurd rfl h
  · exact h

/-- **C49**, soundness (6502): the opcode byte emitted for a documented mnemonic and mode is decoded
by the processor as that mnemonic in that mode. -/
theorem C49_encoding_sound_6502 (ill : Bool) (ins : Int) (m : Mode) (hd : ins < Ins._slo)
    (h : getOpCode .c6502 ill ins m ≠ -1) :
    ∃ am, Spec.decode6502 (getOpCode .c6502 ill ins m).toNat =
        some (instrNames[ins.toNat]?.getD "", am) ∧
      (m.spec = some am ∨ (m = .i ∧ am = .accumulator)) := by
  have := soundCheck_spec (d := Spec.decode6502)
    (l := (tableEntries ops6502).filter fun e => decide (e.1 < 98)) (by decide +kernel)
    (i := ins) (List.mem_filter.2 ⟨(getOpCode_mem h).1, by simpa using hd⟩)
  unfold agrees at this
  split at this
  · rename_i n' am heq
    simp only [Bool.and_eq_true, Bool.or_eq_true, beq_iff_eq] at this
    exact ⟨am, by rw [heq, this.1], this.2⟩
  · cases this

example : getOpCode .c6502 false Ins._sta .izy = 0x91 ∧
    Spec.decode6502 0x91 = some ("sta", .indirectIndexed) := by decide +kernel

private def completeCheck (k : Nat) : Bool :=
  match Spec.decode6502 k with
  | none => true
  | some (n, am) => match instrOfName n with
    | none => false
    | some ins => Mode.all.any fun m =>
        m.spec == some am && getOpCode .c6502 false ins m == (k : Int)

/-- **C49**, completeness (6502): every documented instruction of the processor can be written:
its mnemonic is an assembler mnemonic and the lookup yields exactly that opcode byte. -/
theorem C49_encoding_complete_6502 (op : Nat) (hop : op < 256) (n : String) (am : Spec.AMode)
    (h : Spec.decode6502 op = some (n, am)) :
    ∃ (ins : Int) (m : Mode), instrOfName n = some ins ∧ m.spec = some am ∧
      getOpCode .c6502 false ins m = (op : Int) := by
  have := List.all_eq_true.1 (show (List.range 256).all completeCheck = true by decide +kernel)
    op (List.mem_range.2 hop)
  simp only [completeCheck, h] at this
  cases hi : instrOfName n with
  | none => simp [hi] at this
  | some ins =>
    simp only [hi, List.any_eq_true, Bool.and_eq_true, beq_iff_eq] at this
    obtain ⟨m, _, h1, h2⟩ := this
    exact ⟨ins, m, rfl, h1, h2⟩

example : Spec.decode6502 0xB6 = some ("ldx", .zeroPageY) := by decide +kernel

/-- **C49**, soundness (65C02).  Missing: the `(zp)` mode (the table lists it under the absolute
indirect mode) and `bbr`/`bbs` (listed as plain relative). -/
theorem C49_encoding_sound_65C02_partial (ill : Bool) (ins : Int) (m : Mode) (hd : ins < Ins._slo)
    (hzp : m = .ind → ins = Ins._jmp) (hb : ¬ (Ins._bbr0 ≤ ins ∧ ins ≤ Ins._bbs7))
    (h : getOpCode .c65C02 ill ins m ≠ -1) :
    ∃ am, Spec.decode65C02 (getOpCode .c65C02 ill ins m).toNat =
        some (instrNames[ins.toNat]?.getD "", am) ∧
      (m.spec = some am ∨ (m = .i ∧ am = .accumulator)) := by
  have := soundCheck_spec (d := Spec.decode65C02)
    (l := (tableEntries ops65c02).filter fun e =>
      decide (e.1 < 98) && (e.2.1 != 12 || e.1 == Ins._jmp) &&
        !(decide (Ins._bbr0 ≤ e.1) && decide (e.1 ≤ Ins._bbs7))) (by decide +kernel)
    (i := ins) (m := m) (List.mem_filter.2 ⟨(getOpCode_mem h).1, by
      simp only [Bool.and_eq_true, decide_eq_true_eq, Bool.or_eq_true, bne_iff_ne, beq_iff_eq,
        Bool.not_eq_true', Bool.and_eq_false_iff, decide_eq_false_iff_not]
      refine ⟨⟨hd, ?_⟩, by omega⟩
      by_cases hm : m = .ind
      · exact Or.inr (hzp hm)
      · left; intro h'; exact hm (modeToInt_inj (m' := .ind) h')⟩)
  unfold agrees at this
  split at this
  · rename_i n' am heq
    simp only [Bool.and_eq_true, Bool.or_eq_true, beq_iff_eq] at this
    exact ⟨am, by rw [heq, this.1], this.2⟩
  · cases this

example : getOpCode .c65C02 false Ins._stz .ax = 0x9E ∧
    Spec.decode65C02 0x9E = some ("stz", .absoluteX) := by decide +kernel

/-- **C49**, negation for the 65C02: the byte emitted for `lda` in the absolute indirect mode is
decoded as zero-page indirect. -/
theorem C49_false_65C02 :
    getOpCode .c65C02 false Ins._lda .ind = 0xB2 ∧
      Spec.decode65C02 0xB2 = some ("lda", .zeroPageIndirect) ∧
      Mode.spec .ind = some .indirect := by decide +kernel

end Verif
