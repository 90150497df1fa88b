import Verif.Lemmas.Pick
import Verif.Lemmas.Assembled

/-! # Properties C07, C10, C11, C41, C47: assembling one instruction

The statements are about `runTop … (.stmt file line (.op ins mode operand))`: building the syntax tree of the line and
expanding it, as the parser does for every line.  The operand value is given by the separate evaluator
`Spec.eval`, the meaning of the bytes by `Spec.Encodes`. -/

namespace Verif

/-! ## C10: the operand -/

/-- **C10** (6502, documented instructions that are not branches, operand values 0..65535).  If the processor has an
instruction with this mnemonic, a mode of this written form and this operand value, then the assembler emits such an
instruction, a shortest one, and reports nothing.  If it has none, the assembler reports an error. -/
theorem C10_operand_value_partial {s : St} {f : Nat} {ins : Int} {form : Spec.Form} {e : Expr} {v : Int} (file : Str)
    (line : Int) (hs : Ready s) (hcpu : s.cpu = .c6502) (h0 : 0 ≤ ins) (hd : ins < Ins._slo)
    (hbr : getOpCode .c6502 s.allowIllegal ins .r = -1)
    (hf : e.depth + 1 < f) (hv : Spec.eval (envOf s) s.pc e = some (v, false)) (hc : e.complete (envOf s) s.pc = true)
    (hv0 : 0 ≤ v) (hv1 : v ≤ 65535) :
    ((∃ bs, Spec.Encodes Spec.decode6502 (instrNames[ins.toNat]?.getD "") form s.pc v bs) →
      ∃ s' bs, runTop (expandNode (f + 1)) (hasUninit (f + 1)) (.stmt file line (.op ins (Form.mode form) (some e))) s =
          (.ok true, s') ∧
        Assembled s s' bs ∧ Spec.Encodes Spec.decode6502 (instrNames[ins.toNat]?.getD "") form s.pc v bs ∧
        ∀ bs', Spec.Encodes Spec.decode6502 (instrNames[ins.toNat]?.getD "") form s.pc v bs' →
          bs.length ≤ bs'.length) ∧
    ((¬ ∃ bs, Spec.Encodes Spec.decode6502 (instrNames[ins.toNat]?.getD "") form s.pc v bs) →
      (s.finalPass = true → 0 ≤ s.totalBytes) →
      s.errorCount < (runTop (expandNode (f + 1)) (hasUninit (f + 1))
        (.stmt file line (.op ins (Form.mode form) (some e))) s).2.errorCount) := by
  have hF := faithful_6502 s.allowIllegal ins h0 hd form
  have hshape : (opShape (Form.mode form)).1 > 0 ∧ Form.mode form ≠ .r := by cases form <;> decide
  rw [← hcpu] at hbr hF
  constructor
  · intro hex
    cases hen : encode (getOpCode s.cpu s.allowIllegal ins) (Form.mode form) s.pc v with
    | none => exact absurd hex (encode_complete hF hbr hv0 (by omega) hen)
    | some mc =>
      obtain ⟨m, c⟩ := mc
      obtain ⟨s', r, a⟩ := opStmt_run file line hf hs.running hs.heap hv hc hen hs.room
      obtain ⟨h1, h2⟩ := encode_sound hF hbr hv0 (by omega) hen
      exact ⟨s', _, r, a.assembled (instrBytes_len ..), h1, h2⟩
  · intro hno ht
    cases hen : encode (getOpCode s.cpu s.allowIllegal ins) (Form.mode form) s.pc v with
    | none => exact opStmt_reject file line hf hs.running hs.heap ht hv hc hbr hshape.1 hshape.2 hen
    | some mc =>
      obtain ⟨m, c⟩ := mc
      exact absurd ⟨_, (encode_sound hF hbr hv0 (by omega) hen).1⟩ hno

/-- The witness state: pass 1 of an empty program at $1000. -/
private def s0 : St := { pc := 0x1000, origin := 0x1000 }

example : Ready s0 ∧ Spec.eval (envOf s0) s0.pc (.bin .add (.int 0x12) (.int 0x1200)) = some (0x1212, false) ∧
    (Expr.bin .add (.int 0x12) (.int 0x1200)).complete (envOf s0) s0.pc = true ∧
    getOpCode .c6502 false Ins._lda .r = -1 :=
  ⟨⟨by decide, by decide, by decide⟩, by decide +kernel, by decide +kernel, by decide +kernel⟩
example : Spec.Encodes Spec.decode6502 "lda" .dirX 0x1000 0x1212 [0xBD, 0x12, 0x12] :=
  ⟨by unfold Spec.Bytes; decide, _, _, .absoluteX, rfl, by decide +kernel, by decide,
    (denotes_ne (by decide) ..).2 (by decide)⟩

/-- **C10** (65C02, documented instructions except branches, `bbr` and `bbs`).  Missing besides: the `(v)` form, see
`C04_false_65C02`. -/
theorem C10_operand_value_65C02_partial {s : St} {f : Nat} {ins : Int} {form : Spec.Form} {e : Expr} {v : Int}
    (file : Str) (line : Int) (hs : Ready s) (hcpu : s.cpu = .c65C02) (h0 : 0 ≤ ins) (hd : ins < Ins._slo)
    (hb : ¬ (Ins._bbr0 ≤ ins ∧ ins ≤ Ins._bbs7)) (hform : form ≠ .ind)
    (hbr : getOpCode .c65C02 s.allowIllegal ins .r = -1)
    (hf : e.depth + 1 < f) (hv : Spec.eval (envOf s) s.pc e = some (v, false)) (hc : e.complete (envOf s) s.pc = true)
    (hv0 : 0 ≤ v) (hv1 : v ≤ 65535) :
    ((∃ bs, Spec.Encodes Spec.decode65C02 (instrNames[ins.toNat]?.getD "") form s.pc v bs) →
      ∃ s' bs, runTop (expandNode (f + 1)) (hasUninit (f + 1)) (.stmt file line (.op ins (Form.mode form) (some e))) s =
          (.ok true, s') ∧
        Assembled s s' bs ∧ Spec.Encodes Spec.decode65C02 (instrNames[ins.toNat]?.getD "") form s.pc v bs ∧
        ∀ bs', Spec.Encodes Spec.decode65C02 (instrNames[ins.toNat]?.getD "") form s.pc v bs' →
          bs.length ≤ bs'.length) ∧
    ((¬ ∃ bs, Spec.Encodes Spec.decode65C02 (instrNames[ins.toNat]?.getD "") form s.pc v bs) →
      (s.finalPass = true → 0 ≤ s.totalBytes) →
      s.errorCount < (runTop (expandNode (f + 1)) (hasUninit (f + 1))
        (.stmt file line (.op ins (Form.mode form) (some e))) s).2.errorCount) := by
  have hF := faithful_65C02 s.allowIllegal ins h0 hd hb form hform
  have hshape : (opShape (Form.mode form)).1 > 0 ∧ Form.mode form ≠ .r := by cases form <;> decide
  rw [← hcpu] at hbr hF
  constructor
  · intro hex
    cases hen : encode (getOpCode s.cpu s.allowIllegal ins) (Form.mode form) s.pc v with
    | none => exact absurd hex (encode_complete hF hbr hv0 (by omega) hen)
    | some mc =>
      obtain ⟨m, c⟩ := mc
      obtain ⟨s', r, a⟩ := opStmt_run file line hf hs.running hs.heap hv hc hen hs.room
      obtain ⟨h1, h2⟩ := encode_sound hF hbr hv0 (by omega) hen
      exact ⟨s', _, r, a.assembled (instrBytes_len ..), h1, h2⟩
  · intro hno ht
    cases hen : encode (getOpCode s.cpu s.allowIllegal ins) (Form.mode form) s.pc v with
    | none => exact opStmt_reject file line hf hs.running hs.heap ht hv hc hbr hshape.1 hshape.2 hen
    | some mc =>
      obtain ⟨m, c⟩ := mc
      exact absurd ⟨_, (encode_sound hF hbr hv0 (by omega) hen).1⟩ hno

example : getOpCode .c65C02 false Ins._stz .r = -1 ∧ ¬ (Ins._bbr0 ≤ Ins._stz ∧ Ins._stz ≤ Ins._bbs7) ∧
    Spec.decode65C02 0x64 = some ("stz", .zeroPage) := by decide +kernel

/-- The final pass of an empty program at $1000 with an output file. -/
private def s1 : St :=
  { pc := 0x1000, origin := 0x1000, originSpecified := true, finalPass := true, outputOpen := true }

/-- **C10**, negation: `lda #70000` is accepted without any message and assembled as `lda #112`. -/
theorem C10_false_large :
    (let r := runTop (expandNode 5) (hasUninit 5) (.stmt [] 1 (.op Ins._lda .I (some (.int 70000)))) s1
     r.1 = .ok true ∧ r.2.log = [] ∧ r.2.errorCount = 0 ∧ r.2.out = [0xA9, 112]) ∧
    ∀ bs, ¬ Spec.Encodes Spec.decode6502 "lda" .imm 0x1000 70000 bs := by
  refine ⟨by decide +kernel, ?_⟩
  rintro bs ⟨hb, op, rest, am, rfl, _, ham, hden⟩
  simp only [Spec.Form.modes, List.mem_cons, List.not_mem_nil, or_false] at ham
  subst ham
  rw [denotes_ne (by decide)] at hden
  have := le_lt rest (fun x hx => hb x (List.mem_cons_of_mem _ hx))
  rw [hden.1] at this
  have : Spec.AMode.immediate.operandBytes = 1 := rfl
  simp only [this] at *
  omega

/-- **C10**, second witness: `lda -1` is assembled as `lda $FFFF`. -/
theorem C10_false_negative :
    let r := runTop (expandNode 5) (hasUninit 5) (.stmt [] 1 (.op Ins._lda .a (some (.int (-1))))) s1
    r.1 = .ok true ∧ r.2.log = [] ∧ r.2.out = [0xAD, 0xFF, 0xFF] := by decide +kernel

/-- **C10**, third witness: the operand form of a branch is ignored, `bne #$1010` and `bne ($1010),y` are assembled
like `bne $1010`. -/
theorem C10_false_branch_form : ∀ m ∈ [Mode.I, .izy, .ind, .ax, .a],
    let r := runTop (expandNode 5) (hasUninit 5) (.stmt [] 1 (.op Ins._bne m (some (.int 0x1010)))) s1
    r.1 = .ok true ∧ r.2.log = [] ∧ r.2.out = [0xD0, 0x0E] := by decide +kernel

/-! ## C07: short branches -/

/-- The documented branches of a CPU that take one displacement byte. -/
private theorem branch_name (cpu : Cpu) (ill : Bool) (ins : Int) (hd : ins < Ins._slo)
    (hb : ¬ (Ins._bbr0 ≤ ins ∧ ins ≤ Ins._bbs7)) (hr : getOpCode cpu ill ins .r ≠ -1) :
    (match cpu with | .c6502 => Spec.decode6502 | .c65C02 => Spec.decode65C02) (getOpCode cpu ill ins .r).toNat =
      some (instrNames[ins.toNat]?.getD "", .relative) := by
  cases cpu with
  | c6502 =>
    obtain ⟨am, h1, h2⟩ := C49_encoding_sound_6502 ill ins .r hd hr
    rcases h2 with h2 | h2
    · cases h2; exact h1
    · cases h2.1
  | c65C02 =>
    obtain ⟨am, h1, h2⟩ := C49_encoding_sound_65C02_partial ill ins .r hd (fun h => by cases h) hb hr
    rcases h2 with h2 | h2
    · cases h2; exact h1
    · cases h2.1

/-- What is emitted for a branch whose displacement the assembler accepts. -/
theorem branch_run {s : St} {f : Nat} {ins : Int} {mode0 : Mode} {e : Expr} {v : Int} (file : Str) (line : Int)
    (hs : Ready s) (hr : getOpCode s.cpu s.allowIllegal ins .r ≠ -1)
    (hf : e.depth + 1 < f) (hv : Spec.eval (envOf s) s.pc e = some (v, false)) (hc : e.complete (envOf s) s.pc = true)
    (h1 : -127 ≤ v - (s.pc + 2)) (h2 : v - (s.pc + 2) ≤ 128) :
    ∃ s', runTop (expandNode (f + 1)) (hasUninit (f + 1)) (.stmt file line (.op ins mode0 (some e))) s = (.ok true, s') ∧
      Assembled s s' [(getOpCode s.cpu s.allowIllegal ins .r).toNat, ((v - (s.pc + 2)) % 256).toNat] := by
  have hra := getOpCode_range s.cpu s.allowIllegal ins .r
  have hen := encode_branch (get := getOpCode s.cpu s.allowIllegal ins) (by omega) mode0 s.pc v
  rw [if_neg (by simp [branchBad]; omega)] at hen
  obtain ⟨s', r, a⟩ := opStmt_run file line hf hs.running hs.heap hv hc hen hs.room
  have := a.assembled (instrBytes_len ..)
  have e1 : toBytes (instrBytes .r (getOpCode s.cpu s.allowIllegal ins .r) s.pc v) =
      [(getOpCode s.cpu s.allowIllegal ins .r).toNat, ((v - (s.pc + 2)) % 256).toNat] := by
    show [_, _] = _
    simp only [operandValue, if_true]
    congr 1
    · omega
    · congr 1
      omega
  rw [e1] at this
  exact ⟨s', r, this⟩

/-- **C07** (both CPUs, all documented branches except `bbr`/`bbs`), displacements -127..127: the two emitted bytes
are decoded by the processor as this branch and lead to the target. -/
theorem C07_branch_reaches_target_partial {s : St} {f : Nat} {ins : Int} {e : Expr} {v : Int} (file : Str) (line : Int)
    (hs : Ready s) (hd : ins < Ins._slo) (hb : ¬ (Ins._bbr0 ≤ ins ∧ ins ≤ Ins._bbs7))
    (hr : getOpCode s.cpu s.allowIllegal ins .r ≠ -1)
    (hf : e.depth + 1 < f) (hv : Spec.eval (envOf s) s.pc e = some (v, false)) (hc : e.complete (envOf s) s.pc = true)
    (h1 : -127 ≤ v - (s.pc + 2)) (h2 : v - (s.pc + 2) ≤ 127) :
    ∃ s' bs, runTop (expandNode (f + 1)) (hasUninit (f + 1)) (.stmt file line (.op ins .a (some e))) s = (.ok true, s') ∧
      Assembled s s' bs ∧ bs.length = 2 ∧
      Spec.Encodes (match s.cpu with | .c6502 => Spec.decode6502 | .c65C02 => Spec.decode65C02)
        (instrNames[ins.toNat]?.getD "") .dir s.pc v bs := by
  obtain ⟨s', r, a⟩ := branch_run (mode0 := .a) file line hs hr hf hv hc h1 (by omega)
  have hra := getOpCode_range s.cpu s.allowIllegal ins .r
  refine ⟨s', _, r, a, rfl, ?_, _, _, _, rfl, branch_name s.cpu s.allowIllegal ins hd hb hr, by decide, ?_⟩
  · intro x hx
    simp only [List.mem_cons, List.not_mem_nil, or_false] at hx
    omega
  · unfold Spec.Denotes
    rw [if_pos rfl]
    refine ⟨_, rfl, ?_⟩
    unfold Spec.signed
    split <;> omega

example : Ready s0 ∧ getOpCode s0.cpu s0.allowIllegal Ins._bcs .r ≠ -1 ∧
    Spec.eval (envOf s0) s0.pc (.bin .add .pc (.int (-100))) = some (0x1000 - 100, false) :=
  ⟨⟨by decide, by decide, by decide⟩, by decide +kernel, by decide +kernel⟩

/-- **C07**, negation: displacement +128 is accepted and emitted as $80, so the branch of every such statement lands
256 bytes below its target. -/
theorem C07_false_128 {s : St} {f : Nat} {ins : Int} {e : Expr} {v : Int} (file : Str) (line : Int)
    (hs : Ready s) (hr : getOpCode s.cpu s.allowIllegal ins .r ≠ -1)
    (hf : e.depth + 1 < f) (hv : Spec.eval (envOf s) s.pc e = some (v, false)) (hc : e.complete (envOf s) s.pc = true)
    (h : v = s.pc + 2 + 128) :
    ∃ s' op d, runTop (expandNode (f + 1)) (hasUninit (f + 1)) (.stmt file line (.op ins .a (some e))) s =
        (.ok true, s') ∧ Assembled s s' [op, d] ∧ s.pc + 2 + Spec.signed d = v - 256 := by
  obtain ⟨s', r, a⟩ := branch_run (mode0 := .a) file line hs hr hf hv hc (by omega) (by omega)
  refine ⟨s', _, _, r, a, ?_⟩
  unfold Spec.signed
  split <;> omega

example : Spec.eval (envOf s0) s0.pc (.int 0x1082) = some (0x1082, false) ∧ (0x1082 : Int) = s0.pc + 2 + 128 := by
  decide +kernel

/-! ## C11, C41, C47 -/

/-- An instruction that is accepted in its short form: bytes, listing, and independence of the pass. -/
theorem instr_accepted {s : St} {f : Nat} {ins : Int} {form : Spec.Form} {e : Expr} {v : Int} (file : Str) (line : Int)
    (hs : Ready s) (hf : e.depth + 1 < f) (hv : Spec.eval (envOf s) s.pc e = some (v, false))
    (hc : e.complete (envOf s) s.pc = true) (ht : s.finalPass = true → 0 ≤ s.totalBytes)
    (hshort : getOpCode s.cpu s.allowIllegal ins .r = -1 ∨ (-127 ≤ v - (s.pc + 2) ∧ v - (s.pc + 2) ≤ 128)) :
    (encode (getOpCode s.cpu s.allowIllegal ins) (Form.mode form) s.pc v = none ∧
      s.errorCount < (runTop (expandNode (f + 1)) (hasUninit (f + 1))
        (.stmt file line (.op ins (Form.mode form) (some e))) s).2.errorCount) ∨
    ∃ s' m c, encode (getOpCode s.cpu s.allowIllegal ins) (Form.mode form) s.pc v = some (m, c) ∧
      runTop (expandNode (f + 1)) (hasUninit (f + 1)) (.stmt file line (.op ins (Form.mode form) (some e))) s =
          (.ok true, s') ∧ Assembled s s' (toBytes (instrBytes m c s.pc v)) ∧
      (s.finalPass = true → ∃ e, s'.listing = s.listing ++ [e] ∧
        Spec.Shows file line s.pc (toBytes (instrBytes m c s.pc v)) e) := by
  have hshape : (opShape (Form.mode form)).1 > 0 ∧ Form.mode form ≠ .r := by cases form <;> decide
  cases hen : encode (getOpCode s.cpu s.allowIllegal ins) (Form.mode form) s.pc v with
  | none =>
    left
    refine ⟨rfl, ?_⟩
    by_cases hr : getOpCode s.cpu s.allowIllegal ins .r = -1
    · exact opStmt_reject file line hf hs.running hs.heap ht hv hc hr hshape.1 hshape.2 hen
    · have hra := getOpCode_range s.cpu s.allowIllegal ins .r
      rw [encode_branch (by omega), if_neg (by simp [branchBad]; omega)] at hen
      cases hen
  | some mc =>
    right
    obtain ⟨m, c⟩ := mc
    obtain ⟨s', r, a⟩ := opStmt_run file line hf hs.running hs.heap hv hc hen hs.room
    have hcode := encode_code (fun m => by have := getOpCode_range s.cpu s.allowIllegal ins m; omega) hen
    have hra := getOpCode_range s.cpu s.allowIllegal ins m
    refine ⟨s', m, c, rfl, r, a.assembled (instrBytes_len ..), fun hfp => ?_⟩
    exact ⟨_, by rw [a.listing, if_pos hfp], opRow_shows (s := atLine s file line) (by omega) (by omega) s.pc v⟩

/-- **C11** (instructions with operand).  In a state with an output file and a known origin, an instruction about which
nothing is reported appends as many bytes to the output (besides the header, if it is due) as it advances the location
counter.  Branches: only those assembled in their short form. -/
theorem C11_instruction_partial {s s' : St} {f : Nat} {ins : Int} {form : Spec.Form} {e : Expr} {v : Int} (file : Str)
    (line : Int) (hs : Ready s) (hw : Writes s) (ht : 0 ≤ s.totalBytes)
    (hf : e.depth + 1 < f) (hv : Spec.eval (envOf s) s.pc e = some (v, false)) (hc : e.complete (envOf s) s.pc = true)
    (hshort : getOpCode s.cpu s.allowIllegal ins .r = -1 ∨ (-127 ≤ v - (s.pc + 2) ∧ v - (s.pc + 2) ≤ 128)) {b : Bool}
    (hrun : runTop (expandNode (f + 1)) (hasUninit (f + 1)) (.stmt file line (.op ins (Form.mode form) (some e))) s =
      (.ok b, s')) (herr : s'.errorCount = s.errorCount) :
    ∃ bs, s'.out = s.out ++ (if s.totalBytes = 0 then headerBytes s.format s.origin else []) ++ bs ∧
      s'.pc = s.pc + bs.length ∧ 2 ≤ bs.length ∧ bs.length ≤ 3 := by
  rcases instr_accepted (ins := ins) (form := form) file line hs hf hv hc (fun _ => ht) hshort with h | ⟨s2, m, c, hen, r, a, _⟩
  · rw [hrun] at h
    have h2 := h.2
    simp only [herr] at h2
    omega
  · rw [hrun] at r
    cases r
    refine ⟨_, a.written hw, a.pc, ?_⟩
    have hl := instrBytes_len m c s.pc v
    have : opByteCount m = 1 ∨ opByteCount m = 2 := by
      by_cases hr : getOpCode s.cpu s.allowIllegal ins .r = -1
      · rw [encode_pick (fun m => by have := getOpCode_range s.cpu s.allowIllegal ins m; omega) hr] at hen
        exact (pick_some hen).2.2.2.2.1
      · have hra := getOpCode_range s.cpu s.allowIllegal ins .r
        rw [encode_branch (by omega)] at hen
        split at hen
        · cases hen
        · cases hen
          exact Or.inl rfl
    omega

example : Ready s1 ∧ Writes s1 ∧ (runTop (expandNode 5) (hasUninit 5) (.stmt [] 1 (.op Ins._jmp .a (some .pc))) s1).2.out
    = [0x4C, 0x00, 0x10] :=
  ⟨⟨by decide, by decide, by decide⟩, by unfold Writes; decide, by decide +kernel⟩

/-- **C11** (instructions without operand, and with the accumulator as operand). -/
theorem C11_implied_partial {s : St} {f : Nat} {ins : Int} (file : Str) (line : Int) (hs : Ready s) (hw : Writes s)
    (hr : getOpCode s.cpu s.allowIllegal ins .r = -1) :
    (getOpCode s.cpu s.allowIllegal ins .i ≠ -1 →
      ∃ s' b, runTop (expandNode (f + 1)) (hasUninit (f + 1)) (.stmt file line (.op ins .i none)) s = (.ok true, s') ∧
        s'.out = s.out ++ (if s.totalBytes = 0 then headerBytes s.format s.origin else []) ++ [b] ∧
        s'.pc = s.pc + 1 ∧ s'.log = s.log) ∧
    (∀ nm, nm = [65] ∨ nm = [97] → getOpCode s.cpu s.allowIllegal ins .A ≠ -1 →
      ∃ s' b, runTop (expandNode (f + 2)) (hasUninit (f + 2)) (.stmt file line (.op ins .a (some (.sym nm)))) s =
          (.ok true, s') ∧
        s'.out = s.out ++ (if s.totalBytes = 0 then headerBytes s.format s.origin else []) ++ [b] ∧
        s'.pc = s.pc + 1 ∧ s'.log = s.log) := by
  constructor
  · intro hi
    have hra := getOpCode_range s.cpu s.allowIllegal ins .i
    obtain ⟨s', r, a⟩ := impliedStmt_run (f := f) file line hs.running hs.heap hr (by omega) hs.room
    have := a.assembled rfl
    exact ⟨s', _, r, this.written hw, this.pc, this.log⟩
  · intro nm hA hi
    have hra := getOpCode_range s.cpu s.allowIllegal ins .A
    obtain ⟨s', r, a⟩ := accStmt_run (f := f) file line hA hs.running hs.heap hr (by omega) hs.room
    have := a.assembled rfl
    exact ⟨s', _, r, this.written hw, this.pc, this.log⟩

example : getOpCode s1.cpu s1.allowIllegal Ins._ror .A ≠ -1 ∧ getOpCode s1.cpu s1.allowIllegal Ins._ror .r = -1 ∧
    getOpCode s1.cpu s1.allowIllegal Ins._rts .i ≠ -1 := by decide +kernel

/-- **C41** (instructions with operand, branches in their short form).  The listing line shows exactly the bytes
appended to the output, at the address of the location counter. -/
theorem C41_listing_bytes {s s' : St} {f : Nat} {ins : Int} {form : Spec.Form} {e : Expr} {v : Int} (file : Str)
    (line : Int) (hs : Ready s) (hw : Writes s) (ht : 0 ≤ s.totalBytes)
    (hf : e.depth + 1 < f) (hv : Spec.eval (envOf s) s.pc e = some (v, false)) (hc : e.complete (envOf s) s.pc = true)
    (hshort : getOpCode s.cpu s.allowIllegal ins .r = -1 ∨ (-127 ≤ v - (s.pc + 2) ∧ v - (s.pc + 2) ≤ 128)) {b : Bool}
    (hrun : runTop (expandNode (f + 1)) (hasUninit (f + 1)) (.stmt file line (.op ins (Form.mode form) (some e))) s =
      (.ok b, s')) (herr : s'.errorCount = s.errorCount) :
    ∃ bs, s'.out = s.out ++ (if s.totalBytes = 0 then headerBytes s.format s.origin else []) ++ bs ∧
      ∃ e, s'.listing = s.listing ++ [e] ∧ Spec.Shows file line s.pc bs e := by
  rcases instr_accepted (ins := ins) (form := form) file line hs hf hv hc (fun _ => ht) hshort with h | ⟨s2, m, c, hen, r, a, hl⟩
  · rw [hrun] at h
    have h2 := h.2
    simp only [herr] at h2
    omega
  · rw [hrun] at r
    cases r
    exact ⟨_, a.written hw, hl hw.1⟩

/-- **C41** (instructions without operand, and with the accumulator as operand). -/
theorem C41_listing_implied {s : St} {f : Nat} {ins : Int} (file : Str) (line : Int) (hs : Ready s) (hw : Writes s)
    (hr : getOpCode s.cpu s.allowIllegal ins .r = -1) :
    (getOpCode s.cpu s.allowIllegal ins .i ≠ -1 →
      ∃ (s' : St) (b : Nat), runTop (expandNode (f + 1)) (hasUninit (f + 1)) (.stmt file line (.op ins .i none)) s =
          (.ok true, s') ∧
        s'.out = s.out ++ (if s.totalBytes = 0 then headerBytes s.format s.origin else []) ++ [b] ∧
        ∃ e, s'.listing = s.listing ++ [e] ∧ Spec.Shows file line s.pc [b] e) ∧
    (∀ nm, nm = [65] ∨ nm = [97] → getOpCode s.cpu s.allowIllegal ins .A ≠ -1 →
      ∃ (s' : St) (b : Nat), runTop (expandNode (f + 2)) (hasUninit (f + 2)) (.stmt file line (.op ins .a (some (.sym nm)))) s =
          (.ok true, s') ∧
        s'.out = s.out ++ (if s.totalBytes = 0 then headerBytes s.format s.origin else []) ++ [b] ∧
        ∃ e, s'.listing = s.listing ++ [e] ∧ Spec.Shows file line s.pc [b] e) := by
  constructor
  · intro hi
    have hra := getOpCode_range s.cpu s.allowIllegal ins .i
    obtain ⟨s', r, a⟩ := impliedStmt_run (f := f) file line hs.running hs.heap hr (by omega) hs.room
    have h := a.assembled rfl
    exact ⟨s', _, r, h.written hw, _, by rw [a.listing, if_pos hw.1],
      opRow_shows (s := atLine s file line) (m := .i) (by omega) (by omega) s.pc 0⟩
  · intro nm hA hi
    have hra := getOpCode_range s.cpu s.allowIllegal ins .A
    obtain ⟨s', r, a⟩ := accStmt_run (f := f) file line hA hs.running hs.heap hr (by omega) hs.room
    have h := a.assembled rfl
    exact ⟨s', _, r, h.written hw, _, by rw [a.listing, if_pos hw.1],
      opRow_shows (s := atLine s file line) (m := .A) (by omega) (by omega) s.pc 0⟩

example : ((runTop (expandNode 5) (hasUninit 5) (.stmt [] 7 (.op Ins._ldx .ay (some (.int 0x200)))) s1).2.listing).map
    (fun l => (l.line, l.output)) = [(7, cstr! "$1000: $BE $00 $02       ldx $0200,y ")] := by decide +kernel

/-- **C47** (instructions with operand; branches in their short form; `C47_stable_size` covers the others too).  In any two states (of whatever passes) in
which the operand has the same value and all its symbols are defined - for branches also at the same address - the
statement either is rejected in both or assembled to the same bytes, listing included. -/
theorem C47_short {s t : St} {f : Nat} {ins : Int} {form : Spec.Form} {e : Expr} {v : Int} (file : Str)
    (line : Int) (hs : Ready s) (ht : Ready t) (hs0 : s.finalPass = true → 0 ≤ s.totalBytes)
    (ht0 : t.finalPass = true → 0 ≤ t.totalBytes) (hcpu : s.cpu = t.cpu) (hill : s.allowIllegal = t.allowIllegal)
    (hf : e.depth + 1 < f)
    (hv : Spec.eval (envOf s) s.pc e = some (v, false)) (hc : e.complete (envOf s) s.pc = true)
    (hv' : Spec.eval (envOf t) t.pc e = some (v, false)) (hc' : e.complete (envOf t) t.pc = true)
    (hshort : getOpCode s.cpu s.allowIllegal ins .r = -1 ∨
      (t.pc = s.pc ∧ -127 ≤ v - (s.pc + 2) ∧ v - (s.pc + 2) ≤ 128)) :
    (s.errorCount < (runTop (expandNode (f + 1)) (hasUninit (f + 1))
        (.stmt file line (.op ins (Form.mode form) (some e))) s).2.errorCount ∧
      t.errorCount < (runTop (expandNode (f + 1)) (hasUninit (f + 1))
        (.stmt file line (.op ins (Form.mode form) (some e))) t).2.errorCount) ∨
    ∃ s' t' bs,
      runTop (expandNode (f + 1)) (hasUninit (f + 1)) (.stmt file line (.op ins (Form.mode form) (some e))) s =
        (.ok true, s') ∧
      runTop (expandNode (f + 1)) (hasUninit (f + 1)) (.stmt file line (.op ins (Form.mode form) (some e))) t =
        (.ok true, t') ∧
      Assembled s s' bs ∧ Assembled t t' bs ∧
      (s.finalPass = true → ∃ e, s'.listing = s.listing ++ [e] ∧ Spec.Shows file line s.pc bs e) := by
  have henc : encode (getOpCode t.cpu t.allowIllegal ins) (Form.mode form) t.pc v =
      encode (getOpCode s.cpu s.allowIllegal ins) (Form.mode form) s.pc v := by
    rw [← hcpu, ← hill]
    rcases hshort with h | h
    · have hg := fun m => show getOpCode s.cpu s.allowIllegal ins m = -1 ∨ 0 ≤ getOpCode s.cpu s.allowIllegal ins m by
        have := getOpCode_range s.cpu s.allowIllegal ins m; omega
      rw [encode_pick hg h, encode_pick hg h]
    · rw [h.1]
  have hbytes : ∀ m c, encode (getOpCode s.cpu s.allowIllegal ins) (Form.mode form) s.pc v = some (m, c) →
      instrBytes m c t.pc v = instrBytes m c s.pc v := by
    intro m c h
    rcases hshort with hr | hr
    · have hg := fun m => show getOpCode s.cpu s.allowIllegal ins m = -1 ∨ 0 ≤ getOpCode s.cpu s.allowIllegal ins m by
        have := getOpCode_range s.cpu s.allowIllegal ins m; omega
      rw [encode_pick hg hr] at h
      have := (pick_some h).2.2.2.1
      unfold instrBytes operandValue
      rw [if_neg this, if_neg this]
    · rw [hr.1]
  have h1 := instr_accepted (ins := ins) (form := form) file line hs hf hv hc hs0 (hshort.imp id (fun h => h.2))
  have h2 := instr_accepted (ins := ins) (form := form) file line ht hf hv' hc' ht0
    (by rw [← hcpu, ← hill]; exact hshort.imp id (fun h => by rw [h.1]; exact h.2))
  rw [henc] at h2
  rcases h1 with ⟨e1, h1⟩ | ⟨s', m, c, e1, r1, a1, l1⟩
  · rcases h2 with ⟨_, h2⟩ | ⟨t', m', c', e2, _⟩
    · exact Or.inl ⟨h1, h2⟩
    · rw [e1] at e2; cases e2
  · rcases h2 with ⟨e2, _⟩ | ⟨t', m', c', e2, r2, a2, _⟩
    · rw [e1] at e2; cases e2
    · rw [e1] at e2
      cases e2
      rw [hbytes m c e1] at a2
      exact Or.inr ⟨s', t', _, r1, r2, a1, a2, l1⟩

example : Ready s0 ∧ Ready s1 ∧ s0.cpu = s1.cpu ∧ Spec.eval (envOf s0) s0.pc (.int 7) = some (7, false) ∧
    Spec.eval (envOf s1) s1.pc (.int 7) = some (7, false) :=
  ⟨⟨by decide, by decide, by decide⟩, ⟨by decide, by decide, by decide⟩, by decide, by decide +kernel, by decide +kernel⟩

/-- **C47** (instructions without operand, and with the accumulator as operand): one byte, the same in all states. -/
theorem C47_implied {s t : St} {f : Nat} {ins : Int} (file : Str) (line : Int) (hs : Ready s) (ht : Ready t)
    (hcpu : s.cpu = t.cpu) (hill : s.allowIllegal = t.allowIllegal) (hr : getOpCode s.cpu s.allowIllegal ins .r = -1) :
    (getOpCode s.cpu s.allowIllegal ins .i ≠ -1 →
      ∃ s' t' b, runTop (expandNode (f + 1)) (hasUninit (f + 1)) (.stmt file line (.op ins .i none)) s = (.ok true, s') ∧
        runTop (expandNode (f + 1)) (hasUninit (f + 1)) (.stmt file line (.op ins .i none)) t = (.ok true, t') ∧
        Assembled s s' [b] ∧ Assembled t t' [b]) ∧
    (∀ nm, nm = [65] ∨ nm = [97] → getOpCode s.cpu s.allowIllegal ins .A ≠ -1 →
      ∃ s' t' b, runTop (expandNode (f + 2)) (hasUninit (f + 2)) (.stmt file line (.op ins .a (some (.sym nm)))) s =
          (.ok true, s') ∧
        runTop (expandNode (f + 2)) (hasUninit (f + 2)) (.stmt file line (.op ins .a (some (.sym nm)))) t = (.ok true, t') ∧
        Assembled s s' [b] ∧ Assembled t t' [b]) := by
  have hr' : getOpCode t.cpu t.allowIllegal ins .r = -1 := by rw [← hcpu, ← hill]; exact hr
  constructor
  · intro hi
    have hra := getOpCode_range s.cpu s.allowIllegal ins .i
    obtain ⟨s', r, a⟩ := impliedStmt_run (f := f) file line hs.running hs.heap hr (by omega) hs.room
    obtain ⟨t', r', a'⟩ := impliedStmt_run (f := f) file line ht.running ht.heap hr'
      (by rw [← hcpu, ← hill]; omega) ht.room
    have h := a.assembled rfl
    have h' := a'.assembled rfl
    rw [← hcpu, ← hill] at h'
    exact ⟨s', t', _, r, r', h, h'⟩
  · intro nm hA hi
    have hra := getOpCode_range s.cpu s.allowIllegal ins .A
    obtain ⟨s', r, a⟩ := accStmt_run (f := f) file line hA hs.running hs.heap hr (by omega) hs.room
    obtain ⟨t', r', a'⟩ := accStmt_run (f := f) file line hA ht.running ht.heap hr'
      (by rw [← hcpu, ← hill]; omega) ht.room
    have h := a.assembled rfl
    have h' := a'.assembled rfl
    rw [← hcpu, ← hill] at h'
    exact ⟨s', t', _, r, r', h, h'⟩

example : Ready s0 ∧ Ready s1 ∧ getOpCode s0.cpu s0.allowIllegal Ins._asl .r = -1 ∧
    getOpCode s0.cpu s0.allowIllegal Ins._asl .A ≠ -1 :=
  ⟨⟨by decide, by decide, by decide⟩, ⟨by decide, by decide, by decide⟩, by decide +kernel, by decide +kernel⟩

end Verif
