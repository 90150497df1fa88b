import Verif.Lemmas.LongBranch
import Verif.Lemmas.Repeat
import Verif.Props.Instr
import Verif.Spec.Exec

/-! # Properties C08, C09: branches that are out of range -/

namespace Verif

/-- The location counter `*` occurs in the expression. -/
def Expr.usesPc : Expr → Bool
  | .pc => true
  | .un _ e => e.usesPc
  | .bin _ a b => a.usesPc || b.usesPc
  | _ => false

theorem eval_noPc {env : Str → Option Int} {pc pc' : Int} : ∀ {e : Expr}, e.usesPc = false →
    Spec.eval env pc e = Spec.eval env pc' e
  | .int _, _ => rfl
  | .sym _, _ => rfl
  | .pc, h => by cases h
  | .un op e, h => by
    simp only [Expr.usesPc] at h
    simp only [Spec.eval]
    rw [eval_noPc (e := e) (pc := pc) (pc' := pc') h]
  | .bin op a b, h => by
    simp only [Expr.usesPc, Bool.or_eq_false_iff] at h
    have ha := eval_noPc (env := env) (e := a) (pc := pc) (pc' := pc') h.1
    have hb := eval_noPc (env := env) (e := b) (pc := pc) (pc' := pc') h.2
    cases op <;> simp only [Spec.eval] <;> rw [ha, hb]

/-- The instruction set of a processor. -/
def decodeCpu : Cpu → Nat → Option (String × Spec.AMode)
  | .c6502 => Spec.decode6502
  | .c65C02 => Spec.decode65C02

theorem branch_decode (cpu : Cpu) (ill : Bool) (ins : Int) (hd : ins < Ins._slo)
    (hb : ¬ (Ins._bbr0 ≤ ins ∧ ins ≤ Ins._bbs7)) (hr : getOpCode cpu ill ins .r ≠ -1) :
    decodeCpu cpu (getOpCode cpu ill ins .r).toNat = some (instrNames[ins.toNat]?.getD "", .relative) := by
  cases cpu with
  | c6502 =>
    obtain ⟨am, h1, h2⟩ := C49_encoding_sound_6502 ill ins .r hd hr
    rcases h2 with h2 | h2
    · cases h2; exact h1
    · cases h2.1
  | c65C02 =>
    obtain ⟨am, h1, h2⟩ := C49_encoding_sound_65C02_partial ill ins .r hd (fun h => by cases h) hb hr
    rcases h2 with h2 | h2
    · cases h2; exact h1
    · cases h2.1

theorem jmp_decode (cpu : Cpu) : decodeCpu cpu 0x4C = some ("jmp", .absolute) := by cases cpu <;> decide +kernel

/-- Execution of a branch over a `jmp`. -/
theorem exec_long {cpu : Cpu} {mem : Nat → Nat} {p : Spec.Proc} {c v : Int} {name : String} {t : Bool}
    (hdec : decodeCpu cpu c.toNat = some (name, .relative)) (ht : p.taken name = some t)
    (hm : Spec.Holds mem p.pc [c.toNat, 3, 0x4C, (v % 256).toNat, (v / 256 % 256).toNat]) (hpc : p.pc + 5 ≤ 65535)
    (h0 : 0 ≤ v) (h1 : v ≤ 65535) :
    Spec.ReachesIn (decodeCpu cpu) mem p.pc (p.pc + 5) p { p with pc := if t then p.pc + 5 else v.toNat } := by
  have m0 := hm 0 (by simp)
  have m1 := hm 1 (by simp)
  have m2 := hm 2 (by simp)
  have m3 := hm 3 (by simp)
  have m4 := hm 4 (by simp)
  simp only [List.getElem_cons_zero, List.getElem_cons_succ, Nat.add_zero] at m0 m1 m2 m3 m4
  have s1 : Spec.step (decodeCpu cpu) mem p = some { p with pc := if t then p.pc + 5 else p.pc + 2 } := by
    unfold Spec.step
    rw [m0, hdec, m1]
    simp only [ht, Option.map_some]
    cases t with
    | true =>
      simp only [if_true, Spec.signed]
      congr 2
      omega
    | false =>
      simp only [Bool.false_eq_true, if_false, Spec.Proc.next]
      congr 2
      omega
  refine .next (Nat.le_refl _) (by omega) s1 ?_
  cases t with
  | true => exact .refl _
  | false =>
    simp only [Bool.false_eq_true, if_false]
    refine .next (show p.pc ≤ p.pc + 2 by omega) (show p.pc + 2 < p.pc + 5 by omega) (q := { p with pc := v.toNat }) ?_ (.refl _)
    unfold Spec.step
    simp only [m2, m3, m4, jmp_decode]
    congr 2
    omega

/-- What a branch out of range is assembled into, and what the emitted bytes do: the branch instruction
`invertBranch ins` jumps over a `jmp` to the target. -/
theorem long_run {s : St} {f : Nat} {ins : Int} {e : Expr} {v v2 : Int} (file : Str) (line : Int)
    (hs : Ready s) (ht0 : 0 ≤ s.totalBytes) (hr : getOpCode s.cpu s.allowIllegal ins .r ≠ -1)
    (hr2 : getOpCode s.cpu s.allowIllegal (invertBranch ins) .r ≠ -1) (hd : invertBranch ins < Ins._slo)
    (hb : ¬ (Ins._bbr0 ≤ invertBranch ins ∧ invertBranch ins ≤ Ins._bbs7))
    (hf : e.depth + 1 < f) (hv : Spec.eval (envOf s) s.pc e = some (v, false)) (hc : e.complete (envOf s) s.pc = true)
    (hv2 : Spec.eval (envOf s) (s.pc + 2) e = some (v2, false)) (hz : v = 0 → ∀ n, e ≠ .sym (64 :: n))
    (h20 : 0 ≤ v2) (h21 : v2 ≤ 65535)
    (hv0 : 0 ≤ v) (hv1 : v ≤ 65535) (hp0 : 0 ≤ s.pc) (hp1 : s.pc + 5 ≤ 65535)
    (hfar : v - (s.pc + 2) < -127 ∨ 128 < v - (s.pc + 2)) :
    ∃ s' bs, runTop (expandNode (f + 1)) (hasUninit (f + 1)) (.stmt file line (.op ins .a (some e))) s = (.ok true, s') ∧
      bs.length = 5 ∧ s'.pc = s.pc + 5 ∧ s'.errorCount = s.errorCount ∧
      (Writes s → s'.out = s.out ++ (if s.totalBytes = 0 then headerBytes s.format s.origin else []) ++ bs) ∧
      ∀ (mem : Nat → Nat) (p : Spec.Proc) (t : Bool), p.pc = s.pc.toNat → Spec.Holds mem p.pc bs →
        p.taken (instrNames[(invertBranch ins).toNat]?.getD "") = some t →
          Spec.ReachesIn (decodeCpu s.cpu) mem p.pc (p.pc + 5) p { p with pc := if t then p.pc + 5 else v2.toNat } := by
  have hra := getOpCode_range s.cpu s.allowIllegal (invertBranch ins) .r
  obtain ⟨s'', r, a⟩ := longStmt_run (mode0 := .a) file line hf hs.running hs.heap hv hc hr hv2 hz
    (by unfold InInt; omega) (by simp only [branchBad, Bool.or_eq_true, decide_eq_true_eq]; omega) hr2
    (by unfold InInt; omega) ht0 hs.room
  rw [longBytes_eq (by omega) (by omega)] at a
  have as := a.assembled (by rfl)
  have hw : warned s'' = { s'' with warningCount := (warned s'').warningCount, log := (warned s'').log } := by
    unfold warned
    split <;> rfl
  refine ⟨warned s'', [(getOpCode s.cpu s.allowIllegal (invertBranch ins) .r).toNat, 3, 0x4C, (v2 % 256).toNat,
    (v2 / 256 % 256).toNat], r, rfl, ?_, ?_, ?_, ?_⟩
  · rw [hw]; exact as.pc
  · rw [hw]; exact as.errors
  · rw [hw]; exact as.written
  · intro mem p t hpp hm ht
    exact exec_long (branch_decode s.cpu s.allowIllegal (invertBranch ins) hd hb hr2) ht hm (by omega) h20 h21

/-- The branches the assembler inverts. -/
def invertible (ins : Int) : Prop :=
  ins = Ins._bcc ∨ ins = Ins._bcs ∨ ins = Ins._beq ∨ ins = Ins._bne ∨ ins = Ins._bmi ∨ ins = Ins._bpl

/-- **C08** (`bcc`, `bcs`, `beq`, `bne`, `bmi`, `bpl`; target expressions without `*`).  A branch whose displacement is
below -127 or above 128 is assembled into five bytes, without error.  Executing them on either processor, from any
state of flags and registers, leads to the target when the branch written in the source is taken in that state, and
to the next instruction otherwise, with flags and registers unchanged. -/
theorem C08_long_branch_partial {s : St} {f : Nat} {ins : Int} {e : Expr} {v : Int} (file : Str) (line : Int)
    (hs : Ready s) (ht0 : 0 ≤ s.totalBytes) (hins : invertible ins)
    (hf : e.depth + 1 < f) (hv : Spec.eval (envOf s) s.pc e = some (v, false)) (hc : e.complete (envOf s) s.pc = true)
    (hpc : e.usesPc = false) (hz : v = 0 → ∀ n, e ≠ .sym (64 :: n))
    (hv0 : 0 ≤ v) (hv1 : v ≤ 65535) (hp0 : 0 ≤ s.pc) (hp1 : s.pc + 5 ≤ 65535)
    (hfar : v - (s.pc + 2) < -127 ∨ 128 < v - (s.pc + 2)) :
    ∃ s' bs, runTop (expandNode (f + 1)) (hasUninit (f + 1)) (.stmt file line (.op ins .a (some e))) s = (.ok true, s') ∧
      bs.length = 5 ∧ s'.pc = s.pc + 5 ∧ s'.errorCount = s.errorCount ∧
      (Writes s → s'.out = s.out ++ (if s.totalBytes = 0 then headerBytes s.format s.origin else []) ++ bs) ∧
      ∀ (mem : Nat → Nat) (p : Spec.Proc), p.pc = s.pc.toNat → Spec.Holds mem p.pc bs →
        ∃ t, p.taken (instrNames[ins.toNat]?.getD "") = some t ∧
          Spec.ReachesIn (decodeCpu s.cpu) mem p.pc (p.pc + 5) p { p with pc := if t then v.toNat else p.pc + 5 } := by
  have tab : ∀ cpu ill, ∀ i ∈ [Ins._bcc, Ins._bcs, Ins._beq, Ins._bne, Ins._bmi, Ins._bpl],
      getOpCode cpu ill i .r ≠ -1 ∧ getOpCode cpu ill (invertBranch i) .r ≠ -1 ∧ invertBranch i < Ins._slo ∧
      ¬ (Ins._bbr0 ≤ invertBranch i ∧ invertBranch i ≤ Ins._bbs7) := by
    intro cpu ill
    cases cpu <;> cases ill <;> decide +kernel
  have opp : ∀ (p : Spec.Proc), ∀ i ∈ [Ins._bcc, Ins._bcs, Ins._beq, Ins._bne, Ins._bmi, Ins._bpl],
      ∃ t, p.taken (instrNames[i.toNat]?.getD "") = some t ∧
        p.taken (instrNames[(invertBranch i).toNat]?.getD "") = some (!t) := by
    rintro ⟨_, _, _, n, v, z, c⟩
    intro i hi
    simp only [List.mem_cons, List.not_mem_nil, or_false] at hi
    rcases hi with rfl | rfl | rfl | rfl | rfl | rfl
    · exact ⟨!c, rfl, by rw [Bool.not_not]; rfl⟩
    · exact ⟨c, rfl, rfl⟩
    · exact ⟨z, rfl, rfl⟩
    · exact ⟨!z, rfl, by rw [Bool.not_not]; rfl⟩
    · exact ⟨n, rfl, rfl⟩
    · exact ⟨!n, rfl, by rw [Bool.not_not]; rfl⟩
  have hmem : ins ∈ [Ins._bcc, Ins._bcs, Ins._beq, Ins._bne, Ins._bmi, Ins._bpl] := by
    simp only [List.mem_cons, List.not_mem_nil, or_false]
    exact hins
  obtain ⟨t1, t2, t3, t4⟩ := tab s.cpu s.allowIllegal ins hmem
  obtain ⟨s', bs, h1, h2, h3, h4, h5, h6⟩ := long_run file line hs ht0 t1 t2 t3 t4 hf hv hc
    (by rw [← eval_noPc (env := envOf s) (e := e) (pc := s.pc) hpc]; exact hv) hz hv0 hv1 hv0 hv1 hp0 hp1 hfar
  refine ⟨s', bs, h1, h2, h3, h4, h5, ?_⟩
  intro mem p hpp hm
  obtain ⟨t, o1, o2⟩ := opp p ins hmem
  refine ⟨t, o1, ?_⟩
  have := h6 mem p (!t) hpp hm o2
  cases t <;> exact this

/-- The final pass of an empty program at $1000 with an output file. -/
private def s1 : St :=
  { pc := 0x1000, origin := 0x1000, originSpecified := true, finalPass := true, outputOpen := true }

example : Ready s1 ∧ invertible Ins._bne ∧ Spec.eval (envOf s1) s1.pc (.int 0x2000) = some (0x2000, false) ∧
    (Expr.int 0x2000).usesPc = false ∧ 128 < 0x2000 - (s1.pc + 2) :=
  ⟨⟨by decide, by decide, by decide⟩, by unfold invertible; decide, by decide +kernel, rfl, by decide⟩

/-- **C08**, negation: `bvc` and `bvs` out of range.  The emitted bytes do the opposite, from every processor state:
when the branch written in the source is taken, they lead to the next instruction, otherwise to the target. -/
theorem C08_false_overflow {s : St} {f : Nat} {ins : Int} {e : Expr} {v : Int} (file : Str) (line : Int)
    (hs : Ready s) (ht0 : 0 ≤ s.totalBytes) (hins : ins = Ins._bvc ∨ ins = Ins._bvs)
    (hf : e.depth + 1 < f) (hv : Spec.eval (envOf s) s.pc e = some (v, false)) (hc : e.complete (envOf s) s.pc = true)
    (hpc : e.usesPc = false) (hz : v = 0 → ∀ n, e ≠ .sym (64 :: n))
    (hv0 : 0 ≤ v) (hv1 : v ≤ 65535) (hp0 : 0 ≤ s.pc) (hp1 : s.pc + 5 ≤ 65535)
    (hfar : v - (s.pc + 2) < -127 ∨ 128 < v - (s.pc + 2)) :
    ∃ s' bs, runTop (expandNode (f + 1)) (hasUninit (f + 1)) (.stmt file line (.op ins .a (some e))) s = (.ok true, s') ∧
      s'.errorCount = s.errorCount ∧
      (Writes s → s'.out = s.out ++ (if s.totalBytes = 0 then headerBytes s.format s.origin else []) ++ bs) ∧
      ∀ (mem : Nat → Nat) (p : Spec.Proc), p.pc = s.pc.toNat → Spec.Holds mem p.pc bs →
        ∃ t, p.taken (instrNames[ins.toNat]?.getD "") = some t ∧
          Spec.ReachesIn (decodeCpu s.cpu) mem p.pc (p.pc + 5) p { p with pc := if t then p.pc + 5 else v.toNat } := by
  have tab : ∀ cpu ill, ∀ i ∈ [Ins._bvc, Ins._bvs],
      getOpCode cpu ill i .r ≠ -1 ∧ getOpCode cpu ill (invertBranch i) .r ≠ -1 ∧ invertBranch i < Ins._slo ∧
      ¬ (Ins._bbr0 ≤ invertBranch i ∧ invertBranch i ≤ Ins._bbs7) := by
    intro cpu ill
    cases cpu <;> cases ill <;> decide +kernel
  have same : ∀ (p : Spec.Proc), ∀ i ∈ [Ins._bvc, Ins._bvs],
      ∃ t, p.taken (instrNames[i.toNat]?.getD "") = some t ∧
        p.taken (instrNames[(invertBranch i).toNat]?.getD "") = some t := by
    rintro ⟨_, _, _, n, v, z, c⟩
    intro i hi
    simp only [List.mem_cons, List.not_mem_nil, or_false] at hi
    rcases hi with rfl | rfl
    · exact ⟨!v, rfl, rfl⟩
    · exact ⟨v, rfl, rfl⟩
  have hmem : ins ∈ [Ins._bvc, Ins._bvs] := by
    simp only [List.mem_cons, List.not_mem_nil, or_false]
    exact hins
  obtain ⟨t1, t2, t3, t4⟩ := tab s.cpu s.allowIllegal ins hmem
  obtain ⟨s', bs, h1, h2, h3, h4, h5, h6⟩ := long_run file line hs ht0 t1 t2 t3 t4 hf hv hc
    (by rw [← eval_noPc (env := envOf s) (e := e) (pc := s.pc) hpc]; exact hv) hz hv0 hv1 hv0 hv1 hp0 hp1 hfar
  refine ⟨s', bs, h1, h4, h5, ?_⟩
  intro mem p hpp hm
  obtain ⟨t, o1, o2⟩ := same p ins hmem
  exact ⟨t, o1, h6 mem p t hpp hm o2⟩

example : (runTop (expandNode 5) (hasUninit 5) (.stmt [] 1 (.op Ins._bvs .a (some (.int 0x2000)))) s1).2.out =
    [0x70, 3, 0x4C, 0x00, 0x20] := by decide +kernel

/-- **C08**, negation: `bra` out of range.  The emitted bytes never lead to the target. -/
theorem C08_false_bra {s : St} {f : Nat} {e : Expr} {v : Int} (file : Str) (line : Int)
    (hs : Ready s) (ht0 : 0 ≤ s.totalBytes) (hcpu : s.cpu = .c65C02)
    (hf : e.depth + 1 < f) (hv : Spec.eval (envOf s) s.pc e = some (v, false)) (hc : e.complete (envOf s) s.pc = true)
    (hpc : e.usesPc = false) (hz : v = 0 → ∀ n, e ≠ .sym (64 :: n))
    (hv0 : 0 ≤ v) (hv1 : v ≤ 65535) (hp0 : 0 ≤ s.pc) (hp1 : s.pc + 5 ≤ 65535)
    (hfar : v - (s.pc + 2) < -127 ∨ 128 < v - (s.pc + 2)) :
    ∃ s' bs, runTop (expandNode (f + 1)) (hasUninit (f + 1)) (.stmt file line (.op Ins._bra .a (some e))) s =
        (.ok true, s') ∧ s'.errorCount = s.errorCount ∧
      (Writes s → s'.out = s.out ++ (if s.totalBytes = 0 then headerBytes s.format s.origin else []) ++ bs) ∧
      ∀ (mem : Nat → Nat) (p : Spec.Proc), p.pc = s.pc.toNat → Spec.Holds mem p.pc bs →
        Spec.ReachesIn Spec.decode65C02 mem p.pc (p.pc + 5) p { p with pc := p.pc + 5 } := by
  have tab : ∀ ill, getOpCode .c65C02 ill Ins._bra .r ≠ -1 ∧ getOpCode .c65C02 ill (invertBranch Ins._bra) .r ≠ -1 ∧
      invertBranch Ins._bra < Ins._slo ∧
      ¬ (Ins._bbr0 ≤ invertBranch Ins._bra ∧ invertBranch Ins._bra ≤ Ins._bbs7) := by
    intro ill
    cases ill <;> decide +kernel
  obtain ⟨t1, t2, t3, t4⟩ := tab s.allowIllegal
  rw [← hcpu] at t1 t2
  obtain ⟨s', bs, h1, h2, h3, h4, h5, h6⟩ := long_run file line hs ht0 t1 t2 t3 t4 hf hv hc
    (by rw [← eval_noPc (env := envOf s) (e := e) (pc := s.pc) hpc]; exact hv) hz hv0 hv1 hv0 hv1 hp0 hp1 hfar
  refine ⟨s', bs, h1, h4, h5, ?_⟩
  intro mem p hpp hm
  rw [hcpu] at h6
  exact h6 mem p true hpp hm rfl

example : Ready { s1 with cpu := .c65C02 } ∧ (runTop (expandNode 5) (hasUninit 5)
    (.stmt [] 1 (.op Ins._bra .a (some (.int 0x2000)))) { s1 with cpu := .c65C02 }).2.out = [0x80, 3, 0x4C, 0x00, 0x20] :=
  ⟨⟨by decide, by decide, by decide⟩, by decide +kernel⟩

/-- **C08**, negation: a target written with `*`.  The `jmp` is assembled with the location counter of the `jmp`:
`bne *+512` at $1000 becomes `beq $1005` and `jmp $1202`, although the branch was checked against $1200. -/
theorem C08_false_star :
    let r := runTop (expandNode 5) (hasUninit 5) (.stmt [] 1 (.op Ins._bne .a (some (.bin .add .pc (.int 512))))) s1
    r.1 = .ok true ∧ r.2.errorCount = 0 ∧ r.2.out = [0xF0, 3, 0x4C, 0x02, 0x12] ∧
    Spec.eval (envOf s1) s1.pc (.bin .add .pc (.int 512)) = some (0x1200, false) := by decide +kernel

/-! ## C11, C41, C47: branches in the long form -/

/-- Every branch has an instruction the assembler puts in its place. -/
theorem invert_code {cpu : Cpu} {ill : Bool} {ins : Int} (h : getOpCode cpu ill ins .r ≠ -1) :
    getOpCode cpu ill (invertBranch ins) .r ≠ -1 := by
  have hin : 0 ≤ ins ∧ ins < maxOpcode := by
    by_cases hi : 0 ≤ ins ∧ ins < maxOpcode
    · exact hi
    · exact absurd (by unfold getOpCode getOpCodeRaw; rw [if_neg (fun h => hi h.1)]; rfl) h
  have tab : ∀ n : Fin maxOpcode.toNat, getOpCode cpu ill ((n.val : Nat) : Int) .r ≠ -1 →
      getOpCode cpu ill (invertBranch ((n.val : Nat) : Int)) .r ≠ -1 := by
    cases cpu <;> cases ill <;> decide +kernel
  have := tab ⟨ins.toNat, by omega⟩
  rw [show (((⟨ins.toNat, by omega⟩ : Fin maxOpcode.toNat).val : Nat) : Int) = ins from by show (ins.toNat : Int) = ins; omega] at this
  exact this h

/-- A branch out of range: bytes and listing. -/
theorem long_accepted {s : St} {f : Nat} {ins : Int} {mode0 : Mode} {e : Expr} {v v2 : Int} (file : Str) (line : Int)
    (hs : Ready s) (ht0 : 0 ≤ s.totalBytes) (hr : getOpCode s.cpu s.allowIllegal ins .r ≠ -1)
    (hf : e.depth + 1 < f) (hv : Spec.eval (envOf s) s.pc e = some (v, false)) (hc : e.complete (envOf s) s.pc = true)
    (hv2 : Spec.eval (envOf s) (s.pc + 2) e = some (v2, false)) (hz : v = 0 → ∀ n, e ≠ .sym (64 :: n))
    (hfar : v - (s.pc + 2) < -127 ∨ 128 < v - (s.pc + 2)) (hin : InInt (v - (s.pc + 2))) (hpc : InInt (s.pc + 5)) :
    ∃ s' b1 b2, runTop (expandNode (f + 1)) (hasUninit (f + 1)) (.stmt file line (.op ins mode0 (some e))) s =
        (.ok true, s') ∧
      b1 = [(getOpCode s.cpu s.allowIllegal (invertBranch ins) .r).toNat, 3] ∧
      b2 = [0x4C, (v2 % 256).toNat, (v2 / 256 % 256).toNat] ∧
      s'.pc = s.pc + 5 ∧ s'.errorCount = s.errorCount ∧ s'.syms = s.syms ∧
      (Writes s → s'.out = s.out ++ (if s.totalBytes = 0 then headerBytes s.format s.origin else []) ++ (b1 ++ b2)) ∧
      (s.finalPass = true → ∃ e1 e2, s'.listing = s.listing ++ [e1, e2] ∧ Spec.Shows file line s.pc b1 e1 ∧
        Spec.Shows file line (s.pc + 2) b2 e2) := by
  have hr2 := invert_code hr
  have hra := getOpCode_range s.cpu s.allowIllegal (invertBranch ins) .r
  obtain ⟨s'', r, a⟩ := longStmt_run (mode0 := mode0) file line hf hs.running hs.heap hv hc hr hv2 hz
    hin (by simp only [branchBad, Bool.or_eq_true, decide_eq_true_eq]; omega) hr2 hpc ht0 hs.room
  have hl := a.listing
  rw [longBytes_eq (by omega) (by omega)] at a
  have as := a.assembled (by rfl)
  have hw : warned s'' = { s'' with warningCount := (warned s'').warningCount, log := (warned s'').log } := by
    unfold warned
    split <;> rfl
  refine ⟨warned s'', _, _, r, rfl, rfl, ?_, ?_, ?_, ?_, ?_⟩
  · rw [hw]; exact as.pc
  · rw [hw]; exact as.errors
  · rw [hw]; exact as.syms
  · rw [hw]; exact as.written
  · rw [hw]
    intro hfp
    have hb : toBytes (instrBytes .r (getOpCode s.cpu s.allowIllegal (invertBranch ins) .r) s.pc (s.pc + 5)) ++
        toBytes (instrBytes .a 0x4C (s.pc + 2) v2) = [(getOpCode s.cpu s.allowIllegal (invertBranch ins) .r).toNat, 3] ++
          [0x4C, (v2 % 256).toNat, (v2 / 256 % 256).toNat] := longBytes_eq (by omega) (by omega)
    obtain ⟨e1, e2⟩ := List.append_inj hb rfl
    refine ⟨listRow (atLine s file line) (opRow (invertBranch ins) 1 .r
        (getOpCode s.cpu s.allowIllegal (invertBranch ins) .r) s.pc (s.pc + 5)),
      listRow (atLine s file line) (opRow Ins._jmp 1 .a 0x4C (s.pc + 2) v2), ?_, ?_, ?_⟩
    · show s''.listing = _
      rw [hl, if_pos hfp]
      rfl
    · rw [← e1]
      exact opRow_shows (s := atLine s file line) (by omega) (by omega) s.pc _
    · rw [← e2]
      exact opRow_shows (s := atLine s file line) (by decide) (by decide) (s.pc + 2) v2

/-- **C11** (branches out of range, all branches of both processors, any operand form).  Five bytes are appended to the
output and the location counter advances by five. -/
theorem C11_long_branch {s : St} {f : Nat} {ins : Int} {mode0 : Mode} {e : Expr} {v v2 : Int} (file : Str) (line : Int)
    (hs : Ready s) (hw : Writes s) (ht0 : 0 ≤ s.totalBytes) (hr : getOpCode s.cpu s.allowIllegal ins .r ≠ -1)
    (hf : e.depth + 1 < f) (hv : Spec.eval (envOf s) s.pc e = some (v, false)) (hc : e.complete (envOf s) s.pc = true)
    (hv2 : Spec.eval (envOf s) (s.pc + 2) e = some (v2, false)) (hz : v = 0 → ∀ n, e ≠ .sym (64 :: n))
    (hfar : v - (s.pc + 2) < -127 ∨ 128 < v - (s.pc + 2)) (hin : InInt (v - (s.pc + 2))) (hpc : InInt (s.pc + 5)) :
    ∃ s' bs, runTop (expandNode (f + 1)) (hasUninit (f + 1)) (.stmt file line (.op ins mode0 (some e))) s =
        (.ok true, s') ∧ s'.errorCount = s.errorCount ∧
      s'.out = s.out ++ (if s.totalBytes = 0 then headerBytes s.format s.origin else []) ++ bs ∧
      s'.pc = s.pc + bs.length ∧ bs.length = 5 := by
  obtain ⟨s', b1, b2, r, h1, h2, h3, h4, _, h6, _⟩ := long_accepted (mode0 := mode0) file line hs ht0 hr hf hv hc hv2 hz
    hfar hin hpc
  have hl : (b1 ++ b2).length = 5 := by rw [h1, h2]; rfl
  exact ⟨s', b1 ++ b2, r, h4, h6 hw, by rw [hl]; exact h3, hl⟩

/-- **C41** (branches out of range).  The statement gets two lines in the listing, at the location counter and two
bytes later; the bytes shown in them are, one line after the other, the bytes appended to the output. -/
theorem C41_long_branch {s : St} {f : Nat} {ins : Int} {mode0 : Mode} {e : Expr} {v v2 : Int} (file : Str) (line : Int)
    (hs : Ready s) (hw : Writes s) (ht0 : 0 ≤ s.totalBytes) (hr : getOpCode s.cpu s.allowIllegal ins .r ≠ -1)
    (hf : e.depth + 1 < f) (hv : Spec.eval (envOf s) s.pc e = some (v, false)) (hc : e.complete (envOf s) s.pc = true)
    (hv2 : Spec.eval (envOf s) (s.pc + 2) e = some (v2, false)) (hz : v = 0 → ∀ n, e ≠ .sym (64 :: n))
    (hfar : v - (s.pc + 2) < -127 ∨ 128 < v - (s.pc + 2)) (hin : InInt (v - (s.pc + 2))) (hpc : InInt (s.pc + 5)) :
    ∃ s' b1 b2, runTop (expandNode (f + 1)) (hasUninit (f + 1)) (.stmt file line (.op ins mode0 (some e))) s =
        (.ok true, s') ∧
      s'.out = s.out ++ (if s.totalBytes = 0 then headerBytes s.format s.origin else []) ++ (b1 ++ b2) ∧
      b1.length = 2 ∧
      ∃ e1 e2, s'.listing = s.listing ++ [e1, e2] ∧ Spec.Shows file line s.pc b1 e1 ∧
        Spec.Shows file line (s.pc + 2) b2 e2 := by
  obtain ⟨s', b1, b2, r, h1, _, _, _, _, h6, h7⟩ := long_accepted (mode0 := mode0) file line hs ht0 hr hf hv hc hv2 hz
    hfar hin hpc
  exact ⟨s', b1, b2, r, h6 hw, by rw [h1]; rfl, h7 hw.1⟩

/-- **C47** (all instructions with operand, both processors).  In any two states, of whatever passes, in which the
operand has the same value and all its symbols are defined, the statement either is rejected in both, or takes the same
number of bytes in both, and the bytes are the same.  For branches the two states are at the same address, and the
operand also has the same value seen from the `jmp` of the long form (it can differ only if it contains `*`). -/
theorem C47_stable_size {s t : St} {f : Nat} {ins : Int} {form : Spec.Form} {e : Expr} {v : Int} (file : Str)
    (line : Int) (hs : Ready s) (ht : Ready t) (hs0 : 0 ≤ s.totalBytes) (ht0 : 0 ≤ t.totalBytes)
    (hcpu : s.cpu = t.cpu) (hill : s.allowIllegal = t.allowIllegal) (hf : e.depth + 1 < f)
    (hv : Spec.eval (envOf s) s.pc e = some (v, false)) (hc : e.complete (envOf s) s.pc = true)
    (hv' : Spec.eval (envOf t) t.pc e = some (v, false)) (hc' : e.complete (envOf t) t.pc = true)
    (hbr : getOpCode s.cpu s.allowIllegal ins .r ≠ -1 → t.pc = s.pc ∧ InInt (v - (s.pc + 2)) ∧ InInt (s.pc + 5) ∧
      (v = 0 → ∀ n, e ≠ .sym (64 :: n)) ∧
      ∃ v2, Spec.eval (envOf s) (s.pc + 2) e = some (v2, false) ∧ Spec.eval (envOf t) (s.pc + 2) e = some (v2, false)) :
    (s.errorCount < (runTop (expandNode (f + 1)) (hasUninit (f + 1))
        (.stmt file line (.op ins (Form.mode form) (some e))) s).2.errorCount ∧
      t.errorCount < (runTop (expandNode (f + 1)) (hasUninit (f + 1))
        (.stmt file line (.op ins (Form.mode form) (some e))) t).2.errorCount) ∨
    ∃ s' t' bs,
      runTop (expandNode (f + 1)) (hasUninit (f + 1)) (.stmt file line (.op ins (Form.mode form) (some e))) s =
        (.ok true, s') ∧
      runTop (expandNode (f + 1)) (hasUninit (f + 1)) (.stmt file line (.op ins (Form.mode form) (some e))) t =
        (.ok true, t') ∧
      s'.errorCount = s.errorCount ∧ t'.errorCount = t.errorCount ∧
      s'.pc = s.pc + bs.length ∧ t'.pc = t.pc + bs.length ∧
      (Writes s → s'.out = s.out ++ (if s.totalBytes = 0 then headerBytes s.format s.origin else []) ++ bs) ∧
      (Writes t → t'.out = t.out ++ (if t.totalBytes = 0 then headerBytes t.format t.origin else []) ++ bs) := by
  by_cases hr : getOpCode s.cpu s.allowIllegal ins .r = -1 ∨
      (t.pc = s.pc ∧ -127 ≤ v - (s.pc + 2) ∧ v - (s.pc + 2) ≤ 128)
  · rcases C47_short (form := form) file line hs ht (fun _ => hs0) (fun _ => ht0) hcpu hill hf hv hc hv' hc' hr with
      h | ⟨s', t', bs, r, r', a, a', _⟩
    · exact Or.inl h
    · exact Or.inr ⟨s', t', bs, r, r', a.errors, a'.errors, a.pc, a'.pc, a.written, a'.written⟩
  · have hr1 : getOpCode s.cpu s.allowIllegal ins .r ≠ -1 := fun h => hr (Or.inl h)
    obtain ⟨hat, hin, hpc, hz, v2, h2, h2'⟩ := hbr hr1
    rw [hat] at hv' hc'
    obtain ⟨s', b1, b2, r, e1, e2, h3, h4, _, h6, _⟩ := long_accepted (mode0 := Form.mode form) file line hs hs0 hr1 hf hv
      hc h2 hz (by omega) hin hpc
    obtain ⟨t', c1, c2, r', g1, g2, g3, g4, _, g6, _⟩ := long_accepted (ins := ins) (mode0 := Form.mode form) (v := v)
      (v2 := v2) file line ht ht0 (by rw [← hcpu, ← hill]; exact hr1) hf (by rw [hat]; exact hv') (by rw [hat]; exact hc')
      (by rw [hat]; exact h2') hz (by rw [hat]; omega) (by rw [hat]; exact hin) (by rw [hat]; exact hpc)
    have q1 : c1 = b1 := by rw [g1, e1, hcpu, hill]
    have q2 : c2 = b2 := by rw [g2, e2]
    rw [q1, q2] at g6
    have hl : (b1 ++ b2).length = 5 := by rw [e1, e2]; rfl
    exact Or.inr ⟨s', t', b1 ++ b2, r, r', h4, g4, by rw [hl]; exact h3, by rw [hl]; exact g3, h6, g6⟩

example : Ready s1 ∧ Writes s1 ∧ Ready { s1 with finalPass := false } ∧ getOpCode s1.cpu s1.allowIllegal Ins._bne .r ≠ -1 ∧
    Spec.eval (envOf s1) s1.pc (.int 0x2000) = some (0x2000, false) ∧
    Spec.eval (envOf { s1 with finalPass := false }) s1.pc (.int 0x2000) = some (0x2000, false) ∧
    ((runTop (expandNode 5) (hasUninit 5) (.stmt [] 7 (.op Ins._bne .a (some (.int 0x2000)))) s1).2.listing).map
      (fun l => (l.line, l.output)) =
        [(7, cstr! "$1000: $F0 $03           beq $1005 "), (7, cstr! "$1002: $4C $00 $20       jmp $2000 ")] :=
  ⟨⟨by decide, by decide, by decide⟩, by unfold Writes; decide, ⟨by decide, by decide, by decide⟩, by decide +kernel,
    by decide +kernel, by decide +kernel, by decide +kernel⟩

/-! ## C09 -/

/-- `.org $1000`, `far = $2000`, and a macro with the single statement `bne far` that is called twice. -/
private def twice : Program := [[
  .stmt [97] 1 (.org (.int 0x1000)),
  .stmt [97] 2 (.assign (cstr! "far") (.int 0x2000)),
  .stmt [97] 3 (.macroDef (cstr! "m") (.op Ins._bne .a (some (.sym (cstr! "far"))))),
  .stmt [97] 4 (.word true (cstr! "m") none),
  .stmt [97] 5 (.word true (cstr! "m") none)]]

/-- The same with the statement written out twice. -/
private def written : Program := [[
  .stmt [97] 1 (.org (.int 0x1000)),
  .stmt [97] 2 (.assign (cstr! "far") (.int 0x2000)),
  .stmt [97] 4 (.op Ins._bne .a (some (.sym (cstr! "far")))),
  .stmt [97] 5 (.op Ins._bne .a (some (.sym (cstr! "far"))))]]

/-- **C09**, negation: the second call of the macro assembles `bne *` (D0 FE) instead of the long branch, because the
first one has left a constant in the place of the target.  Written out twice the statement gives two long branches.
Both programs assemble without an error and with status 0; for the macro the last pass is three bytes shorter than the
passes that fixed the labels. -/
theorem C09_false :
    (let r := assembleProg 30 twice { output := some true } {}
     r.status = some 0 ∧ r.passes.map (fun p => (p.1, p.2.2.out, p.2.2.pc, p.2.2.errorCount)) =
      [(false, [], 0x100A, 0), (false, [], 0x100A, 0), (true, [0xF0, 3, 0x4C, 0x00, 0x20, 0xD0, 0xFE], 0x1007, 0)]) ∧
    (let r := assembleProg 30 written { output := some true } {}
     r.status = some 0 ∧ (r.passes.getLast?.map fun p => p.2.2.out) =
      some [0xF0, 3, 0x4C, 0x00, 0x20, 0xF0, 3, 0x4C, 0x00, 0x20]) := by decide +kernel

/-- **C09** for branches that stay in range: the node of one branch statement, expanded `k + 1` times in a row, gives
each time the two bytes the statement has on its own at that place (`C07`). -/
theorem C09_short_partial {s : St} {f k : Nat} {ins : Int} {e : Expr} {v : Nat → Int}
    (hs : Ready s) (ht0 : 0 ≤ s.totalBytes) (hr : getOpCode s.cpu s.allowIllegal ins .r ≠ -1) (hf : e.depth + 1 < f)
    (hv : ∀ j : Nat, j ≤ k → Spec.eval (envOf s) (s.pc + 2 * j) e = some (v j, false))
    (hc : e.complete (envOf s) s.pc = true)
    (hrange : ∀ j : Nat, j ≤ k → -127 ≤ v j - (s.pc + 2 * j + 2) ∧ v j - (s.pc + 2 * j + 2) ≤ 127) :
    ∃ s1 p s', buildStmt (expandNode (f + 1)) (hasUninit (f + 1)) true (.op ins .a (some e)) s = (.ok (some p), s1) ∧
      times (expandNode (f + 1) p) k s1 = (.ok (), s') ∧
      Assembled s s' ((List.range (k + 1)).flatMap fun j => [(getOpCode s.cpu s.allowIllegal ins .r).toNat,
        ((v j - (s.pc + 2 * (j : Int) + 2)) % 256).toNat]) := by
  have hra := getOpCode_range s.cpu s.allowIllegal ins .r
  have hv0 : Spec.eval (envOf s) s.pc e = some (v 0, false) := by simpa using hv 0 (Nat.zero_le _)
  have hm : nodeMode (getOpCode s.cpu s.allowIllegal ins) .a (v 0) = (.r, getOpCode s.cpu s.allowIllegal ins .r) := by
    unfold nodeMode chooseMode srcMode
    rw [if_pos hr]
    simp [zpForm]
  obtain ⟨ns, p, q, h1, h2, h3, h4, h5, h6⟩ := buildOp_run (s := s) (ins := ins) (mode0 := .a) (f := f + 1)
    (by omega) hs.running hs.heap hv0 hc (by rw [hm]; show 0 ≤ getOpCode s.cpu s.allowIllegal ins .r; omega) true
  rw [hm] at h4
  let s1 : St := { s with nodes := ns }
  obtain ⟨s', ls, r, a⟩ := branch_times (f := f) (k := k) (s := s1) (v := v) hs.running
    ⟨Nat.le_trans hs.heap h3, h4⟩ hf h5 h6 hv (fun j hj => by
      have := hrange j hj
      show branchBad (v j - (s.pc + 2 * j + 2)) = false
      simp only [branchBad, Bool.or_eq_false_iff, decide_eq_false_iff_not]
      omega) ht0 (by rw [show s1 = { s with nodes := ns } from rfl, orig_nodes]; exact room_nodes _ hs.room)
  refine ⟨s1, p, s', h1, r, ?_⟩
  have a' : Asm (orig (atLine s s.file s.line)) s' (2 * k + 2) (branchRun (getOpCode s.cpu s.allowIllegal ins .r) s.pc v k) ls := by
    rw [show s1 = { s with nodes := ns } from rfl, orig_nodes] at a
    refine Asm.nodes ?_ a
    rw [look_orig]
    have : (orig (atLine s s.file s.line)).nodes = s.nodes := by rw [orig_eq]; rfl
    rw [this]
    exact h2.mono
  have e1 : ∀ (k : Nat) (pc : Int) (v : Nat → Int), branchRun (getOpCode s.cpu s.allowIllegal ins .r) pc v k =
      (List.range (k + 1)).flatMap fun j => [(getOpCode s.cpu s.allowIllegal ins .r).toNat,
        ((v j - (pc + 2 * (j : Int) + 2)) % 256).toNat] := by
    have e0 : ∀ (pc w : Int), toBytes (instrBytes .r (getOpCode s.cpu s.allowIllegal ins .r) pc w) =
        [(getOpCode s.cpu s.allowIllegal ins .r).toNat, ((w - (pc + 2)) % 256).toNat] := by
      intro pc w
      show [_, _] = _
      simp only [operandValue, if_true]
      congr 1
      · omega
      · congr 1
        omega
    intro k
    induction k with
    | zero =>
      intro pc v
      simp only [branchRun, e0]
      simp
    | succ k ih =>
      intro pc v
      simp only [branchRun, e0, ih]
      rw [List.range_succ_eq_map (n := k + 1), List.flatMap_cons, List.flatMap_map]
      congr 1
      · simp
      · congr 1
        funext j
        have : v (j + 1) - (pc + 2 + 2 * (j : Int) + 2) = v j.succ - (pc + 2 * ((j.succ : Nat) : Int) + 2) := by
          show v (j + 1) - _ = v (j + 1) - _
          omega
        rw [this]
  have := a'.assembled (branchRun_length _ _ _ _).symm
  rw [e1] at this
  exact this

example : Ready s1 ∧ getOpCode s1.cpu s1.allowIllegal Ins._bne .r ≠ -1 ∧
    (∀ j : Nat, j ≤ 9 → Spec.eval (envOf s1) (s1.pc + 2 * j) (.int 0x1010) = some (0x1010, false)) ∧
    ∀ j : Nat, j ≤ 9 → -127 ≤ 0x1010 - (s1.pc + 2 * j + 2) ∧ 0x1010 - (s1.pc + 2 * j + 2) ≤ 127 :=
  ⟨⟨by decide, by decide, by decide⟩, by decide +kernel, by decide +kernel, by decide +kernel⟩

end Verif
