import Verif.Lemmas.ForReg

/-! # Property C35: loops over an index register -/

namespace Verif

/-! ## Counterexamples -/

/-- A loop over the X register around one `nop`, at `$1000`. -/
def regProg (a b : Int) (up : Bool) : Program := [[
  .stmt [97] 1 (.org (.int 0x1000)),
  .stmt [97] 2 (.forReg true (.int a) (.int b) up (.at 3 (.op Ins._nop .i none)))]]

/-- The exit status and the output file of the assembler for this program. -/
def regOut (a b : Int) (up : Bool) : Option Int × List Nat :=
  let r : AsmRes St := assembleProg 40 (regProg a b up) { output := some true } { format := .bin }
  (r.status, (((r.passes.getLast?).map (fun q : Bool × St × St => q.2.2)).getD {}).out)

/-- The memory with the code at `$1000`. -/
def memAt (code : List Nat) (i : Nat) : Nat := code.getD (i - 0x1000) 0

/-- A body that does nothing but come to its end. -/
def nopBody (_ : Nat) (p : Spec.Proc) : Spec.Proc := { p with pc := 0x1003 }

theorem nopBody_neutral : Spec.Neutral true 0x1002 0x1003 nopBody := fun _ _ _ => ⟨rfl, rfl⟩

private theorem to255_trace (p : Spec.Proc) (hp : p.pc = 0x1000) : ∃ q,
    Spec.Traces (decodeCpu .c6502) (memAt [0xA2, 254, 0xEA, 0xE8, 0xE0, 255, 0xD0, 0xFA]) true 0x1002 0x1008 nopBody 0 p [254] q := by
  have m : memAt [0xA2, 254, 0xEA, 0xE8, 0xE0, 255, 0xD0, 0xFA] 0x1000 = 0xA2 ∧
    memAt [0xA2, 254, 0xEA, 0xE8, 0xE0, 255, 0xD0, 0xFA] 0x1001 = 254 ∧
    memAt [0xA2, 254, 0xEA, 0xE8, 0xE0, 255, 0xD0, 0xFA] 0x1002 = 0xEA ∧
    memAt [0xA2, 254, 0xEA, 0xE8, 0xE0, 255, 0xD0, 0xFA] 0x1003 = 0xE8 ∧
    memAt [0xA2, 254, 0xEA, 0xE8, 0xE0, 255, 0xD0, 0xFA] 0x1004 = 0xE0 ∧
    memAt [0xA2, 254, 0xEA, 0xE8, 0xE0, 255, 0xD0, 0xFA] 0x1005 = 255 ∧
    memAt [0xA2, 254, 0xEA, 0xE8, 0xE0, 255, 0xD0, 0xFA] 0x1006 = 0xD0 ∧
    memAt [0xA2, 254, 0xEA, 0xE8, 0xE0, 255, 0xD0, 0xFA] 0x1007 = 0xFA := by decide +kernel
  have d : decodeCpu .c6502 0xA2 = some ("ldx", .immediate) ∧ decodeCpu .c6502 0xE8 = some ("inx", .implied) ∧
    decodeCpu .c6502 0xE0 = some ("cpx", .immediate) ∧ decodeCpu .c6502 0xD0 = some ("bne", .relative) := by decide +kernel
  obtain ⟨pc, x, y, n, v, z, c⟩ := p
  simp only at hp
  subst hp
  have h1 : Spec.step (decodeCpu .c6502) (memAt [0xA2, 254, 0xEA, 0xE8, 0xE0, 255, 0xD0, 0xFA]) ⟨0x1000, x, y, n, v, z, c⟩ =
      some ⟨0x1002, 254, y, true, v, false, c⟩ := by
    simp [Spec.step, m, d, Spec.Proc.nz, Spec.Proc.next]
  have h2 : Spec.step (decodeCpu .c6502) (memAt [0xA2, 254, 0xEA, 0xE8, 0xE0, 255, 0xD0, 0xFA]) ⟨0x1003, 254, y, true, v, false, c⟩ =
      some ⟨0x1004, 255, y, true, v, false, c⟩ := by
    simp [Spec.step, m, d, Spec.Proc.nz, Spec.Proc.next]
  have h3 : Spec.step (decodeCpu .c6502) (memAt [0xA2, 254, 0xEA, 0xE8, 0xE0, 255, 0xD0, 0xFA]) ⟨0x1004, 255, y, true, v, false, c⟩ =
      some ⟨0x1006, 255, y, false, v, true, true⟩ := by
    simp [Spec.step, m, d, Spec.Proc.compare, Spec.Proc.next]
  have h4 : Spec.step (decodeCpu .c6502) (memAt [0xA2, 254, 0xEA, 0xE8, 0xE0, 255, 0xD0, 0xFA]) ⟨0x1006, 255, y, false, v, true, true⟩ =
      some ⟨0x1008, 255, y, false, v, true, true⟩ := by
    simp [Spec.step, m, d, Spec.Proc.taken, Spec.Proc.next]
  exact ⟨_, .step (by simp) (by simp) h1 (.body (by simp) rfl (.step (by simp [nopBody]) (by simp [nopBody]) h2
    (.step (by simp) (by simp) h3 (.step (by simp) (by simp) h4 (.done rfl)))))⟩

/-- **C35 is false** for loops to 255: `.for x = 254 to 255` assembles without errors into a loop that runs its body once,
with 254.  After `inx` the register is compared with 255 instead of 256 and the loop is left before its last round. -/
theorem C35_to255_false :
    (regOut 254 255 true).1 = some 0 ∧ (regOut 254 255 true).2 = [0xA2, 254, 0xEA, 0xE8, 0xE0, 255, 0xD0, 0xFA] ∧
    ∀ p : Spec.Proc, p.pc = 0x1000 → ∃ q,
      Spec.Traces (decodeCpu .c6502) (memAt (regOut 254 255 true).2) true 0x1002 0x1008 nopBody 0 p [254] q := by
  have hc : (regOut 254 255 true).1 = some 0 ∧ (regOut 254 255 true).2 = [0xA2, 254, 0xEA, 0xE8, 0xE0, 255, 0xD0, 0xFA] := by
    decide +kernel
  refine ⟨hc.1, hc.2, ?_⟩
  rw [hc.2]
  exact to255_trace

private theorem downto0_clear (p : Spec.Proc) (hp : p.pc = 0x1000) (hcar : p.c = false) : ∃ q,
    Spec.Traces (decodeCpu .c6502) (memAt [0xA2, 1, 0xEA, 0xCA, 0xB0, 0xFC]) true 0x1002 0x1006 nopBody 0 p [1] q := by
  have m : memAt [0xA2, 1, 0xEA, 0xCA, 0xB0, 0xFC] 0x1000 = 0xA2 ∧
    memAt [0xA2, 1, 0xEA, 0xCA, 0xB0, 0xFC] 0x1001 = 1 ∧
    memAt [0xA2, 1, 0xEA, 0xCA, 0xB0, 0xFC] 0x1002 = 0xEA ∧
    memAt [0xA2, 1, 0xEA, 0xCA, 0xB0, 0xFC] 0x1003 = 0xCA ∧
    memAt [0xA2, 1, 0xEA, 0xCA, 0xB0, 0xFC] 0x1004 = 0xB0 ∧
    memAt [0xA2, 1, 0xEA, 0xCA, 0xB0, 0xFC] 0x1005 = 0xFC := by decide +kernel
  have d : decodeCpu .c6502 0xA2 = some ("ldx", .immediate) ∧ decodeCpu .c6502 0xCA = some ("dex", .implied) ∧
    decodeCpu .c6502 0xB0 = some ("bcs", .relative) := by decide +kernel
  obtain ⟨pc, x, y, n, v, z, c⟩ := p
  simp only at hp hcar
  subst hp hcar
  have h1 : Spec.step (decodeCpu .c6502) (memAt [0xA2, 1, 0xEA, 0xCA, 0xB0, 0xFC]) ⟨0x1000, x, y, n, v, z, false⟩ =
      some ⟨0x1002, 1, y, false, v, false, false⟩ := by
    simp [Spec.step, m, d, Spec.Proc.nz, Spec.Proc.next]
  have h2 : Spec.step (decodeCpu .c6502) (memAt [0xA2, 1, 0xEA, 0xCA, 0xB0, 0xFC]) ⟨0x1003, 1, y, false, v, false, false⟩ =
      some ⟨0x1004, 0, y, false, v, true, false⟩ := by
    simp [Spec.step, m, d, Spec.Proc.nz, Spec.Proc.next]
  have h3 : Spec.step (decodeCpu .c6502) (memAt [0xA2, 1, 0xEA, 0xCA, 0xB0, 0xFC]) ⟨0x1004, 0, y, false, v, true, false⟩ =
      some ⟨0x1006, 0, y, false, v, true, false⟩ := by
    simp [Spec.step, m, d, Spec.Proc.taken, Spec.Proc.next]
  exact ⟨_, .step (by simp) (by simp) h1 (.body (by simp) rfl (.step (by simp [nopBody]) (by simp [nopBody]) h2
    (.step (by simp) (by simp) h3 (.done rfl))))⟩

private theorem downto0_set {n : Nat} {p : Spec.Proc} {l : List Nat} {q : Spec.Proc}
    (h : Spec.Traces (decodeCpu .c6502) (memAt [0xA2, 1, 0xEA, 0xCA, 0xB0, 0xFC]) true 0x1002 0x1006 nopBody n p l q) :
    p.c = true → p.pc ≠ 0x1000 ∧ p.pc ≠ 0x1002 ∧ p.pc ≠ 0x1003 ∧ p.pc ≠ 0x1004 := by
  have m : memAt [0xA2, 1, 0xEA, 0xCA, 0xB0, 0xFC] 0x1000 = 0xA2 ∧
    memAt [0xA2, 1, 0xEA, 0xCA, 0xB0, 0xFC] 0x1001 = 1 ∧
    memAt [0xA2, 1, 0xEA, 0xCA, 0xB0, 0xFC] 0x1002 = 0xEA ∧
    memAt [0xA2, 1, 0xEA, 0xCA, 0xB0, 0xFC] 0x1003 = 0xCA ∧
    memAt [0xA2, 1, 0xEA, 0xCA, 0xB0, 0xFC] 0x1004 = 0xB0 ∧
    memAt [0xA2, 1, 0xEA, 0xCA, 0xB0, 0xFC] 0x1005 = 0xFC := by decide +kernel
  have d : decodeCpu .c6502 0xA2 = some ("ldx", .immediate) ∧ decodeCpu .c6502 0xCA = some ("dex", .implied) ∧
    decodeCpu .c6502 0xB0 = some ("bcs", .relative) := by decide +kernel
  induction h with
  | done h =>
    intro _
    rw [h]
    decide
  | @step n p q r l h1 h2 h3 _ ih =>
    intro hcar
    obtain ⟨pc, x, y, n, v, z, c⟩ := p
    simp only at h1 h2 hcar
    subst hcar
    refine ⟨fun hp => ?_, h2, fun hp => ?_, fun hp => ?_⟩
    · simp only at hp
      subst hp
      have hs : Spec.step (decodeCpu .c6502) (memAt [0xA2, 1, 0xEA, 0xCA, 0xB0, 0xFC]) ⟨0x1000, x, y, n, v, z, true⟩ =
          some ⟨0x1002, 1, y, false, v, false, true⟩ := by
        simp [Spec.step, m, d, Spec.Proc.nz, Spec.Proc.next]
      rw [hs] at h3
      cases h3
      exact (ih rfl).2.1 rfl
    · simp only at hp
      subst hp
      have hs : Spec.step (decodeCpu .c6502) (memAt [0xA2, 1, 0xEA, 0xCA, 0xB0, 0xFC]) ⟨0x1003, x, y, n, v, z, true⟩ =
          some ⟨0x1004, (x + 255) % 256, y, decide (128 ≤ (x + 255) % 256), v, decide ((x + 255) % 256 = 0), true⟩ := by
        simp [Spec.step, m, d, Spec.Proc.nz, Spec.Proc.next]
      rw [hs] at h3
      cases h3
      exact (ih rfl).2.2.2 rfl
    · simp only at hp
      subst hp
      have hs : Spec.step (decodeCpu .c6502) (memAt [0xA2, 1, 0xEA, 0xCA, 0xB0, 0xFC]) ⟨0x1004, x, y, n, v, z, true⟩ =
          some ⟨0x1002, x, y, n, v, z, true⟩ := by
        simp [Spec.step, m, d, Spec.Proc.taken, Spec.Proc.next]
        decide +kernel
      rw [hs] at h3
      cases h3
      exact (ih rfl).2.1 rfl
  | body h1 h2 _ ih =>
    intro hcar
    exact absurd (by simp [nopBody]) (ih hcar).2.2.1

/-- **C35 is false** for loops down to 0: `.for x = 1 downto 0` assembles without errors into a loop that ends with
`dex : bcs`.  The decrement does not change the carry flag.  With carry clear the body runs once, with 1; with carry set
the loop never ends. -/
theorem C35_downto0_false :
    (regOut 1 0 false).1 = some 0 ∧ (regOut 1 0 false).2 = [0xA2, 1, 0xEA, 0xCA, 0xB0, 0xFC] ∧
    (∀ p : Spec.Proc, p.pc = 0x1000 → p.c = false → ∃ q,
      Spec.Traces (decodeCpu .c6502) (memAt (regOut 1 0 false).2) true 0x1002 0x1006 nopBody 0 p [1] q) ∧
    (∀ p : Spec.Proc, p.pc = 0x1000 → p.c = true → ∀ l q,
      ¬ Spec.Traces (decodeCpu .c6502) (memAt (regOut 1 0 false).2) true 0x1002 0x1006 nopBody 0 p l q) := by
  have hc : (regOut 1 0 false).1 = some 0 ∧ (regOut 1 0 false).2 = [0xA2, 1, 0xEA, 0xCA, 0xB0, 0xFC] := by decide +kernel
  refine ⟨hc.1, hc.2, ?_⟩
  rw [hc.2]
  exact ⟨downto0_clear, fun p hp hcar l q h => absurd hp (downto0_set h hcar).1⟩

/-! ## The other loops -/

private theorem warned_same {s : St} : (warned s).pc = s.pc ∧ (warned s).errorCount = s.errorCount ∧ (warned s).out = s.out := by
  unfold warned
  split <;> exact ⟨rfl, rfl, rfl⟩

/-- **C35, part**: a loop `.for x = start to stop` or `.for x = start downto stop` (or with `y`) with any bounds in 0..255,
except loops to 255 and loops down to 0 that do not start there.  The statement is assembled without errors, and the code it
is assembled into runs the body with exactly the values from start to stop, one after the other, and then comes to its end;
whatever the body does, as long as it comes to its own end with the index register unchanged.  If the body is too long for a
branch back, the code contains an inverted branch over a `jmp`. -/
theorem C35_loop_partial {C : Spec.Context} {slot : Str → Option Nat} {g : Spec.Stage} {isX up : Bool} {start stop : Expr} {body : Stmt}
    {a b : Nat} {k : Spec.Cfg} {bs : List Nat} (file : Str) (line : Int)
    (hp : Spec.Parses C g.cfg.env g.cfg.pc body) (ha : g.cfg.value start (a : Int)) (hb : g.cfg.value stop (b : Int))
    (ha' : a ≤ 255) (hb' : b ≤ 255) (hab : if up then b = 255 → a = 255 else b = 0 → a = 0)
    (hbody : Spec.Runs C slot body ⟨g.cfg.env, g.cfg.pc + 2, false⟩ k bs) (hne : bs ≠ [])
    (hp0 : 0 ≤ g.pc) (hp1 : g.pc + bs.length + 10 ≤ 65535) :
    ∃ f0, ∀ f, f0 ≤ f → ∀ s, At C slot s g → forCount isX s = 0 → ∃ s' code,
      runTop (expandNode f) (hasUninit f) (.stmt file line (.forReg isX start stop up body)) s = (.ok true, s') ∧
      s'.pc = s.pc + code.length ∧ s'.errorCount = s.errorCount ∧ forCount isX s' = 0 ∧
      (code = [] ∨ (code.drop 2).take bs.length = bs) ∧
      (∃ hd, (code ≠ [] → hd = outHdr s) ∧ (emitting s = true → s'.out = s.out ++ hd ++ code)) ∧
      (emitting s = false → s'.out = s.out) ∧
      ∀ (mem : Nat → Nat) (bd : Nat → Spec.Proc → Spec.Proc) (p : Spec.Proc), (p.pc : Int) = s.pc → Spec.Holds mem p.pc code →
        Spec.Neutral isX (p.pc + 2) (p.pc + 2 + bs.length) bd →
        ∃ r, Spec.Traces (decodeCpu s.cpu) mem isX (p.pc + 2) (p.pc + code.length) bd 0 p (Spec.regValues up a b) r := by
  obtain ⟨f1, h1⟩ := parses_build C body
  obtain ⟨f2, h2⟩ := runs_expand hbody
  refine ⟨max (max f1 f2 + 4) (max start.depth stop.depth + 4), fun f hf s hs hcount => ?_⟩
  obtain ⟨f, rfl⟩ : ∃ h, f = h + 2 := ⟨f - 2, by omega⟩
  have hfit : Fits false C slot s := hs.fits
  have href : Ref false s g.cfg := hs.ref
  have hp' : Spec.Parses C (envOf (atLine s file line)) (atLine s file line).pc body := by
    show Spec.Parses C (envOf s) s.pc body
    rw [href.env.all, href.pc]
    exact hp
  obtain ⟨p, s1, r1, g1, q0, q1, q2, q3, hl, t0, t1, t2, t3⟩ := forReg_build (isX := isX) (up := up) (start := start) (stop := stop)
    (h1 (f + 2) (by omega)) false (atLine s file line) ⟨hfit.cpu, hs.isMacro⟩ hfit.text hs.flat.running hs.flat.heap hp'
  have hb1 := g1.base (show (atLine s file line).nodeBase ≤ (atLine s file line).nodes.length from hs.flat.heap)
  have hfit1 : Fits false C slot s1 := by
    obtain ⟨ns, ln, rfl, _⟩ := g1
    exact ⟨hfit.cpu, hfit.raw, hfit.files, hfit.text, hfit.slots, Or.inl hs.macros⟩
  have href1 : Ref false s1 g.cfg := by
    obtain ⟨ns, ln, rfl, _⟩ := g1
    exact ⟨href.env, href.pc, ⟨hs.flat.running, hb1, hs.flat.origin, hs.flat.count, hs.flat.image, hs.flat.started⟩⟩
  have hcount1 : forCount isX s1 = 0 := by
    obtain ⟨ns, ln, rfl, _⟩ := g1
    exact hcount
  have hsame : s1.pc = s.pc ∧ s1.errorCount = s.errorCount ∧ s1.out = s.out ∧ emitting s1 = emitting s ∧ outHdr s1 = outHdr s ∧
      s1.cpu = s.cpu := by
    obtain ⟨ns, ln, rfl, _⟩ := g1
    exact ⟨rfl, rfl, rfl, rfl, rfl, rfl⟩
  have fin : ∀ {s' s'' : St} {code : List Nat}, expandNode (f + 2) p s1 = (.ok 0, s') → (s' = s'' ∨ s' = warned s'') →
      Eff false s1 s'' code →
      runTop (expandNode (f + 2)) (hasUninit (f + 2)) (.stmt file line (.forReg isX start stop up body)) s = (.ok true, s') ∧
      s'.pc = s.pc + code.length ∧ s'.errorCount = s.errorCount ∧ forCount isX s' = 0 ∧
      (∃ hd, (code ≠ [] → hd = outHdr s) ∧ (emitting s = true → s'.out = s.out ++ hd ++ code)) ∧
      (emitting s = false → s'.out = s.out) := by
    intro s' s'' code r w e
    have hc'' := e.forCount (isX := isX)
    obtain ⟨c1, c2, c3, c4, c5, _⟩ := hsame
    obtain ⟨ys, ns, cg, ds, bd, et, md, mi, hd, ls, x1, x2, x3, rfl⟩ := e
    refine ⟨runTop_stmt (by intro _ _ _ h; cases h) r1 r, ?_⟩
    have hw : s'.pc = s.pc + code.length ∧ s'.errorCount = s.errorCount ∧ forCount isX s' = 0 ∧
        s'.out = s.out ++ (if emitting s then hd ++ code else []) := by
      rcases w with rfl | rfl
      · exact ⟨by rw [← c1], c2, hc''.trans hcount1, by rw [← c3, ← c4]⟩
      · rw [forCount_warned]
        refine ⟨?_, ?_, hc''.trans hcount1, ?_⟩
        · rw [warned_same.1, ← c1]
        · rw [warned_same.2.1, ← c2]
        · rw [warned_same.2.2, ← c3, ← c4]
    refine ⟨hw.1, hw.2.1, hw.2.2.1, ⟨hd, ?_, ?_⟩, ?_⟩
    · intro hne
      rcases x3 with h | h
      · rw [h, c5]
      · exact absurd h.2 hne
    · intro he
      rw [hw.2.2.2, if_pos he, List.append_assoc]
    · intro he
      rw [hw.2.2.2, he]
      simp
  by_cases hr : if up then a ≤ b else b ≤ a
  · obtain ⟨s', s'', r2, w2, e2⟩ := forReg_run (f := f) (up := up) (by omega) (by omega) (by omega) hfit1 href1 hl t0 t1 t2 t3 ha hb
      hcount1 ha' hb' (by cases up <;> simp at hab hr ⊢ <;> exact ⟨hr, hab⟩) (by
        have : (⟨g.cfg.env, g.cfg.pc + 2, false⟩ : Spec.Cfg) = g.cfg.emit [if isX then 0xA2 else 0xA0, a] := by
          unfold Spec.Cfg.emit
          congr 1
          simp
        rw [← this]
        exact h2 (f + 1) (by omega)) hp0 (by show g.pc + 2 + _ + 8 ≤ _; omega)
    obtain ⟨y1, y2, y3, y4, y5, y6⟩ := fin r2 w2 e2
    refine ⟨s', loopBytes isX up a b g.cfg.pc bs, y1, y2, y3, y4, Or.inr ?_, y5, y6, ?_⟩
    · unfold loopBytes
      simp
    · intro mem bd p hpp hm hn
      have hgp : g.cfg.pc = (p.pc : Int) := by rw [hpp, hs.pc]; rfl
      have hgp' : g.pc = (p.pc : Int) := hgp
      rw [hgp] at hm ⊢
      exact exec_loop hm hne hn (by omega) ha' hb' (by cases up <;> simp at hab hr ⊢ <;> exact ⟨hr, hab⟩) rfl
  · obtain ⟨s', r2, e2⟩ := forReg_empty (f := f + 1) (up := up) (by omega) (by omega) (by omega) href1 hl t0 t1 t3 ha hb
      hcount1 ha' hb' (by cases up <;> simp at hr ⊢ <;> exact hr)
    obtain ⟨y1, y2, y3, y4, y5, y6⟩ := fin r2 (Or.inl rfl) e2
    refine ⟨s', [], y1, y2, y3, y4, Or.inl rfl, y5, y6, ?_⟩
    intro mem bd p hpp hm hn
    have : Spec.regValues up a b = [] := by
      unfold Spec.regValues
      cases up
      · simp at hr ⊢; omega
      · simp at hr ⊢; omega
    rw [this]
    exact ⟨p, .done rfl⟩

/-! `.for y = 7 downto 3` around 200 `nop`s, with a branch back that is too long. -/

private def sr : St where
  pc := 0x1000
  origin := 0x1000
  originSpecified := true
  finalPass := true
  outputOpen := true
  format := .bin

private def nops : Stmt := .at 3 (.fill (.int 0xEA) (.int 200))

example : At (ctxOf sr) (slotOf sr) sr ⟨(ctxOf sr).env, none, 0x1000, true⟩ ∧ forCount false sr = 0 ∧
    Spec.Parses (ctxOf sr) (envOf sr) 0x1000 nops ∧
    Spec.Runs (ctxOf sr) (slotOf sr) nops ⟨(ctxOf sr).env none, 0x1000 + 2, false⟩ ⟨(ctxOf sr).env none, 0x1000 + 2 + 200, false⟩
      (List.replicate 200 0xEA) := by
  refine ⟨⟨rfl, fun _ _ => rfl, rfl, fun l h => (by cases h), rfl, ⟨rfl, by decide, rfl, by decide, fun _ => rfl, fun _ h => (by cases h)⟩,
    rfl, fun _ _ => rfl⟩, rfl, trivial, .at ?_⟩
  have h : Spec.Emits (ctxOf sr) ((ctxOf sr).env none) (0x1000 + 2) false (List.replicate 200 0xEA)
      (.fill (.int 0xEA) (.int 200)) := ⟨234, 200, rfl, rfl, by decide, by decide, fun h => (by cases h), rfl⟩
  exact .plain (k := ⟨(ctxOf sr).env none, 0x1000 + 2, false⟩) h

/-- The output for a short body. -/
example : let st : Stmt := .forReg false (.int 7) (.int 3) false (.at 3 (.fill (.int 0xEA) (.int 2)))
    let r := runTop (expandNode 40) (hasUninit 40) (.stmt [97] 2 st) sr
    r.1 = .ok true ∧ r.2.out = [0xA0, 7, 0xEA, 0xEA, 0x88, 0xC0, 3, 0xB0, 0xF9] ∧
    Spec.regValues false 7 3 = [7, 6, 5, 4, 3] := by decide +kernel

end Verif
