import Verif.Lemmas.ForLoop
import Verif.Props.Layout

/-! # Properties: blocks, conditionals and loops -/

namespace Verif

/-! ## C50: meaning of blocks -/

/-- **C50**.  A block made of plain statements, assignments to variables, `.var`, `.if`, `.while`, `.repeat`, `.do` and
`.for`, nested to any depth, does what the big-step rules `Spec.Runs` say: it writes these bytes, moves the location
counter over them, leaves the variables with these values and all other symbols and the log as they were.  Variables are
those that exist already, outside sections. -/
theorem C50_blocks {C : Spec.Context} {slot : Str → Option Nat} {st : Stmt} {g : Spec.Stage} {k : Spec.Cfg} {bs : List Nat}
    (file : Str) (line : Int) (hp : Spec.Parses C g.cfg.env g.cfg.pc st) (h : Spec.Runs C slot st g.cfg k bs) :
    ∃ f0, ∀ f, f0 ≤ f → ∀ s, At C slot s g → ∃ s', runTop (expandNode f) (hasUninit f) (.stmt file line st) s = (.ok true, s') ∧
      s'.pc = s.pc + bs.length ∧ (∃ hd, (bs ≠ [] → hd = outHdr s) ∧ (emitting s = true → s'.out = s.out ++ hd ++ bs)) ∧
      (emitting s = false → s'.out = s.out) ∧
      (∀ n, envOf s' n = if (slot n).isSome then k.env n else envOf s n) ∧
      s'.log = s.log ∧ s'.errorCount = s.errorCount ∧ s'.symValueChanged = s.symValueChanged ∧ At C slot s' (g.after slot k) := by
  obtain ⟨f0, hr⟩ := block_run file line hp h
  refine ⟨f0, fun f hf s hs => ?_⟩
  obtain ⟨s', r, sp, hlog, ha⟩ := hr f hf s hs
  refine ⟨s', r, ?_, ?_, ?_, ?_, hlog, ?_, ?_, ha⟩
  · obtain ⟨ys, md, mi, ll, _, ns, cg, ds, bd, et, fl, ln, hd, ls, w, ic, _, _, rfl⟩ := sp
    rfl
  · obtain ⟨ys, md, mi, ll, _, ns, cg, ds, bd, et, fl, ln, hd, ls, w, ic, _, g2, rfl⟩ := sp
    refine ⟨hd, fun hne => ?_, fun he => ?_⟩
    · rcases g2 with rfl | ⟨_, h⟩
      · rfl
      · exact absurd h hne
    · show s.out ++ (if emitting s then hd ++ bs else []) = _
      rw [if_pos he, List.append_assoc]
  · intro he
    obtain ⟨ys, md, mi, ll, _, ns, cg, ds, bd, et, fl, ln, hd, ls, w, ic, _, _, rfl⟩ := sp
    show s.out ++ (if emitting s then hd ++ bs else []) = _
    rw [he]
    simp
  · intro n
    have e1 := (ha.ref (mb := false)).env.all
    have e0 := (hs.ref (mb := false)).env.all
    rw [e1, e0]
    rfl
  all_goals
    obtain ⟨ys, md, mi, ll, _, ns, cg, ds, bd, et, fl, ln, hd, ls, w, ic, _, _, rfl⟩ := sp
    rfl

/-! ## C12 for programs with blocks -/

theorem program_split {C : Spec.Context} {slot : Str → Option Nat} {t : Top} {post : List Top} : ∀ {pre : List Top}
    {g g' : Spec.Stage} {bs : List Nat}, Spec.Program C slot (pre ++ t :: post) g g' bs →
    ∃ g1 b1 g2 bt b3, Spec.Program C slot pre g g1 b1 ∧ Spec.Program C slot [t] g1 g2 bt ∧ bs = b1 ++ (bt ++ b3)
  | [], g, g', bs, h => by
    cases h with
    | @line _ _ _ _ _ b1 b2 h hl hs => exact ⟨g, [], _, b1 ++ [], b2, .nil, .line h hl .nil, by rw [List.append_nil]; rfl⟩
    | @block _ _ _ _ _ _ _ b1 b2 hp h hs =>
      exact ⟨g, [], _, b1 ++ [], b2, .nil, .block hp h .nil, by rw [List.append_nil]; rfl⟩
  | p :: pre, g, g', bs, h => by
    cases h with
    | line h hl hs =>
      obtain ⟨g1, b1, g2, bt, b3, a1, a2, rfl⟩ := program_split hs
      exact ⟨g1, _ ++ b1, g2, bt, b3, .line h hl a1, a2, by rw [List.append_assoc]⟩
    | block hp h hs =>
      obtain ⟨g1, b1, g2, bt, b3, a1, a2, rfl⟩ := program_split hs
      exact ⟨g1, _ ++ b1, g2, bt, b3, .block hp h a1, a2, by rw [List.append_assoc]⟩

/-- A line that sets the origin, followed by lines and blocks. -/
theorem originProgram_run {s : St} {t : Top} {o : Int} {f1 : Nat} {b : Bool} {file : Str} {line : Int} (hs : Start s) (hsc : s.currentScope = none)
    (hll : Spec.CLabel s.lastLabel)
    {slot : Str → Option Nat} (hslot : ∀ ll, Spec.CLabel ll → slotOf { s with lastLabel := ll } = slot)
    (hr0 : ∀ f, f1 ≤ f → ∃ ns, s.nodes.length ≤ ns.length ∧ runTop (expandNode f) (hasUninit f) t s = (.ok true, { s with
      file := file
      line := line
      nodes := ns
      pcAssigned := s.pcAssigned + 1
      pc := o
      origin := o
      originSpecified := true
      orgOriginSpecified := b })) {prog : List Top} {g' : Spec.Stage} {bs : List Nat}
    (h : Spec.Program (ctxOf s) slot prog ⟨(ctxOf s).env, s.lastLabel, o, true⟩ g' bs) :
    ∃ f0, ∀ f, f0 ≤ f → ∃ s',
      runFile (expandNode f) (hasUninit f) (t :: prog) s = (.ok (), s') ∧
      (bs ≠ [] → s'.out = headerBytes s.format o ++ bs) ∧ s'.pc = o + bs.length ∧
      (∃ w, s'.log = s.log ++ List.replicate w .branchOutOfRange) ∧ s'.errorCount = s.errorCount ∧
      s'.symValueChanged = s.symValueChanged ∧ At (ctxOf s) slot s' g' := by
  obtain ⟨f0, hr⟩ := program_run h
  refine ⟨max f0 f1, fun f hf => ?_⟩
  obtain ⟨ns, hns, r⟩ := hr0 f (by omega)
  let s1 : St := { s with
    file := file
    line := line
    nodes := ns
    pcAssigned := s.pcAssigned + 1
    pc := o
    origin := o
    originSpecified := true
    orgOriginSpecified := b }
  have hz := hs.nothing
  have hF : Flat s1 true := ⟨hs.running, Nat.le_trans hs.heap hns, rfl, by show 0 ≤ s.totalBytes; omega,
    fun _ => by show o = o + _; rw [if_pos hz.1]; omega, fun _ hh => by cases hh⟩
  have hA : At (ctxOf s) slot s1 ⟨(ctxOf s).env, s.lastLabel, o, true⟩ := ⟨rfl, fun _ _ => rfl, rfl, hll, rfl, hF, hsc, hslot⟩
  obtain ⟨s', r2, a, ha⟩ := hr f (by omega) s1 hA
  refine ⟨s', (runFile_cons r).trans r2, ?_⟩
  obtain ⟨ys, md, mi, ll, _, ns', cg, ds, bd, et, fl, ln, hd', ls, w, ic, _, g2, rfl⟩ := a
  have hem : emitting s1 = true := by
    show (s.finalPass && s.outputOpen && true) = true
    rw [hs.final, hs.output]
    rfl
  refine ⟨?_, rfl, ⟨w, rfl⟩, rfl, rfl, ha⟩
  intro hne
  rcases g2 with rfl | ⟨_, rfl⟩
  · show s.out ++ (if emitting s1 then outHdr s1 ++ bs else []) = _
    rw [if_pos hem, hz.2, List.nil_append]
    congr 1
    show (if s.totalBytes = 0 then headerBytes s.format o else []) = _
    rw [if_pos hz.1]
  · exact absurd rfl hne

/-- `.org` followed by lines and blocks. -/
theorem orgProgram_run {s : St} {e : Expr} {o : Int} (file : Str) (line : Int) (hs : Start s) (hsc : s.currentScope = none)
    (hll : Spec.CLabel s.lastLabel)
    {slot : Str → Option Nat} (hslot : ∀ ll, Spec.CLabel ll → slotOf { s with lastLabel := ll } = slot)
    (hv : Spec.eval (envOf s) s.pc e = some (o, false)) {prog : List Top} {g' : Spec.Stage} {bs : List Nat}
    (h : Spec.Program (ctxOf s) slot prog ⟨(ctxOf s).env, s.lastLabel, o, true⟩ g' bs) :
    ∃ f0, ∀ f, f0 ≤ f → ∃ s',
      runFile (expandNode f) (hasUninit f) (.stmt file line (.org e) :: prog) s = (.ok (), s') ∧
      (bs ≠ [] → s'.out = headerBytes s.format o ++ bs) ∧ s'.pc = o + bs.length ∧
      (∃ w, s'.log = s.log ++ List.replicate w .branchOutOfRange) ∧ s'.errorCount = s.errorCount ∧
      s'.symValueChanged = s.symValueChanged ∧ At (ctxOf s) slot s' g' := by
  refine originProgram_run (f1 := e.depth + 2) (b := true) (file := file) (line := line) hs hsc hll hslot (fun f hf => ?_) h
  obtain ⟨f, rfl⟩ : ∃ g, f = g + 1 := ⟨f - 1, by omega⟩
  exact org_run (f := f) file line (by omega) hs.running hs.heap hs.noOrg hv

/-- `*=` followed by lines and blocks. -/
theorem starProgram_run {s : St} {e : Expr} {o : Int} (file : Str) (line : Int) (hs : Start s) (hsc : s.currentScope = none)
    (hll : Spec.CLabel s.lastLabel)
    {slot : Str → Option Nat} (hslot : ∀ ll, Spec.CLabel ll → slotOf { s with lastLabel := ll } = slot)
    (hv : Spec.eval (envOf s) s.pc e = some (o, false)) {prog : List Top} {g' : Spec.Stage} {bs : List Nat}
    (h : Spec.Program (ctxOf s) slot prog ⟨(ctxOf s).env, s.lastLabel, o, true⟩ g' bs) :
    ∃ f0, ∀ f, f0 ≤ f → ∃ s',
      runFile (expandNode f) (hasUninit f) (.stmt file line (.pcAssign e) :: prog) s = (.ok (), s') ∧
      (bs ≠ [] → s'.out = headerBytes s.format o ++ bs) ∧ s'.pc = o + bs.length ∧
      (∃ w, s'.log = s.log ++ List.replicate w .branchOutOfRange) ∧ s'.errorCount = s.errorCount ∧
      s'.symValueChanged = s.symValueChanged ∧ At (ctxOf s) slot s' g' := by
  refine originProgram_run (f1 := e.depth + 2) (b := s.orgOriginSpecified) (file := file) (line := line) hs hsc hll hslot (fun f hf => ?_) h
  obtain ⟨f, rfl⟩ : ∃ g, f = g + 1 := ⟨f - 1, by omega⟩
  exact star_run (f := f) file line (by omega) hs.running hs.heap hv

/-- **C12** for programs that also contain blocks.  Let a program consist of `.org` and flat lines and blocks with
conditionals, loops and variables, where the other symbols have their final values and no
variable has a local name.  Then the final pass writes the header
and the bytes of the lines and blocks, without other messages than warnings about branches out of range, and those of the line or block `t` are found in the output
at the offset that the address at which `t` was reached has from the origin.  Missing: as in `C12_image_partial`, macros
and sections. -/
theorem C12_blocks_partial {s : St} {e : Expr} {o : Int} (file : Str) (line : Int) (hs : Start s)
    (hsc : s.currentScope = none) (hll : Spec.CLabel s.lastLabel)
    (hvar : ∀ x, x ∈ s.syms → x.isVar = true → 64 ∉ x.fullname)
    (hv : Spec.eval (envOf s) s.pc e = some (o, false)) {prog : List Top} {g' : Spec.Stage} {bs : List Nat}
    (h : Spec.Program (ctxOf s) (slotOf s) prog ⟨(ctxOf s).env, s.lastLabel, o, true⟩ g' bs) (hne : bs ≠ []) :
    (∃ f0, ∀ f, f0 ≤ f → ∃ s',
      runFile (expandNode f) (hasUninit f) (.stmt file line (.org e) :: prog) s = (.ok (), s') ∧
      s'.out = headerBytes s.format o ++ bs ∧ s'.pc = o + bs.length ∧
      (∃ w, s'.log = s.log ++ List.replicate w .branchOutOfRange) ∧ s'.errorCount = s.errorCount) ∧
    ∀ pre t post, prog = pre ++ t :: post → ∃ g1 g2 bt f0, Spec.Program (ctxOf s) (slotOf s) [t] g1 g2 bt ∧ ∀ f, f0 ≤ f → ∃ s1 s',
      runFile (expandNode f) (hasUninit f) (.stmt file line (.org e) :: pre) s = (.ok (), s1) ∧
      At (ctxOf s) (slotOf s) s1 g1 ∧
      runFile (expandNode f) (hasUninit f) (.stmt file line (.org e) :: prog) s = (.ok (), s') ∧
      ∀ i, i < bt.length → s'.out[(headerBytes s.format o).length + (s1.pc + i - o).toNat]? = bt[i]? := by
  have hslot : ∀ ll, Spec.CLabel ll → slotOf { s with lastLabel := ll } = slotOf s := fun ll h' => slotOf_label hvar hsc h' hll
  obtain ⟨f0, hr⟩ := orgProgram_run file line hs hsc hll hslot hv h
  refine ⟨⟨f0, fun f hf => ?_⟩, ?_⟩
  · obtain ⟨s', r, ho, hpc, hl, he, _⟩ := hr f hf
    exact ⟨s', r, ho hne, hpc, hl, he⟩
  · intro pre t post hp
    rw [hp] at h
    obtain ⟨g1, b1, g2, bt, b3, a1, a2, rfl⟩ := program_split h
    obtain ⟨f1, hr1⟩ := orgProgram_run file line hs hsc hll hslot hv a1
    refine ⟨g1, g2, bt, max f0 f1, a2, fun f hf => ?_⟩
    obtain ⟨s', r, ho, _⟩ := hr f (by omega)
    obtain ⟨s1, r1, _, hpc1, _, _, _, hA⟩ := hr1 f (by omega)
    refine ⟨s1, s', r1, hA, r, fun i hi => ?_⟩
    rw [ho hne, hpc1]
    have : (o + (b1.length : Int) + (i : Int) - o).toNat = b1.length + i := by omega
    rw [this, List.getElem?_append_right (Nat.le_add_right _ _), Nat.add_sub_cancel_left,
      List.getElem?_append_right (Nat.le_add_right _ _), Nat.add_sub_cancel_left, List.getElem?_append_left hi]

/-- **C12**, **C13** for programs that begin with `*=`: the header contains the address set by `*=`, and the image is the same
as with `.org`. -/
theorem C12_star_partial {s : St} {e : Expr} {o : Int} (file : Str) (line : Int) (hs : Start s)
    (hsc : s.currentScope = none) (hll : Spec.CLabel s.lastLabel)
    (hvar : ∀ x, x ∈ s.syms → x.isVar = true → 64 ∉ x.fullname)
    (hv : Spec.eval (envOf s) s.pc e = some (o, false)) {prog : List Top} {g' : Spec.Stage} {bs : List Nat}
    (h : Spec.Program (ctxOf s) (slotOf s) prog ⟨(ctxOf s).env, s.lastLabel, o, true⟩ g' bs) (hne : bs ≠ []) :
    ∃ f0, ∀ f, f0 ≤ f → ∃ s',
      runFile (expandNode f) (hasUninit f) (.stmt file line (.pcAssign e) :: prog) s = (.ok (), s') ∧
      s'.out = headerBytes s.format o ++ bs ∧ s'.pc = o + bs.length ∧
      (∃ w, s'.log = s.log ++ List.replicate w .branchOutOfRange) ∧ s'.errorCount = s.errorCount := by
  obtain ⟨f0, hr⟩ := starProgram_run file line hs hsc hll (fun ll h' => slotOf_label hvar hsc h' hll) hv h
  refine ⟨f0, fun f hf => ?_⟩
  obtain ⟨s', r, ho, hpc, hl, he, _⟩ := hr f hf
  exact ⟨s', r, ho hne, hpc, hl, he⟩

/-! A concrete program:

```
        .org $1000
start   lda #1
        .for i = 0 to 3
        .byte i, i*2
        .next i
        .if i-4
        .byte 9
        .else
        .while i-2
i = i-1
        .word start
        .wend
        .endif
```
-/

private def name_i : Str := cstr! "i"

private def sb : St where
  finalPass := true
  outputOpen := true
  format := .c64
  syms := [{ name := cstr! "start", fullname := cstr! "start", value := 0x1000, isInit := true },
    { name := name_i, fullname := name_i, value := 77, isInit := true, isVar := true }]

private def body_b : Stmt := .data 1 (.expr (.sym name_i)) [.expr (.bin .mul (.sym name_i) (.int 2))]
private def for_b : Stmt := .forLoop name_i (.int 0) (.int 3) none body_b name_i
private def wbody_b : Stmt := .seq (.assign name_i (.bin .sub (.sym name_i) (.int 1))) (.data 2 (.expr (.sym (cstr! "start"))) [])
private def while_b : Stmt := .whileLoop (.bin .sub (.sym name_i) (.int 2)) wbody_b
private def if_b : Stmt := .ifElse (.bin .sub (.sym name_i) (.int 4)) (.data 1 (.expr (.int 9)) []) while_b

private def prog_b : List Top := [
  .labelled [97] 2 (cstr! "start") (.op Ins._lda .I (some (.int 1))), .stmt [97] 3 for_b, .stmt [97] 6 if_b]

private def bytes_b : List Nat := [0xA9, 1, 0, 0, 1, 2, 2, 4, 3, 6, 0, 0x10, 0, 0x10]

private def g1 : Spec.Stage := ⟨(ctxOf sb).env, some (cstr! "start"), 0x1002, false⟩
private def B_b (i : Nat) : List Nat := [i, i * 2]
private def K_b : Nat → Spec.Cfg
  | 0 => g1.cfg.set (slotOf sb) 1 0
  | i + 1 => ((K_b i).emit (B_b i)).set (slotOf sb) 1 (0 + (i + 1 : Nat) * 1)

private theorem for_runs : Spec.Runs (ctxOf sb) (slotOf sb) for_b g1.cfg (K_b 4) ((List.range 4).flatMap B_b) := by
  refine (runs_for (name := name_i) (next := name_i) (start := .int 0) (stop := .int 3) (step := none) (body := body_b)
    (k := g1.cfg) (c := 1) (a := 0) (b := 3) (s := 1) K_b (fun i => (K_b i).emit (B_b i)) B_b (by decide +kernel) (by decide +kernel)
    rfl rfl (by decide) rfl rfl trivial (fun i hi => ?_) (fun i hi => .plain ?_) (fun i hi => ?_) fun i hi => rfl).1
  · have : i ≤ 4 := hi
    omega
  · have : i < 4 := hi
    refine ⟨Or.inr (Or.inl rfl), ?_⟩
    obtain rfl | rfl | rfl | rfl : i = 0 ∨ i = 1 ∨ i = 2 ∨ i = 3 := by omega
    all_goals decide +kernel
  · have : i < 4 := hi
    obtain rfl | rfl | rfl | rfl : i = 0 ∨ i = 1 ∨ i = 2 ∨ i = 3 := by omega
    all_goals decide +kernel

private def g2 : Spec.Stage := g1.after (slotOf sb) (K_b 4)
private def L_b : Nat → Spec.Cfg
  | 0 => g2.cfg
  | i + 1 => ((L_b i).set (slotOf sb) 1 (3 - i)).emit [0, 0x10]

private theorem if_runs : Spec.Runs (ctxOf sb) (slotOf sb) if_b g2.cfg (L_b 2) [0, 0x10, 0, 0x10] := by
  refine .elseFalse (by unfold Spec.Cfg.value; decide +kernel) ?_
  refine .while (v := fun i => 2 - i) 2 L_b (fun _ => [0, 0x10]) (fun i hi => ?_) (fun i hi => by omega) rfl
    (fun i hi => ?_) (fun i hi => ?_)
  · unfold Spec.Cfg.value
    obtain rfl | rfl | rfl : i = 0 ∨ i = 1 ∨ i = 2 := by omega
    all_goals decide +kernel
  · refine .seq (b1 := []) (.assign (v := 3 - i) (c := 1) ?_ (by decide +kernel)) (.plain ⟨Or.inr (Or.inr rfl), ?_⟩)
    · unfold Spec.Cfg.value
      obtain rfl | rfl : i = 0 ∨ i = 1 := by omega
      all_goals decide +kernel
    · obtain rfl | rfl : i = 0 ∨ i = 1 := by omega
      all_goals decide +kernel
  · obtain rfl | rfl : i = 0 ∨ i = 1 := by omega
    all_goals decide +kernel

example : Start sb ∧ sb.currentScope = none ∧ Spec.CLabel sb.lastLabel ∧
    (∀ x, x ∈ sb.syms → x.isVar = true → 64 ∉ x.fullname) ∧
    Spec.eval (envOf sb) sb.pc (.int 0x1000) = some (0x1000, false) ∧
    Spec.Program (ctxOf sb) (slotOf sb) prog_b ⟨(ctxOf sb).env, sb.lastLabel, 0x1000, true⟩ (g2.after (slotOf sb) (L_b 2))
      bytes_b := by
  refine ⟨⟨rfl, by decide, rfl, rfl, rfl, rfl, rfl⟩, rfl, fun l h => (by cases h), by decide +kernel, by decide, ?_⟩
  refine .line (b1 := [0xA9, 1]) (ll := some (cstr! "start")) ⟨?_, Or.inl (Or.inr ⟨.imm, 1, rfl, by decide +kernel, by decide, ?_⟩),
    Or.inr (by decide)⟩ (fun l h => by cases h; decide) ?_
  · exact ⟨by decide +kernel, by decide, by decide, by decide +kernel, Or.inl ⟨by decide, rfl⟩⟩
  · exact shortest_of (by decide) (by decide) (by decide) (by decide) (by decide) (by decide +kernel) (by decide +kernel)
      (by decide +kernel)
  refine .block (k := K_b 4) (b1 := [0, 0, 1, 2, 2, 4, 3, 6]) ?_ for_runs ?_
  · intro raw h
    simp at h
  refine .block (k := L_b 2) (b1 := [0, 0x10, 0, 0x10]) (b2 := []) ?_ if_runs .nil
  refine ⟨fun raw h => ?_, trivial, fun raw h => ?_⟩ <;> simp at h

/-- The same with `*=`. -/
example : let r := runFile (expandNode 40) (hasUninit 40) (.stmt [97] 1 (.pcAssign (.int 0x1000)) :: prog_b) sb
    r.1 = .ok () ∧ r.2.out = [0x00, 0x10] ++ bytes_b ∧ r.2.log = [] := by decide +kernel

/-- Its output. -/
example : let r := runFile (expandNode 40) (hasUninit 40) (.stmt [97] 1 (.org (.int 0x1000)) :: prog_b) sb
    r.1 = .ok () ∧ r.2.out = [0x00, 0x10] ++ bytes_b ∧ r.2.log = [] := by decide +kernel

end Verif
