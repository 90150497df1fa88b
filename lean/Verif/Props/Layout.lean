import Verif.Lemmas.Layout
import Verif.Spec.Head

/-! # Property C12: the image is laid out by address -/

namespace Verif

/-- `.org` at the start of a program. -/
theorem org_run {f : Nat} {s : St} {e : Expr} {o : Int} (file : Str) (line : Int) (hd : e.depth < f)
    (he : s.endExpansion = false) (hb : s.nodeBase ≤ s.nodes.length) (horg : s.orgOriginSpecified = false)
    (hv : Spec.eval (envOf s) s.pc e = some (o, false)) :
    ∃ ns, s.nodes.length ≤ ns.length ∧ runTop (expandNode (f + 1)) (hasUninit (f + 1)) (.stmt file line (.org e)) s =
      (.ok true, { s with
        file := file
        line := line
        nodes := ns
        pcAssigned := s.pcAssigned + 1
        pc := o
        origin := o
        originSpecified := true
        orgOriginSpecified := true }) := by
  let s0 : St := { s with file := file, line := line }
  obtain ⟨l1, q1, h1, h2⟩ := buildExpr_run (lk := look s) e s0 hb
  let N : Node := ⟨.opr .org, 1, [q1]⟩
  let s1 : St := { s0 with nodes := s.nodes ++ l1 }
  let s2 : St := { s0 with nodes := s.nodes ++ l1 ++ [N] }
  let s3 : St := { s2 with pcAssigned := s.pcAssigned + 1 }
  have hl : Live s2 s1.nodes.length N :=
    ⟨by simp only [s1, List.length_append]; exact Nat.le_trans hb (Nat.le_add_right _ _), by simp [s1, s2]⟩
  obtain ⟨ns, r, sim, _⟩ := expand_ok (f := f) (s := s3) hd he (h2.sim (HeapSim.append false _ _ [N])) hv
  refine ⟨ns, Nat.le_trans (by simp [s3, s2]) sim.1, ?_⟩
  refine runTop_stmt (v := 0) (p := s1.nodes.length) (s1 := s2) (by intro b n a h; cases h) ?_ ?_
  · refine built_run ?_
    show (buildExpr e >>= fun p => operatorNode .org [p]) s0 = _
    rw [bind_ok h1]
    exact alloc_run _ _ s1
  · rw [expandNode_run (s := s2) he hl]
    show expandOrg (expandNode f) N s2 = _
    unfold expandOrg
    rw [modS_bind, getS_bind]
    rw [if_neg (by show ¬ s.orgOriginSpecified = true; rw [horg]; decide)]
    rw [bind_ok (opAt_run (show N.ops[0]? = some q1 from rfl) s3), bind_ok r]
    rfl

/-- `*=` -/
theorem star_run {f : Nat} {s : St} {e : Expr} {o : Int} (file : Str) (line : Int) (hd : e.depth < f)
    (he : s.endExpansion = false) (hb : s.nodeBase ≤ s.nodes.length)
    (hv : Spec.eval (envOf s) s.pc e = some (o, false)) :
    ∃ ns, s.nodes.length ≤ ns.length ∧ runTop (expandNode (f + 1)) (hasUninit (f + 1)) (.stmt file line (.pcAssign e)) s =
      (.ok true, { s with
        file := file
        line := line
        nodes := ns
        pcAssigned := s.pcAssigned + 1
        pc := o
        origin := o
        originSpecified := true }) := by
  let s0 : St := { s with file := file, line := line }
  obtain ⟨l1, q1, h1, h2⟩ := buildExpr_run (lk := look s) e s0 hb
  let N : Node := ⟨.opr .pcAssign, 1, [q1]⟩
  let s1 : St := { s0 with nodes := s.nodes ++ l1 }
  let s2 : St := { s0 with nodes := s.nodes ++ l1 ++ [N] }
  let s3 : St := { s2 with pcAssigned := s.pcAssigned + 1 }
  have hl : Live s2 s1.nodes.length N :=
    ⟨by simp only [s1, List.length_append]; exact Nat.le_trans hb (Nat.le_add_right _ _), by simp [s1, s2]⟩
  obtain ⟨ns, r, sim, _⟩ := expand_ok (f := f) (s := s3) hd he (h2.sim (HeapSim.append false _ _ [N])) hv
  refine ⟨ns, Nat.le_trans (by simp [s3, s2]) sim.1, ?_⟩
  refine runTop_stmt (v := 0) (p := s1.nodes.length) (s1 := s2) (by intro b n a h; cases h) ?_ ?_
  · refine built_run ?_
    show (buildExpr e >>= fun p => operatorNode .pcAssign [p]) s0 = _
    rw [bind_ok h1]
    exact alloc_run _ _ s1
  · rw [expandNode_run (s := s2) he hl]
    show expandPcAssign (expandNode f) N s2 = _
    unfold expandPcAssign
    rw [modS_bind]
    rw [bind_ok (opAt_run (show N.ops[0]? = some q1 from rfl) s3), bind_ok r]
    rfl

/-- `.org` or `*=` at the start of a program. -/
theorem origin_run {f : Nat} {s : St} {st : Stmt} {e : Expr} {o : Int} (file : Str) (line : Int) (hst : Spec.SetsOrigin e st)
    (hd : e.depth < f) (he : s.endExpansion = false) (hb : s.nodeBase ≤ s.nodes.length) (horg : s.orgOriginSpecified = false)
    (hv : Spec.eval (envOf s) s.pc e = some (o, false)) :
    ∃ ns b, s.nodes.length ≤ ns.length ∧ runTop (expandNode (f + 1)) (hasUninit (f + 1)) (.stmt file line st) s =
      (.ok true, { s with
        file := file
        line := line
        nodes := ns
        pcAssigned := s.pcAssigned + 1
        pc := o
        origin := o
        originSpecified := true
        orgOriginSpecified := b }) := by
  rcases hst with rfl | rfl
  · obtain ⟨ns, h1, h2⟩ := org_run (f := f) file line hd he hb horg hv
    exact ⟨ns, true, h1, h2⟩
  · obtain ⟨ns, h1, h2⟩ := star_run (f := f) file line hd he hb hv
    exact ⟨ns, s.orgOriginSpecified, h1, h2⟩

/-- The start of the final pass with an output file. -/
structure Start (s : St) : Prop where
  running : s.endExpansion = false
  heap : s.nodeBase ≤ s.nodes.length
  noOrg : s.orgOriginSpecified = false
  final : s.finalPass = true
  output : s.outputOpen = true
  nothing : s.totalBytes = 0 ∧ s.out = []

theorem layout_split {C : Spec.Context} {t : Top} {post : List Top} : ∀ {pre : List Top} {ll : Option Str} {pc : Int}
    {fresh : Bool} {ll' : Option Str} {bs : List Nat}, Spec.Layout C ll pc fresh (pre ++ t :: post) ll' bs →
    ∃ ll1 b1 ll2 bt b3 fr, Spec.Layout C ll pc fresh pre ll1 b1 ∧ Spec.Line C ll1 (pc + b1.length) fr t ll2 bt ∧
      bs = b1 ++ (bt ++ b3)
  | [], ll, pc, fresh, ll', bs, h => by
    obtain ⟨ll2, bt, b3, h1, h2, rfl⟩ := h
    exact ⟨ll, [], ll2, bt, b3, fresh, ⟨rfl, rfl⟩, by simpa using h1, rfl⟩
  | x :: pre, ll, pc, fresh, ll', bs, h => by
    obtain ⟨ll2, c1, c2, h1, h2, rfl⟩ := h
    obtain ⟨ll1, b1, ll3, bt, b3, fr, g1, g2, rfl⟩ := layout_split h2
    refine ⟨ll1, c1 ++ b1, ll3, bt, b3, fr, ⟨ll2, c1, b1, h1, g1, rfl⟩, ?_, by simp⟩
    rw [List.length_append, Int.natCast_add, ← Int.add_assoc]
    exact g2

/-- Running `.org` or `*=` and a flat program. -/
theorem orgLayout_run {s : St} {st : Stmt} {e : Expr} {o : Int} {f : Nat} (file : Str) (line : Int)
    (hst : Spec.SetsOrigin e st) (hs : Start s) (hd : e.depth < f)
    (hv : Spec.eval (envOf s) s.pc e = some (o, false)) {prog : List Top} {ll' : Option Str} {bs : List Nat}
    (h : Spec.Layout (ctxOf s) s.lastLabel o true prog ll' bs) (hf : progFuel prog bs ≤ f) :
    ∃ s', runFile (expandNode (f + 1)) (hasUninit (f + 1)) (.stmt file line st :: prog) s = (.ok (), s') ∧
      (bs ≠ [] → s'.out = headerBytes s.format o ++ bs) ∧ s'.pc = o + bs.length ∧ s'.lastLabel = ll' ∧
      (∃ w, s'.log = s.log ++ List.replicate w .branchOutOfRange) ∧ s'.errorCount = s.errorCount ∧ s'.syms = s.syms ∧
      s'.origin = o := by
  obtain ⟨ns, b, hns, r⟩ := origin_run (f := f) file line hst hd hs.running hs.heap hs.noOrg hv
  let s1 : St := { s with
    file := file
    line := line
    nodes := ns
    pcAssigned := s.pcAssigned + 1
    pc := o
    origin := o
    originSpecified := true
    orgOriginSpecified := b }
  have hz := hs.nothing
  have hF : Flat s1 true := ⟨hs.running, Nat.le_trans hs.heap hns, rfl, by show 0 ≤ s.totalBytes; omega,
    fun _ => by show o = o + _; rw [if_pos hz.1]; omega, fun _ hh => by cases hh⟩
  obtain ⟨s', r2, a⟩ := layout_run (f := f) (s := s1) hF hf h
  refine ⟨s', (runFile_cons r).trans r2, ?_⟩
  obtain ⟨ns', cg, ds, bd, et, fl, ln, hd', ls, w, ic, _, g2, rfl⟩ := a
  have hem : emitting s1 = true := by
    show (s.finalPass && s.outputOpen && true) = true
    rw [hs.final, hs.output]
    rfl
  refine ⟨?_, rfl, rfl, ⟨w, rfl⟩, rfl, rfl, rfl⟩
  intro hne
  rcases g2 with rfl | ⟨_, rfl⟩
  · show s.out ++ (if emitting s1 then outHdr s1 ++ bs else []) = _
    rw [if_pos hem, hz.2, List.nil_append]
    congr 1
    show (if s.totalBytes = 0 then headerBytes s.format o else []) = _
    rw [if_pos hz.1]
  · exact absurd rfl hne

/-- **C12**.  Let a program consist of `.org` or `*=` and instructions, data, fills, binary files, assignments and labels whose
symbols have their final values (`Spec.Layout`); branches may be out of range.  Then the final pass writes the header followed
by the bytes of the lines, nothing else and without any message besides the warnings for branches out of range.  When a line `t` is reached with the location counter at `A`, its bytes
are found in the output at the offset `A - origin`, plus the size of the header.  For every program, of any length, and
every line of it.  Missing: programs whose symbols change in the final pass, the branches that are assembled wrongly (C08), a
fill before any other byte in C64 format (`C15_false_c64`); macros and blocks: `C58`, `C50`. -/
theorem C12_image_partial {s : St} {st : Stmt} {e : Expr} {o : Int} (file : Str) (line : Int)
    (hst : Spec.SetsOrigin e st) (hs : Start s)
    (hv : Spec.eval (envOf s) s.pc e = some (o, false)) {prog : List Top} {ll' : Option Str} {bs : List Nat}
    (h : Spec.Layout (ctxOf s) s.lastLabel o true prog ll' bs) (hne : bs ≠ []) :
    ∃ f0, ∀ f, f0 ≤ f → ∃ s',
      runFile (expandNode f) (hasUninit f) (.stmt file line st :: prog) s = (.ok (), s') ∧
      s'.out = headerBytes s.format o ++ bs ∧ s'.pc = o + bs.length ∧
      (∃ w, s'.log = s.log ++ List.replicate w .branchOutOfRange) ∧ s'.errorCount = s.errorCount ∧ s'.syms = s.syms ∧
      ∀ pre t post, prog = pre ++ t :: post → ∃ s1 ll2 bt fr,
        runFile (expandNode f) (hasUninit f) (.stmt file line st :: pre) s = (.ok (), s1) ∧
        Spec.Line (ctxOf s) s1.lastLabel s1.pc fr t ll2 bt ∧
        ∀ i, i < bt.length →
          s'.out[(headerBytes s.format o).length + (s1.pc + i - o).toNat]? = bt[i]? := by
  refine ⟨e.depth + progFuel prog bs + 2, fun f hf => ?_⟩
  obtain ⟨f, rfl⟩ : ∃ g, f = g + 1 := ⟨f - 1, by omega⟩
  obtain ⟨s', r, ho, hpc, _, hlog, herr, hsy, _⟩ := orgLayout_run (f := f) file line hst hs (by omega) hv h (by omega)
  refine ⟨s', r, ho hne, hpc, hlog, herr, hsy, ?_⟩
  intro pre t post hp
  rw [hp] at h
  obtain ⟨ll1, b1, ll2, bt, b3, fr, g1, g2, rfl⟩ := layout_split h
  obtain ⟨s1, r1, _, hpc1, hll1, _⟩ := orgLayout_run (f := f) file line hst hs (by omega) hv g1 (by
    rw [hp] at hf
    simp only [progFuel, List.map_append, List.sum_append, List.length_append] at hf ⊢
    omega)
  refine ⟨s1, ll2, bt, fr, r1, ?_, ?_⟩
  · rw [hpc1, hll1]
    exact g2
  · intro i hi
    rw [ho hne, hpc1]
    have : (o + (b1.length : Int) + (i : Int) - o).toNat = b1.length + i := by omega
    rw [this, List.getElem?_append_right (Nat.le_add_right _ _), Nat.add_sub_cancel_left,
      List.getElem?_append_right (Nat.le_add_right _ _), Nat.add_sub_cancel_left, List.getElem?_append_left hi]

/-! A concrete program:

```
        .org $1000
start   lda tab
@l      bne @l
        asl a
        jmp start
tab     .byte <tab, -1
        .fill 7, 3
```
-/

/-- A defined symbol. -/
def flatSym (name : Str) (v : Int) : Sym := { name := name, fullname := name, value := v, isInit := true }

/-- The symbols of this program. -/
def flatSt : St where
  finalPass := true
  outputOpen := true
  format := .c64
  syms := [flatSym (cstr! "tab") 0x1009, flatSym (cstr! "start") 0x1000, flatSym (cstr! "start__@l") 0x1003]

/-- Its lines. -/
def flatProg : List Top := [
  .labelled [97] 2 (cstr! "start") (.op Ins._lda .a (some (.sym (cstr! "tab")))),
  .labelled [97] 3 (cstr! "@l") (.op Ins._bne .a (some (.sym (cstr! "@l")))),
  .stmt [97] 4 (.op Ins._asl .a (some (.sym [97]))),
  .stmt [97] 5 (.op Ins._jmp .a (some (.sym (cstr! "start")))),
  .stmt [97] 6 (.word true (cstr! "tab") none),
  .stmt [97] 7 (.data 1 (.expr (.un .lo (.sym (cstr! "tab")))) [.expr (.int (-1))]),
  .stmt [97] 8 (.fill (.int 7) (.int 3))]

/-- Its bytes. -/
def flatBytes : List Nat := [0xAD, 0x09, 0x10, 0xD0, 0xFE, 0x0A, 0x4C, 0x00, 0x10, 9, 255, 7, 7, 7]

/-- Encodings found by the model are shortest. -/
theorem shortest_of {ins : Int} {form : Spec.Form} {pc v : Int} {bs : List Nat} (h0 : 0 ≤ ins)
    (h1 : ins < Ins._slo) (h2 : ¬ (Ins._bbr0 ≤ ins ∧ ins ≤ Ins._bbs7)) (hv : 0 ≤ v) (hv' : v ≤ 65535)
    (hr : getOpCode .c6502 false ins .r = -1) (hn : ∀ op, op < 256 → Spec.decode6502 op ≠ some (Spec.mnemonic ins, .relative))
    (h : (encode (getOpCode .c6502 false ins) (Form.mode form) pc v).map (fun r => toBytes (instrBytes r.1 r.2 pc v)) =
      some bs) : Spec.Shortest .c6502 ins form pc v bs := by
  cases hen : encode (getOpCode .c6502 false ins) (Form.mode form) pc v with
  | none => rw [hen] at h; cases h
  | some mc =>
    rw [hen] at h
    cases h
    obtain ⟨e1, e2⟩ := encode_sound (faithful_6502 false ins h0 h1 form) hr hv (by omega) hen
    exact ⟨h0, h1, h2, (fun h => by cases h), hv, hv', e1, e2, fun op hop h => absurd h (hn op hop)⟩

private theorem shortest_bne : Spec.Shortest .c6502 Ins._bne .dir 0x1003 0x1003 [0xD0, 0xFE] := by
  refine ⟨by decide, by decide, by decide, (fun h => by cases h), by decide, by decide, ?_, ?_, ?_⟩
  · refine ⟨by unfold Spec.Bytes; decide, 0xD0, [0xFE], .relative, rfl, by decide +kernel, by decide, ?_⟩
    unfold Spec.Denotes
    rw [if_pos rfl]
    exact ⟨0xFE, rfl, by decide⟩
  · rintro bs' ⟨_, op, rest, am, rfl, _, ham, hden⟩
    unfold Spec.Denotes at hden
    split at hden
    · obtain ⟨d, rfl, _⟩ := hden
      exact Nat.le_refl _
    · have : 1 ≤ am.operandBytes := by
        simp only [Spec.Form.modes, List.mem_cons, List.not_mem_nil, or_false] at ham
        rcases ham with rfl | rfl | rfl <;> decide
      simp only [List.length_cons, hden.1, List.length_nil]
      omega
  · intro op _ _
    decide

theorem flat_layout : Spec.Layout (ctxOf flatSt) none 0x1000 true flatProg (some (cstr! "tab")) flatBytes := by
  refine ⟨some (cstr! "start"), [0xAD, 0x09, 0x10], _, ⟨?_, Or.inl (Or.inr ⟨.dir, 0x1009, rfl, by decide +kernel, by decide, ?_⟩), Or.inr (by decide)⟩, ?_, rfl⟩
  · exact ⟨by decide +kernel, by decide, by decide, by decide +kernel, Or.inl ⟨by decide, rfl⟩⟩
  · exact shortest_of (by decide) (by decide) (by decide) (by decide) (by decide) (by decide +kernel) (by decide +kernel)
      (by decide +kernel)
  refine ⟨some (cstr! "start"), [0xD0, 0xFE], _, ⟨?_, Or.inl (Or.inr ⟨.dir, 0x1003, rfl, by decide +kernel, by decide, shortest_bne⟩), Or.inl rfl⟩, ?_, rfl⟩
  · exact ⟨by decide +kernel, by decide, by decide, by decide +kernel, Or.inr ⟨by decide, rfl, by decide,
      fun l h => by cases h; decide⟩⟩
  refine ⟨some (cstr! "start"), [0x0A], _, ⟨rfl, Or.inl (Or.inl ⟨rfl, Or.inr rfl, by decide, by decide, by decide, 0x0A, by decide,
    by decide +kernel, rfl⟩)⟩, ?_, rfl⟩
  refine ⟨some (cstr! "start"), [0x4C, 0x00, 0x10], _, ⟨rfl, Or.inl (Or.inr ⟨.dir, 0x1000, rfl, by decide +kernel, by decide, ?_⟩)⟩, ?_, rfl⟩
  · exact shortest_of (by decide) (by decide) (by decide) (by decide) (by decide) (by decide +kernel) (by decide +kernel)
      (by decide +kernel)
  refine ⟨some (cstr! "tab"), [], _, ⟨?_, rfl⟩, ?_, rfl⟩
  · exact ⟨by decide +kernel, by decide, by decide, by decide +kernel, Or.inl ⟨by decide, rfl⟩⟩
  refine ⟨some (cstr! "tab"), [9, 255], _, ⟨rfl, Or.inl ⟨Or.inr (Or.inl rfl), by decide +kernel⟩⟩, ?_, rfl⟩
  refine ⟨some (cstr! "tab"), [7, 7, 7], [], ⟨rfl, Or.inl ⟨7, 3, by decide, by decide, by decide, by decide, (fun h => by cases h), rfl⟩⟩,
    ⟨rfl, rfl⟩, rfl⟩

example : Start flatSt ∧ Spec.eval (envOf flatSt) flatSt.pc (.int 0x1000) = some (0x1000, false) ∧
    Spec.Layout (ctxOf flatSt) flatSt.lastLabel 0x1000 true flatProg (some (cstr! "tab")) flatBytes :=
  ⟨⟨rfl, by decide, rfl, rfl, rfl, rfl, rfl⟩, by decide, flat_layout⟩

/-- The output of this program. -/
example : let r := runFile (expandNode 40) (hasUninit 40) (.stmt [97] 1 (.org (.int 0x1000)) :: flatProg) flatSt
    r.1 = .ok () ∧ r.2.out = [0x00, 0x10] ++ flatBytes ∧ r.2.log = [] := by decide +kernel

/-! With branches that cannot reach their targets, forwards and backwards:

```
        .org $1000
start   beq far
        .fill 0, 200
far     bcc start
```
-/

/-- The symbols of this program. -/
def farSt : St := { flatSt with syms := [flatSym (cstr! "start") 0x1000, flatSym (cstr! "far") 0x10CD] }

/-- Its lines. -/
def farProg : List Top := [
  .labelled [97] 2 (cstr! "start") (.op Ins._beq .a (some (.sym (cstr! "far")))),
  .stmt [97] 3 (.fill (.int 0) (.int 200)),
  .labelled [97] 4 (cstr! "far") (.op Ins._bcc .a (some (.sym (cstr! "start"))))]

/-- Its bytes. -/
def farBytes : List Nat := [0xD0, 3, 0x4C, 0xCD, 0x10] ++ (List.replicate 200 0 ++ [0xB0, 3, 0x4C, 0x00, 0x10])

theorem far_layout : Spec.Layout (ctxOf farSt) none 0x1000 true farProg (some (cstr! "far")) farBytes := by
  refine ⟨some (cstr! "start"), [0xD0, 3, 0x4C, 0xCD, 0x10], _, ⟨?_, Or.inr (Or.inl ⟨rfl, by decide, by decide, by decide, by decide,
    0x10CD, 0xD0, "bne", by decide +kernel, by decide +kernel, by decide +kernel, by decide, by decide, by decide, by decide +kernel,
    by decide, by decide +kernel, rfl⟩), Or.inr (by decide)⟩, ?_, rfl⟩
  · exact ⟨by decide +kernel, by decide, by decide, by decide +kernel, Or.inl ⟨by decide, rfl⟩⟩
  refine ⟨some (cstr! "start"), List.replicate 200 0, _, ⟨rfl, Or.inl ⟨0, 200, by decide, by decide, by decide, by decide,
    (fun h => by cases h), rfl⟩⟩, ?_, rfl⟩
  refine ⟨some (cstr! "far"), [0xB0, 3, 0x4C, 0x00, 0x10], [], ⟨?_, Or.inr (Or.inl ⟨rfl, by decide +kernel, by decide +kernel, by decide +kernel, by decide +kernel,
    0x1000, 0xB0, "bcs", by decide +kernel, by decide +kernel, by decide +kernel, by decide +kernel, by decide +kernel, by decide +kernel, by decide +kernel,
    by decide +kernel, by decide +kernel, rfl⟩), Or.inr (by decide)⟩, ⟨rfl, rfl⟩, rfl⟩
  exact ⟨by decide +kernel, by decide, by decide, by decide +kernel, Or.inl ⟨by decide, rfl⟩⟩

example : let r := runFile (expandNode 220) (hasUninit 220) (.stmt [97] 1 (.org (.int 0x1000)) :: farProg) farSt
    r.1 = .ok () ∧ r.2.out = [0x00, 0x10] ++ farBytes ∧ r.2.log = [.branchOutOfRange, .branchOutOfRange] := by decide +kernel

end Verif
