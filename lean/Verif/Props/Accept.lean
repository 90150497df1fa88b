import Verif.Lemmas.Straight
import Verif.Props.Layout
import Verif.Props.EndToEnd
import Verif.Props.Text

/-! # Property C68: programs whose names are all defined are accepted -/

namespace Verif

open Spec (Simple Straight FilesText MacroFreeTop MacroFree Digit)

private theorem pass_ok {f : Nat} {ps : Program} {o fin : Bool} {s t : St}
    (h : forEachM (runFile (expandNode f) (hasUninit f)) ps (resetSt { s with finalPass := fin, outputOpen := fin && o }) = (.ok (), t)) :
    (passSem f ps o).parse fin s = some { t with nodeBase := t.nodes.length, currentScope := none } := by
  show (match runPass f ps o fin s with
    | (.ok _, s') => some s'
    | _ => none) = _
  unfold runPass
  rcases parsePass_cases f ps { s with finalPass := fin, outputOpen := fin && o } with ⟨t', k1, k2⟩ | ⟨r', t', k1, k2, _⟩
  · cases h.symm.trans k1
    rw [k2]
  · cases h.symm.trans k1
    exact absurd rfl (k2 ())

/-- The driver when the first pass settles all. -/
private theorem assemble_two {σ : Type} {P : PassSem σ} {S s1 s2 : σ} (h1 : P.parse false S = some s1) (h2 : P.errorCount s1 = 0)
    (h3 : P.clean s1 = true) (h4 : P.parse true s1 = some s2) :
    assemble P { output := some true } S = ⟨some 0, [(false, S, s1), (true, s1, s2)], (1, 1), true⟩ := by
  have hloop : passLoop P maxPasses 1 S [] = (some s1, 2, [(false, S, s1)]) := by
    show passLoop P (19 + 1) 1 S [] = _
    unfold passLoop
    simp [h1, h3]
  unfold assemble
  simp [hloop, h2, h4, finishStatus]
  decide

/-- The driver when the second pass does. -/
private theorem assemble_three {σ : Type} {P : PassSem σ} {S s1 s2 s3 : σ} (h1 : P.parse false S = some s1) (h2 : P.errorCount s1 = 0)
    (h3 : P.clean s1 = false) (h4 : P.parse false s1 = some s2) (h5 : P.errorCount s2 = 0) (h6 : P.clean s2 = true)
    (h7 : P.parse true s2 = some s3) :
    assemble P { output := some true } S = ⟨some 0, [(false, S, s1), (false, s1, s2), (true, s2, s3)], (2, 1), true⟩ := by
  have hloop : passLoop P maxPasses 1 S [] = (some s2, 3, [(false, S, s1), (false, s1, s2)]) := by
    show passLoop P (18 + 1 + 1) 1 S [] = _
    unfold passLoop
    simp only [h1]
    rw [if_pos ⟨h2, by decide, h3⟩]
    unfold passLoop
    simp [h4, h6]
  unfold assemble
  simp [hloop, h5, h7, finishStatus]
  decide

/-- The state behind `.org`. -/
private def behind (s : St) (fin : Bool) (file : Str) (line : Int) (o : Int) (ns : List Node) : St :=
  { resetSt { s with finalPass := fin, outputOpen := fin && true } with
    file := file
    line := line
    nodes := ns
    pcAssigned := s.pcAssigned + 1
    pc := o
    origin := o
    originSpecified := true
    orgOriginSpecified := true }

private theorem behind_org {f : Nat} {s : St} {fin : Bool} {file : Str} {line : Int} {o : Int} {prog : List Top}
    (hf : 1 ≤ f) (hb : s.nodeBase ≤ s.nodes.length) (h0 : 0 ≤ o) (h1 : o < 65536) :
    ∃ ns, s.nodes.length ≤ ns.length ∧ ∀ t,
      runFile (expandNode (f + 1)) (hasUninit (f + 1)) prog (behind s fin file line o ns) = (.ok (), t) →
      (passSem (f + 1) [.stmt file line (.org (.int o)) :: prog] true).parse fin s =
        some { t with nodeBase := t.nodes.length, currentScope := none } := by
  let u : St := resetSt { s with finalPass := fin, outputOpen := fin && true }
  obtain ⟨ns, hns, r⟩ := org_run (f := f) (s := u) (e := .int o) (o := o) file line (by show 0 < f; omega) rfl hb rfl
    (by
      show (Spec.rng o).map (·, false) = _
      unfold Spec.rng
      rw [if_pos (by omega)]
      rfl)
  refine ⟨ns, hns, fun t ht => pass_ok ?_⟩
  simp only [forEachM, run_bind]
  rw [(runFile_cons r).trans ht]
  rfl

/-- What a pass needs from the state. -/
private structure Prepared (s : St) (cpu : Cpu) (fmt : Format) (files : List (Str × List Nat)) (env : Str → Option Int) : Prop where
  heap : s.nodeBase ≤ s.nodes.length
  cpu : s.cpu = cpu
  format : s.format = fmt
  files : s.files = files
  total : s.totalBytes = 0
  out : s.out = []
  holds : Holds s env

private def ctx0 (cpu : Cpu) (fmt : Format) (files : List (Str × List Nat)) : Spec.Context where
  cpu := cpu
  raw := decide (fmt = .bin)
  files := files
  isMacro := fun _ => false
  text := textOf
  env := fun _ _ => none

private theorem Prepared.same {s : St} {cpu : Cpu} {fmt : Format} {files : List (Str × List Nat)} {env : Str → Option Int}
    (h : Prepared s cpu fmt files env) : SameCtx (ctx0 cpu fmt files) (ctxOf s) :=
  ⟨h.cpu, by show decide (s.format = .bin) = decide (fmt = .bin); rw [h.format], h.files, rfl⟩

private theorem Prepared.behind {s : St} {cpu : Cpu} {fmt : Format} {files : List (Str × List Nat)} {env : Str → Option Int}
    (h : Prepared s cpu fmt files env) (fin : Bool) (file : Str) (line o : Int) {ns : List Node} (hns : s.nodes.length ≤ ns.length) :
    Prepared (behind s fin file line o ns) cpu fmt files env ∧ Flat (Verif.behind s fin file line o ns) true := by
  have ht : (Verif.behind s fin file line o ns).totalBytes = 0 := h.total
  refine ⟨⟨Nat.le_trans h.heap hns, h.cpu, h.format, h.files, h.total, h.out, h.holds.scope, h.holds.settled, fun n hn => ?_⟩,
    ⟨rfl, Nat.le_trans h.heap hns, rfl, Int.le_of_eq ht.symm, fun _ => by rw [if_pos ht]; exact (Int.add_zero o).symm, fun _ h => by cases h⟩⟩
  rw [← h.holds.agree n hn]
  unfold envOf
  rw [hn.look (s := Verif.behind s fin file line o ns) h.holds.scope, hn.look h.holds.scope]
  rfl

private theorem Holds.end {s : St} {env : Str → Option Int} (h : Holds s env) :
    Holds { s with nodeBase := s.nodes.length, currentScope := none } env := by
  refine ⟨rfl, h.settled, fun n hn => ?_⟩
  rw [← h.agree n hn]
  unfold envOf
  rw [hn.look (s := { s with nodeBase := s.nodes.length, currentScope := none }) rfl, hn.look h.scope]

/-- The first pass. -/
private theorem first_pass {s : St} {cpu : Cpu} {fmt : Format} {files : List (Str × List Nat)} {envF : Str → Option Int}
    {prog : List Top} {bs : List Nat} {f : Nat} {o : Int} (file : Str) (line : Int) (h : Prepared s cpu fmt files fun _ => none)
    (hy : s.syms = []) (hf : progFuel prog bs ≤ f) (h0 : 0 ≤ o) (h1 : o < 65536)
    (hp : Straight (ctx0 cpu fmt files) (fun _ => none) o true prog envF bs) :
    ∃ s', (passSem (f + 1) [.stmt file line (.org (.int o)) :: prog] true).parse false s = some s' ∧ Prepared s' cpu fmt files envF ∧
      s'.errorCount = 0 := by
  obtain ⟨ns, hns, k⟩ := behind_org (f := f) (s := s) (fin := false) (file := file) (line := line) (prog := prog)
    (by unfold progFuel at hf; omega) h.heap h0 h1
  obtain ⟨hr, hfl⟩ := h.behind false file line o hns
  obtain ⟨t, r, g1, g2⟩ := straight_run (f := f) hfl rfl
    ⟨hr.holds.scope, fun i x hx => by rw [show (behind s false file line o ns).syms = [] from hy] at hx; simp at hx, hr.holds.agree⟩
    ⟨fun _ _ _ => rfl, rfl⟩ hr.same hf hp
  exact ⟨_, k t r, ⟨Nat.le_refl _, g2.cpu.trans hr.cpu, g2.format.trans hr.format, g2.files.trans hr.files, g2.total.trans hr.total,
    g2.out.trans hr.out, g1.end⟩, g2.errors⟩

/-- A later pass. -/
private theorem later_pass {s : St} {cpu : Cpu} {fmt : Format} {files : List (Str × List Nat)} {envF : Str → Option Int}
    {prog : List Top} {bs : List Nat} {f : Nat} {o : Int} (file : Str) (line : Int) (fin : Bool) (h : Prepared s cpu fmt files envF)
    (hf : progFuel prog bs ≤ f) (h0 : 0 ≤ o) (h1 : o < 65536) (hb : bs ≠ [])
    (hp : Straight (ctx0 cpu fmt files) (fun _ => none) o true prog envF bs) :
    ∃ s', (passSem (f + 1) [.stmt file line (.org (.int o)) :: prog] true).parse fin s = some s' ∧
      (fin = false → Prepared s' cpu fmt files envF) ∧ s'.errorCount = 0 ∧ s'.symValueChanged = 0 ∧ Holds s' envF ∧
      (fin = true → s'.out = headerBytes fmt o ++ bs) := by
  obtain ⟨ns, hns, k⟩ := behind_org (f := f) (s := s) (fin := fin) (file := file) (line := line) (prog := prog)
    (by unfold progFuel at hf; omega) h.heap h0 h1
  obtain ⟨hr, hfl⟩ := h.behind fin file line o hns
  have ht0 : NameTable fun _ => none := ⟨fun _ _ _ => rfl, rfl⟩
  obtain ⟨ll, hlay⟩ := straight_layout hr.holds (straight_table ht0 hp).1 hr.same (behind s fin file line o ns).lastLabel ht0 hp
  obtain ⟨t, r, hl⟩ := layout_run (f := f) hfl hf hlay
  refine ⟨_, k t r, ?_⟩
  obtain ⟨ns', cg, ds, bd, et, fl, ln, hd, ls, w, ic, g1, g2, rfl⟩ := hl
  have hH : Holds { behind s fin file line o ns with
      nodes := ns', codeGenerated := cg, dataSize := ds, byteDelta := bd, expansionType := et, file := fl, line := ln, lastLabel := ll
      warningCount := (behind s fin file line o ns).warningCount + w
      log := (behind s fin file line o ns).log ++ List.replicate w .branchOutOfRange
      incs := ic
      pc := (behind s fin file line o ns).pc + bs.length
      out := (behind s fin file line o ns).out ++ (if emitting (behind s fin file line o ns) then hd ++ bs else [])
      totalBytes := (behind s fin file line o ns).totalBytes +
        (if emitting (behind s fin file line o ns) then ((hd.length + bs.length : Nat) : Int) else 0)
      listing := (behind s fin file line o ns).listing ++ (if (behind s fin file line o ns).finalPass then ls else [])
      nodeBase := ns'.length
      currentScope := none } envF := by
    refine ⟨rfl, h.holds.settled, fun n hn => ?_⟩
    rw [← h.holds.agree n hn]
    unfold envOf
    rw [hn.look rfl, hn.look h.holds.scope]
    rfl
  have hhd : hd = headerBytes fmt o := by
    rcases g2 with rfl | g2
    · unfold outHdr
      rw [if_pos hr.total, hr.format]
      rfl
    · exact absurd g2.2 hb
  refine ⟨?_, rfl, rfl, hH, ?_⟩
  · rintro rfl
    have hem : emitting (behind s false file line o ns) = false := rfl
    refine ⟨Nat.le_refl _, hr.cpu, hr.format, hr.files, ?_, ?_, hH⟩
    · show (behind s false file line o ns).totalBytes + _ = 0
      rw [hr.total, hem]
      rfl
    · show (behind s false file line o ns).out ++ _ = []
      rw [hr.out, hem]
      rfl
  · rintro rfl
    have hem : emitting (behind s true file line o ns) = true := rfl
    show (behind s true file line o ns).out ++ _ = _
    rw [hr.out, hem, hhd]
    rfl

/-- **C68**, programs that can be assembled in one go.  Let the lines of a program, read once from the top to the bottom (`Straight`), give
the bytes `bs` and the table of names `env`: each name is defined once, by an assignment or a label, and is used below
its line, or on it or before it in the operand of an instruction whose size does not depend on the value (branches, `jmp`, `jsr`,
instructions without a zero page form, and all others if the operand turns out to lie outside the zero page) or in bytes and words.
Then the assembler accepts the program with `.org` in front: after one or two passes and the final one it returns 0, with no errors, the output file has the header and the bytes `bs`, and the symbols
have the values of the table.
Missing: other uses of names before their definition (with logical operators, in divisions by other than a number, in fills,
for the zero page, in branches that are too far), local and anonymous labels, sections, macros and blocks. -/
theorem C68_accepted_partial (cpu : Cpu) (ill : Bool) (fmt : Format) (files : List (Str × List Nat)) (file : Str) (line o : Int)
    (prog : List Top) (env : Str → Option Int) (bs : List Nat) (f : Nat) (h0 : 0 ≤ o) (h1 : o < 65536) (hb : bs ≠ [])
    (hf : progFuel prog bs < f)
    (h : Straight { cpu := cpu, raw := decide (fmt = .bin), files := files, isMacro := fun _ => false, text := textOf, env := fun _ _ => none }
      (fun _ => none) o true prog env bs) :
    let S : St := { cpu := cpu, allowIllegal := ill, format := fmt, files := files }
    let r := assembleProg f [.stmt file line (.org (.int o)) :: prog] { output := some true } S
    r.status = some 0 ∧ r.passes.length ≤ 3 ∧ ∃ p s', r.passes.getLast? = some (true, p, s') ∧ p.errorCount = 0 ∧ s'.errorCount = 0 ∧
      s'.out = headerBytes fmt o ++ bs ∧ ∀ n, Simple n → envOf s' n = env n := by
  obtain ⟨f, rfl⟩ : ∃ g, f = g + 1 := ⟨f - 1, by omega⟩
  have hf' : progFuel prog bs ≤ f := by omega
  intro S r
  have hS : Prepared S cpu fmt files fun _ => none := by
    refine ⟨Nat.le_refl _, rfl, rfl, rfl, rfl, rfl, rfl, (fun x hx => by cases hx), fun n hn => ?_⟩
    unfold envOf
    rw [hn.look (s := S) rfl]
    split <;> rfl
  obtain ⟨s1, e1, a1, a2⟩ := first_pass (f := f) file line hS rfl hf' h0 h1 h
  have stop : ∀ (s : St), Prepared s cpu fmt files env → s.errorCount = 0 → s.symValueChanged = 0 →
      (passSem (f + 1) [.stmt file line (.org (.int o)) :: prog] true).clean s = true := by
    intro s hs he hc
    show (s.errorCount == 0 && s.symValueChanged == 0 && unresolvedCount s.syms == 0) = true
    rw [he, hc, hs.holds.settled.unresolved]
    rfl
  by_cases hc : s1.symValueChanged = 0
  · obtain ⟨s2, e2, _, b2, _, b4, b5⟩ := later_pass (f := f) file line true a1 hf' h0 h1 hb h
    have hq : r = _ := assemble_two (P := passSem (f + 1) [.stmt file line (.org (.int o)) :: prog] true) (S := S) e1 a2 (stop s1 a1 a2 hc) e2
    clear_value r
    subst hq
    exact ⟨rfl, Nat.le_succ 2, s1, s2, rfl, a2, b2, b5 rfl, fun n hn => b4.agree n hn⟩
  · obtain ⟨s2, e2, c1, c2, c3, _, _⟩ := later_pass (f := f) file line false a1 hf' h0 h1 hb h
    obtain ⟨s3, e3, _, b2, _, b4, b5⟩ := later_pass (f := f) file line true (c1 rfl) hf' h0 h1 hb h
    have hd : (passSem (f + 1) [.stmt file line (.org (.int o)) :: prog] true).clean s1 = false := by
      show (s1.errorCount == 0 && s1.symValueChanged == 0 && unresolvedCount s1.syms == 0) = false
      rw [show (s1.symValueChanged == 0) = false from by simpa using hc]
      simp
    have hq : r = _ := assemble_three (P := passSem (f + 1) [.stmt file line (.org (.int o)) :: prog] true) (S := S) e1 a2 hd e2 c2 (stop s2 (c1 rfl) c2 c3) e3
    clear_value r
    subst hq
    exact ⟨rfl, Nat.le_refl 3, s2, s3, rfl, c2, b2, b5 rfl, fun n hn => b4.agree n hn⟩

/-! An example:

```
        .org $1000
size    = 2
start   lda #size
        beq end
        lda table+1,x
        jmp START
end     jmp end
ptr     .word table/16, ptr
limit   = end - start
table   .byte limit
```
-/

/-- Its lines after `.org`. -/
def earlyProg : List Top := [
  .stmt [97] 2 (.assign (cstr! "size") (.int 2)),
  .labelled [97] 3 (cstr! "start") (.op Ins._lda .I (some (.sym (cstr! "size")))),
  .stmt [97] 4 (.op Ins._beq .a (some (.sym (cstr! "end")))),
  .stmt [97] 5 (.op Ins._lda .ax (some (.bin .add (.sym (cstr! "table")) (.int 1)))),
  .stmt [97] 6 (.op Ins._jmp .a (some (.sym (cstr! "START")))),
  .labelled [97] 7 (cstr! "end") (.op Ins._jmp .a (some (.sym (cstr! "end")))),
  .labelled [97] 8 (cstr! "ptr") (.data 2 (.expr (.bin .div (.sym (cstr! "table")) (.int 16))) [.expr (.sym (cstr! "ptr"))]),
  .stmt [97] 9 (.assign (cstr! "limit") (.bin .sub (.sym (cstr! "end")) (.sym (cstr! "start")))),
  .labelled [97] 10 (cstr! "table") (.data 1 (.expr (.sym (cstr! "limit"))) [])]

private def env1 := Spec.define (fun _ => none) (cstr! "size") 2
private def env2 := Spec.define env1 (cstr! "start") 0x1000
private def env3 := Spec.define env2 (cstr! "end") 0x100A
private def env4 := Spec.define env3 (cstr! "ptr") 0x100D
private def env5 := Spec.define env4 (cstr! "limit") 10
private def env6 := Spec.define env5 (cstr! "table") 0x1011

/-- No instruction is longer than three bytes. -/
private theorem encodes_three {dec : Nat → Option (String × Spec.AMode)} {name : String} {form : Spec.Form} {pc v : Int} {bs : List Nat}
    (h : Spec.Encodes dec name form pc v bs) : bs.length ≤ 3 := by
  obtain ⟨_, op, rest, am, rfl, _, _, hd⟩ := h
  unfold Spec.Denotes at hd
  split at hd
  · obtain ⟨d, rfl, _⟩ := hd
    simp
  · have : am.operandBytes ≤ 2 := by cases am <;> decide
    simp only [List.length_cons, hd.1]
    omega

/-- Branches have two bytes. -/
private theorem encodes_two {pc v : Int} {bs : List Nat} (h : Spec.Encodes (Spec.decodeOf .c6502) "beq" .dir pc v bs) : bs.length = 2 := by
  obtain ⟨hb, op, rest, am, rfl, h1, _, hd⟩ := h
  have key : ∀ op < 256, ∀ am, Spec.decodeOf .c6502 op = some ("beq", am) → am = .relative := by
    have : (List.range 256).all (fun op => match Spec.decodeOf .c6502 op with
        | some (n, am) => n != "beq" || am == .relative
        | none => true) = true := by decide +kernel
    intro op hop am ham
    have := List.all_eq_true.1 this op (List.mem_range.2 hop)
    rw [ham] at this
    simpa using this
  have := key op (hb op (List.mem_cons_self ..)) am h1
  subst this
  unfold Spec.Denotes at hd
  rw [if_pos rfl] at hd
  obtain ⟨d, rfl, _⟩ := hd
  rfl

example : ∃ env, Straight { cpu := .c6502, raw := false, files := [], isMacro := fun _ => false, text := textOf, env := fun _ _ => none }
    (fun _ => none) 0x1000 true earlyProg env [0xA9, 2, 0xF0, 6, 0xBD, 0x12, 0x10, 0x4C, 0x00, 0x10, 0x4C, 0x0A, 0x10, 0x01, 0x01, 0x0D, 0x10, 10] ∧
    env (cstr! "limit") = some 10 ∧ progFuel earlyProg [0xA9, 2, 0xF0, 6, 0xBD, 0x12, 0x10, 0x4C, 0x00, 0x10, 0x4C, 0x0A, 0x10, 0x01, 0x01, 0x0D, 0x10, 10] < 80 := by
  have simple : ∀ n ∈ [cstr! "size", cstr! "start", cstr! "START", cstr! "end", cstr! "limit", cstr! "table", cstr! "ptr"], Simple n := by
    intro n hn
    simp only [List.mem_cons, List.not_mem_nil, or_false] at hn
    rcases hn with rfl | rfl | rfl | rfl | rfl | rfl | rfl <;> exact ⟨by decide, by decide, by decide⟩
  have one : ∀ {env : Str → Option Int} {m : Str}, m ∈ [cstr! "size", cstr! "start", cstr! "START", cstr! "end", cstr! "limit", cstr! "table", cstr! "ptr"] →
      (env m).isSome = true → Spec.Usable env m := fun hm hs => Or.inl ⟨simple _ hm, hs⟩
  refine ⟨env6, ?_, by decide, by decide⟩
  refine ⟨env1, [], _, ⟨simple _ (by decide), rfl, (fun n hn => by cases hn), 2, by decide, by decide, by decide, rfl, rfl⟩, ?_, rfl⟩
  refine ⟨env2, [0xA9, 2], _, ⟨simple _ (by decide), by decide, by decide, by decide, rfl, Or.inl ⟨?_, Or.inl (Or.inr ⟨.imm, 2, rfl, by decide +kernel, by decide, ?_⟩)⟩⟩,
    ?_, rfl⟩
  · intro n hn
    rw [List.mem_singleton.1 hn]
    exact one (by decide) (by decide)
  · exact shortest_of (by decide) (by decide) (by decide) (by decide) (by decide) (by decide +kernel) (by decide +kernel)
      (by decide +kernel)
  refine ⟨env2, [0xF0, 6], _, ⟨rfl, Or.inr ⟨trivial, ?_, ⟨_, List.mem_singleton.2 rfl, by decide⟩, by decide, .dir, 0x100A, rfl, by decide +kernel, ?_, fun _ _ h => Nat.le_of_eq (encodes_two h)⟩⟩,
    ?_, rfl⟩
  · intro n hn
    rw [List.mem_singleton.1 hn]
    exact ⟨simple _ (by decide), by decide⟩
  · refine ⟨by decide, by decide, by decide, (fun h => by cases h), by decide, by decide, ?_, fun bs' h => Nat.le_of_eq (encodes_two h).symm, ?_⟩
    · refine ⟨by unfold Spec.Bytes; decide, 0xF0, [6], .relative, rfl, by decide +kernel, by decide, ?_⟩
      unfold Spec.Denotes
      rw [if_pos rfl]
      exact ⟨6, rfl, by decide⟩
    · intro op _ _
      decide
  refine ⟨env2, [0xBD, 0x12, 0x10], _, ⟨rfl, Or.inr ⟨⟨(fun h => by cases h), by decide, by decide, trivial, trivial⟩, ?_, ⟨_, List.mem_singleton.2 rfl, by decide⟩, by decide, .dirX, 0x1012, rfl, by decide +kernel, ?_, fun _ _ h => encodes_three h⟩⟩,
    ?_, rfl⟩
  · intro n hn
    rw [List.mem_singleton.1 hn]
    exact ⟨simple _ (by decide), by decide⟩
  · exact shortest_of (by decide) (by decide) (by decide) (by decide) (by decide) (by decide +kernel) (by decide +kernel)
      (by decide +kernel)
  refine ⟨env2, [0x4C, 0x00, 0x10], _, ⟨rfl, Or.inl ⟨?_, Or.inl (Or.inr ⟨.dir, 0x1000, rfl, by decide +kernel, by decide, ?_⟩)⟩⟩, ?_, rfl⟩
  · intro n hn
    rw [List.mem_singleton.1 hn]
    exact one (by decide) (by decide)
  · exact shortest_of (by decide) (by decide) (by decide) (by decide) (by decide) (by decide +kernel) (by decide +kernel)
      (by decide +kernel)
  refine ⟨env3, [0x4C, 0x0A, 0x10], _, ⟨simple _ (by decide), by decide, by decide, by decide, rfl,
    Or.inr ⟨trivial, ?_, ⟨_, List.mem_singleton.2 rfl, by decide⟩, by decide, .dir, 0x100A, rfl, by decide +kernel, ?_, fun _ _ h => encodes_three h⟩⟩, ?_, rfl⟩
  · intro n hn
    rw [List.mem_singleton.1 hn]
    exact ⟨simple _ (by decide), by decide⟩
  · exact shortest_of (by decide) (by decide) (by decide) (by decide) (by decide) (by decide +kernel) (by decide +kernel)
      (by decide +kernel)
  refine ⟨env4, [0x01, 0x01, 0x0D, 0x10], _, ⟨simple _ (by decide), by decide, by decide, by decide, rfl,
    Or.inr ⟨Or.inr rfl, ?_, by decide +kernel⟩⟩, ?_, rfl⟩
  · intro e he
    simp only [List.mem_cons, List.not_mem_nil, or_false, Item.expr.injEq] at he
    rcases he with rfl | rfl
    · refine ⟨⟨fun _ => ⟨16, by decide, rfl⟩, by decide, by decide, trivial, trivial⟩, fun n hn => ?_, fun _ _ _ => rfl⟩
      rw [List.mem_singleton.1 hn]
      exact ⟨simple _ (by decide), by decide⟩
    · refine ⟨trivial, fun n hn => ?_, fun _ _ _ => rfl⟩
      rw [List.mem_singleton.1 hn]
      exact ⟨simple _ (by decide), by decide⟩
  refine ⟨env5, [], _, ⟨simple _ (by decide), by decide, ?_, 10, by decide +kernel, by decide, by decide, rfl, rfl⟩, ?_, rfl⟩
  · intro n hn
    simp only [Expr.names, List.mem_append, List.mem_singleton] at hn
    rcases hn with rfl | rfl <;> exact one (by decide) (by decide)
  refine ⟨env6, [10], [], ⟨simple _ (by decide), by decide, by decide, by decide, rfl, Or.inl ⟨?_, Or.inl ⟨Or.inr (Or.inl rfl), by decide +kernel⟩⟩⟩, ⟨rfl, rfl⟩, rfl⟩
  intro x hx n hn
  rw [List.mem_singleton.1 hx] at hn
  rw [List.mem_singleton.1 hn]
  exact one (by decide) (by decide)

/-- **C68**, from the text.  The same for the characters of a source file: if they are a writing of `.org` and such lines, the
file is accepted, and the output file has the header and the bytes.  What is missing is as for `C68_accepted_partial`. -/
theorem C68_text_partial (cpu : Cpu) (ill : Bool) (fmt : Format) (files : List (Str × List Nat)) (file : Str) (line o : Int) (text : Str)
    (prog : List Top) (env : Str → Option Int) (bs : List Nat) (f : Nat) (h0 : 0 ≤ o) (h1 : o < 65536) (hb : bs ≠ [])
    (hf : progFuel prog bs < f)
    (ht : FilesText (fun _ => false) [(file, text)] [.stmt file line (.org (.int o)) :: prog]) (hm : ∀ t ∈ prog, MacroFreeTop t)
    (h : Straight { cpu := cpu, raw := decide (fmt = .bin), files := files, isMacro := fun _ => false, text := textOf, env := fun _ _ => none }
      (fun _ => none) o true prog env bs) :
    let S : St := { cpu := cpu, allowIllegal := ill, format := fmt, files := files }
    let r := assembleText f [(file, text)] { output := some true } S
    r.status = some 0 ∧ r.passes.length ≤ 3 ∧ ∃ p s', r.passes.getLast? = some (true, p, s') ∧ p.1.errorCount = 0 ∧ s'.1.errorCount = 0 ∧
      s'.1.out = headerBytes fmt o ++ bs ∧ ∀ n, Simple n → envOf s'.1 n = env n := by
  intro S r
  obtain ⟨c1, c2, _⟩ := C55_assembly f ht (by
    intro l hl t ht
    rw [List.mem_singleton.1 hl] at ht
    rcases List.mem_cons.1 ht with rfl | ht
    · exact trivial
    · exact hm t ht) { output := some true } S (by intro x hx; cases hx) (by intro x hx; cases hx) (Int.le_refl 0) (by intro n hn; cases hn)
  obtain ⟨a1, a2, p, s', a3, a4, a5, a6, a7⟩ := C68_accepted_partial cpu ill fmt files file line o prog env bs f h0 h1 hb hf h
  rw [c1] at a1
  rw [c2] at a2 a3
  rw [List.length_map] at a2
  rw [List.getLast?_map] at a3
  cases hl : r.passes.getLast? with
  | none =>
    rw [show (assembleText f [(file, text)] { output := some true } S).passes.getLast? = none from hl] at a3
    cases a3
  | some x =>
    obtain ⟨b, p', q'⟩ := x
    rw [show (assembleText f [(file, text)] { output := some true } S).passes.getLast? = some (b, p', q') from hl] at a3
    injection a3 with a3
    injection a3 with k1 k2
    injection k2 with k2 k3
    subst k1 k2 k3
    exact ⟨a1, a2, p', q', rfl, a4, a5, a6, a7⟩

/-- The text of C55: a loop with a label beside its first instruction. -/
example : FilesText (fun _ => false) [([112], srcText)] [.stmt [112] 1 (.org (.int 4096)) :: srcProg] ∧ (∀ t ∈ srcProg, MacroFreeTop t) ∧
    ∃ env, Straight { cpu := .c6502, raw := false, files := [], isMacro := fun _ => false, text := textOf, env := fun _ _ => none }
      (fun _ => none) 4096 true srcProg env [0xCA, 0xD0, 0xFD, 0x60] := by
  refine ⟨.cons src_text .nil, by simp [srcProg, MacroFreeTop, MacroFree], Spec.define (fun _ => none) (cstr! "loop") 4096, ?_⟩
  have simple : Simple (cstr! "loop") := ⟨by decide, by decide, by decide⟩
  refine ⟨_, [0xCA], _, ⟨simple, rfl, by decide, by decide, rfl, Or.inl ⟨trivial, Or.inl ⟨rfl, by decide, by decide, by decide, 0xCA, by decide, by decide +kernel, rfl⟩⟩⟩, ?_, rfl⟩
  refine ⟨_, [0xD0, 0xFD], _, ⟨rfl, Or.inl ⟨?_, Or.inl (Or.inr ⟨.dir, 4096, rfl, by decide +kernel, by decide, ?_⟩)⟩⟩, ?_, rfl⟩
  · intro n hn
    rw [List.mem_singleton.1 hn]
    exact Or.inl ⟨simple, by decide⟩
  · refine ⟨by decide, by decide, by decide, (fun h => by cases h), by decide, by decide, ?_, ?_, ?_⟩
    · refine ⟨by unfold Spec.Bytes; decide, 0xD0, [0xFD], .relative, rfl, by decide +kernel, by decide, ?_⟩
      unfold Spec.Denotes
      rw [if_pos rfl]
      exact ⟨0xFD, rfl, by decide⟩
    · rintro bs' ⟨_, op, rest, am, rfl, _, ham, hden⟩
      unfold Spec.Denotes at hden
      split at hden
      · obtain ⟨d, rfl, _⟩ := hden
        exact Nat.le_refl _
      · have : 1 ≤ am.operandBytes := by
          simp only [Spec.Form.modes, List.mem_cons, List.not_mem_nil, or_false] at ham
          rcases ham with rfl | rfl | rfl <;> decide
        simp only [List.length_cons, hden.1, List.length_nil]
        omega
    · intro op _ _
      decide
  refine ⟨_, [0x60], [], ⟨rfl, Or.inl ⟨trivial, Or.inl ⟨rfl, by decide, by decide, by decide, 0x60, by decide, by decide +kernel, rfl⟩⟩⟩, ⟨rfl, rfl⟩, rfl⟩

/-! Three programs whose names are all defined and that are rejected. -/

/-- A local label used on the line of the global label before it:

```
        .org $2000
a1      nop
f       bne @x
@x      nop
```
-/
def lateProg : Program := [[
  .stmt [97] 1 (.org (.int 0x2000)),
  .labelled [97] 2 (cstr! "a1") (.op Ins._nop .i none),
  .labelled [97] 3 (cstr! "f") (.op Ins._bne .a (some (.sym (cstr! "@x")))),
  .labelled [97] 4 (cstr! "@x") (.op Ins._nop .i none)]]

set_option maxRecDepth 4000 in
/-- **C68** is false for local labels: the operand is looked at while the line is read, when `a1` is still the last label, so a
symbol `a1__@x` comes into being that is never defined.  After 19 passes the assembler gives up ("maximum number of passes
exceeded"). -/
theorem C68_local_false : let r := assembleProg 12 lateProg { output := some true } {}
    r.status = some (-1) ∧ r.passes.length = 19 ∧ (r.passes.getLast?.map fun p => (p.2.2.errorCount, p.2.2.log)) = some (0, []) ∧
      (r.passes.getLast?.map fun p => (p.2.2.syms.filter (!·.isInit)).map (·.fullname)) = some [cstr! "a1__@x"] := by
  decide +kernel

/-- A division by the variable of a loop:

```
        .org $2000
        .for i = 1 to 3
        lda #100 / i
        .next i
```
-/
def divProg : Program := [[
  .stmt [97] 1 (.org (.int 0x2000)),
  .stmt [97] 2 (.forLoop [105] (.int 1) (.int 3) none (.op Ins._lda .I (some (.bin .div (.int 100) (.sym [105])))) [105])]]

/-- **C68** is false for variables of loops: the operand is looked at while the line is read, before the loop runs, and the
variable counts as 0. -/
theorem C68_division_false : let r := assembleProg 20 divProg { output := some true } {}
    r.status = some (-1) ∧ r.passes.map (·.1) = [false] ∧
      (r.passes.getLast?.map fun p => p.2.2.log) = some [.divideByZero, .divideByZero] := by
  decide +kernel

/-- A division by a name that is defined below:

```
        .org $2000
        lda #100 / i
i       = 3
```
-/
def belowProg : Program := [[
  .stmt [97] 1 (.org (.int 0x2000)),
  .stmt [97] 2 (.op Ins._lda .I (some (.bin .div (.int 100) (.sym [105])))),
  .stmt [97] 3 (.assign [105] (.int 3))]]

/-- **C68** is false for divisions by names defined below: the name counts as 0 in the first pass, and the error ends the
assembly, though the second pass would know the value. -/
theorem C68_below_false : let r := assembleProg 20 belowProg { output := some true } {}
    r.status = some (-1) ∧ r.passes.map (·.1) = [false] ∧
      (r.passes.getLast?.map fun p => p.2.2.log) = some [.divideByZero, .divideByZero] := by
  decide +kernel

end Verif
