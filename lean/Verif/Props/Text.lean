import Verif.Lemmas.Simulate
import Verif.Props.EndToEnd
import Verif.Props.Lex
import Verif.Props.Statements

/-! # Property C55: from source text to the result of the assembly -/

namespace Verif

open Spec

/-- **C55.**  Suppose the texts of the files are writings of the lists of statements `prog` (`Spec.FilesText`: how characters
form tokens and tokens form statements, with nothing said about the order in which the assembler works), no macros are
used, and the names `given`, for which `.ifdef` and `.ifndef` may ask, are in the symbol table at the start.  Then assembling the texts, where scanner, parser and interpreter take turns and each name is scanned with the
symbols known at that moment, gives what assembling the statements gives: the same status, the same passes with the same
states, the same output. -/
theorem C55_assembly (f : Nat) {given : Str → Bool} {files : List (Str × Str)} {prog : Program} (h : FilesText given files prog)
    (hm : ∀ l ∈ prog, ∀ t ∈ l, MacroFreeTop t) (F : AsmFiles) (s : St) (h1 : ∀ x ∈ s.syms, x.isMacroName = false)
    (h2 : ∀ n ∈ s.nodes, n.kind ≠ .opr .macroDef) (h3 : 0 ≤ s.totalBytes)
    (h4 : ∀ n, given n = true → ∃ x ∈ s.syms, stricmp x.fullname n = 0) :
    let r := assembleText f files F s
    let q := assembleProg f prog F s
    q.status = r.status ∧ q.passes = r.passes.map (fun x => (x.1, x.2.1.1, x.2.2.1)) ∧ q.calls = r.calls ∧ q.opened = r.opened :=
  (text_agree h hm F.output.isSome).assemble F (s, {}) ⟨⟨h1, h2⟩, h4, h3, rfl, rfl, rfl⟩

/-- **C55.**  One pass.  It is enough that the names `given` are in the symbol table when the pass begins, as all names
of the earlier passes are: the pass over the texts does what the pass over the statements does.  In the second pass and
later `.ifdef` and `.ifndef` are thus read with the names that any line of the program defines. -/
theorem C55_pass (f : Nat) {given : Str → Bool} {files : List (Str × Str)} {prog : Program} (h : FilesText given files prog)
    (hm : ∀ l ∈ prog, ∀ t ∈ l, MacroFreeTop t) (output final : Bool) (s : St) (lx : LexSt) (h1 : ∀ x ∈ s.syms, x.isMacroName = false)
    (h2 : ∀ n ∈ s.nodes, n.kind ≠ .opr .macroDef) (h3 : 0 ≤ s.totalBytes)
    (h4 : ∀ n, given n = true → ∃ x ∈ s.syms, stricmp x.fullname n = 0)
    (h5 : lx.cond = .initial ∧ lx.doCount = 0 ∧ lx.last = none) :
    ((passSemText f files output).parse final (s, lx)).map Prod.fst = (passSem f prog output).parse final s :=
  (text_agree h hm output).parse final (s, lx) ⟨⟨h1, h2⟩, h4, h3, h5.1, h5.2.1, h5.2.2⟩

private theorem headDraft_free {C : Spec.Context} {t : Top} (h : Spec.HeadDraft C t) : MacroFreeTop t := by
  cases t with
  | stmt file line st => cases st <;> first | trivial | exact h.elim
  | labelled file line name st => exact h.elim
  | _ => trivial

/-- **C55, part**: from the characters of the files to the bytes of the output.  Let the texts of the files be
writings of lists of statements that are, one after the other, `head`, `.org e` or `*= e`, and
`prog`, without macros and `.inc`, where `head` consists of empty lines, settings and assignments.  Assemble them into a file, from an initial state without output.  Suppose the assembly succeeds, and
that for the symbol values at the start of the last resolving pass, and the settings in `head`, every statement has an encoding.  Then each label has
the address of its line, each assigned symbol the value of its expression, and the output file is the header followed
by the bytes of the lines for these values.  Missing: as in `C12_accepted_partial`. -/
theorem C55_image_partial (head : List Top) (file : Str) (line : Int) (st : Stmt) (e : Expr) (prog : List Top) (files : List (Str × Str)) (bs : List Nat)
    (given : Str → Bool) (P : Program) (hP : P.flatten = head ++ .stmt file line st :: prog)
    (hor : Spec.SetsOrigin e st) (htext : FilesText given files P) (hfree : ∀ t ∈ prog, MacroFreeTop t) :
    ∃ f0, ∀ f, f0 ≤ f → ∀ (F : AsmFiles) (s0 s s1 s2 : St) (pre : List (Bool × (St × LexSt) × (St × LexSt)))
      (l0 l1 l2 : LexSt) (o : Int) (ll : Option Str),
      F.output = some true → (∀ x ∈ s0.syms, x.isMacroName = false) →
      (∀ n, given n = true → ∃ x ∈ s0.syms, stricmp x.fullname n = 0) → s0.nodes = [] → s0.nodeBase = 0 → s0.out = [] → s0.totalBytes = 0 →
      s0.currentScope = none →
      let r := assembleText f files F s0
      r.status = some 0 → r.passes = pre ++ [(false, (s, l0), (s1, l1)), (true, (s1, l1), (s2, l2))] →
      (∀ x ∈ s.syms, x.isVar = false ∧ x.isMacroParam = false) →
      let C := Spec.settle (ctxOf s) head
      (∀ t ∈ head, Spec.HeadDraft C t) →
      Spec.eval (C.env none) 0x1000 e = some (o, false) → Spec.Draft C none o true prog ll bs → bs ≠ [] →
      ctxOf s1 = C ∧ (∀ t ∈ head, Spec.HeadLine C t) ∧ Spec.Layout C none o true prog ll bs ∧
      s2.out = headerBytes s1.format o ++ bs ∧ s2.errorCount = 0 ∧ s2.syms = s1.syms ∧
      (∃ w, s2.log = s1.log ++ List.replicate w .branchOutOfRange) := by
  obtain ⟨f0, h0⟩ := C12_accepted_partial head file line st e prog bs hor
  refine ⟨f0, ?_⟩
  intro f hf F s0 s s1 s2 pre l0 l1 l2 o ll hF g1 g0 g2 g3 g4 g5 g6 r hst hr hx C hh hv hd hne
  have hmf : ∀ l ∈ P, ∀ t ∈ l, MacroFreeTop t := by
    intro l hl t ht
    have ht := List.mem_flatten.2 ⟨l, hl, ht⟩
    rw [hP] at ht
    rcases List.mem_append.1 ht with ht | ht
    · exact headDraft_free (hh t ht)
    rcases List.mem_cons.1 ht with rfl | ht
    · rcases hor with rfl | rfl <;> trivial
    · exact hfree t ht
  obtain ⟨q1, q2, _, _⟩ := C55_assembly f htext hmf F s0 g1 (by simp [g2]) (by omega) g0
  have q1' : (assembleProg f P F s0).status = some 0 := q1.trans hst
  have q2' : (assembleProg f P F s0).passes =
      pre.map (fun x => (x.1, x.2.1.1, x.2.2.1)) ++ [(false, s, s1), (true, s1, s2)] := by
    rw [q2, show (assembleText f files F s0).passes = _ from hr]
    simp
  exact h0 f hf F P s0 s s1 s2 _ o ll hP hF g4 g5 g6 (by rw [g3]; exact Nat.zero_le _) q1' q2' hx hh hv hd hne

private theorem top_ne {file : Str} {t : Top} {ts : List Tok} (h : TopText file t ts) : ts ≠ [] := by
  rintro rfl
  have := top_parse h []
  simp [parseTop, parseStmt, parseSimple] at this

private theorem tops_same {file : Str} {t1 t2 : Top} {a b : List Tok} {e1 e2 : List LexEv} (h1 : TopText file t1 a)
    (h2 : TopText file t2 b) (h : a.map LexEv.tok ++ e1 = b.map LexEv.tok ++ e2) : t1 = t2 ∧ e1 = e2 := by
  have hinj : ∀ {x y : List Tok}, x.map LexEv.tok = y.map LexEv.tok → x = y := fun {x y} h =>
    (List.map_inj_right (by intro _ _ h; cases h; rfl)).1 h
  rcases List.append_eq_append_iff.1 h with ⟨c, hc, h'⟩ | ⟨c, hc, h'⟩
  · obtain ⟨b1, b2, rfl, g1, rfl⟩ := List.map_eq_append_iff.1 hc
    obtain ⟨q1, q2, q3⟩ := C54_one_reading (r1 := b2) (r2 := []) h1 h2 (by rw [hinj g1]; simp)
    subst q3
    exact ⟨q1, by simpa using h'⟩
  · obtain ⟨b1, b2, rfl, g1, rfl⟩ := List.map_eq_append_iff.1 hc
    obtain ⟨q1, q2, q3⟩ := C54_one_reading (r1 := b2) (r2 := []) h2 h1 (by rw [hinj g1]; simp)
    subst q3
    exact ⟨q1.symm, by simpa using h'.symm⟩

private theorem lines_same {file : Str} {l1 : List Top} {evs : List LexEv} (h1 : LinesText file l1 evs) :
    ∀ {l2 : List Top}, LinesText file l2 evs → l1 = l2 := by
  induction h1 with
  | nil =>
    intro l2 h2
    generalize hk : ([] : List LexEv) = k at h2
    cases h2 with
    | nil => rfl
    | top ht _ => simp [top_ne ht] at hk
    | _ => cases hk
  | cpu c _ ih | illegal c _ ih | c64 _ ih =>
    intro l2 h2
    generalize hk : _ :: _ = k at h2
    cases h2 with
    | @top t l tt evs ht _ =>
      obtain ⟨t, tt, rfl⟩ := List.exists_cons_of_ne_nil (top_ne ht)
      cases hk
    | nil => cases hk
    | cpu c h | illegal c h | c64 h => cases hk; try rw [ih h]
  | @top t l tt evs ht _ ih =>
    intro l2 h2
    generalize hk : List.map LexEv.tok tt ++ evs = k at h2
    obtain ⟨x, xs, hx⟩ := List.exists_cons_of_ne_nil (top_ne ht)
    cases h2 with
    | @top t' l' tt' evs' ht' h =>
      obtain ⟨rfl, rfl⟩ := tops_same ht ht' hk
      rw [ih h]
    | _ => subst hx; cases hk

/-- **C55.**  No text can be read as two different lists of statements. -/
theorem C55_one_reading {given : Str → Bool} {file : Str} {l1 l2 : List Top} {text : Str} (h1 : FileText given file l1 text)
    (h2 : FileText given file l2 text) :
    l1 = l2 := by
  obtain ⟨e1, a1, b1⟩ := h1
  obtain ⟨e2, a2, b2⟩ := h2
  rw [C53_one_reading a1 a2] at b1
  exact lines_same b1 b2

/-- **C55.**  Inside a `.do` loop the word `.while` always closes that loop: a `.while` loop cannot stand there. -/
theorem C55_while_in_do (isMac defined : Str → Bool) (st : LexSt) (w s : Str) (hc : st.cond = .initial)
    (hd : 0 < st.doCount) (hw : Is ".while" w) (hs : WordEnd s) :
    ∃ st', lexStep isMac defined st (w ++ s) = some (st', .tok .endDo, s) := by
  obtain ⟨_, h2, _⟩ := word_facts hw (by decide) (by decide)
  refine ⟨{ st with last := some w, doCount := st.doCount - 1 }, ?_⟩
  rw [step_of hc h2 (best_word (a := .whileTok) (by simp [wordActs]) hw hs)]
  simp [lexAct, hd]

/-- The same loop inside `.repeat` and inside `.do`: the first program assembles, the second one does not. -/
example :
    (assembleText 60 [([112], cstr! " .repeat\n .while 0\n nop\n .wend\n .until 1\n rts\n")] { output := some true } {}).status = some 0 ∧
    (assembleText 60 [([112], cstr! " .do\n .while 0\n nop\n .wend\n .while 0\n rts\n")] { output := some true } {}).status = some (-1) := by
  decide +kernel

/-! ## An example -/

/-- The characters of a small program. -/
def srcText : Str := cstr! " .org 4096\nloop dex ; count\n bne loop\n rts\n"

/-- Its statements. -/
def srcProg : List Top :=
  [.labelled [112] 2 (cstr! "loop") (.op 9 .i none), .stmt [112] 3 (.op 62 .a (some (.sym (cstr! "loop")))),
   .stmt [112] 4 (.op 85 .i none)]

/-- The text is a writing of the statements. -/
theorem src_text : FileText (fun _ => false) [112] (.stmt [112] 1 (.org (.int 4096)) :: srcProg) srcText := by
  refine ⟨[.tok .org, .tok (.int 4096), .tok (.eol 1), .tok (.label (cstr! "loop")), .tok (.opcode 9), .tok (.eol 2),
    .tok (.opcode 62), .tok (.sym (cstr! "loop")), .tok (.eol 3), .tok (.opcode 85), .tok (.eol 4)], ?_, ?_⟩
  · refine .blanks (w := cstr! " ") (by decide) (by decide) (next_cons (by decide)) ?_
    refine .word (name := ".org") (w := cstr! ".org") (by decide) (by decide) (next_cons (by decide)) ?_
    refine .blanks (w := cstr! " ") (by decide) (by decide) (next_cons (by decide)) ?_
    refine .decimal (ds := [⟨52, 4⟩, ⟨48, 0⟩, ⟨57, 9⟩, ⟨54, 6⟩]) (s := cstr! "\nloop dex ; count\n bne loop\n rts\n") (by decide) (by simp [Digit.ok])
      (by decide) (next_cons ⟨by decide, fun d hd h => ?_, by decide⟩) ?_
    · have := char_range hd
      omega
    refine .newline ?_
    refine .name (w := cstr! "loop") (.global (by decide) (by decide)) (by decide +kernel) (next_cons (by decide)) ?_
    refine .blanks (w := cstr! " ") (by decide) (by decide) (next_cons (by decide)) ?_
    refine .mnemonic (w := cstr! "dex") (ins := 9) (by decide) (by decide) (next_cons (by decide)) ?_
    refine .blanks (w := cstr! " ") (by decide) (by decide) (next_cons (by decide)) ?_
    refine .comment (w := cstr! " count") (by decide) (next_cons (by decide)) ?_
    refine .newline ?_
    refine .blanks (w := cstr! " ") (by decide) (by decide) (next_cons (by decide)) ?_
    refine .mnemonic (w := cstr! "bne") (ins := 62) (by decide) (by decide) (next_cons (by decide)) ?_
    refine .blanks (w := cstr! " ") (by decide) (by decide) (next_cons (by decide)) ?_
    refine .name (w := cstr! "loop") (.global (by decide) (by decide)) (by decide +kernel) (next_cons (by decide)) ?_
    refine .newline ?_
    refine .blanks (w := cstr! " ") (by decide) (by decide) (next_cons (by decide)) ?_
    refine .mnemonic (w := cstr! "rts") (ins := 85) (by decide) (by decide) (next_cons (by decide)) ?_
    exact .newline .nil
  · refine .top (tt := [.org, .int 4096, .eol 1]) (.stmt (.line (ts := [.org, .int 4096]) 1 (.org ⟨_, _, .int 4096⟩))) ?_
    refine .top (tt := [.label (cstr! "loop"), .opcode 9, .eol 2]) (.labelled _ (.line (ts := [.opcode 9]) 2 (.op 9 .implied))) ?_
    refine .top (tt := [.opcode 62, .sym (cstr! "loop"), .eol 3]) (.stmt (.line (ts := [.opcode 62, .sym (cstr! "loop")]) 3
      (.op 62 (.absolute ⟨_, _, .sym _⟩ ⟨by decide, fun _ _ h => by cases h⟩)))) ?_
    refine .top (tt := [.opcode 85, .eol 4]) (.stmt (.line (ts := [.opcode 85]) 4 (.op 85 .implied))) ?_
    exact .nil

/-- The hypotheses of `C55_assembly` hold for it, and assembled it gives these bytes. -/
example : FilesText (fun _ => false) [([112], srcText)] [.stmt [112] 1 (.org (.int 4096)) :: srcProg] ∧
    (∀ l ∈ [Top.stmt [112] 1 (.org (.int 4096)) :: srcProg], ∀ t ∈ l, MacroFreeTop t) ∧
    (assembleText 60 [([112], srcText)] { output := some true } {}).status = some 0 ∧
    (assembleText 60 [([112], srcText)] { output := some true } {}).passes.map (fun x => (x.1, x.2.2.1.out)) =
      [(false, []), (false, []), (true, [0xCA, 0xD0, 0xFD, 0x60])] := by
  refine ⟨.cons src_text .nil, ?_, by decide +kernel, by decide +kernel⟩
  simp [srcProg, MacroFreeTop, MacroFree]

private theorem demo_bne : Spec.Shortest .c6502 Ins._bne .dir 0x1001 0x1000 [0xD0, 0xFD] := by
  refine ⟨by decide, by decide, by decide, (fun h => by cases h), by decide, by decide, ?_, ?_, ?_⟩
  · refine ⟨by unfold Spec.Bytes; decide, 0xD0, [0xFD], .relative, rfl, by decide +kernel, by decide, ?_⟩
    unfold Spec.Denotes
    rw [if_pos rfl]
    exact ⟨0xFD, rfl, by decide⟩
  · rintro bs' ⟨_, op, rest, am, rfl, _, ham, hden⟩
    unfold Spec.Denotes at hden
    split at hden
    · obtain ⟨d, rfl, _⟩ := hden
      exact Nat.le_refl _
    · have : 1 ≤ am.operandBytes := by
        simp only [Spec.Form.modes, List.mem_cons, List.not_mem_nil, or_false] at ham
        rcases ham with rfl | rfl | rfl <;> decide
      simp only [List.length_cons, hden.1, List.length_nil]
      omega
  · intro op _ _
    decide

private def demoSt : St where
  syms := [{ flatSym (cstr! "loop") 0x1000 with }]

private theorem demo_draft : Spec.Draft (ctxOf demoSt) none 0x1000 true srcProg (some (cstr! "loop")) [0xCA, 0xD0, 0xFD, 0x60] := by
  refine ⟨some (cstr! "loop"), [0xCA], _, ⟨?_, Or.inl ⟨rfl, by decide, by decide, by decide, 0xCA, by decide, by decide +kernel, rfl⟩, Or.inr (by decide)⟩, ?_, rfl⟩
  · exact ⟨by decide +kernel, by decide, by decide, ⟨0x1000, by decide +kernel⟩, Or.inl ⟨by decide, rfl⟩⟩
  refine ⟨some (cstr! "loop"), [0xD0, 0xFD], _, ⟨rfl, Or.inl (Or.inr ⟨.dir, 0x1000, rfl, by decide +kernel, by decide, demo_bne⟩)⟩, ?_, rfl⟩
  refine ⟨some (cstr! "loop"), [0x60], [], ⟨rfl, Or.inl ⟨rfl, by decide, by decide, by decide, 0x60, by decide, by decide +kernel, rfl⟩⟩, ⟨rfl, rfl⟩, rfl⟩

/-- It meets the hypotheses of `C55_image_partial`. -/
example : let r := assembleText 60 [([112], srcText)] { output := some true } {}
    (∀ t ∈ srcProg, MacroFreeTop t) ∧ r.status = some 0 ∧ ∃ pre s l0 s1 l1 s2 l2, r.passes = pre ++ [(false, (s, l0), (s1, l1)), (true, (s1, l1), (s2, l2))] ∧
      (∀ x ∈ s.syms, x.isVar = false ∧ x.isMacroParam = false) ∧
      Spec.eval ((ctxOf s).env none) 0x1000 (.int 4096) = some (0x1000, false) ∧
      Spec.Draft (ctxOf s) none 0x1000 true srcProg (some (cstr! "loop")) [0xCA, 0xD0, 0xFD, 0x60] := by
  intro r
  have hst : r.status = some 0 := by decide +kernel
  obtain ⟨pre, s, s1, s2, hr, _⟩ := C29_success_partial _ _ _ hst
  have hr : r.passes = pre ++ [(false, s, s1), (true, s1, s2)] := hr
  have hlen : r.passes.length = 3 := by decide +kernel
  have hpre : pre.length = 1 := by
    rw [hr] at hlen
    simpa using hlen
  have hs : r.passes[1]? = some (false, s, s1) := by
    rw [hr, List.getElem?_append_right (by omega), hpre]
    rfl
  have k1 : r.passes[1]?.map (fun e => e.2.1.1.cpu) = some demoSt.cpu := by decide +kernel
  have k2 : r.passes[1]?.map (fun e => e.2.1.1.format) = some demoSt.format := by decide +kernel
  have k3 : r.passes[1]?.map (fun e => e.2.1.1.files) = some demoSt.files := by decide +kernel
  have k4 : r.passes[1]?.map (fun e => e.2.1.1.syms) = some demoSt.syms := by decide +kernel
  have k5 : r.passes[1]?.map (fun e => e.2.1.1.currentScope) = some demoSt.currentScope := by decide +kernel
  rw [hs] at k1 k2 k3 k4 k5
  simp only [Option.map_some, Option.some.injEq] at k1 k2 k3 k4 k5
  refine ⟨by simp [srcProg, MacroFreeTop, MacroFree], hst, pre, s.1, s.2, s1.1, s1.2, s2.1, s2.2, hr, ?_, rfl, ?_⟩
  · rw [k4]
    decide
  · rw [ctxOf_congr k1 k2 k3 k4 k5]
    exact demo_draft

/-- **C09**, negation in a loop: the rounds after the first one emit `bne` to the end of the first round instead of a branch to
`$2000` (the macro is `C09_false`). -/
theorem C09_loop_false :
    let r := assembleText 60 [([112], cstr! " .org $1000\n .repeat\n bne $2000\n .until * > $1009\n rts\n")] { output := some true } {}
    r.status = some 0 ∧ (r.passes.getLast?.map fun e => e.2.2.1.out) =
      some [0xF0, 3, 0x4C, 0x00, 0x20, 0xD0, 0xFE, 0xD0, 0xFC, 0xD0, 0xFA, 0x60] := by
  decide +kernel

end Verif
