import Verif.Lemmas.Include
import Verif.Props.Text

/-! # Property C61: included files -/

namespace Verif

open Spec

/-- **C61.**  Let the texts of the input files, together with the files `s.files` they include (and those include, in any
depth), be a writing of the lists of statements `prog` (`Spec.SourcesText`: the statements of an included file stand
behind the line with `.inc`, which stands outside of blocks; no macros, no `.end`), and let the names `given`, for which `.ifdef` may ask, be in the
symbol table at the start.  Then assembling the texts, where the statement `.inc` makes the scanner change its input, gives
what assembling the statements one after the other gives: the same status, the same passes with the same states, the
same output.  `n` bounds the number of statements. -/
theorem C61_assembly_partial (f n : Nat) {given : Str → Bool} {files : List (Str × Str)} {prog : Program} (F : AsmFiles) (s : St)
    (h : SourcesText given s.files files prog) (hn : ∀ l ∈ prog, l.length < n)
    (h1 : ∀ x ∈ s.syms, x.isMacroName = false) (h2 : ∀ n ∈ s.nodes, n.kind ≠ .opr .macroDef ∧ n.kind ≠ .opr .endProg)
    (h3 : 0 ≤ s.totalBytes) (h4 : ∀ n, given n = true → ∃ x ∈ s.syms, stricmp x.fullname n = 0) :
    let r := assembleSrc f n files F s
    let q := assembleProg f prog F s
    q.status = r.status ∧ q.passes = r.passes.map (fun x => (x.1, x.2.1.1, x.2.2.1)) ∧ q.calls = r.calls ∧ q.opened = r.opened :=
  (src_agree h hn F.output.isSome).assemble F (s, {})
    ⟨⟨⟨h1, fun n hn => (h2 n hn).1⟩, h4, h3, rfl, rfl, rfl⟩, rfl, fun n hn => (h2 n hn).2⟩

/-- **C61.**  One pass; it is enough that the names `given` are in the symbol table when the pass begins. -/
theorem C61_pass_partial (f n : Nat) {given : Str → Bool} {files : List (Str × Str)} {prog : Program} (output final : Bool) (s : St) (lx : LexSt)
    (h : SourcesText given s.files files prog) (hn : ∀ l ∈ prog, l.length < n)
    (h1 : ∀ x ∈ s.syms, x.isMacroName = false) (h2 : ∀ n ∈ s.nodes, n.kind ≠ .opr .macroDef ∧ n.kind ≠ .opr .endProg)
    (h3 : 0 ≤ s.totalBytes) (h4 : ∀ n, given n = true → ∃ x ∈ s.syms, stricmp x.fullname n = 0)
    (h5 : lx.cond = .initial ∧ lx.doCount = 0 ∧ lx.last = none) :
    ((passSemSrc f n files output).parse final (s, lx)).map Prod.fst = (passSem f prog output).parse final s :=
  (src_agree h hn output).parse final (s, lx)
    ⟨⟨⟨h1, fun n hn => (h2 n hn).1⟩, h4, h3, h5.1, h5.2.1, h5.2.2⟩, rfl, fun n hn => (h2 n hn).2⟩

/-- **C61, part**: from the characters of the files to the bytes of the output.  Let the texts of the
input files, with the files they include, be writings of lists of statements that are, one after the other, `head`, `.org e` or `*= e`, and `prog`,
where `head` consists of empty lines, settings and assignments.  Assemble them into a file, from an initial state without output.  Suppose the
assembly succeeds, and that for the symbol values at the start of the last resolving pass, and the settings in `head`, every statement has an
encoding, where the statement `.inc` has no bytes.  Then each label has the address of its line, each assigned symbol the value
of its expression, and the output file is the header followed by the bytes of the lines for these values, those of an
included file in the place of its `.inc`.  Missing: as in `C12_accepted_partial`, and `.inc` in blocks
(`C61_false_block`). -/
theorem C61_image_partial (head : List Top) (file : Str) (line : Int) (st : Stmt) (e : Expr) (prog : List Top) (files : List (Str × Str))
    (fs : List (Str × List Nat)) (bs : List Nat) (given : Str → Bool) (P : Program)
    (hP : P.flatten = head ++ .stmt file line st :: prog) (hor : Spec.SetsOrigin e st) (htext : SourcesText given fs files P) :
    ∃ f0, ∀ f, f0 ≤ f → ∀ (n : Nat) (F : AsmFiles) (s0 s s1 s2 : St) (pre : List (Bool × (St × LexSt) × (St × LexSt)))
      (l0 l1 l2 : LexSt) (o : Int) (ll : Option Str),
      head.length + prog.length + 1 < n → F.output = some true → s0.files = fs → (∀ x ∈ s0.syms, x.isMacroName = false) →
      (∀ n, given n = true → ∃ x ∈ s0.syms, stricmp x.fullname n = 0) → s0.nodes = [] → s0.nodeBase = 0 → s0.out = [] → s0.totalBytes = 0 →
      s0.currentScope = none →
      let r := assembleSrc f n files F s0
      r.status = some 0 → r.passes = pre ++ [(false, (s, l0), (s1, l1)), (true, (s1, l1), (s2, l2))] →
      (∀ x ∈ s.syms, x.isVar = false ∧ x.isMacroParam = false) →
      let C := Spec.settle (ctxOf s) head
      (∀ t ∈ head, Spec.HeadDraft C t) →
      Spec.eval (C.env none) 0x1000 e = some (o, false) → Spec.Draft C none o true prog ll bs → bs ≠ [] →
      ctxOf s1 = C ∧ (∀ t ∈ head, Spec.HeadLine C t) ∧ Spec.Layout C none o true prog ll bs ∧
      s2.out = headerBytes s1.format o ++ bs ∧ s2.errorCount = 0 ∧ s2.syms = s1.syms ∧
      (∃ w, s2.log = s1.log ++ List.replicate w .branchOutOfRange) := by
  obtain ⟨f0, h0⟩ := C12_accepted_partial head file line st e prog bs hor
  refine ⟨f0, ?_⟩
  intro f hf n F s0 s s1 s2 pre l0 l1 l2 o ll hn hF hfs g1 g0 g2 g3 g4 g5 g6 r hst hr hx C hh hv hd hne
  subst hfs
  obtain ⟨q1, q2, _, _⟩ := C61_assembly_partial f n F s0 htext (fun l hl => Nat.lt_of_le_of_lt (length_le_flatten hP hl) hn) g1 (by simp [g2]) (by omega) g0
  have q1' : (assembleProg f P F s0).status = some 0 := q1.trans hst
  have q2' : (assembleProg f P F s0).passes =
      pre.map (fun x => (x.1, x.2.1.1, x.2.2.1)) ++ [(false, s, s1), (true, s1, s2)] := by
    rw [q2, show (assembleSrc f n files F s0).passes = _ from hr]
    simp
  exact h0 f hf F P s0 s s1 s2 _ o ll hP hF g4 g5 g6 (by rw [g3]; exact Nat.zero_le _) q1' q2' hx hh hv hd hne

/-- **C61.**  The statement `.inc` itself.  If the file exists, only the position, the list of opened files, the parse tree and,
in the final pass, the listing change: no byte is written, no symbol, no counter and no switch is touched.  Otherwise the
program ends. -/
theorem C61_inc_effect (f : Nat) (s : St) (file raw name : Str) (line : Int) (hn : FileName raw name) (he : s.endExpansion = false)
    (hb : s.nodeBase ≤ s.nodes.length) :
    let r := runTop (expandNode (f + 1)) (hasUninit (f + 1)) (.stmt file line (.inc raw)) s
    if name ∈ s.files.map (·.1) then
      ∃ nodes rows, r = (.ok true, { s with
        file := name
        line := 0
        incs := s.incs ++ [name]
        nodes := s.nodes ++ nodes
        listing := s.listing ++ rows }) ∧ (s.finalPass = false → rows = [])
    else r.1 = .exit (-1) := by
  intro r
  have e := inc_built (n := f + 1) (file := file) (line := line) (S := s) (fileName_value hn)
  let T : St := { s with
        file := file
        line := line
        nodes := s.nodes ++ [⟨.str name, 0, []⟩] ++ [⟨.opr .inc, 1, [s.nodes.length]⟩] }
  have e1 : expandNode (f + 1) (s.nodes ++ [(⟨.str name, 0, []⟩ : Node)]).length T = expandInclude ⟨.opr .inc, 1, [s.nodes.length]⟩ T := by
    show (getS >>= _) T = _
    rw [getS_bind, if_neg (show ¬ T.endExpansion = true by rw [show T.endExpansion = false from he]; simp)]
    have : node (s.nodes ++ [(⟨.str name, 0, []⟩ : Node)]).length T = (.ok ⟨.opr .inc, 1, [s.nodes.length]⟩, T) :=
      node_run (by show s.nodeBase ≤ _; simp; omega) (by simp [T])
    rw [bind_ok this]
    rfl
  have e2 : node s.nodes.length T = (.ok ⟨.str name, 0, []⟩, T) := node_run hb (by simp [T])
  have hr : r = (expandInclude ⟨.opr .inc, 1, [s.nodes.length]⟩ >>= fun _ => M.pure true) T := by
    show runTop _ _ _ s = _
    rw [e, run_bind, run_bind, e1]
  have e3 : expandInclude ⟨.opr .inc, 1, [s.nodes.length]⟩ T = (do
      (if T.finalPass then addList [] else M.pure ())
      modS fun s => { s with file := name, line := 0 }
      (if T.finalPass then addList [] else M.pure ())
      if (T.files.find? (fun e : Str × List Nat => e.1 == name)).isSome then do
        modS fun s => { s with incs := s.incs ++ [name] }
        M.pure 1
      else do
        error .cantOpenInclude
        exitM (-1)) T := by
    unfold expandInclude
    rw [bind_ok (opAt_run rfl T), bind_ok e2]
    rfl
  have hm : (T.files.find? (fun e => e.1 == name)).isSome = true ↔ name ∈ s.files.map (·.1) := by
    rw [List.find?_isSome]
    simp [T]
  have two : ∀ {α : Type} (l : List α) (a b : α), l ++ [a, b] = l ++ [a] ++ [b] := by simp
  rw [hr, run_bind, e3]
  split
  · rename_i h
    rw [if_pos (hm.2 h)]
    by_cases hf : s.finalPass = true
    rotate_left
    · rw [if_neg (show ¬ T.finalPass = true from hf)]
      refine ⟨[⟨.str name, 0, []⟩, ⟨.opr .inc, 1, [s.nodes.length]⟩], [], Prod.ext rfl ?_, fun _ => rfl⟩
      rw [List.append_nil, two]
      rfl
    · rw [if_pos (show T.finalPass = true from hf)]
      refine ⟨[⟨.str name, 0, []⟩, ⟨.opr .inc, 1, [s.nodes.length]⟩], [listRow T [],
        listRow { T with listing := T.listing ++ [listRow T []], file := name, line := 0 } []], Prod.ext rfl ?_, fun h => by rw [hf] at h; cases h⟩
      rw [two, two]
      rfl
  · rename_i h
    rw [if_neg (fun h' => h (hm.1 h'))]
    by_cases hf : s.finalPass = true
    rotate_left
    · rw [if_neg (show ¬ T.finalPass = true from hf)]
      rfl
    · rw [if_pos (show T.finalPass = true from hf)]
      rfl

/-! ## Where included files behave differently -/

/-- **C61**, negation inside a block: files included in a block are read only when the whole block has been assembled, and
the last one first.  The program has `aa`, `nop`, `bb`, 9 in this order; the output has `nop`, `bb`, `aa`, 9. -/
theorem C61_false_block :
    let r := assembleSrc 60 60 [(cstr! "p", cstr! " .org $1000\n .if 1\n .inc \"aa\"\n nop\n .inc \"bb\"\n .endif\n .byte 9\n")]
      { output := some true } { files := [(cstr! "aa", cstr! " .byte 1\n"), (cstr! "bb", cstr! " .byte 2\n")] }
    r.status = some 0 ∧ (r.passes.getLast?.map fun e => e.2.2.1.out) = some [0xEA, 2, 1, 9] := by
  decide +kernel

/-- **C61**, negation for a file whose last line has no end: the line after the `.inc` becomes part of it. -/
theorem C61_false_newline :
    (assembleSrc 60 60 [(cstr! "p", cstr! " .org $1000\n .inc \"aa\"\n rts\n")] { output := some true }
      { files := [(cstr! "aa", cstr! " nop")] }).status = some (-1) ∧
    (assembleText 60 [(cstr! "p", cstr! " .org $1000\n nop\n rts")] { output := some true } {}).status = some (-1) ∧
    (assembleSrc 60 60 [(cstr! "p", cstr! " .org $1000\n .inc \"aa\"\n,4\n")] { output := some true }
      { files := [(cstr! "aa", cstr! " .byte 3")] }).status = some 0 := by
  refine ⟨?_, ?_, ?_⟩ <;> decide +kernel

/-- **C61**, negation for anonymous labels: directly behind `.inc` a line cannot begin with one. -/
theorem C61_false_anonymous :
    let fs : List (Str × List Nat) := [(cstr! "aa", cstr! " nop\n")]
    (assembleSrc 60 60 [(cstr! "p", cstr! " .org $1000\n .inc \"aa\"\n+ rts\n")] { output := some true } { files := fs }).status =
      some (-1) ∧
    (assembleSrc 60 60 [(cstr! "p", cstr! " .org $1000\n .inc \"aa\"\n\n+ rts\n")] { output := some true } { files := fs }).status =
      some 0 := by
  refine ⟨?_, ?_⟩ <;> decide +kernel

/-- **C61**, negation for names of one character: `"a"` is the number 97. -/
theorem C61_false_short_name :
    (assembleSrc 60 60 [(cstr! "p", cstr! " .org $1000\n .inc \"a\"\n rts\n")] { output := some true }
      { files := [(cstr! "a", cstr! " nop\n")] }).status = some (-1) := by
  decide +kernel

/-! ## An example -/

private def incFiles : List (Str × List Nat) :=
  [(cstr! "aa", cstr! " nop\n .inc \"bb\"\n dex\n"), (cstr! "bb", cstr! " inx\n")]

private def incProg : List Top :=
  [.stmt (cstr! "p") 1 (.org (.int 4096)), .stmt (cstr! "p") 2 (.inc (cstr! "\"aa\"")), .stmt (cstr! "aa") 1 (.op 97 .i none),
   .stmt (cstr! "aa") 2 (.inc (cstr! "\"bb\"")), .stmt (cstr! "bb") 1 (.op 12 .i none), .stmt (cstr! "aa") 3 (.op 9 .i none),
   .stmt (cstr! "p") 3 (.op 85 .i none)]

private def incText : Str := cstr! " .org 4096\n .inc \"aa\"\n rts\n"

private theorem op_line (given : Str → Bool) (fs : List (Str × List Nat)) (file : Str) (C : Scan) (fin : Scan → Prop) (ins : Nat)
    (w : Str) (h : ins < instrNames.length) (hw : Is (Spec.mnemonic ins) w) (hb : Next (fun c => ¬ Blank c) (w ++ cstr! "\n"))
    (hf : fin { C.mid with place := .lineStart, line := C.line + 1 }) :
    SrcText given fs file C fin [.stmt file (C.line + 1) (.op ins .i none)] (cstr! " " ++ (w ++ cstr! "\n")) := by
  refine .last (evs := [.tok (.opcode ins), .tok (.eol (C.line + 1))]) ?_ ?_ ?_
  · refine .blanks (w := cstr! " ") (by decide) (by decide) hb ?_
    refine .mnemonic (w := w) h hw (next_cons (by decide)) ?_
    exact .newline (.nil hf)
  · refine .top (tt := [.opcode ins, .eol (C.line + 1)]) (.stmt (.line (ts := [.opcode ins]) _ (.op _ .implied))) .nil
  · simp [SimpleTop, MacroFree, NoEnd]

private theorem aa_name : FileName (cstr! "\"aa\"") (cstr! "aa") :=
  ⟨[.lit 97, .lit 97], by simp [itemsOk, StrItem.ok], by decide, by decide, by decide⟩

private theorem bb_name : FileName (cstr! "\"bb\"") (cstr! "bb") :=
  ⟨[.lit 98, .lit 98], by simp [itemsOk, StrItem.ok], by decide, by decide, by decide⟩

private theorem aa_text (given : Str → Bool) : SrcText given incFiles (cstr! "aa") ⟨.lineStart, 0, 0, 0, 0, []⟩ (fun C => C.conds = [])
    [.stmt (cstr! "aa") 1 (.op 97 .i none), .stmt (cstr! "aa") 2 (.inc (cstr! "\"bb\"")), .stmt (cstr! "bb") 1 (.op 12 .i none),
      .stmt (cstr! "aa") 3 (.op 9 .i none)] (cstr! " nop\n .inc \"bb\"\n dex\n") := by
  refine .inc (C1 := ⟨.inside, 0, 0, 0, 1, []⟩) (l := [.stmt (cstr! "aa") 1 (.op 97 .i none)]) (l1 := [.stmt (cstr! "bb") 1 (.op 12 .i none)])
    (evs := [.tok (.opcode 97), .tok (.eol 1)]) (s2 := cstr! " dex\n") (text := cstr! " inx\n") (nm := cstr! "bb") ?_ ?_ (by simp [SimpleTop, MacroFree, NoEnd])
    bb_name (by decide) ?_ ?_
  · refine .blanks (w := cstr! " ") (by decide) (by decide) (next_cons (by decide)) ?_
    refine .mnemonic (w := cstr! "nop") (ins := 97) (by decide) (by decide) (next_cons (by decide)) ?_
    refine .newline ?_
    refine .blanks (w := cstr! " ") (by decide) (by decide) (next_cons (by decide)) ?_
    refine .word (name := ".inc") (w := cstr! ".inc") (by decide) (by decide) (next_cons (by decide)) ?_
    refine .blanks (w := cstr! " ") (by decide) (by decide) (next_cons (by decide)) ?_
    exact .text (is := [.lit 98, .lit 98]) (by simp [itemsOk, StrItem.ok]) (by simp) (by decide) (next_cons (by decide)) (.nil rfl)
  · exact .top (tt := [.opcode 97, .eol 1]) (.stmt (.line (ts := [.opcode 97]) _ (.op _ .implied))) .nil
  · exact op_line given incFiles (cstr! "bb") ⟨.lineStart, 0, 0, 0, 0, []⟩ _ 12 (cstr! "inx") (by decide) (by decide) (next_cons (by decide)) rfl
  · exact op_line given incFiles (cstr! "aa") ⟨.fileStart, 0, 0, 0, 2, []⟩ _ 9 (cstr! "dex") (by decide) (by decide) (next_cons (by decide)) rfl

private theorem inc_text (given : Str → Bool) : SourcesText given incFiles [(cstr! "p", incText)] [incProg] := by
  refine .cons ?_ .nil
  refine .inc (C1 := ⟨.inside, 0, 0, 0, 1, []⟩) (l := [.stmt (cstr! "p") 1 (.org (.int 4096))])
    (l1 := [.stmt (cstr! "aa") 1 (.op 97 .i none), .stmt (cstr! "aa") 2 (.inc (cstr! "\"bb\"")), .stmt (cstr! "bb") 1 (.op 12 .i none),
      .stmt (cstr! "aa") 3 (.op 9 .i none)])
    (evs := [.tok .org, .tok (.int 4096), .tok (.eol 1)]) (s2 := cstr! " rts\n") (text := cstr! " nop\n .inc \"bb\"\n dex\n")
    (nm := cstr! "aa") ?_ ?_ (by simp [SimpleTop, MacroFree, NoEnd]) aa_name (by decide) (aa_text given) ?_
  · refine .blanks (w := cstr! " ") (by decide) (by decide) (next_cons (by decide)) ?_
    refine .word (name := ".org") (w := cstr! ".org") (by decide) (by decide) (next_cons (by decide)) ?_
    refine .blanks (w := cstr! " ") (by decide) (by decide) (next_cons (by decide)) ?_
    refine .decimal (ds := [⟨52, 4⟩, ⟨48, 0⟩, ⟨57, 9⟩, ⟨54, 6⟩]) (s := cstr! "\n .inc \"aa\"\n rts\n") (by decide) (by simp [Digit.ok])
      (by decide) (next_cons ⟨by decide, fun d hd h => ?_, by decide⟩) ?_
    · have := char_range hd
      omega
    refine .newline ?_
    refine .blanks (w := cstr! " ") (by decide) (by decide) (next_cons (by decide)) ?_
    refine .word (name := ".inc") (w := cstr! ".inc") (by decide) (by decide) (next_cons (by decide)) ?_
    refine .blanks (w := cstr! " ") (by decide) (by decide) (next_cons (by decide)) ?_
    exact .text (is := [.lit 97, .lit 97]) (by simp [itemsOk, StrItem.ok]) (by simp) (by decide) (next_cons (by decide)) (.nil rfl)
  · exact .top (tt := [.org, .int 4096, .eol 1]) (.stmt (.line (ts := [.org, .int 4096]) _ (.org ⟨_, _, .int 4096⟩))) .nil
  · exact op_line given incFiles (cstr! "p") ⟨.fileStart, 0, 0, 0, 2, []⟩ _ 85 (cstr! "rts") (by decide) (by decide) (next_cons (by decide)) rfl

/-- A file that includes a file that includes a file meets the hypotheses of `C61_assembly_partial`. -/
example : let s : St := { files := incFiles }
    SourcesText (fun _ => false) s.files [(cstr! "p", incText)] [incProg] ∧ (∀ l ∈ [incProg], l.length < 60) ∧
    (assembleSrc 60 60 [(cstr! "p", incText)] { output := some true } s).status = some 0 ∧
    ((assembleSrc 60 60 [(cstr! "p", incText)] { output := some true } s).passes.getLast?.map fun e => e.2.2.1.out) =
      some [0xEA, 0xE8, 0xCA, 0x60] := by
  refine ⟨inc_text _, by simp [incProg], by decide +kernel, by decide +kernel⟩

private theorem inc_draft : Spec.Draft (ctxOf { files := incFiles }) none 0x1000 true incProg.tail none [0xEA, 0xE8, 0xCA, 0x60] := by
  have op : ∀ {C : Context} {env : Str → Option Int} {pc : Int} {fresh : Bool} {ins : Int} {b : Nat}, OneByte C.cpu ins .implied [b] →
      Placed C env pc fresh [b] (.op ins .i none) := fun h => Or.inl ⟨rfl, h⟩
  refine ⟨none, [], _, ⟨rfl, Or.inr (Or.inr ⟨rfl, cstr! "aa", by decide +kernel, by decide⟩)⟩, ?_, rfl⟩
  refine ⟨none, [0xEA], _, ⟨rfl, op ⟨by decide, by decide, by decide, 0xEA, by decide, by decide +kernel, rfl⟩⟩, ?_, rfl⟩
  refine ⟨none, [], _, ⟨rfl, Or.inr (Or.inr ⟨rfl, cstr! "bb", by decide +kernel, by decide⟩)⟩, ?_, rfl⟩
  refine ⟨none, [0xE8], _, ⟨rfl, op ⟨by decide, by decide, by decide, 0xE8, by decide, by decide +kernel, rfl⟩⟩, ?_, rfl⟩
  refine ⟨none, [0xCA], _, ⟨rfl, op ⟨by decide, by decide, by decide, 0xCA, by decide, by decide +kernel, rfl⟩⟩, ?_, rfl⟩
  exact ⟨none, [0x60], [], ⟨rfl, op ⟨by decide, by decide, by decide, 0x60, by decide, by decide +kernel, rfl⟩⟩, ⟨rfl, rfl⟩, rfl⟩

/-- It also meets those of `C61_image_partial`. -/
example : let r := assembleSrc 60 60 [(cstr! "p", incText)] { output := some true } { files := incFiles }
    SourcesText (fun _ => false) incFiles [(cstr! "p", incText)] [.stmt (cstr! "p") 1 (.org (.int 4096)) :: incProg.tail] ∧
    r.status = some 0 ∧ ∃ pre s l0 s1 l1 s2 l2, r.passes = pre ++ [(false, (s, l0), (s1, l1)), (true, (s1, l1), (s2, l2))] ∧
      (∀ x ∈ s.syms, x.isVar = false ∧ x.isMacroParam = false) ∧
      Spec.eval ((ctxOf s).env none) 0x1000 (.int 4096) = some (0x1000, false) ∧
      Spec.Draft (ctxOf s) none 0x1000 true incProg.tail none [0xEA, 0xE8, 0xCA, 0x60] := by
  intro r
  have hst : r.status = some 0 := by decide +kernel
  obtain ⟨pre, s, s1, s2, hr, _⟩ := C29_success_partial _ _ _ hst
  have hr : r.passes = pre ++ [(false, s, s1), (true, s1, s2)] := hr
  have hlen : r.passes.length = 2 := by decide +kernel
  have hpre : pre.length = 0 := by
    rw [hr] at hlen
    simpa using hlen
  have hs : r.passes[0]? = some (false, s, s1) := by
    rw [hr, List.getElem?_append_right (by omega), hpre]
    rfl
  have k1 : r.passes[0]?.map (fun e => e.2.1.1.cpu) = some ({} : St).cpu := by decide +kernel
  have k2 : r.passes[0]?.map (fun e => e.2.1.1.format) = some ({} : St).format := by decide +kernel
  have k3 : r.passes[0]?.map (fun e => e.2.1.1.files) = some incFiles := by decide +kernel
  have k4 : r.passes[0]?.map (fun e => e.2.1.1.syms) = some [] := by decide +kernel
  have k5 : r.passes[0]?.map (fun e => e.2.1.1.currentScope) = some none := by decide +kernel
  rw [hs] at k1 k2 k3 k4 k5
  simp only [Option.map_some, Option.some.injEq] at k1 k2 k3 k4 k5
  refine ⟨inc_text _, hst, pre, s.1, s.2, s1.1, s1.2, s2.1, s2.2, hr, ?_, rfl, ?_⟩
  · rw [k4]
    simp
  · rw [ctxOf_congr (b := { files := incFiles }) k1 k2 k3 k4 k5]
    exact inc_draft

/-- The hypotheses of `C61_inc_effect`. -/
example : FileName (cstr! "\"aa\"") (cstr! "aa") ∧ cstr! "aa" ∈ incFiles.map (·.1) ∧ cstr! "cc" ∉ incFiles.map (·.1) :=
  ⟨aa_name, by decide, by decide⟩

end Verif
