import Verif.Lemmas.Message

/-! # Property C63: messages -/

namespace Verif

open Spec

/-- **C63, part.**  A message for a file whose lines have fewer than 2047 characters: the text, the name of the file, a line number,
and the five lines around it, as far as they exist, each with its own number.  The file is read from where it was, and nothing is
counted. -/
theorem C63_message_partial (s : Str) {c : Con} {f : Stream} {name buf : Str} {n : Nat} (hf : c.yyin = some f)
    (hn : c.fileName = some name) (hb : c.buffer = some buf) (hl : c.yylineno = n)
    (hlen : ∀ l ∈ edLines f.content, l.length < 2047) :
    (yymessage s c).console = c.console ++ message s name n f.content ∧ (yymessage s c).yyin = some { f with eof := false } ∧
      (yymessage s c).yylineno = n ∧ (yymessage s c).fileName = some name ∧ (yymessage s c).errorCount = c.errorCount ∧
      (yymessage s c).warningCount = c.warningCount := by
  have h := yymessage_eq s n hf hn hb hl fun l hl => by
    have := hlen l hl
    unfold maxLineLen
    omega
  exact ⟨h.1, h.2.1, h.2.2.2.1.trans hl, h.2.2.1.trans hn, h.2.2.2.2.2⟩

/-- **C63.**  The line on which a statement stands is among the lines that its message shows, with its number: `yylineno` is the
number of line feeds read, that of the statement is read before the statement is expanded and not yet read when the parser
finds an error in the line. -/
theorem C63_statement_shown (s : Str) {c : Con} {f : Stream} {name buf : Str} {k : Nat} {l : Str} (hf : c.yyin = some f)
    (hn : c.fileName = some name) (hb : c.buffer = some buf) (hk : 1 ≤ k) (hl : c.yylineno = k ∨ c.yylineno = k - 1)
    (hlen : ∀ l ∈ edLines f.content, l.length < 2047) (hline : (edLines f.content)[k - 1]? = some l) :
    ∃ pre post, (yymessage s c).console = pre ++ shownLine k l ++ post := by
  have key : ∀ {n : Nat}, c.yylineno = n → n - 2 ≤ k → k ≤ n + 2 → ∃ pre post, (yymessage s c).console = pre ++ shownLine k l ++ post := by
    intro n hn' h1 h2
    have hm := linesBetween_mem (t := f.content) h1 h2 hk hline
    obtain ⟨as, bs, hs⟩ := List.append_of_mem hm
    obtain ⟨g, _⟩ := C63_message_partial s hf hn hb hn' hlen
    refine ⟨c.console ++ (s ++ cstr! " File " ++ name ++ cstr! " near line " ++ numeral (n + 1) ++ [10]) ++ as.flatMap (rowOf f.content),
      (if k < (edLines f.content).length then [10] else []) ++ bs.flatMap (rowOf f.content) ++ [10], ?_⟩
    rw [g]
    unfold message
    rw [hs, List.flatMap_append, List.flatMap_cons, show rowOf f.content (k, l) = shownLine k l ++ (if k < (edLines f.content).length then [10] else []) from rfl]
    simp only [List.append_assoc]
  rcases hl with hl | hl
  · exact key hl (by omega) (by omega)
  · exact key (n := k - 1) (by omega) (by omega) (by omega)

/-- **C63.**  Every error number has a text; `error` writes one message with it and counts one error, `warn` counts one warning
and no error.  Without a file the message is the text alone. -/
theorem C63_count {n : Int} (h1 : 1 ≤ n) (h2 : n ≤ 48) (c : Con) :
    ∃ s, s ≠ [] ∧ 10 ∉ s ∧
      (∃ c', errorMsg n c = some c' ∧ c'.errorCount = c.errorCount + 1 ∧ c'.warningCount = c.warningCount ∧
        c'.console = (yymessage s c).console) ∧
      (∃ c', warnMsg n c = some c' ∧ c'.errorCount = c.errorCount ∧ c'.warningCount = c.warningCount + 1 ∧
        c'.console = (yymessage s c).console) ∧
      (c.yyin = none → (yymessage s c).console = c.console ++ s ++ [10]) := by
  have htab : ∀ i : Fin 49, 1 ≤ i.val → ∃ s, errorTexts[i.val]? = some s ∧ s ≠ [] ∧ 10 ∉ s := by
    intro i hi
    have hlen : errorTexts.length = 49 := by decide +kernel
    have hall : ∀ s ∈ errorTexts.drop 1, s ≠ [] ∧ 10 ∉ s := by decide +kernel
    refine ⟨errorTexts[i.val], List.getElem?_eq_getElem (by omega), hall _ ?_⟩
    rw [List.mem_iff_getElem]
    refine ⟨i.val - 1, by simp; omega, ?_⟩
    rw [List.getElem_drop]
    congr 1
    omega
  obtain ⟨s, hs, hne, hlf⟩ := htab ⟨n.toNat, by omega⟩ (by simp only; omega)
  have ht : errorText n = some s := by
    unfold errorText errorMax
    rw [if_pos (by omega)]
    exact hs
  have hcount : ∀ t, (yymessage t c).errorCount = c.errorCount ∧ (yymessage t c).warningCount = c.warningCount := by
    intro t
    unfold yymessage
    split <;> exact ⟨rfl, rfl⟩
  refine ⟨s, hne, hlf, ⟨yyerror s c, by unfold errorMsg; rw [ht]; rfl, ?_, ?_, rfl⟩,
    ⟨{ yymessage s c with warningCount := (yymessage s c).warningCount + 1 }, by unfold warnMsg; rw [ht]; rfl, ?_, ?_, rfl⟩, ?_⟩
  · show (yymessage s c).errorCount + 1 = _
    rw [(hcount s).1]
  · exact (hcount s).2
  · exact (hcount s).1
  · show (yymessage s c).warningCount + 1 = _
    rw [(hcount s).2]
  · intro hy
    unfold yymessage
    rw [hy]

/-- **C63, part.**  `error2` with a parameter that fits into the buffer: one message, the text and the parameter, one error. -/
theorem C63_parameter_partial {n : Int} (h1 : 1 ≤ n) (h2 : n ≤ 48) {c : Con} {buf param : Str} (hb : c.buffer = some buf)
    (hp : param.length < 1990) :
    ∃ s c', errorText n = some s ∧ errorMsg2 n param c = some c' ∧ c'.errorCount = c.errorCount + 1 ∧
      c'.warningCount = c.warningCount ∧
      c'.console = (yymessage (s ++ [32] ++ param) { c with buffer := some (s ++ [32] ++ param) }).console := by
  have hlen : errorTexts.length = 49 := by decide +kernel
  have hall : ∀ s ∈ errorTexts, s.length ≤ 56 := by decide +kernel
  have hlt : n.toNat < errorTexts.length := by omega
  have ht : errorText n = some errorTexts[n.toNat] := by
    unfold errorText errorMax
    rw [if_pos (by omega), List.getElem?_eq_getElem hlt]
  have hcount : ∀ t c, (yymessage t c).errorCount = c.errorCount ∧ (yymessage t c).warningCount = c.warningCount := by
    intro t c
    unfold yymessage
    split <;> exact ⟨rfl, rfl⟩
  have hs := hall _ (List.getElem_mem hlt)
  refine ⟨_, yyerror (errorTexts[n.toNat] ++ [32] ++ param) { c with buffer := some (errorTexts[n.toNat] ++ [32] ++ param) }, ht, ?_, ?_, ?_, rfl⟩
  · unfold errorMsg2
    simp only [ht, hb]
    rw [if_pos (by unfold maxLineLen; omega)]
  · show (yymessage _ _).errorCount + 1 = _
    rw [(hcount _ _).1]
  · exact (hcount _ _).2

/-- **C63**, negation: a parameter that does not fit is reported twice, once with the text and once with what is left in the
buffer, and two errors are counted. -/
theorem C63_parameter_false (buf : Str) :
    ∃ (n : Int) (param : Str) (c : Con), c.buffer = some buf ∧ ∃ c', errorMsg2 n param c = some c' ∧ c'.errorCount = 2 ∧
      c'.console = cstr! "Can't open include file\n" ++ buf ++ [10] := by
  refine ⟨4, List.replicate 2023 97, { buffer := some buf },
    rfl, yyerror buf (yyerror (cstr! "Can't open include file") { buffer := some buf }), ?_, rfl, ?_⟩
  · have ht : errorText 4 = some (cstr! "Can't open include file") := by decide +kernel
    unfold errorMsg2
    simp only [ht]
    rw [List.length_replicate, if_neg (by decide)]
    rfl
  · simp [yyerror, yymessage]

private def longLine : Str := List.replicate 2047 32 ++ [10] ++ cstr! " nop\n"

/-- **C63**, negation: behind a line of 2047 or more characters the lines are shown with wrong numbers; here the second line of
the file is shown as the third one. -/
theorem C63_message_false :
    ∃ (src : Str) (c : Con), c.yyin = some { content := src } ∧ c.buffer = some [] ∧ c.fileName = some (cstr! "a.asm") ∧ c.yylineno = 5 ∧
      (edLines src)[1]? = some (cstr! " nop") ∧ (edLines src).length = 3 ∧
      (yymessage [] c).console = cstr! " File a.asm near line 6\n3       nop\n4      \n" := by
  refine ⟨longLine, ⟨some { content := longLine }, some (cstr! "a.asm"), some [], 5, 0, 0, []⟩, rfl, rfl, rfl, rfl, ?_, ?_, ?_⟩ <;>
    decide +kernel

/-! ## Examples -/

private def msgCon : Con :=
  { yyin := some { content := cstr! "a=1\n lda #b\n rts\n", pos := 13 }, fileName := some (cstr! "a.asm"), buffer := some [], yylineno := 2 }

/-- The hypotheses are met; the message of an error on line 2. -/
example : (∀ l ∈ edLines (cstr! "a=1\n lda #b\n rts\n"), l.length < 2047) ∧ (edLines (cstr! "a=1\n lda #b\n rts\n"))[1]? = some (cstr! " lda #b") ∧
    (yymessage (cstr! "Value out of range.") msgCon).console =
      cstr! "Value out of range. File a.asm near line 3\n1      a=1\n2       lda #b\n3       rts\n4      \n" := by
  refine ⟨?_, ?_, ?_⟩ <;> decide +kernel

end Verif
