import Verif.Model.Statements
import Verif.Model.Lex
import Verif.Model.Parse

/-! # From text to effects: `yylex`, `yyparse` and `parse_pass` together (pasm.l, pasm.y, pass.cc)

`yyparse` asks `yylex` for one token after the other and performs the action of `program : program stmt` (pasm.y:70) when
the last token of the statement has been read; the rule needs no look-ahead.  So a statement takes effect before the
next one is scanned, and the symbols it defines decide how the following names are scanned. -/

namespace Verif

/-- The outcome of scanning up to the end of a statement (`yyparse` between two reductions to `program`,
pasm.y:69-78).  `evs` are the settings and errors met on the way. -/
inductive ReadRes where
  /-- the end of the file is reached before a token -/
  | eof (evs : List LexEv) (st : LexSt)
  /-- a statement is complete; `rest` has not been scanned -/
  | top (evs : List LexEv) (t : Top) (st : LexSt) (rest : Str)
  /-- the tokens do not begin with a statement -/
  | syntaxError (st : LexSt)
  /-- undefined behaviour in the scanner -/
  | ub

/-- Scan tokens (pasm.l:66-450) until they form a statement (pasm.y:70-76).  `toks` are the tokens read so far, `evs` the
settings and errors so far.  By `C54_one_reading` no statement is the beginning of another one, so stopping at
the first complete one is what the generated parser does.  Simplifications: a setting inside a block acts before the
block is built (in the code when it is scanned, the same moment for everything outside blocks); a syntax error is only
noticed at the end of the file, and then the settings scanned since the last statement are dropped (the assembly has
failed in either case). -/
def readTop (isMac defined : Str → Bool) (file : Str) : Nat → LexSt → Str → List Tok → List LexEv → ReadRes
  | 0, _, _, _, _ => .ub
  | _ + 1, st, [], toks, evs => if toks.isEmpty then .eof evs st else .syntaxError st
  | f + 1, st, c :: text, toks, evs =>
    match lexStep isMac defined st (c :: text) with
    | none => .ub
    | some (st', .none, rest) => readTop isMac defined file f st' rest toks evs
    | some (st', .tok t, rest) =>
      match parseTop file (toks ++ [t]) with
      | some (top, []) => .top evs top st' rest
      | _ => readTop isMac defined file f st' rest (toks ++ [t]) evs
    | some (st', .error n (some t), rest) =>
      match parseTop file (toks ++ [t]) with
      | some (top, []) => .top (evs ++ [.error n none]) top st' rest
      | _ => readTop isMac defined file f st' rest (toks ++ [t]) (evs ++ [.error n none])
    | some (st', ev, rest) => readTop isMac defined file f st' rest toks (evs ++ [ev])

/-- `n` times `yyerror` (error.cc:151-155), for the rules in pasm.l:42-49 and 450. -/
def reportTimes : Nat → M Unit
  | 0 => M.pure ()
  | n + 1 => do
    error .syntaxError
    reportTimes n

/-- The effect of a setting or an error met by the scanner (pasm.l:312-318, 450).  The kind of the error is not kept
apart (unknown escape, parameter outside a macro, unknown character). -/
def runEvent : LexEv → M Unit
  | .setCpu c => modS fun s => { s with cpu := c }
  | .setIllegal on => modS fun s => { s with allowIllegal := on }
  | .setC64 => modS fun s => { s with format := .c64 }
  | .error n _ => reportTimes n
  | _ => M.pure ()

/-- `look_up_symbol(p) != NULL` (pasm.l:167, 182). -/
def isKnownWord (s : St) (name : Str) : Bool := (lookUpSymbol s.currentScope s.syms name).isSome

/-- `yyparse` on the text of one file (pass.cc:142): the statements take effect one after the other, the first syntax
error ends the parse.  The result is the state of the scanner at the end (`<<EOF>>`, pasm.l:429-449).  Each statement
takes at least one character, so the length of the text is enough fuel.  Simplifications: this is for texts without `.inc`
(with `.inc` see `Model/Include`); listing entries for empty lines are not made. -/
def runText (ex : Ptr → M Int) (hu : Ptr → M Bool) (file : Str) : Nat → LexSt → Str → M LexSt
  | 0, _, _ => ubM
  | f + 1, lx, text => do
    let s ← getS
    match readTop (isMacroWord s) (isKnownWord s) file (text.length + 1) lx text [] [] with
    | .ub => ubM
    | .syntaxError lx' => do
      error .syntaxError
      M.pure lx'
    | .eof evs lx' => do
      forEachM runEvent evs
      M.pure { lx' with last := none, line := lx'.line + 1 }
    | .top evs t lx' rest => do
      forEachM runEvent evs
      let good ← runTop ex hu t
      if good then runText ex hu file f lx' rest
      else do
        error .syntaxError
        M.pure lx'

/-- The files of a pass in order (pass.cc:106-148), each with its name and its text; `yylineno` starts at 0
(pass.cc:109).  Start condition and `do_count` are those at the end of the previous file. -/
def runTexts (f : Nat) : List (Str × Str) → LexSt → M LexSt
  | [], lx => M.pure lx
  | (file, text) :: r, lx => do
    let lx' ← runText (expandNode f) (hasUninit f) file (text.length + 1) { lx with line := 0 } text
    runTexts f r lx'

/-- `parse_pass` (pass.cc:101-160).  `reset_lex` clears `ifdef_stack` and `in_macro_definition` (pass.cc:85-94), but not
the start condition and `do_count`. -/
def parsePassText (f : Nat) (files : List (Str × Str)) (lx : LexSt) : M LexSt := do
  resetLex
  let lx' ← runTexts f files { lx with ifStack := [], inMacro := 0 }
  modS fun s => { s with nodeBase := s.nodes.length, currentScope := none }
  M.pure lx'

/-- The pass as seen by `assemble` (pass.cc:172, 199-205, 234-249). -/
def passSemText (f : Nat) (files : List (Str × Str)) (output : Bool) : PassSem (St × LexSt) where
  parse final s :=
    match parsePassText f files s.2 { s.1 with finalPass := final, outputOpen := final && output } with
    | (.ok lx, s') => some (s', lx)
    | _ => none
  errorCount s := s.1.errorCount
  symValueChanged s := s.1.symValueChanged
  unresolved s := unresolvedCount s.1.syms

/-- `assemble` (pass.cc:162-303) for given source texts; the scanner starts in the state of a fresh process. -/
def assembleText (f : Nat) (files : List (Str × Str)) (F : AsmFiles) (s : St) : AsmRes (St × LexSt) :=
  assemble (passSemText f files F.output.isSome) F (s, {})

end Verif
