import Verif.Model.Text

/-! # Included files: `yylex`, `yyparse` and `parse_pass` with `.inc` (file.cc:185-216, pasm.l:429-449)

`open_include_file` makes the opened file the input of the scanner.  At its end the scanner returns to the file and the
line noted on `file_stack`, without the parser noticing. -/

namespace Verif

/-- A file whose reading is suspended: the entry of `file_stack` (pasm.h:17-21) with its name and line number, and the
characters that have not been scanned (the buffer below the current one on the stack of flex). -/
structure Buf where
  /-- `file` -/
  file : Str
  /-- `line` -/
  line : Int
  /-- the text that has not been scanned -/
  rest : Str
deriving DecidableEq, Repr

/-- The outcome of scanning up to the end of a statement, as `ReadRes` (pasm.y:69-78). -/
inductive SrcRes where
  /-- the end of the input file is reached before a token -/
  | eof (evs : List LexEv) (st : LexSt)
  /-- a statement is complete, in the file `file`; `rest` has not been scanned and `bufs` are suspended -/
  | top (evs : List LexEv) (t : Top) (st : LexSt) (file rest : Str) (bufs : List Buf)
  /-- the tokens do not begin with a statement -/
  | syntaxError (st : LexSt)
  /-- undefined behaviour in the scanner -/
  | ub

/-- Scan tokens until they form a statement, as `readTop` does, through the ends of included files (`<<EOF>>`,
pasm.l:429-449): `last_token` is cleared, file and line number are those on `file_stack`, and scanning goes on in the same start
condition.  Simplifications: those of `readTop`; the empty listing entries are not made. -/
def readSrc (isMac defined : Str → Bool) : Nat → LexSt → Str → Str → List Buf → List Tok → List LexEv → SrcRes
  | 0, _, _, _, _, _, _ => .ub
  | _ + 1, st, _, [], [], toks, evs => if toks.isEmpty then .eof evs st else .syntaxError st
  | f + 1, st, _, [], b :: bufs, toks, evs =>
    readSrc isMac defined f { st with last := none, line := b.line } b.file b.rest bufs toks evs
  | f + 1, st, file, c :: text, bufs, toks, evs =>
    match lexStep isMac defined st (c :: text) with
    | none => .ub
    | some (st', .none, rest) => readSrc isMac defined f st' file rest bufs toks evs
    | some (st', .tok t, rest) =>
      match parseTop file (toks ++ [t]) with
      | some (top, []) => .top evs top st' file rest bufs
      | _ => readSrc isMac defined f st' file rest bufs (toks ++ [t]) evs
    | some (st', .error n (some t), rest) =>
      match parseTop file (toks ++ [t]) with
      | some (top, []) => .top (evs ++ [.error n none]) top st' file rest bufs
      | _ => readSrc isMac defined f st' file rest bufs (toks ++ [t]) (evs ++ [.error n none])
    | some (st', ev, rest) => readSrc isMac defined f st' file rest bufs toks (evs ++ [ev])

/-- The number of characters and ends of files still to be scanned (bounds the loop of `yylex`, pasm.l:429-449). -/
def srcSize (text : Str) : List Buf → Nat
  | [] => text.length + 1
  | b :: bufs => text.length + 1 + srcSize b.rest bufs

/-- The contents of a file that has been opened (file.cc:198). -/
def contents (files : List (Str × List Nat)) (name : Str) : Str := ((files.find? (fun e => e.1 == name)).map (·.2)).getD []

/-- The input of the scanner after the files `names` have been opened one after the other by `open_include_file`
(file.cc:189-214): each one suspends the one before. -/
def openAll (files : List (Str × List Nat)) : List Str → Str → Int → Str → List Buf → Buf × List Buf
  | [], file, line, text, bufs => (⟨file, line, text⟩, bufs)
  | name :: names, file, line, text, bufs => openAll files names name 0 (contents files name) (⟨file, line, text⟩ :: bufs)

/-- Can expanding the statement reach an `INC` node (expand.cc:340-346)?  It contains `.inc`, the name of a macro or a macro
definition. -/
def Stmt.mayOpen (isMac : Str → Bool) : Stmt → Bool
  | .inc _ => true
  | .word _ name _ => isMac name
  | .macroDef _ _ => true
  | .ifThen _ t => t.mayOpen isMac
  | .ifElse _ t e => t.mayOpen isMac || e.mayOpen isMac
  | .repeatLoop b _ => b.mayOpen isMac
  | .doLoop b _ => b.mayOpen isMac
  | .whileLoop _ b => b.mayOpen isMac
  | .forLoop _ _ _ _ b _ => b.mayOpen isMac
  | .forReg _ _ _ _ b => b.mayOpen isMac
  | .seq a b => a.mayOpen isMac || b.mayOpen isMac
  | .at _ s => s.mayOpen isMac
  | _ => false

/-- The same at top level (pasm.y:69-79). -/
def Top.mayOpen (isMac : Str → Bool) : Top → Bool
  | .stmt _ _ s => s.mayOpen isMac
  | .labelled _ _ name s => isMac name || s.mayOpen isMac
  | _ => false

/-- `yyparse` on an input file (pass.cc:142), with included files.  The files opened by a statement are read before the
next statement.  Files that include each other without end never stop (fuel).  Simplifications: those of `runText`; only
statements with `mayOpen` are asked for opened files (the nodes of other statements cannot lead to an `INC` node); after a
syntax error the suspended files are forgotten (in the code they are read with the next input file; the assembly has
failed). -/
def runSrc (ex : Ptr → M Int) (hu : Ptr → M Bool) : Nat → LexSt → Str → Str → List Buf → M LexSt
  | 0, _, _, _, _ => timeoutM
  | f + 1, lx, file, text, bufs => do
    let s ← getS
    match readSrc (isMacroWord s) (isKnownWord s) (srcSize text bufs) lx file text bufs [] [] with
    | .ub => ubM
    | .syntaxError lx' => do
      error .syntaxError
      M.pure lx'
    | .eof evs lx' => do
      forEachM runEvent evs
      M.pure { lx' with last := none, line := lx'.line + 1 }
    | .top evs t lx' file' rest bufs' => do
      forEachM runEvent evs
      let good ← runTop ex hu t
      if good then do
        let s' ← getS
        let names := if t.mayOpen (isMacroWord s) then s'.incs.drop s.incs.length else []
        let r := openAll s'.files names file' lx'.line rest bufs'
        runSrc ex hu f { lx' with line := r.1.line } r.1.file r.1.rest r.2
      else do
        error .syntaxError
        M.pure lx'

/-- The files of a pass in order (pass.cc:106-148), as `runTexts`.  `n` bounds the number of statements. -/
def runSrcs (f n : Nat) : List (Str × Str) → LexSt → M LexSt
  | [], lx => M.pure lx
  | (file, text) :: r, lx => do
    let lx' ← runSrc (expandNode f) (hasUninit f) n { lx with line := 0 } file text []
    runSrcs f n r lx'

/-- `parse_pass` (pass.cc:101-160), as `parsePassText`.  `file_stack` is cleared (pass.cc:78-85). -/
def parsePassSrc (f n : Nat) (files : List (Str × Str)) (lx : LexSt) : M LexSt := do
  resetLex
  let lx' ← runSrcs f n files { lx with ifStack := [], inMacro := 0 }
  modS fun s => { s with nodeBase := s.nodes.length, currentScope := none }
  M.pure lx'

/-- The pass as seen by `assemble` (pass.cc:172, 199-205, 234-249). -/
def passSemSrc (f n : Nat) (files : List (Str × Str)) (output : Bool) : PassSem (St × LexSt) where
  parse final s :=
    match parsePassSrc f n files s.2 { s.1 with finalPass := final, outputOpen := final && output } with
    | (.ok lx, s') => some (s', lx)
    | _ => none
  errorCount s := s.1.errorCount
  symValueChanged s := s.1.symValueChanged
  unresolved s := unresolvedCount s.1.syms

/-- `assemble` (pass.cc:162-303) for given input files; included files are in `files` of the state. -/
def assembleSrc (f n : Nat) (files : List (Str × Str)) (F : AsmFiles) (s : St) : AsmRes (St × LexSt) :=
  assemble (passSemSrc f n files F.output.isSome) F (s, {})

end Verif
