import Verif.Model.State

/-! # The list file (genlist.cc, file.cc:119-162)

`generate_list_file` writes the table of listing entries next to the source lines.  The table is the argument; the
source files are read through `read_file_lines`, whose result is modelled by a function from names to lines. -/

namespace Verif

/-- `file_line_node` (file.h:7-13) without the link; of the counter `displayed` only "zero or not" is ever asked
(genlist.cc:97, 146, 169). -/
structure SrcLine where
  /-- `line_content` -/
  text : Str
  /-- `line_number` -/
  number : Int
  /-- `displayed != 0` -/
  displayed : Bool := false
deriving DecidableEq, Repr

/-- `max_line_len` (pasm.h:7), the size of `internal_buffer` (pass.cc:48) and the argument of `fgets` (file.cc:135). -/
def maxLineLen : Nat := 2048

/-- The pieces in which repeated `fgets(…, max_line_len, …)` delivers a file (file.cc:132-158): a piece ends after a
line feed or when `max_line_len - 1` characters have been read.  `room` is what still fits, `cur` what has been read.
Simplification: the file contains no NUL. -/
def fgetsAll : Nat → Str → Str → List Str
  | _, cur, [] => if cur = [] then [] else [cur]
  | room, cur, c :: cs =>
    if c = 10 ∨ room ≤ 1 then (cur ++ [c]) :: fgetsAll (maxLineLen - 1) [] cs
    else fgetsAll (room - 1) (cur ++ [c]) cs

/-- Numbering of the lines (file.cc:123, 157). -/
def numberLines : Int → List Str → List SrcLine
  | _, [] => []
  | n, t :: ts => ⟨t, n, false⟩ :: numberLines (n + 1) ts

/-- `read_file_lines` (file.cc:119-162) for a file that can be opened. -/
def readFileLines (content : Str) : List SrcLine := numberLines 1 (fgetsAll (maxLineLen - 1) [] content)

/-- `source_file_list` (genlist.cc:23): name and lines of each file read so far. -/
abbrev SrcFiles := List (Str × List SrcLine)

/-- The search of `get_file_line` for the file (genlist.cc:27-49): its position, after it has been read if it was not
there.  `rd` gives the lines of a file, `[]` for one that cannot be opened (then an error is reported, file.cc:127-131;
the message is not modelled). -/
def getFile (rd : Str → List SrcLine) (fs : SrcFiles) (file : Str) : SrcFiles × Nat :=
  match fs.findIdx? (fun e => stricmp e.1 file == 0) with
  | some i => (fs, i)
  | none => (fs ++ [(file, rd file)], fs.length)

/-- The search for the line (genlist.cc:52-55): the first one whose number is not below `line`. -/
def findLine (ls : List SrcLine) (line : Int) : Option Nat := ls.findIdx? fun l => decide (line ≤ l.number)

/-- `sprintf(…, "%-45s%s", l, r)` (genlist.cc:62). -/
def indentFormat (l r : Str) : Str := l ++ List.replicate (45 - l.length) 32 ++ r

/-- The same into `internal_buffer` (genlist.cc:101, 150, 158); `none` is a write past its end. -/
def indentBuf (l r : Str) : Option Str :=
  if (indentFormat l r).length < maxLineLen then some (indentFormat l r) else none

/-- `fprintf(list_file, "; Processing %s\n", …)` (genlist.cc:88, 116). -/
def processing (file : Str) : Str := cstr! "; Processing " ++ file ++ [10]

/-- One turn of the first loop (genlist.cc:89-107), for a line that is before the first entry: `i` is the file.
`none`: there is no such line (the null pointer is used), or the buffer overflows. -/
def leadLine (i : Nat) (line : Int) (fs : SrcFiles) : Option (SrcFiles × Str) :=
  match fs[i]? with
  | none => none
  | some (nm, ls) =>
    match findLine ls line with
    | none => none
    | some k =>
      match ls[k]? with
      | none => none
      | some l =>
        if l.displayed then some (fs, [])
        else match indentBuf [] l.text with
          | none => none
          | some t => some (fs.set i (nm, ls.set k { l with displayed := true }), t)

/-- The first loop (genlist.cc:89-107): `n` more lines from `line` on. -/
def leadLines (i : Nat) : Nat → Int → SrcFiles → Option (SrcFiles × Str)
  | 0, _, fs => some (fs, [])
  | n + 1, line, fs =>
    match leadLine i line fs with
    | none => none
    | some (fs, t) =>
      match leadLines i n (line + 1) fs with
      | none => none
      | some (fs, t') => some (fs, t ++ t')

/-- The inner loop (genlist.cc:164-182) over the lines that follow the one of the entry; `state` is on here. -/
def fillLines (lstEndLine : Int) : List SrcLine → List SrcLine × Str
  | [] => ([], [])
  | l :: ls =>
    if l.number ≤ lstEndLine then
      let r := fillLines lstEndLine ls
      ({ l with displayed := true } :: r.1, indentFormat [] [] ++ (if l.displayed then [10] else l.text) ++ r.2)
    else (l :: ls, [])

/-- `end_line` (genlist.cc:132-136). -/
def lstEndLine (e : ListEntry) : Option ListEntry → Int
  | none => e.line
  | some n => if stricmp e.file n.file = 0 ∧ e.line < n.line then n.line - 1 else e.line

/-- The part of the loop body that prints an entry (genlist.cc:132-182). -/
def printEntry (rd : Str → List SrcLine) (e : ListEntry) (next : Option ListEntry) (fs : SrcFiles) :
    Option (SrcFiles × Str) :=
  if lstEndLine e next = 0 then some (fs, [])
  else
    let (fs, i) := getFile rd fs e.file
    match fs[i]? with
    | none => none
    | some (nm, ls) =>
      match findLine ls e.line with
      | none => some (fs, [])
      | some k =>
        match ls[k]? with
        | none => none
        | some l =>
          match indentBuf e.output (if l.displayed then [10] else l.text) with
          | none => none
          | some t =>
            let r := fillLines (lstEndLine e next) (ls.drop (k + 1))
            some (fs.set i (nm, ls.take k ++ { l with displayed := true } :: r.1), t ++ r.2)

/-- The main loop (genlist.cc:110-184): `cur` is `current_file_name`, `state` the print state. -/
def listEntries (rd : Str → List SrcLine) : List ListEntry → Str → Bool → SrcFiles → Option (SrcFiles × Str)
  | [], _, _, fs => some (fs, [])
  | e :: es, cur, state, fs =>
    let h := if stricmp cur e.file ≠ 0 then processing e.file else []
    let cur := if stricmp cur e.file ≠ 0 then e.file else cur
    if e.printState ≠ state then (listEntries rd es cur e.printState fs).map fun r => (r.1, h ++ r.2)
    else if e.directive ∨ e.printState = false then (listEntries rd es cur state fs).map fun r => (r.1, h ++ r.2)
    else
      match printEntry rd e es.head? fs with
      | none => none
      | some (fs, t) => (listEntries rd es cur state fs).map fun r => (r.1, h ++ t ++ r.2)

/-- `generate_list_file` (genlist.cc:79-185), from an empty `source_file_list` (pass.cc:167): what is written to the
file.  `none` is undefined behaviour: no entry at all (the null pointer `list_head` is used), or a case named above. -/
def generateListFile (rd : Str → List SrcLine) (es : List ListEntry) : Option Str :=
  match es with
  | [] => none
  | e :: _ =>
    let (fs, i) := if e.line > 1 then getFile rd [] e.file else ([], 0)
    match (if e.directive then some (fs, []) else leadLines i (e.line - 1).toNat 1 fs) with
    | none => none
    | some (fs, t) =>
      (listEntries rd es e.file true fs).map fun r => [10] ++ processing e.file ++ t ++ r.2

/-- What the final pass asks of the listing, in order: `generate_list_node` for a statement (node.cc:1552-1864), which
ends in `add_list` with the text of the left column, or the directive `.print` (expand.cc:1019-1029). -/
inductive LstAct where
  /-- `add_list(file, line, output)` -/
  | entry (file : Str) (line : Int) (output : Str)
  /-- `.print on` or `.print off` on a line -/
  | print (on : Bool) (file : Str) (line : Int)
deriving DecidableEq, Repr

/-- The table `list_head`, from the state `print_list_state` on: `add_list` (genlist.cc:213-259) stores the state;
`.print` leaves an entry with the state off and the flag set if it changes the state (node.cc:1539-1550), and
`.print on` an empty entry (expand.cc:1025-1026, node.cc:1529-1537). -/
def lstTable : Bool → List LstAct → List ListEntry
  | _, [] => []
  | st, .entry f n o :: as => ⟨n, f, o, st, false⟩ :: lstTable st as
  | st, .print b f n :: as =>
    (if b ≠ st then [⟨n, f, [], false, true⟩] else []) ++ (if b then [⟨n, f, [], true, false⟩] else []) ++ lstTable b as

end Verif
