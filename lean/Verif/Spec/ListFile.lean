import Verif.Model.Str

/-! # Specification: what a list file looks like

A list file consists of rows.  A row has a left column of (at least) 45 characters, which holds the output of one
listing entry or nothing, and on the right a line of a source file or nothing; a row without a source line is ended by
a line feed (a source line brings its own). -/

namespace Verif.Spec

/-- A row of the list file, or a line that names the source file. -/
inductive LstRow where
  /-- `; Processing name` -/
  | file (name : Str)
  /-- left column; name of the file and number of the line shown on the right -/
  | row (left : Str) (src : Option (Str × Int))
deriving DecidableEq, Repr

/-- A text followed by blanks up to column 45. -/
def column (t : Str) : Str := t ++ List.replicate (45 - t.length) 32

/-- The characters of a row, given the lines of the source files. -/
def LstRow.text (src : Str → Int → Str) : LstRow → Str
  | .file name => cstr! "; Processing " ++ name ++ [10]
  | .row left none => column left ++ [10]
  | .row left (some (f, n)) => column left ++ src f n

/-- What the left column shows. -/
def LstRow.left : LstRow → Option Str
  | .file _ => none
  | .row l _ => if l = [] then none else some l

/-- The source line shown. -/
def LstRow.src : LstRow → Option (Str × Int)
  | .file _ => none
  | .row _ s => s

/-- The entries among `es` that are shown: printing is on for the entry and was on for the one before it (`prev` for the
first one), and it is not the trace of a `.print` directive. -/
def kept {α : Type} (on directive : α → Bool) : Bool → List α → List α
  | _, [] => []
  | prev, e :: es => (if prev && on e && !directive e then [e] else []) ++ kept on directive (on e) es

/-- The lines of a text, each with the line feed that ends it (the last one may have none). -/
def splitLF : Str → List Str
  | [] => []
  | c :: cs =>
    if c = 10 then [10] :: splitLF cs
    else match splitLF cs with
      | [] => [[c]]
      | l :: ls => (c :: l) :: ls

/-- Line `n` of a text divided into lines (line 1 is the first one). -/
def srcLine (T : Str → List Str) (f : Str) (n : Int) : Str := (T f)[(n - 1).toNat]?.getD []

/-- The rows of one source line: the line stands next to the first output that belongs to it, or next to an empty
column; the other outputs follow. -/
def lineText (outs : List Str) (line : Str) : Str :=
  match outs with
  | [] => column [] ++ line
  | o :: os => column o ++ line ++ os.flatMap fun x => column x ++ [10]

/-- The rows of the lines from number `k` on, each with its outputs. -/
def linesText (outs : Int → List Str) : Int → List Str → Str
  | _, [] => []
  | k, l :: ls => lineText (outs k) l ++ linesText outs (k + 1) ls

end Verif.Spec
