import Verif.Spec.Lex
import Verif.Spec.Statements

/-! # Specification: source files -/

namespace Verif.Spec

/-- The tokens and settings of a file: statements one after the other, with settings between them. -/
inductive LinesText (file : Str) : List Top → List LexEv → Prop where
  | nil : LinesText file [] []
  | cpu (c : Cpu) {l : List Top} {evs : List LexEv} (h : LinesText file l evs) :
      LinesText file (.setCpu c :: l) (.setCpu c :: evs)
  | illegal (on : Bool) {l : List Top} {evs : List LexEv} (h : LinesText file l evs) :
      LinesText file (.setIllegal on :: l) (.setIllegal on :: evs)
  | c64 {l : List Top} {evs : List LexEv} (h : LinesText file l evs) : LinesText file (.setC64 :: l) (.setC64 :: evs)
  | top {t : Top} {l : List Top} {tt : List Tok} {evs : List LexEv} (ht : TopText file t tt) (h : LinesText file l evs) :
      LinesText file (t :: l) (tt.map .tok ++ evs)

/-- What is known about the names: `given` are defined. -/
def knownNames (given : Str → Bool) (name : Str) : Option Bool := if given name then some true else none

/-- The characters `s` are a writing of the statements `l`, in a file without macros.  The names `given` are defined from
the beginning; `.ifdef` and `.ifndef` may ask for them.  Before the first newline the count of lines is 0, so that the
first line, when it has been read, has the number 1. -/
def FileText (given : Str → Bool) (file : Str) (l : List Top) (s : List Nat) : Prop :=
  ∃ evs, Source (fun _ => false) (knownNames given) ⟨.fileStart, 0, 0, 0, 0, []⟩ evs s ∧ LinesText file l evs

/-- The files of a program, each a name and a text. -/
inductive FilesText (given : Str → Bool) : List (Str × List Nat) → Program → Prop where
  | nil : FilesText given [] []
  | cons {file : Str} {text : List Nat} {l : List Top} {fs : List (Str × List Nat)} {prog : Program}
      (h : FileText given file l text) (hs : FilesText given fs prog) : FilesText given ((file, text) :: fs) (l :: prog)

/-- No macro is defined, no call with arguments is made, and no file is included. -/
def MacroFree : Stmt → Prop
  | .macroDef _ _ => False
  | .inc _ => False
  | .word first _ args => first = false ∧ args = none
  | .ifThen _ t => MacroFree t
  | .ifElse _ t e => MacroFree t ∧ MacroFree e
  | .repeatLoop b _ => MacroFree b
  | .doLoop b _ => MacroFree b
  | .whileLoop _ b => MacroFree b
  | .forLoop _ _ _ _ b _ => MacroFree b
  | .forReg _ _ _ _ b => MacroFree b
  | .seq a b => MacroFree a ∧ MacroFree b
  | .at _ s => MacroFree s
  | _ => True

/-- The same for a line. -/
def MacroFreeTop : Top → Prop
  | .stmt _ _ s => MacroFree s
  | .labelled _ _ _ s => MacroFree s
  | _ => True

end Verif.Spec
