import Verif.Spec.Text

/-! # Specification: programs in several files -/

namespace Verif.Spec

/-- The name of a file as it is written after `.inc`: in double quotes. -/
def FileName (raw name : List Nat) : Prop :=
  ∃ is, itemsOk is ∧ raw = '"'.toNat :: (is.map StrItem.text).flatten ++ ['"'.toNat] ∧
    name = (is.map StrItem.value).flatten ∧ 0 ∉ name

/-- `.end` does not occur. -/
def NoEnd : Stmt → Prop
  | .endProg => False
  | .ifThen _ t => NoEnd t
  | .ifElse _ t e => NoEnd t ∧ NoEnd e
  | .repeatLoop b _ => NoEnd b
  | .doLoop b _ => NoEnd b
  | .whileLoop _ b => NoEnd b
  | .forLoop _ _ _ _ b _ => NoEnd b
  | .forReg _ _ _ _ b => NoEnd b
  | .macroDef _ b => NoEnd b
  | .seq a b => NoEnd a ∧ NoEnd b
  | .at _ s => NoEnd s
  | _ => True

/-- A line without macros, `.inc` and `.end`. -/
def SimpleTop : Top → Prop
  | .stmt _ _ s => MacroFree s ∧ NoEnd s
  | .labelled _ _ _ s => MacroFree s ∧ NoEnd s
  | _ => True

/-- `SrcText given fs file C fin l s`: the characters `s` of the file `file`, read in the situation `C`, are a writing of the
statements `l` without macros and `.end`, where the statements of an included file stand behind its `.inc`.  They carry the name of their own file and the
numbers of its lines.  `fs` are the files that can be included; at the end the situation is one of `fin`. -/
inductive SrcText (given : Str → Bool) (fs : List (Str × List Nat)) : Str → Scan → (Scan → Prop) → List Top → List Nat → Prop where
  /-- up to the end nothing is included -/
  | last {file C fin l s evs} (h : SourceTo (fun _ => false) (knownNames given) fin [] C evs s) (hl : LinesText file l evs)
      (hs : ∀ t ∈ l, SimpleTop t) : SrcText given fs file C fin l s
  /-- the statements `l`, the line with `.inc`, the statements `l1` of the included file, and `l2` from the rest `s2`.  The
  included file leaves no `.ifdef` block open. -/
  | inc {file C C1 fin l l1 l2 s s2 evs raw name nm text}
      (h : SourceTo (fun _ => false) (knownNames given) (· = C1) ('\n'.toNat :: s2) C (evs ++ [.tok .inc, .tok (.str raw)]) s)
      (hl : LinesText file l evs) (hs : ∀ t ∈ l, SimpleTop t) (hn : FileName raw name) (hf : fs.find? (fun e => e.1 == name) = some (nm, text))
      (h1 : SrcText given fs name { C1 with place := .lineStart, line := 0 } (fun C => C.conds = C1.conds) l1 text)
      (h2 : SrcText given fs file { C1 with place := .fileStart, line := C1.line + 1 } fin l2 s2) :
      SrcText given fs file C fin (l ++ .stmt file (C1.line + 1) (.inc raw) :: (l1 ++ l2)) s

/-- The input files of a program, each a name and a text, with the files that are included. -/
inductive SourcesText (given : Str → Bool) (fs : List (Str × List Nat)) : List (Str × List Nat) → Program → Prop where
  | nil : SourcesText given fs [] []
  | cons {file : Str} {text : List Nat} {l : List Top} {r : List (Str × List Nat)} {prog : Program}
      (h : SrcText given fs file ⟨.fileStart, 0, 0, 0, 0, []⟩ (fun C => C.conds = []) l text) (hs : SourcesText given fs r prog) :
      SourcesText given fs ((file, text) :: r) (l :: prog)

end Verif.Spec
