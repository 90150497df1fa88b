import Verif.Spec.Text
import Verif.Spec.Listing
import Verif.Spec.Layout

/-! # Specification: a line of a source file -/

namespace Verif.Spec

/-- The characters `text` are a line of a source file with one statement, outside of all blocks and behind `n` other lines,
whatever stands in front of it and behind it. -/
def LineAt (file : Str) (n : Int) (st : Stmt) (text : Str) : Prop :=
  ∃ tt, TopText file (.stmt file (n + 1) st) tt ∧ ∀ known place evs rest,
    Source (fun _ => false) known ⟨.lineStart, 0, 0, 0, n + 1, []⟩ evs rest →
    Source (fun _ => false) known ⟨place, 0, 0, 0, n, []⟩ (tt.map .tok ++ evs) (text ++ rest)

/-- An instruction or a data directive. -/
def Direct : Stmt → Prop
  | .op _ _ _ => True
  | .data _ _ _ => True
  | _ => False

/-- The statements whose rows can be read back, and those without rows: not `jmp (v,x)`, not texts with a backslash, a quote
or a line feed. -/
def Relistable (text : Str → Option Str) : Stmt → Prop
  | .empty => True
  | .assign _ _ => True
  | .word true _ none => True
  | .op _ _ none => True
  | .op ins mode (some _) => mode = Form.mode .indX → mnemonic ins ≠ "jmp"
  | .data size hd tl => ∀ x ∈ hd :: tl, Printable Quotable text size x
  | .fill _ _ => True
  | .load _ => True
  | .inc _ => True
  | _ => False

/-- The lines with such statements, with or without a label. -/
def RelistableTop (text : Str → Option Str) : Top → Prop
  | .stmt _ _ st => Relistable text st
  | .labelled _ _ _ st => Relistable text st
  | _ => False

/-- A row of the listing without address and bytes, as a line of a source file. -/
def rowLine (e : ListEntry) : Str := 32 :: (e.output.drop 25 ++ [10])

/-- `.org` with an address in four digits. -/
def orgLine (o : Int) : Str :=
  let a := o.toNat
  cstr! " .org $" ++ [hexDig (a / 4096), hexDig (a / 256 % 16), hexDig (a / 16 % 16), hexDig (a % 16), 10]

/-- The source text made from a listing: `.org` and the last columns of the rows. -/
def listingText (o : Int) (ls : List ListEntry) : Str := orgLine o ++ ls.flatMap rowLine

end Verif.Spec
