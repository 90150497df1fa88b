import Verif.Spec.ListFile
import Verif.Model.SymFile

/-! # Specification: how a symbol file is read -/

namespace Verif.Spec

/-- The words of a text: the longest pieces without blanks and line feeds. -/
def fields : Str → List Str
  | [] => []
  | c :: cs =>
    if c = 32 ∨ c = 10 then fields cs
    else match cs with
      | [] => [[c]]
      | d :: _ =>
        if d = 32 ∨ d = 10 then [c] :: fields cs
        else match fields cs with
          | [] => [[c]]
          | w :: ws => (c :: w) :: ws

/-- A hexadecimal digit. -/
def digitOf (c : Nat) : Option Nat :=
  if 48 ≤ c ∧ c ≤ 57 then some (c - 48) else if 65 ≤ c ∧ c ≤ 70 then some (c - 55) else none

/-- The value of `$` and four hexadecimal digits. -/
def fourDigits : Str → Option Nat
  | [36, a, b, c, d] => do
    let a ← digitOf a
    let b ← digitOf b
    let c ← digitOf c
    let d ← digitOf d
    some (4096 * a + 256 * b + 16 * c + d)
  | _ => none

/-- Names and values in turn. -/
def symbolsOf : List Str → Option (List (Str × Nat))
  | [] => some []
  | name :: number :: r => do
    let v ← fourDigits number
    let es ← symbolsOf r
    some ((name, v) :: es)
  | [_] => none

/-- The symbols that a text lists. -/
def readSymbols (t : Str) : Option (List (Str × Nat)) := symbolsOf (fields t)

/-- A name that can be shown. -/
def Word (n : Str) : Prop := n ≠ [] ∧ 32 ∉ n ∧ 10 ∉ n

/-- The symbols that belong into the symbol file: no variables, parameters, macros, anonymous and local labels, and looked up at
least twice for each pass. -/
def listed (pass : Int) (x : TabSym) : Bool :=
  !(x.sym.isVar || x.sym.isMacroParam || x.sym.isMacroName || x.sym.isPlusMinus || x.isLocal || x.sym.name.contains 64) &&
    decide (2 * pass ≤ x.times)

end Verif.Spec
