import Verif.Model.ListFile

/-! # Specification: the lines of a file, and how they are shown in a message -/

namespace Verif.Spec

/-- The lines of a file as an editor numbers them, without their line feeds; behind the last line feed there is one more, empty
line. -/
def edLines : Str → List Str
  | [] => [[]]
  | c :: cs =>
    if c = 10 then [] :: edLines cs
    else match edLines cs with
      | [] => [[c]]
      | l :: ls => (c :: l) :: ls

/-- The decimal numeral of a number. -/
def numeral (n : Nat) : Str := (Nat.repr n).toList.map Char.toNat

/-- How a line is shown: its number, blanks up to column 8, its text. -/
def shownLine (n : Nat) (line : Str) : Str :=
  numeral n ++ List.replicate (5 - (numeral n).length) 32 ++ [32, 32] ++ line

/-- The lines of a file from number `a` to number `b`, with their numbers. -/
def linesBetween (a b : Nat) (t : Str) : List (Nat × Str) :=
  ((edLines t).zipIdx 1).filterMap fun p => if a ≤ p.2 ∧ p.2 ≤ b then some (p.2, p.1) else none

/-- A shown line, with a line feed if it is not the last line of the file. -/
def rowOf (t : Str) (p : Nat × Str) : Str := shownLine p.1 p.2 ++ if p.1 < (edLines t).length then [10] else []

/-- The message `s` for a file: its name, the number behind line `n`, and the lines from two before line `n` to two behind it. -/
def message (s name : Str) (n : Nat) (t : Str) : Str :=
  s ++ cstr! " File " ++ name ++ cstr! " near line " ++ numeral (n + 1) ++ [10] ++
    (linesBetween (n - 2) (n + 2) t).flatMap (rowOf t) ++ [10]

end Verif.Spec
