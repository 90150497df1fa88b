/-! # Specification: numbers and texts as they are written -/

namespace Verif.Spec

/-- A digit character with its value, letters in either case. -/
structure Digit where
  /-- the character -/
  char : Nat
  /-- its value -/
  val : Nat

/-- `d` is a digit of the base, written `0`-`9`, `a`-`f` or `A`-`F`. -/
def Digit.ok (base : Nat) (d : Digit) : Prop :=
  d.val < base ∧ ((d.val < 10 ∧ d.char = '0'.toNat + d.val) ∨
    (10 ≤ d.val ∧ d.val < 16 ∧
      (d.char = 'A'.toNat + (d.val - 10) ∨ d.char = 'a'.toNat + (d.val - 10))))

/-- Positional value, most significant digit first. -/
def numVal (base : Nat) (ds : List Digit) : Nat := ds.foldl (fun acc d => acc * base + d.val) 0

/-- How the number is written. -/
def numText (ds : List Digit) : List Nat := ds.map (·.char)

/-- Elements of a quoted string as documented. -/
inductive StrItem where
  /-- an ordinary character -/
  | lit (c : Nat)
  /-- backslash and a letter or quote -/
  | esc (c : Nat)
  /-- backslash, `x` and pairs of hexadecimal digits, given by the bytes they stand for (upper-case) -/
  | hex (bs : List Nat)

/-- Upper-case hexadecimal digit of a number below 16. -/
def hexDigitOf (n : Nat) : Nat := if n < 10 then 48 + n else 55 + n

/-- How the item is written. -/
def StrItem.text : StrItem → List Nat
  | .lit c => [c]
  | .esc c => [92, c]
  | .hex bs => [92, 120] ++ (bs.map fun b => [hexDigitOf (b / 16), hexDigitOf (b % 16)]).flatten

/-- The documented one-letter escapes. -/
def escTable : List (Nat × Nat) :=
  [('a'.toNat, 7), ('b'.toNat, 8), ('t'.toNat, 9), ('n'.toNat, 10), ('v'.toNat, 11),
   ('f'.toNat, 12), ('r'.toNat, 13), ('\''.toNat, 39), ('"'.toNat, 34), ('\\'.toNat, 92)]

/-- The bytes an item stands for. -/
def StrItem.value : StrItem → List Nat
  | .lit c => [c]
  | .esc c => [(escTable.lookup c).getD 0]
  | .hex bs => bs

/-- Well-formed items. -/
def StrItem.ok : StrItem → Prop
  | .lit c => c ≠ 92
  | .esc c => (escTable.lookup c).isSome
  | .hex bs => bs ≠ [] ∧ ∀ b ∈ bs, b < 256

/-- Does a text start with two hexadecimal digits?  (Such a text would extend a preceding hexadecimal
escape.) -/
def startsHex2 : List Nat → Bool
  | a :: b :: _ =>
    let x (c : Nat) := decide ('0'.toNat ≤ c ∧ c ≤ '9'.toNat) ||
      decide ('A'.toNat ≤ c ∧ c ≤ 'F'.toNat) || decide ('a'.toNat ≤ c ∧ c ≤ 'f'.toNat)
    x a && x b
  | _ => false

/-- Well-formed item lists: no hexadecimal escape is directly followed by text it would swallow. -/
def itemsOk : List StrItem → Prop
  | [] => True
  | i :: is => i.ok ∧ itemsOk is ∧
    (match i with
      | .hex _ => startsHex2 (is.map StrItem.text).flatten = false
      | _ => True)

end Verif.Spec
