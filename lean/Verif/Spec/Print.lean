import Verif.Spec.Data

/-! # Specification: what `.print` shows

A text is shown as it is, a number as one or two bytes in hexadecimal, each item after a space. -/

namespace Verif.Spec

/-- A hexadecimal digit (upper case). -/
def hexDig (d : Nat) : Nat := if d < 10 then 48 + d else 55 + d

/-- ` $` and the two digits of a byte. -/
def shownByte (b : Nat) : Str := [32, 36, hexDig (b / 16), hexDig (b % 16)]

/-- A number: the low byte, before it the second byte unless it is 0. -/
def shownNumber (v : Int) : Str :=
  (if v / 256 % 256 = 0 then [] else shownByte (v / 256 % 256).toNat) ++ shownByte (v % 256).toNat

/-- An item; the operands of an expression must have values, too. -/
def shownItem (txt : Str → Option Str) (env : Str → Option Int) (pc : Int) : Item → Option Str
  | .str raw => (txt raw).map (32 :: ·)
  | .expr e =>
    if (kids e).all (fun k => (eval env pc k).any fun r => !r.2) then
      match eval env pc e with
      | some (v, false) => some (shownNumber v)
      | _ => none
    else none

/-- The items of a directive. -/
def shownItems (txt : Str → Option Str) (env : Str → Option Int) (pc : Int) : List Item → Option Str
  | [] => some []
  | x :: xs => (shownItem txt env pc x).bind fun a => (shownItems txt env pc xs).map (a ++ ·)

end Verif.Spec
