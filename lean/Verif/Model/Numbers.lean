import Verif.Model.CInt
import Verif.Model.SanitizeString

/-! # Numbers: `strtol` as used by pasm.l and parseargs.cc -/

namespace Verif

/-- Value of a character as a digit, letters of either case counting from 10 (C library `strtol`). -/
def digitVal (c : Nat) : Option Nat :=
  if 48 ≤ c ∧ c ≤ 57 then some (c - 48)
  else if 65 ≤ c ∧ c ≤ 90 then some (c - 55)
  else if 97 ≤ c ∧ c ≤ 122 then some (c - 87)
  else none

/-- Accumulates digits of the given base until the first other character (C library `strtol`). -/
def strtolDigits (base acc : Nat) : Str → Nat
  | [] => acc
  | c :: rest =>
    match digitVal c with
    | some d => if d < base then strtolDigits base (acc * base + d) rest else acc
    | none => acc

/-- White space skipped by `strtol`. -/
def isspace (c : Nat) : Bool := c == 32 || (9 ≤ c && c ≤ 13)

/-- The `0x` prefix `strtol` skips for base 16 (only when a hexadecimal digit follows). -/
def skipHexPrefix (base : Nat) : Str → Str
  | 48 :: x :: d :: rest =>
    if base = 16 ∧ (x = 120 ∨ x = 88) ∧ isxdigit d then d :: rest else 48 :: x :: d :: rest
  | s => s

/-- The optional sign read by `strtol`: `true` for minus. -/
def splitSign : Str → Bool × Str
  | 45 :: r => (true, r)
  | 43 :: r => (false, r)
  | r => (false, r)

/-- C library `strtol(s, NULL, base)` on a 64-bit `long`: blanks, sign, optional `0x`, digits; the
result is clamped to the range of `long`. -/
def strtol (base : Nat) (s : Str) : Int :=
  let s := s.dropWhile isspace
  let p := splitSign s
  let v : Int := strtolDigits base 0 (skipHexPrefix base p.2)
  let v := if p.1 then -v else v
  if v > 9223372036854775807 then 9223372036854775807
  else if v < -9223372036854775808 then -9223372036854775808
  else v

/-- Conversion `(int)` of a `long` (implementation-defined modulo 2^32). -/
def toInt32 (v : Int) : Int := (BitVec.ofInt 32 v).toInt

/-- The `INT` scanner actions (pasm.l:36-40, 364-369) for a number token: `$hex`, `%binary`, `0bbinary`
and decimal.  The scanner is case-insensitive. -/
def lexInt (text : Str) : Int :=
  match text with
  | 36 :: r => toInt32 (strtol 16 r)
  | 37 :: r => toInt32 (strtol 2 r)
  | 48 :: b :: r => if b = 98 ∨ b = 66 then toInt32 (strtol 2 r) else toInt32 (strtol 10 (48 :: b :: r))
  | r => toInt32 (strtol 10 r)

/-- The value computed for the argument of `-d` (parseargs.cc:294-319). -/
def defineValue (val : Str) : Int :=
  match val with
  | 36 :: r => toInt32 (strtol 16 r)
  | 37 :: r => toInt32 (strtol 2 r)
  | _ =>
    if val.length > 2 then
      match val with
      | 48 :: 120 :: r => toInt32 (strtol 16 r)
      | 48 :: 98 :: r => toInt32 (strtol 2 r)
      | _ => 0
    else toInt32 (strtol 10 val)

end Verif
