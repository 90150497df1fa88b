/-!
# C strings

A C string is modelled as the list of its bytes before the terminating NUL
(`List Nat`, each element in `1..255`).  The `cstr!` macro expands a string literal to such a
list at elaboration time.
-/

namespace Verif

/-- A NUL-terminated C string, without the terminator (`char *` throughout
`/repo/CMakePasm/source`). -/
abbrev Str := List Nat

open Lean in
/-- `cstr! "abc"` is the list of the character codes of the literal. -/
macro "cstr!" s:str : term => do
  let elems := s.getString.toList.toArray.map fun c => Syntax.mkNatLit c.toNat
  `(([ $elems,* ] : List Nat))

/-- C-locale `tolower` (memory.cc:176, hash.cc:17).  Bytes above 127 are left alone. -/
def tolower (c : Nat) : Nat := if 65 ≤ c ∧ c ≤ 90 then c + 32 else c

/-- C-locale `toupper` (hash.cc:17). -/
def toupper (c : Nat) : Nat := if 97 ≤ c ∧ c ≤ 122 then c - 32 else c

/-- `stricmp` (memory.cc:173-185), the replacement used on non-Windows systems.
Simplification: bytes are compared as unsigned values (the C code passes `char` to `tolower`,
so the sign of the result may differ for bytes above 127; equality does not). -/
def stricmp : Str → Str → Int
  | [], [] => 0
  | c :: _, [] => tolower c
  | [], d :: _ => - (tolower d : Int)
  | c :: a, d :: b =>
    let diff : Int := (tolower c : Int) - (tolower d : Int)
    if diff ≠ 0 then diff else stricmp a b

/-- `sprintf("%d", n)` for a non-negative `n` (expand.cc:1193, sym.cc:228, sym.cc:587). -/
def decStr (n : Nat) : Str := (Nat.toDigits 10 n).map Char.toNat

/-- One upper-case hexadecimal digit as printed by `%X`. -/
def hexDigit (n : Nat) : Nat := if n < 10 then 48 + n else 55 + n

/-- `sprintf("%0<w>X", n)` for a non-negative `n` (expand.cc:1367, 1402; node.cc:1556):
at least `w` digits, upper case. -/
def hexStr (w n : Nat) : Str :=
  let ds := (Nat.toDigits 16 n).map fun c =>
    if 97 ≤ c.toNat ∧ c.toNat ≤ 102 then c.toNat - 32 else c.toNat
  List.replicate (w - ds.length) 48 ++ ds

end Verif
