/-!
# C `int` arithmetic

The C++ sources are compiled for a platform with 32-bit two's complement `int`
(C++17, `CMakePasm/CMakeLists.txt`).  Values of C type `int` are modelled as `Int`
values inside `[-2^31, 2^31)`.  Operators with possible undefined behaviour return
`Option Int`, with `none` standing for undefined behaviour.
-/

namespace Verif

/-- Range of a 32-bit C `int` (platform assumption, used for all `int` of
`/repo/CMakePasm/source`). -/
def InInt (x : Int) : Prop := -2147483648 ≤ x ∧ x < 2147483648

instance (x : Int) : Decidable (InInt x) := by unfold InInt; infer_instance

/-- C `a & b` on `int` (used e.g. in genoutput.cc:63-64, expand.cc:877-879): bitwise and of
the two's complement representations. -/
def cand (a b : Int) : Int := (BitVec.ofInt 32 a &&& BitVec.ofInt 32 b).toInt

/-- C `a | b` on `int` (expand.cc:1825-1828). -/
def cor (a b : Int) : Int := (BitVec.ofInt 32 a ||| BitVec.ofInt 32 b).toInt

/-- C `a ^ b` on `int` (expand.cc:1845-1848). -/
def cxor (a b : Int) : Int := (BitVec.ofInt 32 a ^^^ BitVec.ofInt 32 b).toInt

/-- C `~a` on `int` (expand.cc:1772, genoutput.cc:150-151). -/
def cnot (a : Int) : Int := (~~~ (BitVec.ofInt 32 a)).toInt

/-- Result of a signed operation: `none` (undefined behaviour) when the exact result `x` is
not representable (C++17 [expr]/4; used for `+ - *` and unary minus in expand.cc:1756-1803). -/
def cchk (x : Int) : Option Int := if InInt x then some x else none

/-- C `a << b` on `int` in C++17 ([expr.shift]/1-2; expand.cc:1042-1045): undefined for a
shift count outside `0..31`, for negative `a`, and when `a * 2^b` does not fit `unsigned`. -/
def cshl (a b : Int) : Option Int :=
  if 0 ≤ b ∧ b < 32 then
    if 0 ≤ a ∧ a * 2 ^ b.toNat < 4294967296 then some (BitVec.ofInt 32 (a * 2 ^ b.toNat)).toInt
    else none
  else none

/-- C `a >> b` on `int` (expand.cc:1050-1053): undefined for a shift count outside `0..31`;
for negative `a` it is implementation-defined in C++17 and arithmetic on the compilers the
project supports, which is what is modelled. -/
def cshr (a b : Int) : Option Int :=
  if 0 ≤ b ∧ b < 32 then some (a / 2 ^ b.toNat) else none

/-- C `a / b` on `int` for `b ≠ 0` (expand.cc:1817): truncating; `INT_MIN / -1` overflows. -/
def cdiv (a b : Int) : Option Int := if b = 0 then none else cchk (Int.tdiv a b)

/-- C conversion of a truth value to `int` (expand.cc:1036, 1855-1928). -/
def cbool (b : Bool) : Int := if b then 1 else 0

end Verif
