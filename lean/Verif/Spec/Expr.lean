import Verif.Model.Parse

/-! # Specification: the value of an expression

Integers with the usual operators.  `none` stands for an undefined name, a value outside the 32-bit range or
an operation without a defined result. -/

namespace Verif.Spec

/-- A value inside the 32-bit range. -/
def rng (v : Int) : Option Int := if -2147483648 ≤ v ∧ v < 2147483648 then some v else none

/-- Truth values are 0 and 1. -/
def truth (b : Bool) : Int := if b then 1 else 0

/-- Unary operators.  `~` complements within a byte for byte values, otherwise within 16 bits. -/
def unop : UnOp → Int → Option Int
  | .neg, v => rng (-v)
  | .compl, v => some (if 0 ≤ v ∧ v < 256 then 255 - v else (-1 - v) % 65536)
  | .lo, v => some (v % 256)
  | .hi, v => some (v % 65536 / 256)
  | .lnot, v => some (truth (v = 0))

/-- Strict binary operators; division here has a divisor other than 0.  Bit operators act on the 32-bit two's
complement representation. -/
def binop : BinOp → Int → Int → Option Int
  | .add, a, b => rng (a + b)
  | .sub, a, b => rng (a - b)
  | .mul, a, b => rng (a * b)
  | .div, a, b => rng (a.tdiv b)
  | .shl, a, b => if 0 ≤ a ∧ 0 ≤ b ∧ b < 32 then rng (a * 2 ^ b.toNat) else none
  | .shr, a, b => if 0 ≤ b ∧ b < 32 then some (a / 2 ^ b.toNat) else none
  | .bitAnd, a, b => some (BitVec.ofInt 32 a &&& BitVec.ofInt 32 b).toInt
  | .bitOr, a, b => some (BitVec.ofInt 32 a ||| BitVec.ofInt 32 b).toInt
  | .xor, a, b => some (BitVec.ofInt 32 a ^^^ BitVec.ofInt 32 b).toInt
  | .lt, a, b => some (truth (a < b))
  | .gt, a, b => some (truth (a > b))
  | .le, a, b => some (truth (a ≤ b))
  | .ge, a, b => some (truth (a ≥ b))
  | .eq, a, b => some (truth (a = b))
  | .ne, a, b => some (truth (a ≠ b))
  | .lor, a, b => some (truth (a ≠ 0 ∨ b ≠ 0))
  | .land, a, b => some (truth (a ≠ 0 ∧ b ≠ 0))

/-- Value of an expression for the given names and location counter, and whether a division by zero was met
(its result is 0).  `||` and `&&` look at the right operand only if the left one does not decide. -/
def eval (env : Str → Option Int) (pc : Int) : Expr → Option (Int × Bool)
  | .int v => (rng v).map (·, false)
  | .sym name => ((env name).bind rng).map (·, false)
  | .pc => (rng pc).map (·, false)
  | .un op e =>
    match eval env pc e with
    | some (v, z) => (unop op v).map (·, z)
    | none => none
  | .bin .div a b =>
    match eval env pc b with
    | some (y, zb) =>
      if y = 0 then some (0, true)
      else
        match eval env pc a with
        | some (x, za) => (binop .div x y).map (·, za || zb)
        | none => none
    | none => none
  | .bin .lor a b =>
    match eval env pc a with
    | some (x, za) =>
      if x ≠ 0 then some (1, za)
      else
        match eval env pc b with
        | some (y, zb) => some (truth (y ≠ 0), za || zb)
        | none => none
    | none => none
  | .bin .land a b =>
    match eval env pc a with
    | some (x, za) =>
      if x = 0 then some (0, za)
      else
        match eval env pc b with
        | some (y, zb) => some (truth (y ≠ 0), za || zb)
        | none => none
    | none => none
  | .bin op a b =>
    match eval env pc a with
    | some (x, za) =>
      match eval env pc b with
      | some (y, zb) => (binop op x y).map (·, za || zb)
      | none => none
    | none => none

end Verif.Spec

namespace Verif

/-- No symbol occurs in the expression. -/
def Expr.noSyms : Expr → Bool
  | .int _ | .pc => true
  | .sym _ => false
  | .un _ e => e.noSyms
  | .bin _ a b => a.noSyms && b.noSyms

/-- Every symbol of the expression is reached by the evaluation. -/
def Expr.complete (env : Str → Option Int) (pc : Int) : Expr → Bool
  | .int _ | .pc | .sym _ => true
  | .un _ e => e.complete env pc
  | .bin .div a b => b.complete env pc &&
      (if (Spec.eval env pc b).map (·.1) = some 0 then a.noSyms else a.complete env pc)
  | .bin .lor a b => a.complete env pc &&
      (if (Spec.eval env pc a).map (·.1) = some 0 then b.complete env pc else b.noSyms)
  | .bin .land a b => a.complete env pc &&
      (if (Spec.eval env pc a).map (·.1) = some 0 then b.noSyms else b.complete env pc)
  | .bin _ a b => a.complete env pc && b.complete env pc

end Verif
