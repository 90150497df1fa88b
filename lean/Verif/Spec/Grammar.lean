import Verif.Model.Grammar

/-! # Specification: how expressions are written

The operators in order of binding, loosest first, are `<< >>`; comparisons and `|| &&`; `| & ^`; `+ -`; `* /`.  Operators
on the same level group to the left.  The prefix operators `~ < > not` extend as far to the right as possible.  A
minus sign is only allowed before a number and before a parenthesis. -/

namespace Verif.Spec

/-- The levels of binary operators, loosest first. -/
def levels : List (List BinOp) :=
  [[.shl, .shr], [.lor, .land, .ge, .le, .eq, .ne, .gt, .lt], [.bitOr, .bitAnd, .xor], [.add, .sub], [.mul, .div]]

/-- The level of an operator. -/
def level (o : BinOp) : Nat := levels.findIdx (·.contains o)

/-- The token of a binary operator. -/
def binTok : BinOp → Tok
  | .lor => .or
  | .land => .and
  | .shl => .shl
  | .shr => .shr
  | .lt => .lt
  | .gt => .gt
  | .ge => .ge
  | .le => .le
  | .ne => .ne
  | .eq => .eq
  | .bitAnd => .bitAnd
  | .bitOr => .bitOr
  | .xor => .caret
  | .add => .plus
  | .sub => .minus
  | .mul => .star
  | .div => .slash

/-- The token of a prefix operator that applies to any expression. -/
def unTok : UnOp → Option Tok
  | .neg => none
  | .compl => some .tilde
  | .lo => some .lt
  | .hi => some .gt
  | .lnot => some .not

/-- `WrittenAs e l o ts`: the tokens `ts` are a way to write `e`.  `l` is the level of the outermost operator (the number
of levels if there is none outside parentheses); `o` tells that the text ends in the reach of a prefix operator, so
that any operator written after it belongs to that prefix operator. -/
inductive WrittenAs : Expr → Nat → Bool → List Tok → Prop where
  | int (v : Int) : WrittenAs (.int v) levels.length false [.int v]
  | sym (name : Str) : WrittenAs (.sym name) levels.length false [.sym name]
  | pc : WrittenAs .pc levels.length false [.star]
  /-- the nearest anonymous label ahead and behind -/
  | plus : WrittenAs (.sym [43]) levels.length false [.plus]
  | minus : WrittenAs (.sym [45]) levels.length false [.minus]
  | par {e : Expr} {l : Nat} {o : Bool} {ts : List Tok} (h : WrittenAs e l o ts) :
      WrittenAs e levels.length false (.lpar :: (ts ++ [.rpar]))
  | negInt (v : Int) : WrittenAs (.un .neg (.int v)) levels.length false [.minus, .int v]
  | negPar {e : Expr} {l : Nat} {o : Bool} {ts : List Tok} (h : WrittenAs e l o ts) :
      WrittenAs (.un .neg e) levels.length false (.minus :: .lpar :: (ts ++ [.rpar]))
  | un {op : UnOp} {t : Tok} {e : Expr} {l : Nat} {o : Bool} {ts : List Tok} (ht : unTok op = some t)
      (h : WrittenAs e l o ts) : WrittenAs (.un op e) levels.length true (t :: ts)
  | bin {op : BinOp} {a b : Expr} {la lb : Nat} {o : Bool} {ta tb : List Tok} (ha : WrittenAs a la false ta)
      (hla : level op ≤ la) (hb : WrittenAs b lb o tb) (hlb : level op < lb) :
      WrittenAs (.bin op a b) (level op) o (ta ++ binTok op :: tb)

/-- What may follow an expression: no operator and nothing that could begin an operand or close a parenthesis. -/
def Ends : List Tok → Prop
  | [] => True
  | t :: _ => (∀ o, t ≠ binTok o) ∧ t ≠ .lpar ∧ t ≠ .rpar ∧ ∀ v, t ≠ .int v

end Verif.Spec
