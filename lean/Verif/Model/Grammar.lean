import Verif.Model.Parse

/-! # Tokens and the grammar of expressions (pasm.y) -/

namespace Verif

/-- The tokens (pasm.y:39-51 and the character tokens of pasm.l:357, 374-375, 425-427). -/
inductive Tok where
  /-- `INTEGER` -/
  | int (v : Int)
  /-- `OPCODE` -/
  | opcode (ins : Int)
  /-- `SYMBOL` -/
  | sym (name : Str)
  /-- `LABEL` -/
  | label (name : Str)
  /-- `MACSYMBOL` -/
  | macsym (name : Str)
  /-- `STRING_LITERAL`, with its quotes -/
  | str (raw : Str)
  /-- `EOL`, with the line number after it -/
  | eol (line : Int)
  | equ | pcAssign | not | shl | shr | or | and | ge | le | eq | ne | bitOr | bitAnd
  /-- the characters `< > ^ + - * / ~ = , # ( )` and the letters `X`, `Y` -/
  | lt | gt | caret | plus | minus | star | slash | tilde | assign | comma | hash | lpar | rpar | x | y
  | «while» | endDo | «repeat» | «until» | «if» | «else» | endIf | print | printAll | org | end' | «do» | «macro» | endMacro
  | wend | str' | «for» | next | to | downTo | step | byte | word | ds | inc | load | regX | regY | «var» | fill | printOn
  | printOff | sect | endSect
deriving DecidableEq, Repr

/-- The binary operators among the tokens (pasm.y:220-236). -/
def Tok.bin? : Tok → Option BinOp
  | .or => some .lor
  | .and => some .land
  | .shl => some .shl
  | .shr => some .shr
  | .lt => some .lt
  | .gt => some .gt
  | .ge => some .ge
  | .le => some .le
  | .ne => some .ne
  | .eq => some .eq
  | .bitAnd => some .bitAnd
  | .bitOr => some .bitOr
  | .caret => some .xor
  | .plus => some .add
  | .minus => some .sub
  | .star => some .mul
  | .slash => some .div
  | _ => none

/-- The precedence of the operators (pasm.y:55-59), lowest first; all are left-associative.  The prefix operators have the
precedence of `UMINUS`, below all of these (pasm.y:53). -/
def BinOp.prec : BinOp → Nat
  | .shl | .shr => 1
  | .lor | .land | .ge | .le | .eq | .ne | .gt | .lt => 2
  | .bitOr | .bitAnd | .xor => 3
  | .add | .sub => 4
  | .mul | .div => 5

/-- What the parser has shifted and not yet reduced below the current (sub)expression (pasm.y:211-245). -/
inductive PFrame where
  /-- `subexpr op` -/
  | bin (a : Expr) (op : BinOp)
  /-- `~`, `<`, `>`, `NOT` -/
  | un (op : UnOp)
  /-- `(` -/
  | par
  /-- `- (` -/
  | neg
deriving DecidableEq, Repr

/-- Reductions of `subexpr op subexpr` (pasm.y:220-236) before an operator of precedence `p` is shifted: while the
precedence of the rule is not below that of the operator (bison's rule for `%left`).  A prefix operator is never
reduced here, because its rule has a lower precedence than every operator. -/
def reduceTo (p : Nat) : List PFrame → Expr → List PFrame × Expr
  | .bin a o :: st, e => if p ≤ o.prec then reduceTo p st (.bin o a e) else (.bin a o :: st, e)
  | st, e => (st, e)

/-- Reductions before any other token (pasm.y:216-236): everything back to the last open parenthesis. -/
def reduceAll : List PFrame → Expr → List PFrame × Expr
  | .bin a o :: st, e => reduceAll st (.bin o a e)
  | .un o :: st, e => reduceAll st (.un o e)
  | st, e => (st, e)

mutual

/-- The parser where an operand of an expression must begin (pasm.y:211-245); the result is the expression and the
remaining tokens, `none` a syntax error.  After `-` the next token decides: an integer or `(` makes it a
sign (pasm.y:214-215), anything else the symbol `-` (pasm.y:237). -/
def parseOperand (st : List PFrame) : List Tok → Option (Expr × List Tok)
  | .int v :: ts => parseRest st (.int v) ts
  | .sym name :: ts => parseRest st (.sym name) ts
  | .star :: ts => parseRest st .pc ts
  | .plus :: ts => parseRest st (.sym [43]) ts
  | .minus :: .int v :: ts => parseRest st (.un .neg (.int v)) ts
  | .minus :: .lpar :: ts => parseOperand (.neg :: st) ts
  | .minus :: ts => parseRest st (.sym [45]) ts
  | .lpar :: ts => parseOperand (.par :: st) ts
  | .tilde :: ts => parseOperand (.un .compl :: st) ts
  | .lt :: ts => parseOperand (.un .lo :: st) ts
  | .gt :: ts => parseOperand (.un .hi :: st) ts
  | .not :: ts => parseOperand (.un .lnot :: st) ts
  | _ => none

/-- The parser after an operand (pasm.y:211-245): an operator, a closing parenthesis that belongs to the expression, or the
end of the expression. -/
def parseRest (st : List PFrame) (e : Expr) : List Tok → Option (Expr × List Tok)
  | [] =>
    match reduceAll st e with
    | ([], e') => some (e', [])
    | _ => none
  | t :: ts =>
    match t.bin? with
    | some o => parseOperand (.bin (reduceTo o.prec st e).2 o :: (reduceTo o.prec st e).1) ts
    | none =>
      if t = .rpar then
        match reduceAll st e with
        | (.par :: st', e') => parseRest st' e' ts
        | (.neg :: st', e') => parseRest st' (.un .neg e') ts
        | ([], e') => some (e', t :: ts)
        | _ => none
      else
        match reduceAll st e with
        | ([], e') => some (e', t :: ts)
        | _ => none

end

/-- `subexpr` (pasm.y:241-245) at the start of a token sequence.  Simplification: bison's table-driven parser is
replaced by the shift and reduce decisions its precedence declarations prescribe for these rules. -/
def parseExpr (ts : List Tok) : Option (Expr × List Tok) := parseOperand [] ts

end Verif
