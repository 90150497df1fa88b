import Verif.Model.Grammar

/-! # The grammar of statements (pasm.y:69-209)

Simplification, as for expressions: bison's table-driven parser is replaced by a parser that makes the decisions the rules
leave; every decision depends on the next token only (after `OPCODE ( subexpr )` the token behind the parenthesis decides
whether the parentheses belong to the expression). -/

namespace Verif

/-- The number of the line that begins after the first end of line: `yylineno` when the nodes of a statement are made.
Simplification: nodes that are made without a look-ahead token (pasm.y:211-213) have the number of the line itself. -/
def firstEol : List Tok → Int
  | [] => 0
  | .eol l :: _ => l
  | _ :: ts => firstEol ts

/-- An element of `expr_list` (pasm.y:125-130). -/
def parseItem : List Tok → Option (Item × List Tok)
  | .str raw :: ts => some (.str raw, ts)
  | ts =>
    match parseExpr ts with
    | some (e, r) => some (.expr e, r)
    | none => none

/-- Further elements of `expr_list` (pasm.y:128-129) or of `symbol_list` (pasm.y:148, 150). -/
def parseFurther {α : Type} (p : List Tok → Option (α × List Tok)) : Nat → List Tok → Option (List α × List Tok)
  | f + 1, .comma :: ts =>
    match p ts with
    | some (x, r) =>
      match parseFurther p f r with
      | some (xs, r') => some (x :: xs, r')
      | none => none
    | none => none
  | _, ts => some ([], ts)

/-- `expr_list` (pasm.y:125-130). -/
def parseItems (ts : List Tok) : Option ((Item × List Item) × List Tok) :=
  match parseItem ts with
  | some (x, r) =>
    match parseFurther parseItem r.length r with
    | some (xs, r') => some ((x, xs), r')
    | none => none
  | none => none

/-- An `expr_list` or nothing, before the end of a line (pasm.y:140-143, 192-195). -/
def parseItems? : List Tok → Option (Option (Item × List Item) × List Tok)
  | .eol l :: ts => some (none, .eol l :: ts)
  | ts =>
    match parseItems ts with
    | some (x, r) => some (some x, r)
    | none => none

/-- An element of `symbol_list` (pasm.y:146-151). -/
def parseVar : List Tok → Option ((Str × Option Expr) × List Tok)
  | .sym name :: .assign :: ts =>
    match parseExpr ts with
    | some (e, r) => some ((name, some e), r)
    | none => none
  | .sym name :: ts => some ((name, none), ts)
  | _ => none

/-- `OPCODE expr`, `OPCODE expr , X`, `OPCODE expr , Y` (pasm.y:176-178).  An `expr` is not just `*` (pasm.y:243). -/
def parseAbs (ins : Int) (ts : List Tok) : Option (Stmt × List Tok) :=
  match parseExpr ts with
  | some (e, r) =>
    if ts = .star :: r then none
    else
      match r with
      | .comma :: .x :: r' => some (.op ins .ax (some e), r')
      | .comma :: .y :: r' => some (.op ins .ay (some e), r')
      | _ => some (.op ins .a (some e), r)
  | none => none

/-- `opcode` (pasm.y:173-182). -/
def parseOpcode (ins : Int) : List Tok → Option (Stmt × List Tok)
  | .eol l :: ts => some (.op ins .i none, .eol l :: ts)
  | .hash :: ts =>
    match parseExpr ts with
    | some (e, r) => some (.op ins .I (some e), r)
    | none => none
  | .lpar :: ts =>
    match parseExpr ts with
    | some (e, .rpar :: .comma :: .y :: r) => some (.op ins .izy (some e), r)
    | some (e, .rpar :: t :: r) =>
      if t.bin?.isSome then parseAbs ins (.lpar :: ts) else some (.op ins .ind (some e), t :: r)
    | some (e, .comma :: .x :: .rpar :: r) => some (.op ins .aix (some e), r)
    | _ => none
  | ts => parseAbs ins ts

/-- A directive with one expression (pasm.y:185-186, 163-164). -/
def parseWith (k : Expr → Stmt) (ts : List Tok) : Option (Stmt × List Tok) :=
  match parseExpr ts with
  | some (e, r) => some (k e, r)
  | none => none

/-- A data directive (pasm.y:187-189). -/
def parseData (size : Int) (ts : List Tok) : Option (Stmt × List Tok) :=
  match parseItems ts with
  | some ((x, xs), r) => some (.data size x xs, r)
  | none => none

/-- The statements without statements inside: `opcode`, `directive`, `symbol_value`, `symbol_assign`, `pc_assign`,
`macrocall`, `var_def` (pasm.y:140-205), up to the end of the line. -/
def parseSimple : List Tok → Option (Stmt × List Tok)
  | .opcode ins :: ts => parseOpcode ins ts
  | .org :: ts => parseWith .org ts
  | .ds :: ts => parseWith .ds ts
  | .byte :: ts => parseData 1 ts
  | .word :: ts => parseData 2 ts
  | .str' :: ts => parseData 0 ts
  | .fill :: ts =>
    match parseExpr ts with
    | some (v, .comma :: r) => parseWith (.fill v) r
    | _ => none
  | .print :: ts =>
    match parseItems? ts with
    | some (x, r) => some (.print false x, r)
    | none => none
  | .printAll :: ts =>
    match parseItems? ts with
    | some (x, r) => some (.print true x, r)
    | none => none
  | .printOn :: ts => some (.printState true, ts)
  | .printOff :: ts => some (.printState false, ts)
  | .sect :: .sym name :: ts => some (.sect name, ts)
  | .endSect :: ts => some (.endSect, ts)
  | .end' :: ts => some (.endProg, ts)
  | .load :: .str raw :: ts => some (.load raw, ts)
  | .inc :: .str raw :: ts => some (.inc raw, ts)
  | .label name :: .assign :: ts => parseWith (.assign name) ts
  | .label name :: .equ :: ts => parseWith (.assign name) ts
  | .sym name :: .assign :: ts => parseWith (.assign name) ts
  | .sym name :: .equ :: ts => parseWith (.assign name) ts
  | .sym name :: ts => some (.word false name none, ts)
  | .macsym name :: ts =>
    match parseItems? ts with
    | some (x, r) => some (.word false name x, r)
    | none => none
  | .pcAssign :: .assign :: ts => parseWith .pcAssign ts
  | .pcAssign :: .equ :: ts => parseWith .pcAssign ts
  | .var :: ts =>
    match parseVar ts with
    | some (x, r) =>
      match parseFurther parseVar r.length r with
      | some (xs, r') => some (.var x xs, r')
      | none => none
    | none => none
  | _ => none

/-- The tokens that end a `stmt_list` (pasm.y:101-123, 132-138). -/
def Tok.closes : Tok → Bool
  | .else | .endIf | .until | .endDo | .wend | .next | .endMacro => true
  | _ => false

/-- `NEXT X`, `NEXT Y` (pasm.y:117-122). -/
def Tok.isReg : Bool → Tok → Bool
  | true, .x => true
  | false, .y => true
  | _, _ => false

/-- A statement that ends a line (pasm.y:81-94). -/
def endLine (st : Stmt) : List Tok → Option (Stmt × List Tok)
  | .eol _ :: ts => some (st, ts)
  | _ => none

mutual

/-- `stmt` with the end of its line (pasm.y:81-123, 132-138).  The fuel bounds the nesting and the number of statements in a
list. -/
def parseStmt : Nat → List Tok → Option (Stmt × List Tok)
  | _, .eol _ :: ts => some (.empty, ts)
  | f + 1, .if :: ts =>
    match parseExpr ts with
    | some (c, r) =>
      match parseList f none r with
      | some (t, .endIf :: r') => endLine (.ifThen c t) r'
      | some (t, .else :: r') =>
        match parseList f none r' with
        | some (e, .endIf :: r2) => endLine (.ifElse c t e) r2
        | _ => none
      | _ => none
    | none => none
  | f + 1, .repeat :: .eol _ :: ts =>
    match parseList f none ts with
    | some (b, .until :: r) =>
      match parseExpr r with
      | some (c, r') => endLine (.repeatLoop b c) r'
      | none => none
    | _ => none
  | f + 1, .do :: ts =>
    match parseList f none ts with
    | some (b, .endDo :: r) =>
      match parseExpr r with
      | some (c, r') => endLine (.doLoop b c) r'
      | none => none
    | _ => none
  | f + 1, .while :: ts =>
    match parseExpr ts with
    | some (c, .eol _ :: r) =>
      match parseList f none r with
      | some (b, .wend :: r') => endLine (.whileLoop c b) r'
      | _ => none
    | _ => none
  | f + 1, .for :: t :: .assign :: ts => parseFor f t ts
  | f + 1, .for :: t :: .equ :: ts => if t = .regX ∨ t = .regY then none else parseFor f t ts
  | f + 1, .macro :: .macsym name :: ts =>
    match parseList f none ts with
    | some (b, .endMacro :: r) => endLine (.macroDef name b) r
    | _ => none
  | _, ts =>
    match parseSimple ts with
    | some (st, r) => endLine st r
    | none => none

/-- `FOR` after the equals sign (pasm.y:112-122). -/
def parseFor : Nat → Tok → List Tok → Option (Stmt × List Tok)
  | 0, _, _ => none
  | f + 1, t, ts =>
    match parseExpr ts with
    | none => none
    | some (a, r) =>
      match t, r with
      | .regX, .to :: r => parseRegFor f true a true r
      | .regX, .downTo :: r => parseRegFor f true a false r
      | .regY, .to :: r => parseRegFor f false a true r
      | .regY, .downTo :: r => parseRegFor f false a false r
      | .sym name, .to :: r => parseSymFor f name a r
      | .label name, .to :: r => parseSymFor f name a r
      | _, _ => none

/-- The register loop after `TO` or `DOWNTO` (pasm.y:117-122). -/
def parseRegFor : Nat → Bool → Expr → Bool → List Tok → Option (Stmt × List Tok)
  | 0, _, _, _, _ => none
  | f + 1, isX, a, up, ts =>
    match parseExpr ts with
    | some (z, .eol _ :: r) =>
      match parseList f none r with
      | some (b, .next :: t :: r') => if t.isReg isX then endLine (.forReg isX a z up b) r' else none
      | _ => none
    | _ => none

/-- The loop over a symbol after `TO` (pasm.y:112-113). -/
def parseSymFor : Nat → Str → Expr → List Tok → Option (Stmt × List Tok)
  | 0, _, _, _ => none
  | f + 1, name, a, ts =>
    match parseExpr ts with
    | some (z, .eol _ :: r) =>
      match parseList f none r with
      | some (b, .next :: .sym nx :: r') => endLine (.forLoop name a z none b nx) r'
      | _ => none
    | some (z, .step :: r) =>
      match parseExpr r with
      | some (d, .eol _ :: r) =>
        match parseList f none r with
        | some (b, .next :: .sym nx :: r') => endLine (.forLoop name a z (some d) b nx) r'
        | _ => none
      | _ => none
    | _ => none

/-- `stmt_list` (pasm.y:96-99); `acc` is what has been read. -/
def parseList : Nat → Option Stmt → List Tok → Option (Stmt × List Tok)
  | 0, _, _ => none
  | f + 1, none, ts =>
    match parseStmt f ts with
    | some (st, r) => parseList f (some (.at (firstEol ts) st)) r
    | none => none
  | f + 1, some acc, ts =>
    if (ts.head?.map Tok.closes).getD true then some (acc, ts)
    else
      match parseStmt f ts with
      | some (st, r) => parseList f (some (.seq acc (.at (firstEol ts) st))) r
      | none => none

end

/-- One element of `program` (pasm.y:69-79) from the file `file`. -/
def parseTop (file : Str) (ts : List Tok) : Option (Top × List Tok) :=
  match ts with
  | .label name :: r =>
    if r.head? = some .assign ∨ r.head? = some .equ then
      match parseStmt (3 * ts.length) ts with
      | some (st, r') => some (.stmt file (firstEol ts) st, r')
      | none => none
    else
      match parseStmt (3 * ts.length) r with
      | some (st, r') => some (.labelled file (firstEol ts) name st, r')
      | none => none
  | _ =>
    match parseStmt (3 * ts.length) ts with
    | some (st, r') => some (.stmt file (firstEol ts) st, r')
    | none => none

/-- The whole `program` of a file (pasm.y:69-79).  `none` is a syntax error. -/
def parseProgram (file : Str) : Nat → List Tok → Option (List Top)
  | _, [] => some []
  | 0, _ => none
  | f + 1, ts =>
    match parseTop file ts with
    | some (t, r) =>
      match parseProgram file f r with
      | some l => some (t :: l)
      | none => none
    | none => none

end Verif
