import Verif.Spec.Grammar

/-! # Specification: how statements are written -/

namespace Verif.Spec

/-- The tokens `ts` are a way to write `e`. -/
def ExprText (e : Expr) (ts : List Tok) : Prop := ∃ l o, WrittenAs e l o ts

/-- The text of an operand that could not be confused with an indirect operand or with the sign `*`: the whole text is not
one pair of parentheses. -/
def Bare (ts : List Tok) : Prop := ts ≠ [.star] ∧ ∀ e u, ts = .lpar :: (u ++ [.rpar]) → ¬ ExprText e u

/-- An element of a list: an expression or a text in quotes. -/
inductive ItemText : Item → List Tok → Prop where
  | str (raw : Str) : ItemText (.str raw) [.str raw]
  | expr {e : Expr} {ts : List Tok} (h : ExprText e ts) : ItemText (.expr e) ts

/-- A variable with or without its first value. -/
inductive VarText : Str × Option Expr → List Tok → Prop where
  | plain (name : Str) : VarText (name, none) [.sym name]
  | init (name : Str) {e : Expr} {ts : List Tok} (h : ExprText e ts) : VarText (name, some e) (.sym name :: .assign :: ts)

/-- Further elements, each after a comma. -/
inductive Further {α : Type} (P : α → List Tok → Prop) : List α → List Tok → Prop where
  | nil : Further P [] []
  | cons {x : α} {xs : List α} {t u : List Tok} (h : P x t) (hs : Further P xs u) :
      Further P (x :: xs) (.comma :: (t ++ u))

/-- A list of elements, or nothing. -/
inductive ListText : Option (Item × List Item) → List Tok → Prop where
  | none : ListText none []
  | some {x : Item} {xs : List Item} {t u : List Tok} (h : ItemText x t) (hs : Further ItemText xs u) :
      ListText (some (x, xs)) (t ++ u)

/-- How the operand of an instruction is written in each mode. -/
inductive OperandText : Mode → Option Expr → List Tok → Prop where
  | implied : OperandText .i none []
  | immediate {e : Expr} {ts : List Tok} (h : ExprText e ts) : OperandText .I (some e) (.hash :: ts)
  | absolute {e : Expr} {ts : List Tok} (h : ExprText e ts) (hb : Bare ts) : OperandText .a (some e) ts
  | absoluteX {e : Expr} {ts : List Tok} (h : ExprText e ts) (hb : Bare ts) :
      OperandText .ax (some e) (ts ++ [.comma, .x])
  | absoluteY {e : Expr} {ts : List Tok} (h : ExprText e ts) (hb : Bare ts) :
      OperandText .ay (some e) (ts ++ [.comma, .y])
  | indirect {e : Expr} {ts : List Tok} (h : ExprText e ts) : OperandText .ind (some e) (.lpar :: (ts ++ [.rpar]))
  | indirectX {e : Expr} {ts : List Tok} (h : ExprText e ts) :
      OperandText .aix (some e) (.lpar :: (ts ++ [.comma, .x, .rpar]))
  | indirectY {e : Expr} {ts : List Tok} (h : ExprText e ts) :
      OperandText .izy (some e) (.lpar :: (ts ++ [.rpar, .comma, .y]))

/-- Definitions have `=` or `equ`. -/
inductive Equals : Tok → Prop where
  | sign : Equals .assign
  | word : Equals .equ

/-- The name on the left of a definition. -/
inductive Named : Str → Tok → Prop where
  | label (name : Str) : Named name (.label name)
  | sym (name : Str) : Named name (.sym name)

/-- How the statements of one line are written. -/
inductive LineText : Stmt → List Tok → Prop where
  | op (ins : Int) {m : Mode} {arg : Option Expr} {ts : List Tok} (h : OperandText m arg ts) :
      LineText (.op ins m arg) (.opcode ins :: ts)
  | org {e : Expr} {ts : List Tok} (h : ExprText e ts) : LineText (.org e) (.org :: ts)
  | ds {e : Expr} {ts : List Tok} (h : ExprText e ts) : LineText (.ds e) (.ds :: ts)
  | byte {x : Item} {xs : List Item} {ts : List Tok} (h : ListText (some (x, xs)) ts) :
      LineText (.data 1 x xs) (.byte :: ts)
  | word {x : Item} {xs : List Item} {ts : List Tok} (h : ListText (some (x, xs)) ts) :
      LineText (.data 2 x xs) (.word :: ts)
  | str {x : Item} {xs : List Item} {ts : List Tok} (h : ListText (some (x, xs)) ts) :
      LineText (.data 0 x xs) (.str' :: ts)
  | fill {v n : Expr} {t u : List Tok} (hv : ExprText v t) (hn : ExprText n u) :
      LineText (.fill v n) (.fill :: (t ++ .comma :: u))
  | print {x : Option (Item × List Item)} {ts : List Tok} (h : ListText x ts) : LineText (.print false x) (.print :: ts)
  | printAll {x : Option (Item × List Item)} {ts : List Tok} (h : ListText x ts) :
      LineText (.print true x) (.printAll :: ts)
  | printOn : LineText (.printState true) [.printOn]
  | printOff : LineText (.printState false) [.printOff]
  | sect (name : Str) : LineText (.sect name) [.sect, .sym name]
  | endSect : LineText .endSect [.endSect]
  | endProg : LineText .endProg [.end']
  | load (raw : Str) : LineText (.load raw) [.load, .str raw]
  | inc (raw : Str) : LineText (.inc raw) [.inc, .str raw]
  | assign {name : Str} {t q : Tok} {e : Expr} {ts : List Tok} (hn : Named name t) (hq : Equals q) (h : ExprText e ts) :
      LineText (.assign name e) (t :: q :: ts)
  | pcAssign {q : Tok} {e : Expr} {ts : List Tok} (hq : Equals q) (h : ExprText e ts) :
      LineText (.pcAssign e) (.pcAssign :: q :: ts)
  /-- a name alone: a label or the call of a macro -/
  | name (name : Str) : LineText (.word false name none) [.sym name]
  | call (name : Str) {x : Option (Item × List Item)} {ts : List Tok} (h : ListText x ts) :
      LineText (.word false name x) (.macsym name :: ts)
  | var {x : Str × Option Expr} {xs : List (Str × Option Expr)} {t u : List Tok} (h : VarText x t)
      (hs : Further VarText xs u) : LineText (.var x xs) (.var :: (t ++ u))

/-- The token that names an index register in front of a loop. -/
def regTok : Bool → Tok
  | true => .regX
  | false => .regY

/-- The register named at the end of a register loop. -/
def regEnd : Bool → Tok
  | true => .x
  | false => .y

/-- The direction of a register loop. -/
def dirTok : Bool → Tok
  | true => .to
  | false => .downTo

/-- The line number in front of the second line of a text. -/
def lineOf : List Tok → Int
  | [] => 0
  | .eol l :: _ => l
  | _ :: ts => lineOf ts

/-- What a text is: one statement with the end of its line, or the statements inside a block. -/
inductive Part where
  | stmt
  | body
deriving DecidableEq, Repr

/-- How statements and blocks are written. -/
inductive StmtText : Part → Stmt → List Tok → Prop where
  | empty (l : Int) : StmtText .stmt .empty [.eol l]
  | line {st : Stmt} {ts : List Tok} (l : Int) (h : LineText st ts) : StmtText .stmt st (ts ++ [.eol l])
  | ifThen {c : Expr} {t : Stmt} {tc tt : List Tok} (l : Int) (hc : ExprText c tc) (ht : StmtText .body t tt) :
      StmtText .stmt (.ifThen c t) (.if :: (tc ++ (tt ++ [.endIf, .eol l])))
  | ifElse {c : Expr} {t e : Stmt} {tc tt te : List Tok} (l : Int) (hc : ExprText c tc) (ht : StmtText .body t tt)
      (he : StmtText .body e te) :
      StmtText .stmt (.ifElse c t e) (.if :: (tc ++ (tt ++ .else :: (te ++ [.endIf, .eol l]))))
  | repeatLoop {c : Expr} {b : Stmt} {tc tb : List Tok} (l l' : Int) (hb : StmtText .body b tb) (hc : ExprText c tc) :
      StmtText .stmt (.repeatLoop b c) (.repeat :: .eol l :: (tb ++ .until :: (tc ++ [.eol l'])))
  | doLoop {c : Expr} {b : Stmt} {tc tb : List Tok} (l : Int) (hb : StmtText .body b tb) (hc : ExprText c tc) :
      StmtText .stmt (.doLoop b c) (.do :: (tb ++ .endDo :: (tc ++ [.eol l])))
  | whileLoop {c : Expr} {b : Stmt} {tc tb : List Tok} (l l' : Int) (hc : ExprText c tc) (hb : StmtText .body b tb) :
      StmtText .stmt (.whileLoop c b) (.while :: (tc ++ .eol l :: (tb ++ [.wend, .eol l'])))
  | forLoop {name next : Str} {t q : Tok} {a z : Expr} {b : Stmt} {ta tz tb : List Tok} (l l' : Int) (hn : Named name t)
      (hq : Equals q) (ha : ExprText a ta) (hz : ExprText z tz) (hb : StmtText .body b tb) :
      StmtText .stmt (.forLoop name a z none b next)
        (.for :: t :: q :: (ta ++ .to :: (tz ++ .eol l :: (tb ++ [.next, .sym next, .eol l']))))
  | forStep {name next : Str} {t q : Tok} {a z d : Expr} {b : Stmt} {ta tz td tb : List Tok} (l l' : Int)
      (hn : Named name t) (hq : Equals q) (ha : ExprText a ta) (hz : ExprText z tz) (hd : ExprText d td)
      (hb : StmtText .body b tb) :
      StmtText .stmt (.forLoop name a z (some d) b next)
        (.for :: t :: q :: (ta ++ .to :: (tz ++ .step :: (td ++ .eol l :: (tb ++ [.next, .sym next, .eol l'])))))
  | forReg (isX up : Bool) {a z : Expr} {b : Stmt} {ta tz tb : List Tok} (l l' : Int) (ha : ExprText a ta)
      (hz : ExprText z tz) (hb : StmtText .body b tb) :
      StmtText .stmt (.forReg isX a z up b)
        (.for :: regTok isX :: .assign ::
          (ta ++ dirTok up :: (tz ++ .eol l :: (tb ++ [.next, regEnd isX, .eol l']))))
  | macroDef (name : Str) {b : Stmt} {tb : List Tok} (l : Int) (hb : StmtText .body b tb) :
      StmtText .stmt (.macroDef name b) (.macro :: .macsym name :: (tb ++ [.endMacro, .eol l]))
  | one {st : Stmt} {ts : List Tok} (h : StmtText .stmt st ts) : StmtText .body (.at (lineOf ts) st) ts
  | more {a b : Stmt} {ta tb : List Tok} (ha : StmtText .body a ta) (hb : StmtText .stmt b tb) :
      StmtText .body (.seq a (.at (lineOf tb) b)) (ta ++ tb)

/-- How a statement outside all blocks is written: it may have a label in front. -/
inductive TopText (file : Str) : Top → List Tok → Prop where
  | stmt {st : Stmt} {ts : List Tok} (h : StmtText .stmt st ts) : TopText file (.stmt file (lineOf ts) st) ts
  | labelled (name : Str) {st : Stmt} {ts : List Tok} (h : StmtText .stmt st ts) :
      TopText file (.labelled file (lineOf ts) name st) (.label name :: ts)

/-- How a program is written. -/
inductive ProgText (file : Str) : List Top → List Tok → Prop where
  | nil : ProgText file [] []
  | cons {t : Top} {l : List Top} {tt tl : List Tok} (h : TopText file t tt) (hl : ProgText file l tl) :
      ProgText file (t :: l) (tt ++ tl)

end Verif.Spec
