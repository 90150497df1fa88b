import Verif.Spec.Block
import Verif.Spec.Cmd

/-! # Specification: programs with macros

A program that defines macros is read line by line.  From the definition on, and until the next definition of the same name,
a call of the macro has the meaning that `Runs.call` gives it. -/

namespace Verif.Spec

/-- No local name occurs in the expression. -/
def exprGlobal (e : Expr) : Bool := e.names.all global

/-- No local name occurs in the item. -/
def itemGlobal (x : Item) : Bool := x.names.all global

/-- No local name occurs in the statement. -/
def globals : Stmt → Bool
  | .op _ _ (some e) => exprGlobal e
  | .data _ hd tl => (hd :: tl).all itemGlobal
  | .fill v n => exprGlobal v && exprGlobal n
  | .assign name e => global name && exprGlobal e
  | .var hd tl => (hd :: tl).all fun x => global x.1 && (x.2.all exprGlobal)
  | .ifThen c t => exprGlobal c && globals t
  | .ifElse c t e => exprGlobal c && globals t && globals e
  | .repeatLoop b c => exprGlobal c && globals b
  | .doLoop b c => exprGlobal c && globals b
  | .whileLoop c b => exprGlobal c && globals b
  | .forLoop name start stop step b next =>
    global name && global next && exprGlobal start && exprGlobal stop && step.all exprGlobal && globals b
  | .seq a b => globals a && globals b
  | .at _ st => globals st
  | .word _ name args => global name && (argList args).all itemGlobal
  | _ => true

/-- The context after `.macro name … .endm`.  Names are the same if they differ only in upper and lower case. -/
def Context.define (C : Context) (name : Str) (body : Stmt) : Context :=
  { C with macros := fun n => if foldCase n = foldCase name then some body else C.macros n }

/-- The bytes of a program of flat lines, blocks, macro definitions and macro calls.  The names of the macros are known before,
and the name of a macro has the address of its definition as value. -/
inductive MacroSource (slot : Str → Option Nat) : Context → List Top → Stage → Stage → List Nat → Prop
  | nil {C : Context} {g : Stage} : MacroSource slot C [] g g []
  | line {C : Context} {t : Top} {ts : List Top} {g g' : Stage} {ll : Option Str} {b1 b2 : List Nat}
    (h : Line { C with env := g.env } g.last g.pc g.fresh t ll b1) (hl : CLabel ll)
    (hs : MacroSource slot C ts ⟨g.env, ll, g.pc + b1.length, g.fresh && b1.isEmpty⟩ g' b2) :
    MacroSource slot C (t :: ts) g g' (b1 ++ b2)
  /-- a block or a call; it may contain calls, but no local names -/
  | block {C : Context} {file : Str} {line : Int} {st : Stmt} {ts : List Top} {g g' : Stage} {k : Cfg} {b1 b2 : List Nat}
    (hg : globals st = true) (hp : Parses C g.cfg.env g.cfg.pc st) (h : Runs C slot st g.cfg k b1)
    (hs : MacroSource slot C ts (g.after slot k) g' b2) : MacroSource slot C (.stmt file line st :: ts) g g' (b1 ++ b2)
  /-- a block without calls -/
  | simple {C : Context} {file : Str} {line : Int} {st : Stmt} {ts : List Top} {g g' : Stage} {k : Cfg} {b1 b2 : List Nat}
    (hp : Parses C g.cfg.env g.cfg.pc st) (h : Runs { C with macros := fun _ => none } slot st g.cfg k b1)
    (hs : MacroSource slot C ts (g.after slot k) g' b2) : MacroSource slot C (.stmt file line st :: ts) g g' (b1 ++ b2)
  /-- a definition -/
  | define {C : Context} {file : Str} {line : Int} {name : Str} {body : Stmt} {ts : List Top} {g g' : Stage} {bs : List Nat}
    (hn : Identifier name) (hm : C.isMacro name = true) (hv : g.env g.last name = some g.pc) (hg : globals body = true)
    (hp : Parses C g.cfg.env g.cfg.pc body) (hs : MacroSource slot (C.define name body) ts g g' bs) :
    MacroSource slot C (.stmt file line (.macroDef name body) :: ts) g g' bs

end Verif.Spec
