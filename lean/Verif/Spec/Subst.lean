import Verif.Spec.Block

/-! # Specification: writing values in place of names -/

namespace Verif

/-- The expression with numbers in place of names. -/
def Expr.subst (σ : Str → Option Int) : Expr → Expr
  | .int v => .int v
  | .sym name => match σ name with
    | some v => .int v
    | none => .sym name
  | .pc => .pc
  | .un op e => .un op (e.subst σ)
  | .bin op a b => .bin op (a.subst σ) (b.subst σ)

/-- The item with numbers in place of names. -/
def Item.subst (σ : Str → Option Int) : Item → Item
  | .expr e => .expr (e.subst σ)
  | .str raw => .str raw

/-- The statement with numbers in place of the names in expressions. -/
def Stmt.subst (σ : Str → Option Int) : Stmt → Stmt
  | .op ins mode arg => .op ins mode (arg.map (Expr.subst σ))
  | .data size hd tl => .data size (hd.subst σ) (tl.map (Item.subst σ))
  | .fill v n => .fill (v.subst σ) (n.subst σ)
  | .assign name e => .assign name (e.subst σ)
  | .ifThen c t => .ifThen (c.subst σ) (t.subst σ)
  | .ifElse c t e => .ifElse (c.subst σ) (t.subst σ) (e.subst σ)
  | .repeatLoop b c => .repeatLoop (b.subst σ) (c.subst σ)
  | .doLoop b c => .doLoop (b.subst σ) (c.subst σ)
  | .whileLoop c b => .whileLoop (c.subst σ) (b.subst σ)
  | .forLoop name start stop step b next =>
    .forLoop name (start.subst σ) (stop.subst σ) (step.map (Expr.subst σ)) (b.subst σ) next
  | .var hd tl => .var (hd.1, hd.2.map (Expr.subst σ)) (tl.map fun x => (x.1, x.2.map (Expr.subst σ)))
  | .seq a b => .seq (a.subst σ) (b.subst σ)
  | .at line st => .at line (st.subst σ)
  | st => st

/-- No macro is called in the statement, and no name of `σ` is assigned to. -/
def Stmt.leaves (σ : Str → Option Int) : Stmt → Bool
  | .word _ _ _ => false
  | .assign name _ => (σ name).isNone
  | .ifThen _ t => t.leaves σ
  | .ifElse _ t e => t.leaves σ && e.leaves σ
  | .repeatLoop b _ => b.leaves σ
  | .doLoop b _ => b.leaves σ
  | .whileLoop _ b => b.leaves σ
  | .forLoop _ _ _ _ b _ => b.leaves σ
  | .seq a b => a.leaves σ && b.leaves σ
  | .at _ st => st.leaves σ
  | _ => true

end Verif

namespace Verif.Spec

/-- The values of the arguments of a call, by name of the parameter.  The first argument belongs to parameter 1. -/
def actual (C : Context) (k : Cfg) (args : List Item) (n : Str) : Option Int :=
  if global n then
    match C.param n with
    | some (i + 1) => match args[i]? with
      | some (.expr e) => itemValue k.env k.pc e
      | _ => none
    | _ => none
  else none

end Verif.Spec
