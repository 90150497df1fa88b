import Verif.Spec.Layout

/-! # Specification: the bytes of a flat program for given symbol values

As `Layout`, but nothing is said about the values of the symbols that the program defines: they only have to be known.
`Draft` holds whenever each statement has an encoding for the given values, at the address that results from the lengths
of the statements before it. -/

namespace Verif.Spec

/-- The line defines the label `name`, whose symbol is known. -/
def Declares (C : Context) (ll : Option Str) (name : Str) (ll' : Option Str) : Prop :=
  C.isMacro name = false ∧ name.head? ≠ some 43 ∧ name.head? ≠ some 45 ∧ (∃ w, C.env ll' name = some w) ∧
  ((name.head? ≠ some 64 ∧ ll' = some name) ∨
    (name.head? = some 64 ∧ ll' = ll ∧ 46 ∉ name ∧ ∀ l, ll = some l → l.all wordChar = true))

/-- The bytes of a statement; an assignment need not agree with the value of the symbol. -/
def Sized (C : Context) (env : Str → Option Int) (pc : Int) (fresh : Bool) (bs : List Nat) : Stmt → Prop
  | .assign name e => (∃ v, eval env pc e = some (v, false)) ∧ (∃ w, env name = some w) ∧ bs = []
  | st => Placed C env pc fresh bs st

/-- The bytes of a line at address `pc`. -/
def DraftLine (C : Context) (ll : Option Str) (pc : Int) (fresh : Bool) : Top → Option Str → List Nat → Prop
  | .stmt _ _ (.word true name none), ll', bs => Declares C ll name ll' ∧ bs = []
  | .stmt _ _ st, ll', bs => ll' = ll ∧ Sized C (C.env ll) pc fresh bs st
  | .labelled _ _ name st, ll', bs =>
    Declares C ll name ll' ∧ Sized C (C.env ll) pc fresh bs st ∧ (ll' = ll ∨ noLocals st = true)
  | _, _, _ => False

/-- The bytes of the lines from address `pc` on. -/
def Draft (C : Context) : Option Str → Int → Bool → List Top → Option Str → List Nat → Prop
  | ll, _, _, [], ll', bs => ll' = ll ∧ bs = []
  | ll, pc, fresh, t :: ts, ll', bs => ∃ ll1 b1 b2, DraftLine C ll pc fresh t ll1 b1 ∧
      Draft C ll1 (pc + b1.length) (fresh && b1.isEmpty) ts ll' b2 ∧ bs = b1 ++ b2

end Verif.Spec
