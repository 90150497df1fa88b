import Verif.Spec.Exec

/-! # Specification: loops over an index register

Execution of code that contains a body whose instructions are not looked at.  All that is known about the body is where
it starts; what it does in its `n`-th execution is given by a function. -/

namespace Verif.Spec

/-- The index register. -/
def Proc.reg (isX : Bool) (p : Proc) : Nat := if isX then p.x else p.y

/-- Execution from a state until the address `stop` is reached for the first time.  `start` is the address of the body,
`body n` what the body does in its `n`-th execution.  The list collects the values of the register at the start of each
execution of the body. -/
inductive Traces (decode : Nat → Option (String × AMode)) (mem : Nat → Nat) (isX : Bool) (start stop : Nat)
    (body : Nat → Proc → Proc) : Nat → Proc → List Nat → Proc → Prop
  | done {n : Nat} {p : Proc} (h : p.pc = stop) : Traces decode mem isX start stop body n p [] p
  | step {n : Nat} {p q r : Proc} {l : List Nat} (h1 : p.pc ≠ stop) (h2 : p.pc ≠ start) (h3 : Spec.step decode mem p = some q)
    (h : Traces decode mem isX start stop body n q l r) : Traces decode mem isX start stop body n p l r
  | body {n : Nat} {p r : Proc} {l : List Nat} (h1 : p.pc ≠ stop) (h2 : p.pc = start)
    (h : Traces decode mem isX start stop body (n + 1) (body n p) l r) :
    Traces decode mem isX start stop body n p (p.reg isX :: l) r

/-- There is only one execution. -/
theorem Traces.unique {decode : Nat → Option (String × AMode)} {mem : Nat → Nat} {isX : Bool} {start stop : Nat}
    {body : Nat → Proc → Proc} {n : Nat} {p r r' : Proc} {l l' : List Nat}
    (h : Traces decode mem isX start stop body n p l r) (h' : Traces decode mem isX start stop body n p l' r') :
    l = l' ∧ r = r' := by
  induction h generalizing l' r' with
  | done h =>
    cases h' with
    | done _ => exact ⟨rfl, rfl⟩
    | step g _ _ _ => exact absurd h g
    | body g _ _ => exact absurd h g
  | step h1 h2 h3 _ ih =>
    cases h' with
    | done g => exact absurd g h1
    | step _ _ g3 g =>
      rw [h3] at g3
      cases g3
      exact ih g
    | body _ g _ => exact absurd g h2
  | body h1 h2 _ ih =>
    cases h' with
    | done g => exact absurd g h1
    | step _ g _ _ => exact absurd h2 g
    | body _ _ g =>
      obtain ⟨rfl, rfl⟩ := ih g
      exact ⟨rfl, rfl⟩

/-- The body comes to its end at the address `stop` and does not change the index register. -/
def Neutral (isX : Bool) (start stop : Nat) (body : Nat → Proc → Proc) : Prop :=
  ∀ n p, p.pc = start → (body n p).pc = stop ∧ (body n p).reg isX = p.reg isX

/-- The values a loop runs through: from `a` up to `b`, or from `a` down to `b`. -/
def regValues (up : Bool) (a b : Nat) : List Nat :=
  if up then List.range' a (b + 1 - a) else (List.range' b (a + 1 - b)).reverse

end Verif.Spec
