import Verif.Model.State

/-! # Loops

C++ loops written once, so that facts about loops are proved once. -/

namespace Verif

/-- `while`/`do`/`for(;;)` loops of the handlers (expand.cc:364-402, 430-455, 1449-1459, 1469-1479,
1489-1498, 1541-1557): `body` returns whether to go round again.  Runs at most `fuel` times. -/
def loopM : Nat → M Bool → M Unit
  | 0, _ => timeoutM
  | n + 1, body => do
    let again ← body
    if again then loopM n body else M.pure ()

/-- `for (index = 0; index < number_of_ops; index++)` over operands, with a loop variable and a body that may
leave the function early with `none` (expand.cc:1123-1300, 1598-1600, 1655-1658; node.cc:349-353). -/
def eachM {α σ : Type} (body : σ → α → M (Option σ)) : List α → σ → M (Option σ)
  | [], a => M.pure (some a)
  | x :: xs, a => do
    let r ← body a x
    match r with
    | some a' => eachM body xs a'
    | none => M.pure none

/-- Plain iteration over operands (see `eachM`). -/
def forEachM {α : Type} (body : α → M Unit) : List α → M Unit
  | [] => M.pure ()
  | x :: xs => do
    body x
    forEachM body xs

/-- The operands `op[0] … op[number_of_ops-1]`; undefined when the array is shorter. -/
def operands (n : Node) : M (List Ptr) :=
  if n.numOps ≤ n.ops.length then M.pure (n.ops.take n.numOps) else ubM

end Verif
