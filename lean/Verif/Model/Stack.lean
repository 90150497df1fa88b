/-!
# stacks.cc

The array based stacks.  `assert` failures are the outcome `none` (the project never defines
`NDEBUG`; without the assertions the same situations are out-of-bounds accesses).
-/

namespace Verif

/-- `instance_data` (stacks.h:5-11).  `index` is the index of the top element (-1 when empty),
`array` the allocated items (`none` for never written memory), `stack_size` is `array.length`.
`item_size` is not needed: an element is one value. -/
structure CStack (α : Type) where
  /-- index of the top item -/
  index : Int
  /-- allocated items; the allocated `stack_size` is the length -/
  array : List (Option α)

namespace CStack

variable {α : Type}

/-- `create_stack` (stacks.cc:138-166). -/
def create : CStack α := ⟨-1, []⟩

/-- `clump_size` (stacks.cc:11). -/
def clumpSize : Nat := 25

/-- `push` (stacks.cc:36-82): grow the array by `clump_size` when full (`MALLOC` for the first
block, `REALLOC` afterwards, both keep the old contents), then store.  Returns the new index. -/
def push (s : CStack α) (v : α) : Option (CStack α × Int) :=
  if s.index + 1 ≥ 0 then
    let array := if s.index + 1 ≥ s.array.length
      then s.array ++ List.replicate clumpSize none else s.array
    if s.index + 1 < array.length then
      some (⟨s.index + 1, array.set (s.index + 1).toNat (some v)⟩, s.index + 1)
    else none
  else none

/-- `item_at` (stacks.cc:19-29).  Reading memory that was allocated but never written is `none` as
well. -/
def itemAt (s : CStack α) (i : Int) : Option α :=
  if 0 ≤ i ∧ i < s.array.length then s.array[i.toNat]?.join else none

/-- `pop` (stacks.cc:89-103). -/
def pop (s : CStack α) : Option (CStack α × α) :=
  if 0 ≤ s.index ∧ s.index < s.array.length then
    (s.itemAt s.index).map fun v => (⟨s.index - 1, s.array⟩, v)
  else none

/-- `top` (stacks.cc:110-116). -/
def top (s : CStack α) : Option α := s.itemAt s.index

/-- `clear_stack` (stacks.cc:122-129): pops until empty; `fuel` bounds the loop by the number of
items. -/
def clearLoop : Nat → CStack α → Option (CStack α)
  | 0, s => if s.index ≥ 0 then none else some s
  | n + 1, s => if s.index ≥ 0 then s.pop.bind fun r => clearLoop n r.1 else some s

/-- `clear_stack` (stacks.cc:122-129). -/
def clear (s : CStack α) : Option (CStack α) := clearLoop (s.index + 1).toNat s

end CStack

end Verif
