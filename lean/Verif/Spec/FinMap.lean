/-!
# Specification: a store of (key, value) records with "most recent first" discipline

Keys are compared after folding letter case by `fold`.
-/

namespace Verif.Spec

/-- ASCII lower case of a byte string. -/
def foldCase (s : List Nat) : List Nat :=
  s.map fun c => if 'A'.toNat ≤ c ∧ c ≤ 'Z'.toNat then c + ('a'.toNat - 'A'.toNat) else c

/-- An operation of a dictionary user. -/
inductive DictOp (α : Type) where
  | insert (key : List Nat) (value : α)
  | delete (key : List Nat)

variable {α : Type}

/-- Records, most recent first. -/
abbrev Store (α : Type) := List (List Nat × α)

/-- Value of the most recent record of a key. -/
def Store.find (s : Store α) (key : List Nat) : Option α :=
  (s.find? fun e => foldCase e.1 == foldCase key).map (·.2)

/-- One operation: insertion adds a record, deletion removes the most recent record of the key. -/
def Store.step (s : Store α) : DictOp α → Store α
  | .insert k v => (k, v) :: s
  | .delete k => s.eraseP fun e => foldCase e.1 == foldCase k

/-- A history of operations, oldest first. -/
def Store.run (s : Store α) (ops : List (DictOp α)) : Store α := ops.foldl Store.step s

end Verif.Spec
