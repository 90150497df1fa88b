import Verif.Model.PtrDict

/-!
# The memory tracker of debug builds (memory.cc)

In builds with `_DEBUG` the macros `MALLOC`, `REALLOC` and `FREE` call the functions of memory.cc (memory.h).  They keep a
dictionary from addresses to entries and the number of bytes in use.  The dictionary allocates with tracking turned off
(`track_malloc`); its own memory is left out, except for the address of an entry that `pasm_free` hands to `dict_delete`.
Memory never runs out.
-/

namespace Verif.Memory

/-- A byte in memory; `none` is an indeterminate value (memory.cc:60, contents of a block from `malloc`). -/
abbrev Byte := Option Nat

/-- `memory_entry` (memory.cc:31-38) without function and line. -/
structure Entry where
  /-- `size` -/
  size : Nat
  /-- `memory` -/
  memory : Nat
  /-- `times_deleted` -/
  deleted : Nat
deriving DecidableEq, Repr

/-- The blocks of the C library and the variables of the tracker (memory.cc:40-45). -/
structure S where
  /-- allocated blocks with their contents -/
  blocks : List (Nat × List Byte) := []
  /-- `alloc_dict` -/
  dict : Option (PDict Entry) := none
  /-- `total_allocated_bytes`, a `size_t` -/
  total : Nat := 0
  /-- errors reported -/
  errors : Nat := 0

/-- How a call may end: `exit(-1)` (memory.cc:121-125), undefined behaviour. -/
inductive Fault where
  | exit | ub
deriving DecidableEq, Repr

/-- Unsigned arithmetic of `size_t` (memory.cc:63, 83, 103, 132). -/
def addSize (a b : Nat) : Nat := (a + b) % 2 ^ 64

/-- Unsigned arithmetic of `size_t` (memory.cc:83, 132). -/
def subSize (a b : Nat) : Nat := (a + (2 ^ 64 - b % 2 ^ 64)) % 2 ^ 64

/-- Contents of a block (used by `realloc`, memory.cc:84, and by `write`). -/
def S.block (s : S) (a : Nat) : Option (List Byte) := (s.blocks.find? fun b => b.1 == a).map (·.2)

/-- `realloc` of the C library on the contents (memory.cc:84). -/
def resize (c : List Byte) (size : Nat) : List Byte := c.take size ++ List.replicate (size - c.length) none

/-- `pasm_malloc` (memory.cc:47-66); `a` is the address that `malloc` returns. -/
def pasmMalloc (hash : Nat → Nat) (size a : Nat) (s : S) : S :=
  { s with
    blocks := (a, List.replicate size none) :: s.blocks
    dict := some ((s.dict.getD PDict.create).insert hash a ⟨size, a, 0⟩)
    total := addSize s.total size }

/-- `pasm_realloc` (memory.cc:68-106); `a` is the address that `realloc` or `malloc` returns. -/
def pasmRealloc (hash : Nat → Nat) (memory size a : Nat) (s : S) : Except Fault S :=
  let d := s.dict.getD PDict.create
  match d.search hash memory with
  | some e =>
    match s.block e.memory with
    | none => .error .ub
    | some c => .ok { s with
        blocks := (a, resize c size) :: s.blocks.filter fun b => b.1 != e.memory
        dict := some (d.update hash memory fun e => { e with memory := a, size := size })
        total := addSize (subSize s.total e.size) size }
  | none => .ok (pasmMalloc hash size a s)

/-- `pasm_free` (memory.cc:109-146); `entry` is the address of the entry in the dictionary. -/
def pasmFree (hash : Nat → Nat) (memory entry : Nat) (s : S) : Except Fault S :=
  match s.dict with
  | none => .error .exit
  | some d =>
    match d.search hash memory with
    | some e =>
      if e.deleted = 0 then
        .ok { s with
          total := subSize s.total e.size
          dict := some ((d.update hash memory fun e => { e with deleted := e.deleted + 1 }).delete hash entry) }
      else .ok { s with errors := s.errors + 1 }
    | none => .ok { s with errors := s.errors + 1 }

/-- What the program does with memory: calls of `MALLOC` with the address returned, of `REALLOC` with the address returned,
of `FREE` with the address of the entry, and writing a byte (memory.h:20-30, and every use of the macros). -/
inductive Op where
  | malloc (size a : Nat)
  | realloc (memory size a : Nat)
  | free (memory entry : Nat)
  | write (memory i v : Nat)
deriving DecidableEq, Repr

/-- One operation (memory.cc:47-146).  Writing outside of a block is undefined. -/
def step (hash : Nat → Nat) : Op → S → Except Fault S
  | .malloc size a, s => .ok (pasmMalloc hash size a s)
  | .realloc m size a, s => pasmRealloc hash m size a s
  | .free m e, s => pasmFree hash m e s
  | .write m i v, s =>
    match s.block m with
    | none => .error .ub
    | some c =>
      if i < c.length then
        .ok { s with blocks := s.blocks.map fun b => if b.1 = m then (b.1, b.2.set i (some v)) else b }
      else .error .ub

/-- A sequence of operations (memory.cc:47-146). -/
def run (hash : Nat → Nat) : List Op → S → Except Fault S
  | [], s => .ok s
  | op :: ops, s =>
    match step hash op s with
    | .error e => .error e
    | .ok s' => run hash ops s'

end Verif.Memory
