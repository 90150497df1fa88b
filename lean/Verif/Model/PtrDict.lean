import Verif.Model.Hash

/-!
# dictionary.cc (pointer keys)

Dictionaries with `key_type != 0`: the dispatch tables of the interpreter (expand.cc:2018-2026) and, in debug builds, the
table of allocated blocks (memory.cc:56).  Keys are addresses, compared with `==`.  Memory exhaustion is not modelled.
-/

namespace Verif

/-- One byte of the key in `hash_pointer_function` (hash.cc:33): `((unsigned long long)key & (0xFF << (8 * index))) >>
(8 * index)`.  `0xFF` is an `int`: shifting it by 32 or more bits is undefined behaviour (`none`).  For `index = 3` the
shifted value is negative and is sign-extended; the conversion to `unsigned char` cuts the additional bits off again. -/
def ptrByte (key index : Nat) : Option Nat :=
  if 8 * index < 32 then some (key / 2 ^ (8 * index) % 256) else none

/-- The loop of `hash_pointer_function` (hash.cc:31-38) over the byte positions `index ..< index + n`. -/
def hashPtrLoop (key : Nat) : Nat → Nat → Nat → Option Nat
  | 0, _, hash => some hash
  | n + 1, index, hash =>
    match ptrByte key index with
    | none => none
    | some b =>
      let h1 := u32 (hash + b)
      let h2 := u32 (h1 + u32 (h1 * 1024))
      hashPtrLoop key n (index + 1) (h2 ^^^ (h2 / 64))

/-- `hash_pointer_function` (hash.cc:27-43) on a machine where `sizeof(void*)` is `width`; `none` is undefined
behaviour. -/
def hashPointer (width key : Nat) : Option Nat := (hashPtrLoop key width 0 0).map hashFinish

/-- `dict` (dictionary.h) with pointer keys; compare `Dict`. -/
structure PDict (α : Type) where
  /-- number of buckets -/
  size : Nat
  /-- the bucket chains -/
  table : List (List (Nat × α))
  /-- `number_elements` -/
  count : Nat

namespace PDict

variable {α : Type}

/-- `internal_dict_create` (dictionary.cc:45-69): an empty table of `size` buckets. -/
def createSized (size : Nat) : PDict α := ⟨size, List.replicate size [], 0⟩

/-- `dict_create` (dictionary.cc:75-78): `initial_size` is 1024 (dictionary.cc:31). -/
def create : PDict α := createSized 1024

/-- Bucket index of a key: `hash_pointer_function(key) % d->size` (dictionary.cc:195, 236, 280).  The values of the hash
function are a parameter of the model: with 8-byte pointers the C++ standard does not define them (`hashPointer`). -/
def slot (hash : Nat → Nat) (d : PDict α) (key : Nat) : Nat := hash key % d.size

/-- Linking a new element at the head of its chain (dictionary.cc:195-201). -/
def link (hash : Nat → Nat) (d : PDict α) (key : Nat) (value : α) : PDict α :=
  { d with table := d.table.modify (d.slot hash key) ((key, value) :: ·), count := d.count + 1 }

/-- `(long)((double)d->size * MAX_LOAD_FACTOR)` (dictionary.cc:204); see `Dict.threshold`. -/
def threshold (d : PDict α) : Nat := d.size * 9 / 10

/-- `dict_insert` (dictionary.cc:147-211) and `grow` (dictionary.cc:113-138) for pointer keys; `fuel` as in
`Dict.insertF`. -/
def insertF (hash : Nat → Nat) : Nat → PDict α → Nat → α → PDict α
  | 0, d, key, value => d.link hash key value
  | fuel + 1, d, key, value =>
    let d := d.link hash key value
    if d.threshold ≤ d.count then
      d.table.flatten.foldl (fun d2 e => insertF hash fuel d2 e.1 e.2) (createSized (d.size * 2))
    else d

/-- `dict_insert` (dictionary.cc:147-211). -/
def insert (hash : Nat → Nat) (d : PDict α) (key : Nat) (value : α) : PDict α := insertF hash 2 d key value

/-- `dict_search` (dictionary.cc:234-245): the first element of the chain with the key. -/
def search (hash : Nat → Nat) (d : PDict α) (key : Nat) : Option α :=
  match d.table[d.slot hash key]? with
  | some chain => (chain.find? fun e => e.1 == key).map (·.2)
  | none => none

/-- The first element of a chain with the key gets a new value (the loop of `dict_search`, dictionary.cc:239-243, and an
assignment through the pointer it returns). -/
def updateFirst (key : Nat) (g : α → α) : List (Nat × α) → List (Nat × α)
  | [] => []
  | e :: l => if e.1 = key then (e.1, g e.2) :: l else e :: updateFirst key g l

/-- Writing through the pointer that `dict_search` returns (memory.cc:84-90, 129-131). -/
def update (hash : Nat → Nat) (d : PDict α) (key : Nat) (g : α → α) : PDict α :=
  { d with table := d.table.modify (d.slot hash key) (updateFirst key g) }

/-- `dict_delete` (dictionary.cc:278-293) for pointer keys: unlinks the first element with the key, if any. -/
def delete (hash : Nat → Nat) (d : PDict α) (key : Nat) : PDict α :=
  match d.table[d.slot hash key]? with
  | some chain =>
    if chain.any (fun e => e.1 == key) then
      { d with
        table := d.table.modify (d.slot hash key) fun chain => chain.eraseP fun e => e.1 == key
        count := d.count - 1 }
    else d
  | none => d

end PDict

end Verif
