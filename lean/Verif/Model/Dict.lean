import Verif.Model.Hash

/-!
# dictionary.cc (string keys)

Only dictionaries with `key_type == 0` (string keys) are modelled; these hold the symbol table and
the macro table.  Memory exhaustion is not modelled.
-/

namespace Verif

/-- `dict` (dictionary.h): `size` buckets, each a chain of (key, value) with the head first, and the
element counter.  The collision statistics are left out. -/
structure Dict (α : Type) where
  /-- number of buckets -/
  size : Nat
  /-- the bucket chains -/
  table : List (List (Str × α))
  /-- `number_elements` -/
  count : Nat

namespace Dict

variable {α : Type}

/-- `internal_dict_create` (dictionary.cc:45-69): an empty table of `size` buckets. -/
def createSized (size : Nat) : Dict α := ⟨size, List.replicate size [], 0⟩

/-- `dict_create` (dictionary.cc:75-78): `initial_size` is 1024 (dictionary.cc:31). -/
def create : Dict α := createSized 1024

/-- Bucket index of a key: `hash_function(key) % d->size` (dictionary.cc:185, 224, 259). -/
def slot (d : Dict α) (key : Str) : Nat := hashFunction key % d.size

/-- Linking a new element at the head of its chain (dictionary.cc:183-192). -/
def link (d : Dict α) (key : Str) (value : α) : Dict α :=
  { d with table := d.table.modify (d.slot key) ((key, value) :: ·), count := d.count + 1 }

/-- `(long)((double)d->size * MAX_LOAD_FACTOR)` (dictionary.cc:204).  Simplification: computed as
`size * 9 / 10` in integers, which agrees with the `double` product for the sizes 1024 * 2^k below
2^50. -/
def threshold (d : Dict α) : Nat := d.size * 9 / 10

/-- `dict_insert` (dictionary.cc:147-211), `grow` (dictionary.cc:113-138).  The two functions call
each other; `fuel` bounds the nesting (`insert_fuel_irrelevant` shows that a nesting of one is never
exceeded).  The returned pointer to the stored value is not modelled. -/
def insertF : Nat → Dict α → Str → α → Dict α
  | 0, d, key, value => d.link key value
  | fuel + 1, d, key, value =>
    let d := d.link key value
    if d.threshold ≤ d.count then
      d.table.flatten.foldl (fun d2 e => insertF fuel d2 e.1 e.2) (createSized (d.size * 2))
    else d

/-- `dict_insert` (dictionary.cc:147-211). -/
def insert (d : Dict α) (key : Str) (value : α) : Dict α := insertF 2 d key value

/-- `dict_search` (dictionary.cc:220-247): the first element of the chain whose key compares equal. -/
def search (d : Dict α) (key : Str) : Option α :=
  match d.table[d.slot key]? with
  | some chain => (chain.find? fun e => stricmp e.1 key == 0).map (·.2)
  | none => none

/-- Unlinking the first element with an equal key from its chain (dictionary.cc:265-273). -/
def unlink (d : Dict α) (key : Str) : Dict α :=
  { d with
    table := d.table.modify (d.slot key) fun chain =>
      chain.eraseP fun e => stricmp e.1 key == 0
    count := d.count - 1 }

/-- `dict_delete` (dictionary.cc:255-294): unlinks the first element with an equal key, if any. -/
def delete (d : Dict α) (key : Str) : Dict α :=
  match d.table[d.slot key]? with
  | some chain =>
    if chain.any (fun e => stricmp e.1 key == 0) then d.unlink key else d
  | none => d

end Dict

end Verif
