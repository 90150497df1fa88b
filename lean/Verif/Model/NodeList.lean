import Verif.Model.Str

/-!
# The list of parse nodes (node.cc)

All nodes of a pass are linked in a list (`head_node`, `current_node`) and freed by `free_parse_tree` at the end of the
pass (pass.cc:153).  The model of the interpreter leaves the links out; here they are modelled, with each block of memory
that a node owns.  `none` stands for undefined behaviour: reading, writing or freeing a block that was freed.
-/

namespace Verif.NodeList

/-- The node types as far as `free_parse_node` distinguishes them (node.h:9-11, node.cc:524-551). -/
inductive NodeType where
  | id | macroId | label | str | macroEx | other
deriving DecidableEq, Repr

/-- What the constructors of node.cc:92-345 fill in: the type, the name (`id.name`, node.cc:170), the length of the operand
array that was allocated, and `number_of_ops` at the end (`opcode_node` decrements it for the operand `A`,
node.cc:364-370). -/
structure Desc where
  /-- `type` -/
  type : NodeType
  /-- `id.name` -/
  name : Str
  /-- length of the array `op` -/
  ops : Nat
  /-- `number_of_ops` -/
  numOps : Nat
deriving DecidableEq, Repr

/-- `parse_node` (node.h:77-96): its description, the links and whether the block is still allocated. -/
structure Cell where
  /-- contents -/
  desc : Desc
  /-- `prev` -/
  prev : Option Nat
  /-- `next` -/
  next : Option Nat
  /-- not freed yet -/
  live : Bool
deriving DecidableEq, Repr

/-- The blocks that belong to a node: itself, the array `op` (node.cc:75-84), `id.name` (node.cc:170), `str.value` and
`str.allocated` (node.cc:124-147), `macro.name` (node.cc:247). -/
inductive Field where
  | node | ops | name | strValue | strText | macroName
deriving DecidableEq, Repr

/-- The nodes by address, `head_node`, `current_node` (node.cc:37-45) and the blocks freed so far, in order. -/
structure S where
  /-- all nodes ever allocated -/
  cells : List Cell := []
  /-- `head_node` -/
  head : Option Nat := none
  /-- `current_node` -/
  cur : Option Nat := none
  /-- calls of `FREE` -/
  freed : List (Nat × Field) := []
deriving DecidableEq, Repr

/-- Access to a node through a pointer, as `p->next` in node.cc:452-456. -/
def S.live? (s : S) (p : Nat) : Option Cell :=
  match s.cells[p]? with
  | some c => if c.live then some c else none
  | none => none

/-- Writing a node through a pointer, as in node.cc:455-458. -/
def S.set (s : S) (p : Nat) (c : Cell) : S := { s with cells := s.cells.set p c }

/-- `allocate_node` (node.cc:56-90) and the constructor that called it. -/
def alloc (d : Desc) (s : S) : Option S :=
  let p := s.cells.length
  let new : Cell := { desc := d, prev := s.cur, next := none, live := true }
  let head := match s.head with
    | none => some p
    | some h => some h
  match s.cur with
  | none => some { s with cells := s.cells ++ [new], cur := some p, head := head }
  | some c =>
    match s.live? c with
    | none => none
    | some old => some { (s.set c { old with next := some p }) with
        cells := (s.set c { old with next := some p }).cells ++ [new], cur := some p, head := head }

/-- `is_name_valid` (node.cc:564-581): letters, digits, `_` and `\`. -/
def isNameValid (name : Str) : Bool :=
  name.all fun c => (48 ≤ c && c ≤ 57) || (65 ≤ c && c ≤ 90) || (97 ≤ c && c ≤ 122) || c == 95 || c == 92

/-- The blocks that `free_parse_node` frees, in order (node.cc:522-562). -/
def freeList (d : Desc) : List Field :=
  (match d.type with
    | .id | .macroId => if isNameValid d.name then [.name] else []
    | .str => [.strValue]
    | _ => []) ++ (if 0 < d.numOps ∧ 0 < d.ops then [.ops] else []) ++ [.node]

/-- The blocks that the constructors allocate (node.cc:56-350). -/
def owned (d : Desc) : List Field :=
  [.node] ++ (if 0 < d.ops then [.ops] else []) ++
  (match d.type with
    | .id | .macroId | .label => [.name]
    | .str => [.strText, .strValue]
    | .macroEx => [.macroName]
    | .other => [])

/-- `free_parse_node` (node.cc:522-562). -/
def freeNode (p : Nat) (s : S) : Option S :=
  match s.live? p with
  | none => none
  | some c => some { (s.set p { c with live := false }) with freed := s.freed ++ (freeList c.desc).map fun b => (p, b) }

/-- `prev->next = next` (node.cc:455-456). -/
def setNext (q : Option Nat) (v : Option Nat) (s : S) : Option S :=
  match q with
  | none => some s
  | some q =>
    match s.live? q with
    | none => none
    | some c => some (s.set q { c with next := v })

/-- `next->prev = prev` (node.cc:457-458). -/
def setPrev (q : Option Nat) (v : Option Nat) (s : S) : Option S :=
  match q with
  | none => some s
  | some q =>
    match s.live? q with
    | none => none
    | some c => some (s.set q { c with prev := v })

/-- `remove_parse_node` (node.cc:447-463) for a non-null pointer. -/
def removeNode (p : Nat) (s : S) : Option S :=
  match s.live? p with
  | none => none
  | some c =>
    match setNext c.prev c.next s with
    | none => none
    | some s1 =>
      match setPrev c.next c.prev s1 with
      | none => none
      | some s2 => freeNode p (if s2.head = some p then { s2 with head := c.next } else s2)

/-- The loop of `free_parse_tree` (node.cc:470-475); running out of fuel counts as undefined. -/
def freeLoop : Nat → Option Nat → S → Option S
  | _, none, s => some s
  | 0, some _, _ => none
  | f + 1, some p, s =>
    match s.live? p with
    | none => none
    | some c =>
      match removeNode p s with
      | none => none
      | some s' => freeLoop f c.next s'

/-- `free_parse_tree` (node.cc:468-477). -/
def freeTree (f : Nat) (s : S) : Option S :=
  match freeLoop f s.head s with
  | none => none
  | some s' => some { s' with head := none, cur := none }

/-- The allocations of a pass (pass.cc:57 and the actions of the parser). -/
def allocAll : List Desc → S → Option S
  | [], s => some s
  | d :: ds, s =>
    match alloc d s with
    | none => none
    | some s' => allocAll ds s'

/-- The memory of one pass after the other (pass.cc:48-160): allocations, then `free_parse_tree`. -/
def passes (f : Nat) : List (List Desc) → S → Option S
  | [], s => some s
  | ds :: rest, s =>
    match allocAll ds s with
    | none => none
    | some s1 =>
      match freeTree f s1 with
      | none => none
      | some s2 => passes f rest s2

end Verif.NodeList
