import Verif.Model.PtrDict
import Verif.Model.Expand

/-!
# The dispatch tables of expand.cc

`expand_node` and `expand_operator_node` find their handlers in dictionaries with pointer keys; `expandKind` and
`expandOperator` use a case distinction instead.  Here the dictionaries are modelled, so that the two can be compared.
-/

namespace Verif

/-- A handler of an operator, as called from `expand_operator_node` (expand.cc:80, 1939-1940): the recursive calls, the
bound on loops and the node are arguments. -/
abbrev OpHandler := (Ptr → M Int) → (Ptr → M Bool) → Nat → Node → M Int

/-- A handler of a node type, as called from `expand_node` (expand.cc:80, 1971-1973). -/
abbrev NodeHandler := (Ptr → M Int) → (Ptr → M Bool) → Nat → Ptr → Node → M Int

/-- The value of the token or character by which the parser names an operator (pasm.y:39-59; the tokens are numbered
from 258 in the order of their declarations). -/
def oprTag : Opr → Nat
  | .whileLoop => 264 | .repeatLoop => 266 | .ifThen => 268 | .print => 269 | .printAll => 270 | .equ => 271
  | .org => 272 | .pcAssign => 273 | .endProg => 274 | .doLoop => 275 | .macroDef => 276 | .statement => 280
  | .exprList => 281 | .forLoop => 283 | .lnot => 288 | .loByte => 292 | .hiByte => 293 | .ds => 294 | .inc => 295
  | .load => 296 | .regX => 297 | .regY => 298 | .var => 299 | .fill => 300 | .sect => 303 | .endSect => 304
  | .uminus => 306 | .shl => 307 | .shr => 308 | .lor => 309 | .land => 310 | .ge => 311 | .le => 312 | .eq => 313
  | .ne => 314 | .bitOr => 315 | .bitAnd => 316
  | .compl => 126 | .add => 43 | .sub => 45 | .mul => 42 | .div => 47 | .xor => 94 | .lt => 60 | .gt => 62

/-- The enumeration of node types (node.h:9-11). -/
def nodeTag : Kind → Nat
  | .con _ _ => 2
  | .id .label _ _ => 3
  | .id .id _ _ => 4
  | .id .macroId _ _ => 5
  | .macroEx _ _ _ => 6
  | .opr _ => 7
  | .opcode _ _ _ _ => 8
  | .data _ _ => 9
  | .str _ => 10
  | .printState _ => 11

/-- `expand_operator_for_reg_node` reads the register from the operator of the node (expand.cc:558-561). -/
def forRegHandler : OpHandler := fun ex hu _ n =>
  match n.kind with
  | .opr .regX => expandForReg ex hu true n
  | .opr .regY => expandForReg ex hu false n
  | _ => ubM

/-- `expand_operator_table` (expand.cc:215-263), in the order of the source. -/
def operatorTable : List (Nat × OpHandler) := [
  (292, fun ex _ _ n => una ex n fun v => some (cand (cand v 0xFFFF) 0xFF)),
  (293, fun ex _ _ n => una ex n fun v => some (cand (cand v 0xFFFF) 0xFF00 / 256)),
  (273, fun ex _ _ n => expandPcAssign ex n),
  (272, fun ex _ _ n => expandOrg ex n),
  (281, fun ex hu _ n => expandExprList ex hu n),
  (276, fun _ _ _ n => expandMacroDef n),
  (264, fun ex _ f n => expandWhile ex f n),
  (266, fun ex _ f n => expandRepeat ex f true n),
  (303, fun _ _ _ n => expandSection n),
  (304, fun _ _ _ _ => expandEndSection),
  (275, fun ex _ f n => expandRepeat ex f false n),
  (283, fun ex _ f n => expandFor ex f n),
  (297, forRegHandler),
  (298, forRegHandler),
  (268, fun ex _ _ n => expandIf ex n),
  (269, fun ex _ _ n => expandPrint ex false n),
  (270, fun ex _ _ n => expandPrint ex true n),
  (294, fun ex _ _ n => expandDs ex n),
  (280, fun ex _ _ n => expandStatement ex n),
  (274, fun _ _ _ _ => do
    modS fun s => { s with endExpansion := true }
    M.pure 0),
  (271, fun ex _ _ n => expandEqu ex n),
  (61, fun ex _ _ n => expandEqu ex n),
  (306, fun ex _ _ n => una ex n fun v => cchk (-v)),
  (126, fun ex _ _ n => una ex n fun v => some (onesCompl v)),
  (43, fun ex _ _ n => bin ex n fun x y => cchk (x + y)),
  (45, fun ex _ _ n => bin ex n fun x y => cchk (x - y)),
  (42, fun ex _ _ n => bin ex n fun x y => cchk (x * y)),
  (47, fun ex _ _ n => expandDivide ex n),
  (315, fun ex _ _ n => bin ex n fun x y => some (cor x y)),
  (316, fun ex _ _ n => bin ex n fun x y => some (cand x y)),
  (94, fun ex _ _ n => bin ex n fun x y => some (cxor x y)),
  (60, fun ex _ _ n => bin ex n fun x y => some (cbool (decide (x < y)))),
  (62, fun ex _ _ n => bin ex n fun x y => some (cbool (decide (x > y)))),
  (313, fun ex _ _ n => bin ex n fun x y => some (cbool (x == y))),
  (314, fun ex _ _ n => bin ex n fun x y => some (cbool (x != y))),
  (311, fun ex _ _ n => bin ex n fun x y => some (cbool (decide (x ≥ y)))),
  (312, fun ex _ _ n => bin ex n fun x y => some (cbool (decide (x ≤ y)))),
  (309, fun ex _ _ n => shortCircuit ex n true),
  (310, fun ex _ _ n => shortCircuit ex n false),
  (288, fun ex _ _ n => una ex n fun v => some (cbool (v == 0))),
  (307, fun ex _ _ n => bin ex n cshl),
  (308, fun ex _ _ n => bin ex n cshr),
  (299, fun ex _ _ n => expandVariable ex n),
  (295, fun _ _ _ n => expandInclude n),
  (296, fun ex _ _ n => expandLoad ex n),
  (300, fun ex _ f n => expandFill ex f n)]

/-- Number of bytes that `dict_insert` copies from `&table[i].function` (expand.cc:2020-2023, dictionary.cc:181): the
element size of the dictionary is `sizeof(op_table)`, 16 bytes with 8-byte pointers, though only the pointer is passed.
`none`: the bytes read do not lie within the table of `size` rows. -/
def rowCopy (size i : Nat) : Option Nat :=
  let start := 16 * i + 8
  if start + 16 ≤ 16 * size then some 16 else none

/-- `create_op_table_dictionary` (expand.cc:2018-2026).  The copy of a row is taken to be the function pointer; the 8
bytes behind it, which `rowCopy` speaks about, are never used. -/
def createOpTable {α : Type} (hash : Nat → Nat) (rows : List (Nat × α)) : PDict α :=
  rows.foldl (fun d r => d.insert hash r.1 r.2) PDict.create

/-- `expand_operator_node` (expand.cc:1935-1944): handler from the dictionary.  Reading the operator of a node of another
type is undefined. -/
def operatorNodeHandler (hash : Nat → Nat) : NodeHandler := fun ex hu f _ n =>
  match n.kind with
  | .opr op =>
    match (createOpTable hash operatorTable).search hash (oprTag op) with
    | some fn => fn ex hu f n
    | none => do
      error .unknownOperatorType
      M.pure 0
  | _ => ubM

/-- `expand_table` (expand.cc:267-278).  Each handler reads the member of the union that belongs to its node type; reading
it from a node of another type is undefined. -/
def nodeTable (hash : Nat → Nat) : List (Nat × NodeHandler) := [
  (2, fun _ _ _ p n => match n.kind with
    | .con v isPc => expandConstant p v isPc
    | _ => ubM),
  (4, fun _ _ _ p n => match n.kind with
    | .id _ name _ => expandId p name
    | _ => ubM),
  (3, fun _ _ _ p n => match n.kind with
    | .id _ name _ => expandLabel p name
    | _ => ubM),
  (5, fun ex _ _ p n => match n.kind with
    | .id _ name _ => expandMacroId ex p name
    | _ => ubM),
  (6, fun ex _ _ _ n => match n.kind with
    | .macroEx name body params => expandMacroEx ex name body params
    | _ => ubM),
  (9, fun ex _ _ _ n => match n.kind with
    | .data size d => expandData ex size d
    | _ => ubM),
  (8, fun ex hu _ p n => match n.kind with
    | .opcode _ _ _ _ => expandOpCode ex hu p
    | _ => ubM),
  (11, fun ex _ _ p n => match n.kind with
    | .printState _ => expandPrintState ex p
    | _ => ubM),
  (7, operatorNodeHandler hash)]

/-- The handler of a node found in the dictionary (expand.cc:1969-1981). -/
def expandByTable (hash : Nat → Nat) (ex : Ptr → M Int) (hu : Ptr → M Bool) (f : Nat) (p : Ptr) (n : Node) : M Int :=
  match (createOpTable hash (nodeTable hash)).search hash (nodeTag n.kind) with
  | some fn => fn ex hu f p n
  | none => do
    error .unknownNodeType
    M.pure 0

/-- `expand_node` (expand.cc:1951-1983) for a non-null node, with the dictionaries.  They are created when the first node
is expanded (expand.cc:1964-1967, 213) and never changed; the model creates them at each use. -/
def expandNodeByTable (hash : Nat → Nat) : Nat → Ptr → M Int
  | 0, _ => timeoutM
  | f + 1, p => do
    let s ← getS
    if s.endExpansion then M.pure 0
    else do
      let n ← node p
      expandByTable hash (expandNodeByTable hash f) (hasUninit f) f p n

end Verif
