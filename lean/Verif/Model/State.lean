import Verif.Model.CInt
import Verif.Model.Str
import Verif.Model.Opcodes

/-! # State of the assembler and the result type of its functions

The C++ program keeps its state in global variables, a heap of parse nodes and a symbol dictionary.  All
of it is collected in `St`.  A C++ function becomes a function `St → Res α × St`.
-/

namespace Verif

/-- Pointer to a parse node (`parse_node_ptr`, node.h:93): index into the node heap. -/
abbrev Ptr := Nat

/-- Pointer to a symbol (`symbol_table_ptr`, sym.h:32): index into the symbol table. -/
abbrev SymPtr := Nat

/-- `symbol_table` (sym.h:17-32).  Not modelled: `times_accessed`, `is_label`, `is_local`; they are only
read by the symbol dump. -/
structure Sym where
  /-- `value` -/
  value : Int := 0
  /-- `is_initialized` -/
  isInit : Bool := false
  /-- `is_macro_name` -/
  isMacroName : Bool := false
  /-- `is_macro_param` -/
  isMacroParam : Bool := false
  /-- `is_plus_minus` -/
  isPlusMinus : Bool := false
  /-- `is_var` -/
  isVar : Bool := false
  /-- `scope` (`NULL` = `none`) -/
  scope : Option Str := none
  /-- `name` -/
  name : Str
  /-- `fullname`, the key in the symbol dictionary -/
  fullname : Str
  /-- `macro_node` -/
  macroNode : Option Ptr := none
deriving DecidableEq, Repr

/-- Operator tags (tokens of pasm.y used as `opr` in `operator_node`, expand.cc:217-264).  `EQU` and `'='`
share a handler and are one tag. -/
inductive Opr where
  | loByte | hiByte | pcAssign | org | exprList | macroDef | whileLoop | repeatLoop | sect | endSect
  | doLoop | forLoop | regX | regY | ifThen | print | printAll | ds | statement | endProg | equ
  | uminus | compl | add | sub | mul | div | bitOr | bitAnd | xor | lt | gt | eq | ne | ge | le
  | lor | land | lnot | shl | shr | var | load | fill | inc
deriving DecidableEq, Repr

/-- Which kind of identifier node (`type_id`, `type_label`, `type_macro_id`; node.h:9-10). -/
inductive IdKind where
  | id | label | macroId
deriving DecidableEq, Repr

/-- The union in `parse_node` together with `type` (node.h:9-93).  Each member that the code uses for a
node type is a constructor. -/
inductive Kind where
  /-- `type_con` -/
  | con (value : Int) (isPc : Bool)
  /-- `type_str`; `str.len` is the length of the list -/
  | str (value : Str)
  /-- `type_id`, `type_label`, `type_macro_id`: `id.name`, `id.i` -/
  | id (kind : IdKind) (name : Str) (sym : Option SymPtr)
  /-- `type_opr` -/
  | opr (op : Opr)
  /-- `type_op_code`: `instruction`, `opcode`, `mode`, `program_counter` -/
  | opcode (instruction : Int) (code : Int) (mode : Mode) (pc : Int)
  /-- `type_macro_ex`: `name`, `macro`, `macro_params` -/
  | macroEx (name : Str) (body : Ptr) (params : Option Ptr)
  /-- `type_data`: `size` (0 string, 1 byte, 2 word), `data` -/
  | data (size : Int) (data : Ptr)
  /-- `type_print` -/
  | printState (state : Bool)
deriving DecidableEq, Repr

/-- `parse_node` (node.h:72-93) without the list links.  `ops` is the operand array as allocated,
`numOps` the field `number_of_ops` (`opcode_node` may decrement it). -/
structure Node where
  /-- type and union -/
  kind : Kind
  /-- `number_of_ops` -/
  numOps : Nat
  /-- `op[]` -/
  ops : List Ptr
deriving DecidableEq, Repr

/-- `plus_minus_sym` (sym.h:10-15). -/
structure PmSym where
  /-- `file` -/
  file : Str
  /-- `line` -/
  line : Int
  /-- `value` -/
  value : Int
deriving DecidableEq, Repr

/-- Errors and warnings, by their enumerator (error.h:12-62, texts in error.cc:20-71), as far as the
modelled functions use them, and the parser's "syntax error". -/
inductive Err where
  | outOfMemory | unrecognizedEscape | cantOpenInclude | invalidOpcodeOrMode | valueOutOfRange
  | missingParameter | addingSymbol | forRegNested | endSectionWithoutSection | branchOutOfRange
  | orgTwice | initializingVariable | unknownNodeType | unknownOperatorType | divideByZero | infiniteLoop | expectedNext
  | macroParamNotFound | macroParamUnderflow | plusSymInMacro | syntaxError
deriving DecidableEq, Repr

/-- `ExprExpansionType` (expand.cc:63-71). -/
inductive ExpType where
  | macroParameter | dataBytes | dataStrings | print | printAll | symbol
deriving DecidableEq, Repr

/-- `output_file_format` (pasm.h): plain binary or C64 program file. -/
inductive Format where
  | bin | c64
deriving DecidableEq, Repr

/-- `list_table` (genlist.h:6-14) without the link; `print_state` as a truth value (it is only ever 0 or 1,
node.cc:1543-1546, pasm.y:202-203). -/
structure ListEntry where
  /-- `line` -/
  line : Int
  /-- `filename` -/
  file : Str
  /-- `output` -/
  output : Str
  /-- `print_state` -/
  printState : Bool := true
  /-- `list_directive` -/
  directive : Bool := false
deriving DecidableEq, Repr

/-- All state: globals of globals.cc, expand.cc, genoutput.cc, sym.cc, error.cc, the node heap and the
symbol table. -/
structure St where
  /-- `program_counter` -/
  pc : Int := 0x1000
  /-- `origin` (genoutput.cc:21) -/
  origin : Int := 0
  /-- `origin_specified` -/
  originSpecified : Bool := false
  /-- `org_origin_specified` -/
  orgOriginSpecified : Bool := false
  /-- `program_counter_assigned` (expand.cc:40) -/
  pcAssigned : Int := 0
  /-- `code_generated` (expand.cc:41) -/
  codeGenerated : Int := 0
  /-- `max_macro_param` (expand.cc:42) -/
  maxMacroParam : Nat := 0
  /-- `sym_value_changed` (expand.cc:49) -/
  symValueChanged : Nat := 0
  /-- `end_expansion` (expand.cc:165), as a truth value -/
  endExpansion : Bool := false
  /-- `macro_parameter_index` (expand.cc:170) -/
  macroParamIndex : Nat := 0
  /-- `for_x_count` (expand.cc:181) -/
  forX : Int := 0
  /-- `for_y_count` (expand.cc:186) -/
  forY : Int := 0
  /-- `expansion_type` (expand.cc:198) -/
  expansionType : ExpType := .macroParameter
  /-- `data_size` (globals.cc:43) -/
  dataSize : Int := 0
  /-- `current_scope` (expand.cc:105) -/
  currentScope : Option Str := none
  /-- `last_label` (expand.cc:106) -/
  lastLabel : Option Str := none
  /-- `final_pass` -/
  finalPass : Bool := false
  /-- `error_count` (error.cc:14) -/
  errorCount : Nat := 0
  /-- `warning_count` (error.cc:15) -/
  warningCount : Nat := 0
  /-- every error and warning reported so far, oldest first (the messages on the console) -/
  log : List Err := []
  /-- `total_bytes_written` (genoutput.cc:19) -/
  totalBytes : Int := 0
  /-- `byte_delta` (genoutput.cc:20) -/
  byteDelta : Int := 0
  /-- `output_file != NULL` -/
  outputOpen : Bool := false
  /-- contents of the output file -/
  out : List Nat := []
  /-- `output_file_format` -/
  format : Format := .bin
  /-- `cpu_mode` -/
  cpu : Cpu := .c6502
  /-- `allow_illegal_instructions` -/
  allowIllegal : Bool := false
  /-- `plus_symbol_table` (sym.cc:46-48) -/
  plusTab : List PmSym := []
  /-- `minus_symbol_table` (sym.cc:50-52) -/
  minusTab : List PmSym := []
  /-- `macro_dict` (expand.cc:54): name and `times_executed` -/
  macroDict : List (Str × Nat) := []
  /-- `macro_params_stack` (sym.cc:39), top first: the saved values of `\1 … \max` -/
  paramStack : List (List Int) := []
  /-- parse nodes, in allocation order -/
  nodes : List Node := []
  /-- nodes below this index have been freed (`free_parse_tree` at the end of a pass) -/
  nodeBase : Nat := 0
  /-- symbols, in insertion order; they are never removed -/
  syms : List Sym := []
  /-- `current_file_name` -/
  file : Str := []
  /-- `yylineno` -/
  line : Int := 0
  /-- listing, oldest first -/
  listing : List ListEntry := []
  /-- `print_list_state` (expand.cc:56) -/
  printListState : Bool := true
  /-- text written to `console` by `.print`/`.printall` -/
  console : Str := []
  /-- files that can be opened by `.load` and `.inc` -/
  files : List (Str × List Nat) := []
  /-- the files opened by `open_include_file` (file.cc:185-216), oldest first -/
  incs : List Str := []
deriving DecidableEq, Repr

/-- Outcome of running a function: it returns, the process exits, behaviour is undefined, or the fuel of
the model is used up. -/
inductive Res (α : Type) where
  /-- normal return -/
  | ok (a : α)
  /-- `exit(code)` -/
  | exit (code : Int)
  /-- undefined behaviour -/
  | ub
  /-- the model ran out of fuel -/
  | timeout
deriving DecidableEq, Repr

/-- A C++ function acting on the global state.  The final state is reported for all outcomes. -/
def M (α : Type) : Type := St → Res α × St

namespace M

/-- `return a;` -/
def pure {α : Type} (a : α) : M α := fun s => (.ok a, s)

/-- Sequencing: stops at the first abnormal outcome. -/
def bind {α β : Type} (m : M α) (f : α → M β) : M β := fun s =>
  match m s with
  | (.ok a, s') => f a s'
  | (.exit c, s') => (.exit c, s')
  | (.ub, s') => (.ub, s')
  | (.timeout, s') => (.timeout, s')

instance : Monad M where
  pure := M.pure
  bind := M.bind

end M

/-- Read the state. -/
def getS : M St := fun s => (.ok s, s)

/-- Change the state. -/
def modS (f : St → St) : M Unit := fun s => (.ok (), f s)

/-- `exit(code)`. -/
def exitM {α : Type} (code : Int) : M α := fun s => (.exit code, s)

/-- Undefined behaviour. -/
def ubM {α : Type} : M α := fun s => (.ub, s)

/-- Out of fuel. -/
def timeoutM {α : Type} : M α := fun s => (.timeout, s)

/-- An `int` operation that may be undefined. -/
def liftO {α : Type} : Option α → M α
  | some a => M.pure a
  | none => ubM

/-- `error(n)` (error.cc:77-81 and `yyerror`): the message is printed and `error_count` incremented. -/
def error (e : Err) : M Unit :=
  modS fun s => { s with errorCount := s.errorCount + 1, log := s.log ++ [e] }

/-- `warn(n)` (error.cc:87-92). -/
def warn (e : Err) : M Unit :=
  modS fun s => { s with warningCount := s.warningCount + 1, log := s.log ++ [e] }

/-- Dereference a node pointer; undefined for freed or invalid pointers. -/
def node (p : Ptr) : M Node := fun s =>
  if p < s.nodeBase then (.ub, s)
  else match s.nodes[p]? with
    | some n => (.ok n, s)
    | none => (.ub, s)

/-- Store to a node through its pointer. -/
def setNode (p : Ptr) (n : Node) : M Unit := fun s =>
  if p < s.nodeBase ∨ s.nodes.length ≤ p then (.ub, s)
  else (.ok (), { s with nodes := s.nodes.set p n })

/-- `p->op[i]`; undefined when the operand array is shorter. -/
def opAt (n : Node) (i : Nat) : M Ptr := liftO n.ops[i]?

/-- Dereference a symbol pointer. -/
def sym (i : SymPtr) : M Sym := fun s =>
  match s.syms[i]? with
  | some x => (.ok x, s)
  | none => (.ub, s)

/-- Store to a symbol through its pointer. -/
def modSym (i : SymPtr) (f : Sym → Sym) : M Unit := fun s =>
  if i < s.syms.length then (.ok (), { s with syms := s.syms.modify i f }) else (.ub, s)

/-- `allocate_node` (node.cc:56-89): a new node at the end of the heap. -/
def allocNode (k : Kind) (ops : List Ptr) : M Ptr := fun s =>
  (.ok s.nodes.length, { s with nodes := s.nodes ++ [⟨k, ops.length, ops⟩] })

end Verif
