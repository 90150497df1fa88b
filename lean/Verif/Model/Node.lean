import Verif.Model.Output
import Verif.Model.Sym
import Verif.Model.SanitizeString

/-! # Construction of parse nodes (node.cc:98-439) and the uninitialised-symbol test (expand.cc:1989-2025) -/

namespace Verif

/-- `constant_node` (node.cc:98-115). -/
def constantNode (value : Int) (isPc : Bool) : M Ptr := do
  let s ← getS
  allocNode (.con (if isPc then s.pc else value) isPc) []

/-- Content of a string token: quotes are removed (node.cc:134-138), escapes translated, and the result
ends at the first NUL (node.cc:144-151).  The second component is the number of errors reported by
`sanitize_string`. -/
def stringValue (raw : Str) : Option (Str × Nat) :=
  let body := match raw with
    | 39 :: r => r.dropLast
    | 34 :: r => r.dropLast
    | r => r
  (sanitizeString body).map fun (v, e) => (v.takeWhile (· ≠ 0), e)

/-- `string_node` (node.cc:120-154). -/
def stringNode (raw : Str) : M Ptr := do
  let (v, e) ← liftO (stringValue raw)
  forEachM (fun _ => error .unrecognizedEscape) (List.replicate e ())
  allocNode (.str v) []

/-- `id_node`, `macro_id_node` (node.cc:156-187, 210-213). -/
def idNode (k : IdKind) (name : Str) : M Ptr := allocNode (.id k name none) []

/-- `label_node` (node.cc:194-203). -/
def labelNode (name : Str) : M Ptr := do
  let s ← getS
  match name with
  | 64 :: _ =>
    match s.lastLabel with
    | some l => idNode .label (formatLocal name l)
    | none => idNode .label name
  | 45 :: _ | 43 :: _ => idNode .label name
  | _ => do
    modS fun s => { s with lastLabel := some name }
    idNode .label name

/-- `macro_expand_node` (node.cc:230-251). -/
def macroExpandNode (name : Str) (params : Option Ptr) : M Ptr := do
  let m ← idNode .macroId name
  allocNode (.macroEx name m params) []

/-- `data_node` (node.cc:259-277). -/
def dataNode (size : Int) (data : Ptr) : M Ptr := allocNode (.data size data) []

/-- `operator_node` (node.cc:285-312). -/
def operatorNode (op : Opr) (ops : List Ptr) : M Ptr := allocNode (.opr op) ops

/-- `is_uninitialized_symbol` (expand.cc:1989-2002). -/
def isUninitSym (p : Ptr) : M Bool := do
  let n ← node p
  match n.kind with
  | .id .id _ none | .id .label _ none => M.pure true
  | .id .id _ (some i) | .id .label _ (some i) => do
    let x ← sym i
    M.pure (!x.isMacroParam && !x.isMacroName && !x.isInit)
  | _ => M.pure false

/-- `has_uninitialized_symbol` (expand.cc:2008-2016), recursion bounded by fuel. -/
def hasUninit : Nat → Ptr → M Bool
  | 0, _ => timeoutM
  | f + 1, p => do
    let n ← node p
    let os ← operands n
    let r ← eachM (fun (_ : Unit) o => do
      let a ← hasUninit f o
      if a then M.pure none
      else do
        let b ← isUninitSym o
        M.pure (if b then none else some ())) os ()
    M.pure r.isNone

/-- `get_op_code` (opcodes.cc) with the current processor and switch. -/
def opCodeM (ins : Int) (mode : Mode) : M Int := do
  let s ← getS
  M.pure (getOpCode s.cpu s.allowIllegal ins mode)

/-- The zero page form of a mode (`switch` node.cc:379-417); other modes stay. -/
def zpForm : Mode → Mode
  | .a => .zp
  | .aix => .izx
  | .ax => .zpx
  | .ay => .zpy
  | .ind => .zpi
  | m => m

/-- Value of the last operand, 0 without operands (node.cc:346-355). -/
def lastValue (ex : Ptr → M Int) (ops : List Ptr) : M Int := do
  let r ← eachM (fun (_ : Int) o => do
    let v ← ex o
    M.pure (some v)) ops 0
  M.pure (r.getD 0)

/-- Does the node stand for the accumulator (`pp->type == type_id && stricmp(name, "A") == 0`,
node.cc:365)? -/
def isAccNode (n : Node) : Bool :=
  match n.kind with
  | .id .id name _ => stricmp name [65] == 0
  | _ => false

/-- `ASL A`: in absolute mode with the operand `A` (node.cc:360-371). -/
def isAccOperand (mode : Mode) (ops : List Ptr) : M Bool :=
  match mode, ops with
  | .a, o :: _ => do
    let on ← node o
    M.pure (isAccNode on)
  | _, _ => M.pure false

/-- Choice of mode and opcode by `opcode_node` (node.cc:373-427): `small` is the condition "value fits a byte
and all symbols are known". -/
def chooseMode (get : Mode → Int) (mode : Mode) (small : Bool) : Mode × Int :=
  let code := get mode
  let newMode := if small || code == -1 then zpForm mode else mode
  if newMode ≠ mode ∧ get newMode ≠ -1 then (newMode, get newMode) else (mode, code)

/-- `opcode_node` (node.cc:321-439). -/
def opcodeNode (ex : Ptr → M Int) (hu : Ptr → M Bool) (op : Int) (mode0 : Mode) (ops : List Ptr) :
    M Ptr := do
  let s0 ← getS
  let mode := if getOpCode s0.cpu s0.allowIllegal op .r ≠ -1 then .r else mode0
  let p ← allocNode (.opcode op 0 mode 0) ops
  let val ← lastValue ex ops
  let un ← hu p
  let acc ← isAccOperand mode ops
  let mode1 := if acc then Mode.A else mode
  let s ← getS
  let small := decide (cand val (cnot 0xFF) = 0) && !un
  let (mode2, code) := chooseMode (getOpCode s.cpu s.allowIllegal op) mode1 small
  setNode p ⟨.opcode op code mode2 0, if acc then ops.length - 1 else ops.length, ops⟩
  forEachM (fun o => do
    let _ ← ex o
    M.pure ()) ops
  (if code < 0 then error .invalidOpcodeOrMode else M.pure ())
  M.pure p

end Verif
