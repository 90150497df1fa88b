import Verif.Model.Node

/-! # `expand_node` and its handlers (expand.cc)

Every handler takes the recursive call `ex` (`expand_node`).  Where a handler contains a loop without a
syntactic bound, or calls `has_uninitialized_symbol`, it also takes fuel `f`. -/

namespace Verif

/-- Change the opcode part of an opcode node (`p->opcode.… = …`). -/
def modOpcode (p : Ptr) (g : Int → Int → Mode → Int → Kind) : M Unit := do
  let n ← node p
  match n.kind with
  | .opcode ins code mode pc => setNode p { n with kind := g ins code mode pc }
  | _ => ubM

/-- `program_counter += d`. -/
def addPc (d : Int) : M Unit := modS fun s => { s with pc := s.pc + d }

/-- `if (p->id.i == nullptr) p->id.i = add_symbol(p->id.name)`; with `force` the symbol is looked up again
(expand.cc:513-527, 538-548, 1137-1141, 1518-1532, 1716-1718). -/
def resolveId (force : Bool) (p : Ptr) : M (Option SymPtr) := do
  let n ← node p
  match n.kind with
  | .id k name i =>
    match i, force with
    | some i, false => M.pure (some i)
    | _, _ => do
      let j ← addSymbol name
      setNode p { n with kind := .id k name j }
      M.pure j
  | _ => ubM

/-! ## Leaves -/

/-- `expand_constant_node` (expand.cc:325-335). -/
def expandConstant (p : Ptr) (value : Int) (isPc : Bool) : M Int := do
  if isPc then do
    let s ← getS
    let n ← node p
    setNode p { n with kind := .con s.pc true }
    M.pure s.pc
  else M.pure value

/-- `is_plus_minus_symbol_name_valid` (expand.cc:310-320). -/
def pmNameValid (name : Str) : Bool := name.all fun c => name.head? == some c

/-- `expand_plus_minus_node` (expand.cc:475-501).  Reading past the plus table is undefined. -/
def expandPlusMinus (p : Ptr) : M Int := do
  let n ← node p
  match n.kind with
  | .id _ name _ =>
    if pmNameValid name then do
      let s ← getS
      let minus := name.head? == some 45
      let index := if minus then findMinus s.minusTab name.length s.file s.line
        else findPlus s.plusTab name.length s.file s.line
      let i? ← resolveId false p
      let i ← liftO i?
      modSym i fun x => { x with isPlusMinus := true }
      (match index with
        | some ix => do
          let e ← liftO ((if minus then s.minusTab else s.plusTab)[ix]?)
          modSym i fun x => { x with value := e.value, isInit := true }
        | none => M.pure ())
      let x ← sym i
      M.pure x.value
    else do
      error .addingSymbol
      M.pure 0
  | _ => ubM

/-- `sym->is_initialized ? sym->value : 0` (expand.cc:527, 552). -/
def symValue (i : SymPtr) : M Int := do
  let x ← sym i
  M.pure (if x.isInit then x.value else 0)

/-- Does the name start with `+` or `-` (expand.cc:508, 535)? -/
def isPmName : Str → Bool
  | 43 :: _ => true
  | 45 :: _ => true
  | _ => false

/-- `expand_id_node` (expand.cc:506-528). -/
def expandId (p : Ptr) (name : Str) : M Int :=
  if isPmName name then expandPlusMinus p
  else do
    let i? ← resolveId (name.head? == some 64) p
    match i? with
    | some i => symValue i
    | none => M.pure 0

/-- `expand_label_node` (expand.cc:533-553).  Label nodes have no operands. -/
def expandLabel (p : Ptr) (name : Str) : M Int :=
  if isPmName name then expandPlusMinus p
  else do
    let i? ← resolveId false p
    match i? with
    | some i => symValue i
    | none => do
      error .outOfMemory
      exitM (-1)

/-! ## Data -/

/-- `expand_data_node` (expand.cc:683-696). -/
def expandData (ex : Ptr → M Int) (size : Int) (data : Ptr) : M Int := do
  modS fun s => { s with
    originSpecified := true
    expansionType := if size = 0 then .dataStrings else .dataBytes
    dataSize := size }
  ex data

/-- One iteration of the loop in `expand_operator_fill_node` (expand.cc:364-402): the remaining count after
writing two bytes, or one if only one is left. -/
def fillStep (ex : Ptr → M Int) (count : Int) (two one : Ptr) : M Int := do
  let w : Int := if count > 1 then 2 else 1
  let p := if count > 1 then two else one
  modS fun s => { s with dataSize := w }
  let b ← generateOutput ex p
  let bytes := if b = 0 then w else b
  generateListNode ex p
  addPc bytes
  M.pure (count - bytes)

/-- The loop of `expand_operator_fill_node` (expand.cc:364-402). -/
def fillLoop (ex : Ptr → M Int) (two one : Ptr) : Nat → Int → M Unit
  | 0, count => if count > 0 then timeoutM else M.pure ()
  | f + 1, count =>
    if count > 0 then do
      let c ← fillStep ex count two one
      fillLoop ex two one f c
    else M.pure ()

/-- `expand_operator_fill_node` (expand.cc:351-411).  Simplification: both helper nodes are allocated before
the loop instead of on first use (they are not visible anywhere else). -/
def expandFill (ex : Ptr → M Int) (f : Nat) (n : Node) : M Int := do
  let o0 ← opAt n 0
  let byt ← ex o0
  let o1 ← opAt n 1
  let count ← ex o1
  if byt < 0 ∨ byt > 255 ∨ count < 0 then do
    error .valueOutOfRange
    exitM (-1)
  else do
    let s ← getS
    (if s.finalPass then do
      modS fun s => { s with dataSize := 0 }
      let c2 ← constantNode (byt * 256 + byt) false
      let two ← dataNode 2 c2
      let c1 ← constantNode byt false
      let one ← dataNode 1 c1
      fillLoop ex two one f count
    else addPc (if count > 0 then count else 1))
    M.pure byt

/-- One data statement produced by `.load` (expand.cc:437-452). -/
def loadEmit (ex : Ptr → M Int) (size value : Int) : M Unit := do
  modS fun s => { s with dataSize := size }
  let c ← constantNode value false
  let l ← operatorNode .exprList [c]
  let d ← dataNode size l
  let _ ← ex d
  M.pure ()

/-- The loop of `expand_operator_load_node` (expand.cc:430-455): the contents as words and, for an odd length,
a final byte.  Simplification: `ftell`/`feof` positions are represented by the rest of the contents. -/
def loadLoop (ex : Ptr → M Int) : List Nat → M Unit
  | a :: b :: rest => do
    loadEmit ex 2 ((a % 256 : Nat) + 256 * (b % 256 : Nat))
    loadLoop ex rest
  | [a] => loadEmit ex 1 (a % 256 : Nat)
  | [] => M.pure ()

/-- `expand_operator_load_node` (expand.cc:416-458).  A file that cannot be opened is reported and then
used (`fseek(NULL, …)`, undefined).  The search path is modelled in `Model/File`. -/
def expandLoad (ex : Ptr → M Int) (n : Node) : M Int := do
  let o ← opAt n 0
  let on ← node o
  match on.kind with
  | .str v => do
    let s ← getS
    match s.files.find? (fun e => e.1 == v) with
    | some (_, bytes) => do
      loadLoop ex bytes
      M.pure 1
    | none => do
      error .cantOpenInclude
      ubM
  | _ => ubM

/-- `expand_operator_include_node` (expand.cc:340-346) and `open_include_file` (file.cc:185-216).  What the scanner does
with the opened file is modelled in `Model/Include`; here it is added to `incs`.  The search path is modelled in
`Model/File`; the file name is never null. -/
def expandInclude (n : Node) : M Int := do
  let o ← opAt n 0
  let on ← node o
  match on.kind with
  | .str v => do
    let s ← getS
    (if s.finalPass then addList [] else M.pure ())
    modS fun s => { s with file := v, line := 0 }
    (if s.finalPass then addList [] else M.pure ())
    if (s.files.find? (fun e => e.1 == v)).isSome then do
      modS fun s => { s with incs := s.incs ++ [v] }
      M.pure 1
    else do
      error .cantOpenInclude
      exitM (-1)
  | _ => ubM

/-! ## Sections -/

/-- `expand_operator_section_node` (expand.cc:701-729). -/
def expandSection (n : Node) : M Int := do
  let o ← opAt n 0
  let on ← node o
  match on.kind with
  | .id _ name _ => do
    modS fun s => { s with
      currentScope := some (match s.currentScope with
        | some sc => dotted sc name
        | none => name) }
    M.pure 0
  | _ => ubM

/-- The part of the scope before the last dot (loop expand.cc:744-752). -/
def outerScope (sc : Str) : Option Str := (splitLastDot sc).map (·.1)

/-- `expand_operator_end_section_node` (expand.cc:736-755). -/
def expandEndSection : M Int := do
  let s ← getS
  match s.currentScope with
  | none => do
    error .endSectionWithoutSection
    M.pure 0
  | some sc => do
    modS fun s => { s with currentScope := outerScope sc }
    M.pure 0

/-! ## Instructions -/

/-- Operand size used for the checks, and the mode tried by the zero page optimisation
(`switch` expand.cc:812-858). -/
def opShape : Mode → Int × Mode
  | .A => (0, .A)
  | .i => (0, .i)
  | .I => (1, .I)
  | .zp => (1, .zp)
  | .zpi => (1, .zpi)
  | .zpx => (1, .zpx)
  | .zpy => (1, .zpy)
  | .izx => (1, .izx)
  | .izy => (1, .izy)
  | .r => (2, .r)
  | .a => (2, .zp)
  | .aix => (2, .izx)
  | .ax => (2, .zpx)
  | .ay => (2, .zpy)
  | .ind => (2, .zpi)

/-- The 16-bit form of a zero page mode (`switch` expand.cc:885-906). -/
def wideForm : Mode → Option Mode
  | .zp => some .a
  | .zpi => some .ind
  | .zpx => some .ax
  | .zpy => some .ay
  | _ => none

/-- The inverted branch (`switch` expand.cc:925-953); `bvc`, `bvs`, `bra` are not inverted. -/
def invertBranch (ins : Int) : Int :=
  if ins = Ins._bcs then Ins._bcc
  else if ins = Ins._bcc then Ins._bcs
  else if ins = Ins._bne then Ins._beq
  else if ins = Ins._beq then Ins._bne
  else if ins = Ins._bmi then Ins._bpl
  else if ins = Ins._bpl then Ins._bmi
  else ins

/-- Number of operand bytes of an opcode node (`get_op_code_byte_count`, genoutput.cc:314-352). -/
def opNodeBytes (p : Ptr) : M Int := do
  let n ← node p
  match n.kind with
  | .opcode _ _ mode _ => M.pure (opByteCount mode)
  | _ => M.pure 0

/-- `generate_list_node(p); generate_output(output_file, p);` in the final pass (expand.cc:966-968, 974-975,
1003-1004, 1227-1228). -/
def emitNode (ex : Ptr → M Int) (p : Ptr) : M Unit := do
  generateListNode ex p
  let _ ← generateOutput ex p
  M.pure ()

/-- A branch that is out of range becomes an inverted branch over a `jmp` (expand.cc:954-987).  The node's
instruction has already been replaced; `code2` is its opcode, `code`/`mode` the values to restore. -/
def longBranch (ex : Ptr → M Int) (hu : Ptr → M Bool) (p target : Ptr) (code code2 : Int) (mode : Mode) :
    M Unit := do
  let jmp ← opcodeNode ex hu Ins._jmp .a [target]
  modOpcode p fun ins _ m pc => .opcode ins code2 m pc
  let s ← getS
  (if s.finalPass then do
    let c ← constantNode (s.pc + 5) false
    let n ← node p
    setNode p { n with ops := n.ops.set 0 c }
    emitNode ex p
  else M.pure ())
  let b ← opNodeBytes p
  addPc (b + 1)
  let s ← getS
  (if s.finalPass then do
    modOpcode jmp fun ins c m _ => .opcode ins c m s.pc
    emitNode ex jmp
    warn .branchOutOfRange
  else M.pure ())
  let b ← opNodeBytes jmp
  addPc (b + 1)
  modOpcode p fun ins _ _ pc => .opcode ins code mode pc

/-- `pp->type == type_id` and the name starts with `@`, `-` or `+` (expand.cc:871-873). -/
def isLocalRef (n : Node) : Bool :=
  match n.kind with
  | .id .id (c :: _) _ => c == 64 || c == 45 || c == 43
  | _ => false

/-- Page zero optimisation (expand.cc:992-1000). -/
def zpOptimize (p : Ptr) (ins : Int) (large : Bool) (mode modeCheck : Mode) : M Unit :=
  if large = false ∧ mode ≠ modeCheck then do
    let code2 ← opCodeM ins modeCheck
    if code2 ≠ -1 then modOpcode p fun ins _ _ pc => .opcode ins code2 modeCheck pc
    else M.pure ()
  else M.pure ()

/-- A value that needs 16 bits in a zero page mode selects the absolute form (expand.cc:880-916). -/
def widen (p : Ptr) (ins : Int) (mode modeCheck : Mode) : M Unit := do
  (if wideForm mode = none then error .valueOutOfRange else M.pure ())
  let mc := (wideForm mode).getD modeCheck
  let code2 ← opCodeM ins mc
  if code2 ≠ -1 then modOpcode p fun ins _ _ pc => .opcode ins code2 mc pc
  else error .valueOutOfRange

/-- The operand loop of `expand_op_code_node` and the zero page optimisation (expand.cc:860-1000).  True when
the statement was completed as a long branch (`return 0`, line 986).  Simplification: opcode nodes have
at most one operand (pasm.y:186-193 and all calls of `opcode_node`), so the loop runs at most once. -/
def operandPhase (ex : Ptr → M Int) (hu : Ptr → M Bool) (p : Ptr) (n : Node) (ins code : Int)
    (mode : Mode) (pc : Int) : M Bool := do
  let opBytes := (opShape mode).1
  let modeCheck := (opShape mode).2
  if n.numOps = 0 then do
    zpOptimize p ins false mode modeCheck
    M.pure false
  else do
    let pp ← opAt n 0
    let v0 ← ex pp
    let ppn ← node pp
    let s ← getS
    let v := if v0 = 0 ∧ mode = .r ∧ isLocalRef ppn = true then s.pc else v0
    let large := decide (cand v (cnot 0xFF) ≠ 0)
    if opBytes < 2 ∧ large = true ∧ cand v (cnot 0xFFFF) = 0 then do
      widen p ins mode modeCheck
      M.pure false
    else
      if mode = .r then do
        let d ← liftO (branchDisp v pc)
        if branchBad d then do
          let ins' := invertBranch ins
          modOpcode p fun _ c m pc => .opcode ins' c m pc
          let code2 ← opCodeM ins' .r
          if code2 ≠ -1 then do
            longBranch ex hu p pp code code2 mode
            M.pure true
          else do
            zpOptimize p ins' large mode modeCheck
            M.pure false
        else do
          zpOptimize p ins large mode modeCheck
          M.pure false
      else do
        zpOptimize p ins large mode modeCheck
        M.pure false

/-- `expand_op_code_node` (expand.cc:800-1017). -/
def expandOpCode (ex : Ptr → M Int) (hu : Ptr → M Bool) (p : Ptr) : M Int := do
  let n ← node p
  match n.kind with
  | .opcode ins code mode _ => do
    modS fun s => if s.pcAssigned > 0 then { s with originSpecified := true } else s
    let s ← getS
    setNode p { n with kind := .opcode ins code mode s.pc }
    let done ← (if (opShape mode).1 > 0 then do
        let u ← hu p
        if u then M.pure false else operandPhase ex hu p n ins code mode s.pc
      else M.pure false)
    if done then M.pure 0
    else do
      let s ← getS
      (if s.finalPass then emitNode ex p else M.pure ())
      let b ← opNodeBytes p
      addPc (b + 1)
      modS fun s => { s with codeGenerated := s.codeGenerated + b + 1 }
      modOpcode p fun ins _ _ pc => .opcode ins code mode pc
      M.pure 0
  | _ => ubM

/-! ## Register loops -/

/-- Build an instruction with an immediate or relative constant operand and expand it (expand.cc:604-606,
632-633, 637-646, 650-671). -/
def injectOp (ex : Ptr → M Int) (hu : Ptr → M Bool) (ins : Int) (mode : Mode) (arg : Option Int) :
    M Unit := do
  let ops ← (match arg with
    | some v => do
      let c ← constantNode v false
      M.pure [c]
    | none => M.pure [])
  let p ← opcodeNode ex hu ins mode ops
  let _ ← ex p
  M.pure ()

/-- The nest counter of a register (`for_x_count`, `for_y_count`). -/
def forCount (isX : Bool) (s : St) : Int := if isX then s.forX else s.forY

/-- Add to the nest counter of a register. -/
def addForCount (isX : Bool) (d : Int) : M Unit :=
  modS fun s => if isX then { s with forX := s.forX + d } else { s with forY := s.forY + d }

/-- `if (--*for_loop_counter != 0) error(…)` (expand.cc:621-625, 673-676). -/
def leaveForReg (isX : Bool) : M Int := do
  addForCount isX (-1)
  let s ← getS
  (if forCount isX s ≠ 0 then error .valueOutOfRange else M.pure ())
  M.pure 0

/-- The code after the first body of a register loop (expand.cc:630-671). -/
def forRegTail (ex : Ptr → M Int) (hu : Ptr → M Bool) (isX : Bool) (endV inc startPc : Int) : M Unit := do
  injectOp ex hu (if inc > 0 then (if isX then Ins._inx else Ins._iny)
    else (if isX then Ins._dex else Ins._dey)) .i none
  (if endV ≠ 0 then
    injectOp ex hu (if isX then Ins._cpx else Ins._cpy) .I
      (some (if inc > 0 ∧ endV < 255 then endV + 1 else endV))
  else M.pure ())
  if inc > 0 then
    if endV < 255 then injectOp ex hu Ins._bcc .r (some startPc)
    else injectOp ex hu Ins._bne .r (some startPc)
  else if inc < 0 then injectOp ex hu Ins._bcs .r (some startPc)
  else M.pure ()

/-- `expand_operator_for_reg_node` (expand.cc:558-678). -/
def expandForReg (ex : Ptr → M Int) (hu : Ptr → M Bool) (isX : Bool) (n : Node) : M Int := do
  let s ← getS
  if forCount isX s > 0 then do
    error .forRegNested
    M.pure 0
  else do
    let o0 ← opAt n 0
    let start ← ex o0
    if start < 0 ∨ start > 255 then do
      error .valueOutOfRange
      M.pure 0
    else do
      let o1 ← opAt n 1
      let endV ← ex o1
      if endV < 0 ∨ endV > 255 then do
        error .valueOutOfRange
        M.pure 0
      else do
        let o3 ← opAt n 3
        let inc ← ex o3
        if (inc > 0 ∧ start > endV) ∨ (inc < 0 ∧ start < endV) then M.pure 0
        else do
          addForCount isX 1
          let s ← getS
          (if forCount isX s ≠ 1 then error .valueOutOfRange else M.pure ())
          injectOp ex hu (if isX then Ins._ldx else Ins._ldy) .I (some start)
          let s ← getS
          let o2 ← opAt n 2
          let _ ← ex o2
          if start = endV then leaveForReg isX
          else do
            forRegTail ex hu isX endV inc s.pc
            leaveForReg isX

/-! ## Location counter -/

/-- `expand_operator_program_counter_assign_node` (expand.cc:1080-1089). -/
def expandPcAssign (ex : Ptr → M Int) (n : Node) : M Int := do
  modS fun s => { s with pcAssigned := s.pcAssigned + 1 }
  let o ← opAt n 0
  let op ← ex o
  modS fun s => { s with originSpecified := true, pc := op, origin := op }
  M.pure 0

/-- `expand_operator_org_node` (expand.cc:1096-1111). -/
def expandOrg (ex : Ptr → M Int) (n : Node) : M Int := do
  modS fun s => { s with pcAssigned := s.pcAssigned + 1 }
  let s ← getS
  if s.orgOriginSpecified then do
    error .orgTwice
    M.pure 0
  else do
    let o ← opAt n 0
    let op ← ex o
    modS fun s => { s with pc := op, origin := op, originSpecified := true, orgOriginSpecified := true }
    M.pure 0

/-- `expand_operator_ds_node` (expand.cc:1627-1643). -/
def expandDs (ex : Ptr → M Int) (n : Node) : M Int := do
  let o ← opAt n 0
  let op ← ex o
  if op < 0 then do
    error .valueOutOfRange
    exitM (-1)
  else do
    addPc (if op > 0 then op else 1)
    M.pure op

/-! ## Expression lists -/

/-- A name in a `.var` list (expand.cc:1136-1158): it becomes a variable with value 0 (a label: the location
counter).  `cached` tells whether the node was already bound to its symbol. -/
def varName (label cached : Bool) (pp : Ptr) : M (Option (Option SymPtr)) := do
  let r ← resolveId false pp
  match r with
  | none => do
    error .addingSymbol
    M.pure (some none)
  | some j => do
    (if cached = false then modSym j fun x => { x with isVar := true } else M.pure ())
    let s ← getS
    modSym j fun x => { x with value := if label then s.pc else 0, isInit := true }
    M.pure (some (some j))

/-- `.var` item (expand.cc:1136-1172): a name declares a variable, any other expression sets the variable
before it. -/
def varItem (ex : Ptr → M Int) (acc : Option SymPtr) (pp : Ptr) (n : Node) :
    M (Option (Option SymPtr)) :=
  match n.kind with
  | .id .id _ i => varName false i.isSome pp
  | .id .label _ i => varName true i.isSome pp
  | _ =>
    match acc with
    | some j => do
      let v ← ex pp
      setSymbolValue j v
      M.pure (some none)
    | none => do
      error .initializingVariable
      M.pure none

/-- May a node of this kind be a macro argument (expand.cc:1176-1190)? -/
def macroArgOk : Kind → Bool
  | .con _ _ => true
  | .id .id _ _ => true
  | .id .label _ _ => true
  | .opr _ => true
  | _ => false

/-- Macro argument (expand.cc:1175-1207): assigned to the next parameter symbol `\n`. -/
def macroArg (ex : Ptr → M Int) (pp : Ptr) (n : Node) : M (Option (Option SymPtr)) :=
  if macroArgOk n.kind then do
    modS fun s => { s with
      macroParamIndex := s.macroParamIndex + 1
      maxMacroParam := max s.maxMacroParam (s.macroParamIndex + 1) }
    let s ← getS
    let r ← addSymbol (92 :: decStr s.macroParamIndex)
    match r with
    | some j => do
      let v ← ex pp
      setSymbolValue j v
      modSym j fun x => { x with isInit := true }
      M.pure (some (some j))
    | none => do
      error .outOfMemory
      exitM (-1)
  else do
    error .valueOutOfRange
    M.pure none

/-- May a node of this kind be a data item (expand.cc:1215-1229, 1243-1248)? -/
def dataItemOk : Kind → Bool
  | .str _ => true
  | k => macroArgOk k

/-- `.byte`/`.word` item (expand.cc:1209-1240). -/
def dataBytesItem (ex : Ptr → M Int) (hu : Ptr → M Bool) (acc : Option SymPtr) (pp : Ptr) (n : Node) :
    M (Option (Option SymPtr)) := do
  let u ← hu pp
  let s ← getS
  if u = false ∧ s.finalPass = true ∧ dataItemOk n.kind = false then do
    error .valueOutOfRange
    M.pure none
  else do
    (if u = false ∧ s.finalPass = true then emitNode ex pp else M.pure ())
    let s ← getS
    (match n.kind with
      | .str v => addPc (if v.length % 2 = 1 ∧ s.dataSize = 2 then v.length + 1 else v.length)
      | _ => addPc s.dataSize)
    M.pure (some acc)

/-- `.str` item (expand.cc:1242-1266). -/
def dataStringsItem (ex : Ptr → M Int) (acc : Option SymPtr) (pp : Ptr) (n : Node) :
    M (Option (Option SymPtr)) :=
  if dataItemOk n.kind then do
    let s ← getS
    (if s.finalPass then emitNode ex pp else M.pure ())
    (match n.kind with
      | .str v => addPc v.length
      | _ => do
        let op ← ex pp
        addPc (if cand op 0xFF00 / 256 ≠ 0 then 2 else 1))
    M.pure (some acc)
  else do
    error .valueOutOfRange
    M.pure none

/-- `.print`/`.printall` item (expand.cc:1268-1298). -/
def printItem (ex : Ptr → M Int) (all : Bool) (acc : Option SymPtr) (pp : Ptr) (n : Node) :
    M (Option (Option SymPtr)) := do
  let txt ← (match n.kind with
    | .str v => M.pure (32 :: v)
    | _ => do
      let op ← ex pp
      let hi := cand op 0xFF00 / 256
      M.pure ((if hi ≠ 0 then [32, 36] ++ hexStr 2 hi.toNat else []) ++
        [32, 36] ++ hexStr 2 (cand op 0xFF).toNat))
  modS fun s => if s.finalPass || all then { s with console := s.console ++ txt } else s
  M.pure (some acc)

/-- One operand of an expression list (body of the loop expand.cc:1123-1300).  The accumulator is the local
variable `symbol_ptr`. -/
def exprListItem (ex : Ptr → M Int) (hu : Ptr → M Bool) (acc : Option SymPtr) (pp : Ptr) :
    M (Option (Option SymPtr)) := do
  let n ← node pp
  if n.kind = .opr .exprList then do
    let _ ← ex pp
    M.pure (some acc)
  else do
    let os ← operands n
    forEachM (fun o => do
      let _ ← ex o
      M.pure ()) os
    let n ← node pp
    let s ← getS
    match s.expansionType with
    | .symbol => varItem ex acc pp n
    | .macroParameter => macroArg ex pp n
    | .dataBytes => dataBytesItem ex hu acc pp n
    | .dataStrings => dataStringsItem ex acc pp n
    | .printAll => printItem ex true acc pp n
    | .print => printItem ex false acc pp n

/-- `expand_operator_expression_list_node` (expand.cc:1118-1302). -/
def expandExprList (ex : Ptr → M Int) (hu : Ptr → M Bool) (n : Node) : M Int := do
  let os ← operands n
  let _ ← eachM (exprListItem ex hu) os none
  M.pure 0

/-- `expand_operator_variable_node` (expand.cc:463-473). -/
def expandVariable (ex : Ptr → M Int) (n : Node) : M Int := do
  let o ← opAt n 0
  modS fun s => { s with expansionType := .symbol }
  ex o

/-- `expand_operator_print_all_node`, `expand_operator_print_node` (expand.cc:1594-1622). -/
def expandPrint (ex : Ptr → M Int) (all : Bool) (n : Node) : M Int := do
  modS fun s => { s with expansionType := if all then .printAll else .print }
  let os ← operands n
  forEachM (fun o => do
    let _ ← ex o
    M.pure ()) os
  modS fun s => if s.finalPass || all then { s with console := s.console ++ [10] } else s
  M.pure 0

/-! ## Macros -/

/-- `dict_search(macro_dict, name)` (expand.cc:1317): string keys, up to case. -/
def macroCount (d : List (Str × Nat)) (name : Str) : Option Nat :=
  (d.find? fun e => stricmp e.1 name == 0).map (·.2)

/-- `create_macro_entry` (expand.cc:1312-1330): true when the entry existed.  A new entry is copied into the
dictionary, but the caller gets the original, so its updates are lost.  (The copy reads 8 bytes of a
4-byte allocation; only the first 4 matter, and the over-read is not modelled.) -/
def createMacroEntry (name : Str) : M Bool := do
  let s ← getS
  match macroCount s.macroDict name with
  | some _ => M.pure true
  | none => do
    modS fun s => { s with macroDict := s.macroDict ++ [(name, 0)] }
    M.pure false

/-- `macro_dict_entry->times_executed` for the entry returned by `create_macro_entry`. -/
def entryCount (name : Str) (found : Bool) : M Nat := do
  let s ← getS
  M.pure (if found then (macroCount s.macroDict name).getD 0 else 0)

/-- `macro_dict_entry->times_executed++` (expand.cc:1408); lost for an orphan entry. -/
def bumpMacro (name : Str) (found : Bool) : M Unit :=
  modS fun s =>
    if found then
      { s with macroDict := s.macroDict.map fun e =>
          if stricmp e.1 name == 0 then (e.1, e.2 + 1) else e }
    else s

/-- `expand_macro_id_node` (expand.cc:1362-1383). -/
def expandMacroId (ex : Ptr → M Int) (p : Ptr) (name : Str) : M Int := do
  let found ← createMacroEntry name
  let s0 ← getS
  let cnt ← entryCount name found
  modS fun s => { s with lastLabel := some (name ++ [58, 58] ++ hexStr 8 cnt) }
  let _ ← expandId p name
  let n ← node p
  match n.kind with
  | .id _ _ (some i) => do
    let x ← sym i
    match x.macroNode with
    | none => do
      modS fun s => { s with lastLabel := s0.lastLabel }
      M.pure 0
    | some b => do
      let _ ← ex b
      modS fun s => { s with lastLabel := s0.lastLabel }
      let x ← sym i
      M.pure x.value
  | .id _ _ none => do
    modS fun s => { s with lastLabel := s0.lastLabel }
    M.pure 0
  | _ => ubM

/-- `expand_macro_expansion_node` (expand.cc:1390-1414). -/
def expandMacroEx (ex : Ptr → M Int) (name : Str) (body : Ptr) (params : Option Ptr) : M Int := do
  let found ← createMacroEntry name
  pushMacroParams
  modS fun s => { s with expansionType := .macroParameter, macroParamIndex := 0 }
  (match params with
    | some q => do
      let _ ← ex q
      M.pure ()
    | none => M.pure ())
  let s ← getS
  let cnt ← entryCount name found
  modS fun s => { s with lastLabel := some (name ++ [58, 58] ++ hexStr 4 cnt) }
  let _ ← ex body
  bumpMacro name found
  modS fun s' => { s' with lastLabel := s.lastLabel }
  popMacroParams
  M.pure 0

/-- `expand_operator_macro_definition_node` (expand.cc:1421-1440).  The write to `p->id.i` does not touch
`p->opr.opr` (different offset in the union, node.h:35-46) and is not modelled. -/
def expandMacroDef (n : Node) : M Int := do
  let o ← opAt n 0
  let on ← node o
  match on.kind with
  | .id _ name _ => do
    let _ ← createMacroEntry name
    let r ← addSymbol name
    match r with
    | some i => do
      let b ← opAt n 1
      let s ← getS
      modSym i fun x => { x with isMacroName := true, isInit := true, macroNode := some b, value := s.pc }
      M.pure 0
    | none => do
      error .outOfMemory
      exitM (-1)
  | _ => ubM

/-! ## Control flow -/

/-- `if (program_counter > max_address) { error(…); return 0; }` (expand.cc:1453-1457, 1472-1476, 1491-1495,
1550-1554): true when the limit is exceeded. -/
def pcOverflow : M Bool := do
  let s ← getS
  if s.pc > 0xFFFF then do
    error .infiniteLoop
    M.pure true
  else M.pure false

/-- `expand_operator_while_node` (expand.cc:1447-1460). -/
def expandWhile (ex : Ptr → M Int) (f : Nat) (n : Node) : M Int := do
  loopM f do
    let o0 ← opAt n 0
    let c ← ex o0
    if c ≠ 0 then do
      let o1 ← opAt n 1
      let _ ← ex o1
      let stop ← pcOverflow
      M.pure (!stop)
    else M.pure false
  M.pure 0

/-- `expand_operator_repeat_node` (expand.cc:1467-1480) for `untl = true`, `expand_operator_do_node`
(expand.cc:1487-1499) for `untl = false`. -/
def expandRepeat (ex : Ptr → M Int) (f : Nat) (untl : Bool) (n : Node) : M Int := do
  loopM f do
    let o0 ← opAt n 0
    let _ ← ex o0
    let stop ← pcOverflow
    if stop then M.pure false
    else do
      let o1 ← opAt n 1
      let c ← ex o1
      M.pure (if untl then c == 0 else c != 0)
  M.pure 0

/-- One round of the loop in `expand_operator_for_node` (expand.cc:1541-1557). -/
def forStep (ex : Ptr → M Int) (i : SymPtr) (stepV endV : Int) (body : Ptr) : M Bool := do
  let x ← sym i
  if (stepV > 0 ∧ x.value > endV) ∨ (stepV < 0 ∧ x.value < endV) then M.pure false
  else do
    let _ ← ex body
    let stop ← pcOverflow
    if stop then M.pure false
    else do
      let x ← sym i
      let v ← liftO (cchk (x.value + stepV))
      setSymbolValue i v
      M.pure true

/-- `add_symbol` returned `NULL`: `error(error_out_of_memory); exit(-1);` (expand.cc:1522-1526, 1533-1537). -/
def needSym (r : Option SymPtr) : M SymPtr :=
  match r with
  | some i => M.pure i
  | none => do
    error .outOfMemory
    exitM (-1)

/-- `expand_operator_for_node` (expand.cc:1506-1569). -/
def expandFor (ex : Ptr → M Int) (f : Nat) (n : Node) : M Int := do
  let stepV ← (if n.numOps = 5 then do
      let o4 ← opAt n 4
      ex o4
    else M.pure 1)
  let o0 ← opAt n 0
  let asn ← node o0
  let v ← opAt asn 0
  let vn ← node v
  let start? ← (match vn.kind with
    | .id .id _ _ => do
      let r ← resolveId false v
      let i ← needSym r
      M.pure (some i)
    | _ => M.pure none)
  let _ ← ex o0
  let o3 ← opAt n 3
  let r ← resolveId false o3
  let i ← needSym r
  let o1 ← opAt n 1
  let endV ← ex o1
  if start? ≠ none ∧ start? ≠ some i then do
    error .expectedNext
    M.pure 0
  else do
    let o2 ← opAt n 2
    loopM f (forStep ex i stepV endV o2)
    M.pure 0

/-- `expand_operator_if_node` (expand.cc:1576-1587). -/
def expandIf (ex : Ptr → M Int) (n : Node) : M Int := do
  let o0 ← opAt n 0
  let c ← ex o0
  if c ≠ 0 then do
    let o1 ← opAt n 1
    let _ ← ex o1
    M.pure 0
  else
    if n.numOps > 2 then do
      let o2 ← opAt n 2
      let _ ← ex o2
      M.pure 0
    else M.pure 0

/-- `expand_operator_statement_node` (expand.cc:1650-1660). -/
def expandStatement (ex : Ptr → M Int) (n : Node) : M Int := do
  let os ← operands n
  forEachM (fun o => do
    let _ ← ex o
    M.pure ()) os
  M.pure 0

/-! ## Assignment -/

/-- Assignment to the label `-` (expand.cc:1682-1697). -/
def equMinus (op : Int) : M Int := do
  let s ← getS
  (if findPmDef s.minusTab s.file s.line = none then addMinus op else M.pure ())
  let s ← getS
  match findMinus s.minusTab 1 s.file s.line with
  | some ix => do
    let e ← liftO s.minusTab[ix]?
    (if e.value ≠ op then
      modS fun s => { s with
        minusTab := s.minusTab.set ix { e with value := op }
        symValueChanged := s.symValueChanged + 1 }
    else M.pure ())
    M.pure op
  | none => M.pure op

/-- Assignment to the label `+` (expand.cc:1699-1714). -/
def equPlus (op : Int) : M Int := do
  let s ← getS
  (if findPmDef s.plusTab s.file s.line = none then addPlus op else M.pure ())
  let s ← getS
  match findPlus s.plusTab 1 s.file (s.line - 1) with
  | some ix => do
    let e ← liftO s.plusTab[ix]?
    (if e.value ≠ op then
      modS fun s => { s with
        plusTab := s.plusTab.set ix { e with value := op }
        symValueChanged := s.symValueChanged + 1 }
    else M.pure ())
    M.pure op
  | none => M.pure op

/-- The symbol that receives the value (expand.cc:1727-1741): a global symbol assigned inside a section is
shadowed by a symbol of the section. -/
def equTarget (i : SymPtr) (x : Sym) : M SymPtr := do
  let s ← getS
  match x.scope, s.currentScope with
  | none, some sc => do
    let r ← addSymbol (dotted sc x.name)
    liftO r
  | _, _ => M.pure i

/-- `expand_operator_equ_node` (expand.cc:1678-1749).  Not modelled: `is_label`. -/
def expandEqu (ex : Ptr → M Int) (n : Node) : M Int := do
  let o1 ← opAt n 1
  let op ← ex o1
  let o0 ← opAt n 0
  let on ← node o0
  match on.kind with
  | .id _ name _ =>
    if stricmp name [45] = 0 then equMinus op
    else if stricmp name [43] = 0 then equPlus op
    else do
      let r ← resolveId (name.head? == some 64) o0
      let i ← needSym r
      let x ← sym i
      (if x.isInit = false ∨ x.value ≠ op then do
        let j ← equTarget i x
        setSymbolValue j op
        modSym j fun x => { x with isInit := true }
      else M.pure ())
      M.pure op
  | _ => ubM

/-! ## Operators -/

/-- Evaluate both operands, left first, and combine. -/
def bin (ex : Ptr → M Int) (n : Node) (g : Int → Int → Option Int) : M Int := do
  let a ← opAt n 0
  let x ← ex a
  let b ← opAt n 1
  let y ← ex b
  liftO (g x y)

/-- Evaluate the operand and apply a function. -/
def una (ex : Ptr → M Int) (n : Node) (g : Int → Option Int) : M Int := do
  let a ← opAt n 0
  let x ← ex a
  liftO (g x)

/-- `expand_operator_ones_complement_node` (expand.cc:1766-1773). -/
def onesCompl (v : Int) : Int := cand (cnot v) (if cand v (cnot 0xFF) ≠ 0 then 0xFFFF else 0xFF)

/-- `expand_operator_divide_node` (expand.cc:1810-1818): the divisor is evaluated twice. -/
def expandDivide (ex : Ptr → M Int) (n : Node) : M Int := do
  let b ← opAt n 1
  let d ← ex b
  if d = 0 then do
    error .divideByZero
    M.pure 0
  else bin ex n cdiv

/-- `||` and `&&` evaluate the right operand only when needed (expand.cc:1865-1878).  `stop` is the truth
value of the left operand that decides the result. -/
def shortCircuit (ex : Ptr → M Int) (n : Node) (stop : Bool) : M Int := do
  let a ← opAt n 0
  let x ← ex a
  if (x != 0) = stop then M.pure (cbool stop)
  else do
    let b ← opAt n 1
    let y ← ex b
    M.pure (cbool (y != 0))

/-- `expand_operator_node` (expand.cc:1935-1944) with the table expand.cc:217-264 and the operator handlers
expand.cc:1034-1073, 1756-1928. -/
def expandOperator (ex : Ptr → M Int) (hu : Ptr → M Bool) (f : Nat) (op : Opr) (n : Node) : M Int :=
  match op with
  | .loByte => una ex n fun v => some (cand (cand v 0xFFFF) 0xFF)
  | .hiByte => una ex n fun v => some (cand (cand v 0xFFFF) 0xFF00 / 256)
  | .pcAssign => expandPcAssign ex n
  | .org => expandOrg ex n
  | .exprList => expandExprList ex hu n
  | .macroDef => expandMacroDef n
  | .whileLoop => expandWhile ex f n
  | .repeatLoop => expandRepeat ex f true n
  | .sect => expandSection n
  | .endSect => expandEndSection
  | .doLoop => expandRepeat ex f false n
  | .forLoop => expandFor ex f n
  | .regX => expandForReg ex hu true n
  | .regY => expandForReg ex hu false n
  | .ifThen => expandIf ex n
  | .print => expandPrint ex false n
  | .printAll => expandPrint ex true n
  | .ds => expandDs ex n
  | .statement => expandStatement ex n
  | .endProg => do
    modS fun s => { s with endExpansion := true }
    M.pure 0
  | .equ => expandEqu ex n
  | .uminus => una ex n fun v => cchk (-v)
  | .compl => una ex n fun v => some (onesCompl v)
  | .add => bin ex n fun x y => cchk (x + y)
  | .sub => bin ex n fun x y => cchk (x - y)
  | .mul => bin ex n fun x y => cchk (x * y)
  | .div => expandDivide ex n
  | .bitOr => bin ex n fun x y => some (cor x y)
  | .bitAnd => bin ex n fun x y => some (cand x y)
  | .xor => bin ex n fun x y => some (cxor x y)
  | .lt => bin ex n fun x y => some (cbool (decide (x < y)))
  | .gt => bin ex n fun x y => some (cbool (decide (x > y)))
  | .eq => bin ex n fun x y => some (cbool (x == y))
  | .ne => bin ex n fun x y => some (cbool (x != y))
  | .ge => bin ex n fun x y => some (cbool (decide (x ≥ y)))
  | .le => bin ex n fun x y => some (cbool (decide (x ≤ y)))
  | .lor => shortCircuit ex n true
  | .land => shortCircuit ex n false
  | .lnot => una ex n fun v => some (cbool (v == 0))
  | .shl => bin ex n cshl
  | .shr => bin ex n cshr
  | .var => expandVariable ex n
  | .load => expandLoad ex n
  | .fill => expandFill ex f n
  | .inc => expandInclude n

/-- `expand_print_state_node` (expand.cc:1019-1029). -/
def expandPrintState (ex : Ptr → M Int) (p : Ptr) : M Int := do
  let s ← getS
  (if s.finalPass then do
    generateListNode ex p
    let n ← node p
    match n.kind with
    | .printState true => addList []
    | _ => M.pure ()
  else M.pure ())
  M.pure 1

/-- Dispatch on the node type (`expand_table`, expand.cc:267-278, and expand.cc:1966-1982). -/
def expandKind (ex : Ptr → M Int) (hu : Ptr → M Bool) (f : Nat) (p : Ptr) (n : Node) : M Int :=
  match n.kind with
  | .con v isPc => expandConstant p v isPc
  | .id .id name _ => expandId p name
  | .id .label name _ => expandLabel p name
  | .id .macroId name _ => expandMacroId ex p name
  | .macroEx name body params => expandMacroEx ex name body params
  | .data size d => expandData ex size d
  | .opcode _ _ _ _ => expandOpCode ex hu p
  | .printState _ => expandPrintState ex p
  | .opr op => expandOperator ex hu f op n
  | .str _ => do
    error .unknownNodeType
    M.pure 0

/-- `expand_node` (expand.cc:1951-1983) for a non-null node.  Fuel bounds the depth of the recursion and the
number of rounds of each loop. -/
def expandNode : Nat → Ptr → M Int
  | 0, _ => timeoutM
  | f + 1, p => do
    let s ← getS
    if s.endExpansion then M.pure 0
    else do
      let n ← node p
      expandKind (expandNode f) (hasUninit f) f p n

end Verif
