import Verif.Model.Expand
import Verif.Model.Driver

/-! # Parser actions (pasm.y) and one pass (pass.cc:28-160)

A source program is given as the statements that the grammar recognises.  `build…` performs the semantic
actions bottom-up, in the order in which bison reduces. -/

namespace Verif

/-- Unary operators of the grammar (pasm.y:216-223). -/
inductive UnOp where
  | neg | compl | lo | hi | lnot
deriving DecidableEq, Repr

/-- The operator tag used in the action. -/
def UnOp.opr : UnOp → Opr
  | .neg => .uminus
  | .compl => .compl
  | .lo => .loByte
  | .hi => .hiByte
  | .lnot => .lnot

/-- Binary operators of the grammar (pasm.y:224-239). -/
inductive BinOp where
  | lor | land | shl | shr | lt | gt | ge | le | ne | eq | bitAnd | bitOr | xor | add | sub | mul | div
deriving DecidableEq, Repr

/-- The operator tag used in the action. -/
def BinOp.opr : BinOp → Opr
  | .lor => .lor
  | .land => .land
  | .shl => .shl
  | .shr => .shr
  | .lt => .lt
  | .gt => .gt
  | .ge => .ge
  | .le => .le
  | .ne => .ne
  | .eq => .eq
  | .bitAnd => .bitAnd
  | .bitOr => .bitOr
  | .xor => .xor
  | .add => .add
  | .sub => .sub
  | .mul => .mul
  | .div => .div

/-- `expr` and `subexpr` (pasm.y:211-248).  `sym` covers `SYMBOL` and the tokens `+`, `-` used as operands. -/
inductive Expr where
  | int (v : Int)
  | sym (name : Str)
  | pc
  | un (op : UnOp) (e : Expr)
  | bin (op : BinOp) (a b : Expr)
deriving DecidableEq, Repr

/-- Element of `expr_list` (pasm.y:125-130): expression or string token (with its quotes). -/
inductive Item where
  | expr (e : Expr)
  | str (raw : Str)
deriving DecidableEq, Repr

/-- `stmt`, `stmt_list` and the statements below them (pasm.y:81-209).  `at` gives the line number while the
statement is parsed. -/
inductive Stmt where
  /-- empty line -/
  | empty
  /-- `opcode`: instruction, mode of the production, operand -/
  | op (ins : Int) (mode : Mode) (arg : Option Expr)
  | org (e : Expr)
  | ds (e : Expr)
  /-- `.byte`, `.word`, `.str`: size 1, 2, 0 -/
  | data (size : Int) (hd : Item) (tl : List Item)
  | fill (v n : Expr)
  /-- `.print`, `.printall` -/
  | print (all : Bool) (items : Option (Item × List Item))
  | printState (on : Bool)
  | sect (name : Str)
  | endSect
  | endProg
  | load (raw : Str)
  | inc (raw : Str)
  /-- an identifier as first word of the statement, with the rest as expression list: macro call or label;
  `first` tells whether it is the first token of the line -/
  | word (first : Bool) (name : Str) (args : Option (Item × List Item))
  /-- `name = e`, `name .equ e` -/
  | assign (name : Str) (e : Expr)
  | pcAssign (e : Expr)
  | ifThen (c : Expr) (t : Stmt)
  | ifElse (c : Expr) (t e : Stmt)
  | repeatLoop (body : Stmt) (c : Expr)
  | doLoop (body : Stmt) (c : Expr)
  | whileLoop (c : Expr) (body : Stmt)
  | forLoop (name : Str) (start : Expr) (stop : Expr) (step : Option Expr) (body : Stmt) (next : Str)
  | forReg (isX : Bool) (start stop : Expr) (up : Bool) (body : Stmt)
  | macroDef (name : Str) (body : Stmt)
  | var (hd : Str × Option Expr) (tl : List (Str × Option Expr))
  | seq (a b : Stmt)
  | at (line : Int) (s : Stmt)
deriving Repr

/-- Actions of `expr` and `subexpr` (pasm.y:211-248). -/
def buildExpr : Expr → M Ptr
  | .int v => constantNode v false
  | .sym name => idNode .id name
  | .pc => constantNode 0 true
  | .un op e => do
    let p ← buildExpr e
    operatorNode op.opr [p]
  | .bin op a b => do
    let p ← buildExpr a
    let q ← buildExpr b
    operatorNode op.opr [p, q]

/-- An element of an expression list (pasm.y:125-130). -/
def buildItem : Item → M Ptr
  | .expr e => buildExpr e
  | .str raw => stringNode raw

/-- Further elements of an expression list (pasm.y:128-129): left-nested `EXPRLIST` nodes. -/
def buildItemsTl : List Item → Ptr → M Ptr
  | [], p => M.pure p
  | x :: xs, p => do
    let q ← buildItem x
    let r ← operatorNode .exprList [p, q]
    buildItemsTl xs r

/-- Action of `expr_list` (pasm.y:125-130). -/
def buildItems (hd : Item) (tl : List Item) : M Ptr := do
  let p ← buildItem hd
  let q ← operatorNode .exprList [p]
  buildItemsTl tl q

/-- An optional expression list. -/
def buildItems? : Option (Item × List Item) → M (Option Ptr)
  | none => M.pure none
  | some (hd, tl) => do
    let p ← buildItems hd tl
    M.pure (some p)

/-- Further elements of `symbol_list` (pasm.y:148, 150). -/
def buildVarsTl : List (Str × Option Expr) → Ptr → M Ptr
  | [], p => M.pure p
  | (name, none) :: xs, p => do
    let i ← idNode .id name
    let r ← operatorNode .exprList [p, i]
    buildVarsTl xs r
  | (name, some e) :: xs, p => do
    let q ← buildExpr e
    let i ← idNode .id name
    let r ← operatorNode .exprList [p, i, q]
    buildVarsTl xs r

/-- Action of `symbol_list` (pasm.y:146-151). -/
def buildVars (hd : Str × Option Expr) (tl : List (Str × Option Expr)) : M Ptr := do
  let l ← (match hd with
    | (name, none) => do
      let i ← idNode .id name
      operatorNode .exprList [i]
    | (name, some e) => do
      let q ← buildExpr e
      let i ← idNode .id name
      operatorNode .exprList [i, q])
  buildVarsTl tl l

/-- Is the word currently the name of a macro (`look_up_symbol` in the lexer, pasm.l:381-388, and
pasm.y:170-171)? -/
def isMacroWord (s : St) (name : Str) : Bool :=
  match lookUpSymbol s.currentScope s.syms name with
  | some i => (s.syms[i]?.map (·.isMacroName)).getD false
  | none => false

/-- The name after `.macro` (pasm.l:404-409): an existing symbol is marked as a macro name. -/
def lexMacroName (name : Str) : M Unit := do
  let s ← getS
  match lookUpSymbol s.currentScope s.syms name with
  | some i => modSym i fun x => { x with isMacroName := true }
  | none => M.pure ()

/-- `operator_node('=', 2, label_node(name), constant_node(program_counter, true))` (pasm.y:74, 178). -/
def buildLabel (name : Str) : M Ptr := do
  let c ← constantNode 0 true
  let l ← labelNode name
  operatorNode .equ [l, c]

/-- Sequencing of builders that may hit a syntax error (`none`). -/
def andThen {α β : Type} (m : M (Option α)) (k : α → M (Option β)) : M (Option β) := do
  let r ← m
  match r with
  | some a => k a
  | none => M.pure none

/-- A builder that cannot fail. -/
def built (m : M Ptr) : M (Option Ptr) := do
  let p ← m
  M.pure (some p)

/-- Actions of `stmt`, `stmt_list` and below (pasm.y:81-209).  `none` is a syntax error.  `inMacro` is
`in_macro_definition > 0`: there, and after a label on the same line, an identifier is the token `SYMBOL`;
otherwise the first identifier of a line is the token `LABEL`, which a statement inside a block cannot start
with (pasm.l:389-403).  Simplification: a macro name used as operand or assigned to is a syntax error in
the C++; the model does not reject it. -/
def buildStmt (ex : Ptr → M Int) (hu : Ptr → M Bool) (inMacro : Bool) : Stmt → M (Option Ptr)
  | .empty => built (operatorNode .statement [])
  | .op ins mode none => built (opcodeNode ex hu ins mode [])
  | .op ins mode (some e) => built do
    let p ← buildExpr e
    opcodeNode ex hu ins mode [p]
  | .org e => built do
    let p ← buildExpr e
    operatorNode .org [p]
  | .ds e => built do
    let p ← buildExpr e
    operatorNode .ds [p]
  | .data size hd tl => built do
    let p ← buildItems hd tl
    dataNode size p
  | .fill v n => built do
    let p ← buildExpr v
    let q ← buildExpr n
    operatorNode .fill [p, q]
  | .print all items => built do
    let p ← buildItems? items
    operatorNode (if all then .printAll else .print) p.toList
  | .printState on => built (allocNode (.printState on) [])
  | .sect name => built do
    let i ← idNode .id name
    operatorNode .sect [i]
  | .endSect => built (operatorNode .endSect [])
  | .endProg => built (operatorNode .endProg [])
  | .load raw => built do
    let p ← stringNode raw
    operatorNode .load [p]
  | .inc raw => built do
    let p ← stringNode raw
    operatorNode .inc [p]
  | .word first name args => do
    let s ← getS
    if isMacroWord s name then built do
      let p ← buildItems? args
      macroExpandNode name p
    else if args.isSome ∨ (first = true ∧ inMacro = false) then M.pure none
    else built (buildLabel name)
  | .assign name e => built do
    let p ← buildExpr e
    let i ← idNode .id name
    operatorNode .equ [i, p]
  | .pcAssign e => built do
    let p ← buildExpr e
    operatorNode .pcAssign [p]
  | .ifThen c t => do
    let pc ← buildExpr c
    andThen (buildStmt ex hu inMacro t) fun pt => built (operatorNode .ifThen [pc, pt])
  | .ifElse c t e => do
    let pc ← buildExpr c
    andThen (buildStmt ex hu inMacro t) fun pt =>
      andThen (buildStmt ex hu inMacro e) fun pe => built (operatorNode .ifThen [pc, pt, pe])
  | .repeatLoop body c =>
    andThen (buildStmt ex hu inMacro body) fun pb => built do
      let pc ← buildExpr c
      operatorNode .repeatLoop [pb, pc]
  | .doLoop body c =>
    andThen (buildStmt ex hu inMacro body) fun pb => built do
      let pc ← buildExpr c
      operatorNode .doLoop [pb, pc]
  | .whileLoop c body => do
    let pc ← buildExpr c
    andThen (buildStmt ex hu inMacro body) fun pb => built (operatorNode .whileLoop [pc, pb])
  | .forLoop name start stop step body next => do
    let ps ← buildExpr start
    let i ← idNode .id name
    let asn ← operatorNode .equ [i, ps]
    let pe ← buildExpr stop
    let pst ← (match step with
      | some e => do
        let p ← buildExpr e
        M.pure [p]
      | none => M.pure [])
    andThen (buildStmt ex hu inMacro body) fun pb => built do
      let nx ← idNode .id next
      operatorNode .forLoop ([asn, pe, pb, nx] ++ pst)
  | .forReg isX start stop up body => do
    let ps ← buildExpr start
    let pe ← buildExpr stop
    andThen (buildStmt ex hu inMacro body) fun pb => built do
      let c ← constantNode (if up then 1 else -1) false
      operatorNode (if isX then .regX else .regY) [ps, pe, pb, c]
  | .macroDef name body => do
    lexMacroName name
    andThen (buildStmt ex hu true body) fun pb => built do
      let i ← idNode .macroId name
      operatorNode .macroDef [i, pb]
  | .var hd tl => built do
    let p ← buildVars hd tl
    operatorNode .var [p]
  | .seq a b =>
    andThen (buildStmt ex hu inMacro a) fun pa =>
      andThen (buildStmt ex hu inMacro b) fun pb => built (operatorNode .statement [pa, pb])
  | .at line s => do
    modS fun st => { st with line := line }
    buildStmt ex hu inMacro s

/-- What the parser sees at top level (pasm.y:69-79) with the position, and the directives that only act in
the lexer (pasm.l:314-320). -/
inductive Top where
  /-- statement without label -/
  | stmt (file : Str) (line : Int) (s : Stmt)
  /-- `LABEL stmt` -/
  | labelled (file : Str) (line : Int) (label : Str) (s : Stmt)
  /-- `.6502 on`, `.65c02 on` -/
  | setCpu (c : Cpu)
  /-- `.illegal on/off` -/
  | setIllegal (on : Bool)
  /-- `.c64` -/
  | setC64
deriving Repr

/-- `program : program LABEL stmt` (pasm.y:71-76): the statement is parsed, the label is assigned, then the
statement is expanded. -/
def runLabelled (ex : Ptr → M Int) (hu : Ptr → M Bool) (label : Str) (st : Stmt) : M Bool := do
  let r ← buildStmt ex hu false st
  match r with
  | none => M.pure false
  | some p => do
    let l ← buildLabel label
    let _ ← ex l
    let _ ← ex p
    M.pure true

/-- One element at top level; false is a syntax error.  A word at the start of a line that is a macro name
makes the line a macro call (pasm.l:381-388); otherwise it is a label. -/
def runTop (ex : Ptr → M Int) (hu : Ptr → M Bool) : Top → M Bool
  | .stmt file line (.word true name args) => do
    modS fun s => { s with file := file, line := line }
    let s ← getS
    if isMacroWord s name then do
      let r ← buildStmt ex hu false (.word true name args)
      match r with
      | none => M.pure false
      | some p => do
        let _ ← ex p
        M.pure true
    else if args.isSome then M.pure false
    else runLabelled ex hu name .empty
  | .stmt file line st => do
    modS fun s => { s with file := file, line := line }
    let r ← buildStmt ex hu false st
    match r with
    | none => M.pure false
    | some p => do
      let _ ← ex p
      M.pure true
  | .labelled file line label st => do
    modS fun s => { s with file := file, line := line }
    let s ← getS
    if isMacroWord s label then
      match st with
      | .empty => do
        let p ← macroExpandNode label none
        let _ ← ex p
        M.pure true
      | _ => M.pure false
    else runLabelled ex hu label st
  | .setCpu c => do
    modS fun s => { s with cpu := c }
    M.pure true
  | .setIllegal on => do
    modS fun s => { s with allowIllegal := on }
    M.pure true
  | .setC64 => do
    modS fun s => { s with format := .c64 }
    M.pure true

/-- `yyparse` on one input file (pass.cc:142): the first syntax error is reported and ends the parse (the
grammar has no error recovery). -/
def runFile (ex : Ptr → M Int) (hu : Ptr → M Bool) : List Top → M Unit
  | [] => M.pure ()
  | t :: ts => do
    let good ← runTop ex hu t
    if good then runFile ex hu ts else error .syntaxError

/-- A program: the input files in order, each with its statements (those of included files in place). -/
abbrev Program := List (List Top)

/-- `reset_lex` (pass.cc:28-95) and `reset_macro_dict` (expand.cc:1335-1355).  Everything not mentioned keeps
its value from the previous pass. -/
def resetLex : M Unit :=
  modS fun s => { s with
    errorCount := 0
    lastLabel := none
    symValueChanged := 0
    pc := 0x1000
    endExpansion := false
    originSpecified := false
    orgOriginSpecified := false
    codeGenerated := 0
    macroDict := s.macroDict.map fun e => (e.1, 0) }

/-- `parse_pass` (pass.cc:101-160).  Simplifications: input files can be opened; the parse tree is freed by
declaring all existing nodes dead. -/
def parsePass (f : Nat) (prog : Program) : M Unit := do
  resetLex
  forEachM (runFile (expandNode f) (hasUninit f)) prog
  modS fun s => { s with nodeBase := s.nodes.length, currentScope := none }

/-- The pass as seen by `assemble`: `final_pass` and the output file are set by the driver
(pass.cc:172, 234-249). -/
def runPass (f : Nat) (prog : Program) (output final : Bool) (s : St) : Res Unit × St :=
  parsePass f prog { s with finalPass := final, outputOpen := final && output }

/-- `parse_pass` and the counters tested by the driver (pass.cc:199-205). -/
def passSem (f : Nat) (prog : Program) (output : Bool) : PassSem St where
  parse final s :=
    match runPass f prog output final s with
    | (.ok _, s') => some s'
    | _ => none
  errorCount := St.errorCount
  symValueChanged := St.symValueChanged
  unresolved s := unresolvedCount s.syms

/-- `assemble` (pass.cc:162-303) for a program with a given set of requested files. -/
def assembleProg (f : Nat) (prog : Program) (F : AsmFiles) (s : St) : AsmRes St :=
  assemble (passSem f prog F.output.isSome) F s

end Verif
