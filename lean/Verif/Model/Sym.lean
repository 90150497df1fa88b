import Verif.Model.State

/-! # Symbol table (sym.cc) -/

namespace Verif

/-- `dict_search(symbol_dictionary, key)` (dictionary.cc:92-112 with string keys, hash.cc): the most
recently inserted symbol whose full name equals the key up to case.  Simplification: the dictionary is the
abstract map of C19/C20, without the chain reversal caused by growth. -/
def symFindAux (key : Str) : List Sym → Nat → Option SymPtr
  | [], _ => none
  | x :: xs, i =>
    match symFindAux key xs (i + 1) with
    | some j => some j
    | none => if stricmp x.fullname key = 0 then some i else none

/-- `dict_search(symbol_dictionary, key)`, see `symFindAux`. -/
def symFind (syms : List Sym) (key : Str) : Option SymPtr := symFindAux key syms 0

/-- `sprintf(buf, "%s.%s", a, b)` (sym.cc:92, 191, 262; expand.cc:716, 1737). -/
def dotted (a b : Str) : Str := a ++ 46 :: b

/-- `look_up_symbol` (sym.cc:237-275): first `scope.name`, then `name`.  Not modelled: `times_accessed`. -/
def lookUpSymbol (scope : Option Str) (syms : List Sym) (name : Str) : Option SymPtr :=
  match scope with
  | some sc =>
    match symFind syms (dotted sc name) with
    | some i => some i
    | none => symFind syms name
  | none => symFind syms name

/-- Split at the last `.`; `none` when there is none (the loop sym.cc:535-537). -/
def splitLastDot : Str → Option (Str × Str)
  | [] => none
  | c :: cs =>
    match splitLastDot cs with
    | some (a, b) => some (c :: a, b)
    | none => if c = 46 then some ([], cs) else none

/-- `sanitize_symbol` (sym.cc:519-577): a macro parameter loses its scope; otherwise the part of the name
before the last dot is moved to the scope. -/
def sanitizeSym (x : Sym) : Sym :=
  if x.isMacroParam && x.scope.isSome then { x with scope := none }
  else
    match splitLastDot x.name with
    | none => x
    | some (sec, nm) =>
      { x with
        name := nm
        scope := some (match x.scope with
          | some sc => dotted sc sec
          | none => sec) }

/-- `dict_insert(&symbol_dictionary, sym.fullname, &sym)` followed by `sanitize_symbol` (sym.cc:110-113,
218-221): the new symbol becomes the most recent one. -/
def insertSym (x : Sym) : M SymPtr := fun s =>
  (.ok s.syms.length, { s with syms := s.syms ++ [sanitizeSym x] })

/-- `sprintf("%d", n)` for any `int` (sym.cc:587). -/
def decInt (n : Int) : Str := if n < 0 then 45 :: decStr n.natAbs else decStr n.natAbs

/-- `format_local_plus_minus_sym` (sym.cc:579-599): `label__line__name`. -/
def formatLocalPm (name label : Str) (line : Int) : Str :=
  label ++ [95, 95] ++ decInt line ++ [95, 95] ++ name

/-- `format_local_sym` (sym.cc:601-612): `label__name`. -/
def formatLocal (name label : Str) : Str := label ++ [95, 95] ++ name

/-- `add_plus_minus_sym` (sym.cc:76-114).  Always inserts a new symbol. -/
def addPlusMinusSym (name : Str) : M SymPtr := do
  modS fun s => { s with lastLabel := some (s.lastLabel.getD []) }
  let s ← getS
  let nm := formatLocalPm name (s.lastLabel.getD []) s.line
  insertSym {
    isPlusMinus := true
    scope := s.currentScope
    name := nm
    fullname := match s.currentScope with
      | some sc => dotted sc nm
      | none => nm }

/-- Remove one trailing `:` (sym.cc:162-164).  Simplification: the C++ overwrites the caller's buffer. -/
def stripColon (name : Str) : Str :=
  if name.getLast? = some 58 then name.dropLast else name

/-- Drop one leading dot (sym.cc:150-153). -/
def dropDot : Str → Str
  | 46 :: r => r
  | n => n

/-- Name and scope that `add_symbol` looks up (sym.cc:147-165): a dotted name is looked up globally, one
leading dot is dropped, local names get the last label as prefix. -/
def addSymbolKey (s : St) (name : Str) : Option Str × Str :=
  let scope := if 46 ∈ name then none else s.currentScope
  let name := dropDot name
  let name := match name, s.lastLabel with
    | 64 :: _, some l => formatLocal name l
    | _, _ => name
  (scope, stripColon name)

/-- `add_symbol` (sym.cc:127-222): the symbol visible under this name, or a new one.  `none` is `NULL`,
returned for the name `A`.  An empty name reads before the string (undefined). -/
def addSymbol (name : Str) : M (Option SymPtr) :=
  if stricmp name [65] = 0 then M.pure none
  else
    match name with
    | 43 :: _ | 45 :: _ => do
      let i ← addPlusMinusSym name
      M.pure (some i)
    | _ => do
      let s ← getS
      if name = [] ∨ name = [46] then ubM
      else
        let (scope, key) := addSymbolKey s name
        match lookUpSymbol scope s.syms key with
        | some i => M.pure (some i)
        | none => do
          let i ← insertSym {
            isMacroParam := (dropDot name).head? = some 92
            isInit := key.head? = some 64
            scope := scope
            name := key
            fullname := match scope with
              | some sc => dotted sc key
              | none => key }
          M.pure (some i)

/-- `look_up_macro_param` (sym.cc:224-230): looks for the full name `\n`. -/
def lookUpMacroParam (syms : List Sym) (n : Nat) : Option SymPtr := symFind syms (92 :: decStr n)

/-- `set_symbol_value` (sym.cc:277-298).  Not modelled: `changed_sym_stack`, and the result, which no caller
uses. -/
def setSymbolValue (i : SymPtr) (value : Int) : M Unit := do
  let x ← sym i
  if x.value ≠ value then
    if cand value (cnot 0xFFFF) ≠ 0 ∧ x.isVar = false then error .valueOutOfRange
    else do
      modSym i fun x => { x with value := value }
      if x.isMacroParam = false ∧ x.isVar = false then
        modS fun s => { s with symValueChanged := s.symValueChanged + 1 }
      else M.pure ()
  else M.pure ()

/-- `compare_plus_minus_sym` (sym.cc:58-63): by file name up to case, then by line. -/
def comparePm (a b : PmSym) : Int :=
  if stricmp a.file b.file ≠ 0 then stricmp a.file b.file else a.line - b.line

/-- `find_plus_symbol_definition`, `find_minus_symbol_definition` (sym.cc:300-326): index of the entry for
exactly this line, `none` for -1. -/
def findPmDef (t : List PmSym) (file : Str) (line : Int) : Option Nat :=
  t.findIdx? fun e => comparePm e ⟨file, line, 0⟩ == 0

/-- Index of the last entry satisfying `p` (the loop sym.cc:332-343). -/
def lastIdx {α : Type} (p : α → Bool) : List α → Option Nat
  | [] => none
  | x :: xs =>
    match lastIdx p xs with
    | some i => some (i + 1)
    | none => if p x then some 0 else none

/-- `find_minus_symbol` (sym.cc:328-352): the last entry of the file at or before the line, then `depth - 1`
entries back in the table; `none` for a negative result.  The bounds test `||` never fails for a
negative index, but all callers treat negative indices as "not found". -/
def findMinus (t : List PmSym) (depth : Nat) (file : Str) (line : Int) : Option Nat :=
  match lastIdx (fun e => stricmp file e.file == 0 && decide (e.line ≤ line)) t with
  | some i => if i + 1 < depth then none else some (i + 1 - depth)
  | none => none

/-- `find_plus_symbol` (sym.cc:354-376): the first entry of the file after the line, then `depth - 1` entries
forward.  The bounds test `||` never fails, so the index can be past the end of the table. -/
def findPlus (t : List PmSym) (depth : Nat) (file : Str) (line : Int) : Option Nat :=
  match t.findIdx? (fun e => stricmp file e.file == 0 && decide (line < e.line)) with
  | some i => if i + depth = 0 then none else some (i + depth - 1)
  | none => none

/-- Insertion into a sorted table.  `add_minus_symbol`/`add_plus_symbol` append and call `qsort`
(sym.cc:403-408, 431-436); on a table that is sorted before, with a new key, this is insertion. -/
def insertPm (e : PmSym) : List PmSym → List PmSym
  | [] => [e]
  | x :: xs => if comparePm e x < 0 then e :: x :: xs else x :: insertPm e xs

/-- `add_minus_symbol` (sym.cc:378-409). -/
def addMinus (value : Int) : M Unit := do
  let s ← getS
  if s.paramStack ≠ [] then error .plusSymInMacro
  else modS fun s => { s with minusTab := insertPm ⟨s.file, s.line, value⟩ s.minusTab }

/-- `add_plus_symbol` (sym.cc:411-437). -/
def addPlus (value : Int) : M Unit := do
  let s ← getS
  if s.paramStack ≠ [] then error .plusSymInMacro
  else modS fun s => { s with plusTab := insertPm ⟨s.file, s.line, value⟩ s.plusTab }

/-- The values of `\k … \(k+n-1)` (loop sym.cc:466-479); `none` when one is missing. -/
def paramValues (syms : List Sym) : Nat → Nat → Option (List Int)
  | _, 0 => some []
  | k, n + 1 =>
    match lookUpMacroParam syms k with
    | none => none
    | some i =>
      match syms[i]?, paramValues syms (k + 1) n with
      | some x, some vs => some (x.value :: vs)
      | _, _ => none

/-- `push_macro_params` (sym.cc:448-485): saves `\1 … \max_macro_param`.  When one is missing an error is
reported and nothing is pushed. -/
def pushMacroParams : M Unit := do
  let s ← getS
  match paramValues s.syms 1 s.maxMacroParam with
  | some vs => modS fun s => { s with paramStack := vs :: s.paramStack }
  | none => error .macroParamNotFound

/-- The restore loop of `pop_macro_params` (sym.cc:497-509). -/
def restoreParams : Nat → List Int → M Unit
  | _, [] => M.pure ()
  | k, v :: vs => do
    let s ← getS
    match lookUpMacroParam s.syms k with
    | some i => do
      setSymbolValue i v
      restoreParams (k + 1) vs
    | none => error .macroParamNotFound

/-- `pop_macro_params` (sym.cc:487-517). -/
def popMacroParams : M Unit := do
  let s ← getS
  match s.paramStack with
  | [] => do
    error .macroParamUnderflow
    exitM (-1)
  | vs :: rest => do
    modS fun s => { s with paramStack := rest }
    restoreParams 1 vs

/-- `unresolved_symbol_count` (sym.cc:788-810). -/
def unresolvedCount (syms : List Sym) : Nat :=
  (syms.filter fun x => !x.isInit && !x.isMacroName && !x.isVar && !x.isPlusMinus && !x.isMacroParam).length

end Verif
