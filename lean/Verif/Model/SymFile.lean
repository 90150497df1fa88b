import Verif.Model.Sym
import Verif.Model.Output

/-! # The symbol file and the lists of symbols on the console (sym.cc:614-786) -/

namespace Verif

/-- An element of the symbol dictionary as `dump_symbols` sees it (sym.cc:664-673): the key, the symbol, and the members of
`symbol_table` (sym.h:17-32) that the interpreter model leaves out. -/
structure TabSym where
  /-- `element->key` -/
  key : Str
  /-- the modelled members of `*sym` -/
  sym : Sym
  /-- `is_local` -/
  isLocal : Bool := false
  /-- `times_accessed` -/
  times : Int := 0
deriving DecidableEq, Repr

/-- `sym_entry` (sym.cc:637-641). -/
structure SymEntry where
  name : Str
  value : Int
deriving DecidableEq, Repr

/-- `is_local_sym` (sym.cc:116-125). -/
def isLocalSym (name : Str) : Bool := name.any (· == 64)

/-- Is the symbol shown in the symbol file (sym.cc:670-672)?  `pass * 2` does not overflow: there are at most 20 passes. -/
def dumpSelects (pass : Int) (x : TabSym) : Bool :=
  x.sym.isVar == false && x.sym.isMacroParam == false && x.sym.isMacroName == false && x.sym.isPlusMinus == false &&
    x.isLocal == false && decide (pass * 2 ≤ x.times) && isLocalSym x.sym.name == false

/-- Is the symbol shown among the unresolved ones (sym.cc:752)? -/
def unresolvedSelects (x : TabSym) : Bool :=
  x.sym.isVar == false && x.sym.isInit == false && x.sym.isPlusMinus == false

/-- The loop that fills `entry_array` (sym.cc:664-680, 746-760), over the elements in the order of the table. -/
def collect (sel : TabSym → Bool) (tab : List TabSym) : List SymEntry :=
  (tab.filter sel).map fun x => ⟨x.key, x.sym.value⟩

/-- `symbol_compare` (sym.cc:643-649); `none` when the subtraction overflows (undefined). -/
def symbolCompare (a b : SymEntry) : Option Int :=
  let d := a.value - b.value
  if -2147483648 ≤ d ∧ d ≤ 2147483647 then some d else none

/-- What is known of `qsort` with `symbol_compare` (sym.cc:682, 762): when no comparison overflows, the result is a
permutation of the array in ascending order.  Nothing is said about the order of elements with equal values. -/
def IsQsort (qs : List SymEntry → List SymEntry) : Prop :=
  ∀ l, (∀ a ∈ l, ∀ b ∈ l, symbolCompare a b ≠ none) →
    (qs l).Perm l ∧ (qs l).Pairwise fun a b => ∃ d, symbolCompare a b = some d ∧ d ≤ 0

/-- `fprintf(file, "%15s $%4.4X  ", name, value)` (sym.cc:691, 719, 771). -/
def dumpCell (e : SymEntry) : Str :=
  List.replicate (15 - e.name.length) 32 ++ e.name ++ [32, 36] ++ fmtX 4 e.value ++ [32, 32]

/-- The loop that prints five columns (sym.cc:684-703, 710-728, 764-783), with the line feed behind it. -/
def dumpCells (column : Nat) : List SymEntry → Str
  | [] => [10]
  | e :: es => dumpCell e ++ (if column = 5 then 10 :: dumpCells 1 es else dumpCells (column + 1) es)

/-- `dump_symbols` (sym.cc:651-706) on a table that exists. -/
def dumpSymbols (qs : List SymEntry → List SymEntry) (pass : Int) (tab : List TabSym) : Str :=
  dumpCells 1 (qs (collect (dumpSelects pass) tab))

/-- `dump_unresolved_symbols` (sym.cc:733-786) on a table that exists. -/
def dumpUnresolved (qs : List SymEntry → List SymEntry) (tab : List TabSym) : Str :=
  dumpCells 1 (qs (collect unresolvedSelects tab))

/-- `dump_changed_symbols` (sym.cc:708-731).  The argument are the copies of the symbols on `changed_sym_stack`, made when the
value changed (sym.cc:286-294); their `name` is shown, not the full name. -/
def dumpChanged (changed : List Sym) : Str :=
  dumpCells 1 (changed.map fun x => ⟨x.name, x.value⟩) ++ [10]

end Verif
