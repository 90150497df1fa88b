import Verif.Spec.FinMap

/-!
# Specification: what a command line asks for

A command line is a list of arguments of the kinds listed in the usage text; each is written as one, two
or three words.
-/

namespace Verif.Spec

/-- One argument. -/
inductive Arg where
  | output (file : List Nat)
  | symbols (file : List Nat)
  | directories (dirs : List Nat)
  | logging (file : List Nat)
  | listing (file : List Nat)
  | c64
  | verbose
  | cpu65C02
  | cpu6502
  | illegal
  | noWarnings
  | define (name value : List Nat)
  | input (file : List Nat)
deriving DecidableEq

/-- The word is `-name` or `/name`, in any letter case. -/
def Option' (name : String) (w : List Nat) : Prop :=
  foldCase w = '-'.toNat :: name.toList.map Char.toNat ∨
    foldCase w = '/'.toNat :: name.toList.map Char.toNat

/-- All option names; a word that is one of them is never an input file. -/
def optionNames : List String :=
  ["?", "h", "o", "s", "dir", "log", "l", "c64", "v", "65c02", "6502", "i", "nowarn", "d"]

/-- How an argument is written. -/
inductive Written : Arg → List (List Nat) → Prop where
  | output {w f} (h : Option' "o" w) : Written (.output f) [w, f]
  | symbols {w f} (h : Option' "s" w) : Written (.symbols f) [w, f]
  | directories {w f} (h : Option' "dir" w) : Written (.directories f) [w, f]
  | logging {w f} (h : Option' "log" w) : Written (.logging f) [w, f]
  | listing {w f} (h : Option' "l" w) : Written (.listing f) [w, f]
  | c64 {w} (h : Option' "c64" w) : Written .c64 [w]
  | verbose {w} (h : Option' "v" w) : Written .verbose [w]
  | cpu65C02 {w} (h : Option' "65c02" w) : Written .cpu65C02 [w]
  | cpu6502 {w} (h : Option' "6502" w) : Written .cpu6502 [w]
  | illegal {w} (h : Option' "i" w) : Written .illegal [w]
  | noWarnings {w} (h : Option' "nowarn" w) : Written .noWarnings [w]
  | define {w n v} (h : Option' "d" w) : Written (.define n v) [w, n, v]
  | input {f} (h : ∀ n ∈ optionNames, ¬ Option' n f) : Written (.input f) [f]

/-- The words of a whole command line. -/
inductive CmdLine : List Arg → List (List Nat) → Prop where
  | nil : CmdLine [] []
  | cons {x xs ws rest} (h : Written x ws) (t : CmdLine xs rest) : CmdLine (x :: xs) (ws ++ rest)

/-- The things that may be specified once; the two processor options are one thing. -/
inductive Setting where
  | output | symbols | directories | logging | listing | format | verbose | processor | illegal | warnings
deriving DecidableEq

/-- What an argument specifies. -/
def Arg.setting : Arg → Option Setting
  | .output _ => some .output
  | .symbols _ => some .symbols
  | .directories _ => some .directories
  | .logging _ => some .logging
  | .listing _ => some .listing
  | .c64 => some .format
  | .verbose => some .verbose
  | .cpu65C02 | .cpu6502 => some .processor
  | .illegal => some .illegal
  | .noWarnings => some .warnings
  | .define _ _ | .input _ => none

/-- The word belonging to an option. -/
def Arg.word : Arg → List Nat
  | .output f | .symbols f | .directories f | .logging f | .listing f => f
  | _ => []

/-- The word given for a setting, if any. -/
def given (k : Setting) (xs : List Arg) : Option (List Nat) :=
  (xs.find? fun x => x.setting = some k).map Arg.word

/-- Something is said about a setting. -/
def isGiven (k : Setting) (xs : List Arg) : Bool := xs.any fun x => x.setting = some k

/-- Nothing is specified twice. -/
def Once (xs : List Arg) : Prop := (xs.filterMap Arg.setting).Nodup

/-- The input files, in the order given. -/
def inputFiles (xs : List Arg) : List (List Nat) :=
  xs.filterMap fun | .input f => some f | _ => none

/-- The definitions, in the order given. -/
def definitions (xs : List Arg) : List (List Nat × List Nat) :=
  xs.filterMap fun | .define n v => some (n, v) | _ => none

/-- A letter, a digit or an underscore. -/
def IdChar (c : Nat) : Prop :=
  ('a'.toNat ≤ c ∧ c ≤ 'z'.toNat) ∨ ('A'.toNat ≤ c ∧ c ≤ 'Z'.toNat) ∨ ('0'.toNat ≤ c ∧ c ≤ '9'.toNat) ∨ c = '_'.toNat

instance (c : Nat) : Decidable (IdChar c) := by unfold IdChar; infer_instance

/-- An identifier other than the accumulator `A`. -/
def Identifier (n : List Nat) : Prop := n ≠ [] ∧ (∀ c ∈ n, IdChar c) ∧ foldCase n ≠ ['a'.toNat]

instance (n : List Nat) : Decidable (Identifier n) := by unfold Identifier; infer_instance

end Verif.Spec
