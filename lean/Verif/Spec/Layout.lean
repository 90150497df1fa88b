import Verif.Spec.Encode
import Verif.Spec.Data
import Verif.Lemmas.Pick

/-! # Specification: the image of a flat program

A flat program consists of instructions, data directives, fills, included binary and source files, assignments and labels.
`Emits` gives the bytes of a statement at an address, `Far` those of a branch in the long form; `Layout` places the lines one
after the other.  Symbols have fixed values;
labels must have the address of their line. -/

namespace Verif.Spec

/-- What the bytes depend on besides the program. -/
structure Context where
  cpu : Cpu
  /-- The raw output format, without header. -/
  raw : Bool
  files : List (Str × List Nat)
  /-- The names of macros. -/
  isMacro : Str → Bool
  /-- Contents of a quoted text. -/
  text : Str → Option Str
  /-- Values of the symbols; local names are relative to the last label. -/
  env : Option Str → Str → Option Int
  /-- The texts of the macros. -/
  macros : Str → Option Stmt := fun _ => none
  /-- The number of parameters that macros use. -/
  arity : Nat := 0
  /-- Which names denote which parameter. -/
  param : Str → Option Nat := fun _ => none

/-- The instructions of a processor. -/
def decodeOf : Cpu → Nat → Option (String × AMode)
  | .c6502 => decode6502
  | .c65C02 => decode65C02

/-- Mnemonic of an instruction. -/
def mnemonic (ins : Int) : String := instrNames[ins.toNat]?.getD ""

/-- Letters, digits and `_`. -/
def wordChar (c : Nat) : Bool :=
  (48 ≤ c && c ≤ 57) || (65 ≤ c && c ≤ 90) || c == 95 || (97 ≤ c && c ≤ 122)

/-- `bs` is a shortest encoding of the instruction.  Not included: the undocumented instructions, `bbr`/`bbs`, the form
`(v)` of the 65C02, and the branch distance -128. -/
def Shortest (cpu : Cpu) (ins : Int) (form : Form) (pc v : Int) (bs : List Nat) : Prop :=
  0 ≤ ins ∧ ins < Ins._slo ∧ ¬ (Ins._bbr0 ≤ ins ∧ ins ≤ Ins._bbs7) ∧ (cpu = .c65C02 → form ≠ .ind) ∧
  0 ≤ v ∧ v ≤ 65535 ∧
  Encodes (decodeOf cpu) (mnemonic ins) form pc v bs ∧
  (∀ bs', Encodes (decodeOf cpu) (mnemonic ins) form pc v bs' → bs.length ≤ bs'.length) ∧
  (∀ op, op < 256 → decodeOf cpu op = some (mnemonic ins, .relative) → v ≠ pc + 2 - 128)

/-- A one-byte instruction with this mnemonic. -/
def OneByte (cpu : Cpu) (ins : Int) (am : AMode) (bs : List Nat) : Prop :=
  0 ≤ ins ∧ ins < Ins._slo ∧ ¬ (Ins._bbr0 ≤ ins ∧ ins ≤ Ins._bbs7) ∧
  ∃ b, b < 256 ∧ decodeOf cpu b = some (mnemonic ins, am) ∧ bs = [b]

/-- The bytes of a statement at address `pc`.  `fresh`: nothing has been emitted yet; a fill at that point must not need a
header. -/
def Emits (C : Context) (env : Str → Option Int) (pc : Int) (fresh : Bool) (bs : List Nat) : Stmt → Prop
  | .empty => bs = []
  | .op ins mode none => mode = .i ∧ OneByte C.cpu ins .implied bs
  | .op ins mode (some e) =>
    (mode = .a ∧ (e = .sym [65] ∨ e = .sym [97]) ∧ OneByte C.cpu ins .accumulator bs) ∨
    ∃ form v, mode = Form.mode form ∧ eval env pc e = some (v, false) ∧ e.complete env pc = true ∧
      Shortest C.cpu ins form pc v bs
  | .data size hd tl => (size = 0 ∨ size = 1 ∨ size = 2) ∧ items C.text env size pc (hd :: tl) = some bs
  | .fill ve ne => ∃ v n : Nat, eval env pc ve = some ((v : Int), false) ∧ eval env pc ne = some ((n : Int), false) ∧
      v < 256 ∧ 0 < n ∧ (fresh = true → C.raw = true) ∧ bs = List.replicate n v
  | .load raw => ∃ name nm bytes, C.text raw = some name ∧ C.files.find? (fun e => e.1 == name) = some (nm, bytes) ∧
      bs = bytes.map (· % 256)
  | .assign name e => ∃ v, eval env pc e = some (v, false) ∧ env name = some v ∧ bs = []
  | _ => False

/-- The branch on the opposite condition.  `bvc`, `bvs` and `bra` are left out: the assembler gets them wrong (C08). -/
def opposite : String → Option String
  | "bcc" => some "bcs"
  | "bcs" => some "bcc"
  | "beq" => some "bne"
  | "bne" => some "beq"
  | "bmi" => some "bpl"
  | "bpl" => some "bmi"
  | _ => none

/-- The bytes of a branch whose target is too far away: the opposite branch over a `jmp`.  The target has the same value
seen from the `jmp`, and is not 0. -/
def Far (C : Context) (env : Str → Option Int) (pc : Int) (bs : List Nat) : Stmt → Prop
  | .op ins mode (some e) => mode = Form.mode .dir ∧ 0 ≤ ins ∧ ins < Ins._slo ∧ 0 ≤ pc ∧ pc ≤ 65535 ∧
    ∃ (v op : Nat) (name : String), eval env pc e = some ((v : Int), false) ∧ eval env (pc + 2) e = some ((v : Int), false) ∧
      e.complete env pc = true ∧ 0 < v ∧ v ≤ 65535 ∧ ((v : Int) - (pc + 2) < -127 ∨ 128 < (v : Int) - (pc + 2)) ∧
      opposite (mnemonic ins) = some name ∧ op < 256 ∧ decodeOf C.cpu op = some (name, .relative) ∧
      bs = [op, 3, 0x4C, v % 256, v / 256]
  | _ => False

/-- `.inc` with a file that exists.  Its statements are the next lines of the program (C61). -/
def Opens (C : Context) (bs : List Nat) : Stmt → Prop
  | .inc raw => bs = [] ∧ ∃ name, C.text raw = some name ∧ name ∈ C.files.map (·.1)
  | _ => False

/-- The bytes of a statement outside of blocks. -/
def Placed (C : Context) (env : Str → Option Int) (pc : Int) (fresh : Bool) (bs : List Nat) (st : Stmt) : Prop :=
  Emits C env pc fresh bs st ∨ Far C env pc bs st ∨ Opens C bs st

/-- The names that do not depend on the last label: those that do not start with `@`, after at most one dot. -/
def global : Str → Bool
  | 46 :: r => r.head? != some 64
  | r => r.head? != some 64

/-- The statement mentions no local name. -/
def noLocals : Stmt → Bool
  | .op _ _ (some e) => e.names.all global
  | .data _ hd tl => (hd :: tl).all fun x => x.names.all global
  | .fill v n => v.names.all global && n.names.all global
  | .assign name e => global name && e.names.all global
  | _ => true

/-- The label `name`, after the last label `ll`, has the value `pc`, and `ll'` is the last label from now on.  Anonymous
labels are not included. -/
def Defines (C : Context) (ll : Option Str) (pc : Int) (name : Str) (ll' : Option Str) : Prop :=
  C.isMacro name = false ∧ name.head? ≠ some 43 ∧ name.head? ≠ some 45 ∧ C.env ll' name = some pc ∧
  ((name.head? ≠ some 64 ∧ ll' = some name) ∨
    (name.head? = some 64 ∧ ll' = ll ∧ 46 ∉ name ∧ ∀ l, ll = some l → l.all wordChar = true))

/-- The bytes of a line at address `pc`. -/
def Line (C : Context) (ll : Option Str) (pc : Int) (fresh : Bool) : Top → Option Str → List Nat → Prop
  | .stmt _ _ (.word true name none), ll', bs => Defines C ll pc name ll' ∧ bs = []
  | .stmt _ _ st, ll', bs => ll' = ll ∧ Placed C (C.env ll) pc fresh bs st
  | .labelled _ _ name st, ll', bs =>
    Defines C ll pc name ll' ∧ Placed C (C.env ll) pc fresh bs st ∧ (ll' = ll ∨ noLocals st = true)
  | _, _, _ => False

/-- The bytes of the lines from address `pc` on. -/
def Layout (C : Context) : Option Str → Int → Bool → List Top → Option Str → List Nat → Prop
  | ll, _, _, [], ll', bs => ll' = ll ∧ bs = []
  | ll, pc, fresh, t :: ts, ll', bs => ∃ ll1 b1 b2, Line C ll pc fresh t ll1 b1 ∧
      Layout C ll1 (pc + b1.length) (fresh && b1.isEmpty) ts ll' b2 ∧ bs = b1 ++ b2

end Verif.Spec
