import Verif.Spec.Encode

/-! # Specification: execution of the instructions the assembler generates on its own

Flags, index registers and program counter of the processor, for branches, `jmp`, and the index register
instructions.  Written from the processors' documentation. -/

namespace Verif.Spec

/-- The part of the processor state these instructions read and write. -/
structure Proc where
  pc : Nat
  x : Nat
  y : Nat
  /-- negative -/
  n : Bool
  /-- overflow -/
  v : Bool
  /-- zero -/
  z : Bool
  /-- carry -/
  c : Bool
deriving DecidableEq, Repr

/-- The condition under which a branch instruction is taken. -/
def Proc.taken (p : Proc) : String → Option Bool
  | "bpl" => some (!p.n)
  | "bmi" => some p.n
  | "bvc" => some (!p.v)
  | "bvs" => some p.v
  | "bcc" => some (!p.c)
  | "bcs" => some p.c
  | "bne" => some (!p.z)
  | "beq" => some p.z
  | "bra" => some true
  | _ => none

/-- Flags after a load or increment of an index register. -/
def Proc.nz (p : Proc) (r : Nat) : Proc := { p with n := decide (128 ≤ r), z := decide (r = 0) }

/-- Flags after comparing a register with an operand. -/
def Proc.compare (p : Proc) (r m : Nat) : Proc :=
  { p with n := decide (128 ≤ (r + 256 - m) % 256), z := decide (r = m), c := decide (m ≤ r) }

/-- Continue at the next instruction. -/
def Proc.next (p : Proc) (k : Nat) : Proc := { p with pc := (p.pc + k) % 65536 }

/-- One instruction; `none` for instructions not described here. -/
def step (decode : Nat → Option (String × AMode)) (mem : Nat → Nat) (p : Proc) : Option Proc :=
  let b := mem (p.pc + 1)
  match decode (mem p.pc) with
  | some (name, .relative) => (p.taken name).map fun t =>
      if t then { p with pc := (((p.pc : Int) + 2 + signed b) % 65536).toNat } else p.next 2
  | some ("jmp", .absolute) => some { p with pc := b + 256 * mem (p.pc + 2) }
  | some ("ldx", .immediate) => some (({ p with x := b }.nz b).next 2)
  | some ("ldy", .immediate) => some (({ p with y := b }.nz b).next 2)
  | some ("cpx", .immediate) => some ((p.compare p.x b).next 2)
  | some ("cpy", .immediate) => some ((p.compare p.y b).next 2)
  | some ("inx", .implied) => some (({ p with x := (p.x + 1) % 256 }.nz ((p.x + 1) % 256)).next 1)
  | some ("iny", .implied) => some (({ p with y := (p.y + 1) % 256 }.nz ((p.y + 1) % 256)).next 1)
  | some ("dex", .implied) => some (({ p with x := (p.x + 255) % 256 }.nz ((p.x + 255) % 256)).next 1)
  | some ("dey", .implied) => some (({ p with y := (p.y + 255) % 256 }.nz ((p.y + 255) % 256)).next 1)
  | _ => none

/-- The memory holds the bytes from an address on. -/
def Holds (mem : Nat → Nat) (a : Nat) (bs : List Nat) : Prop := ∀ (i : Nat) (h : i < bs.length), mem (a + i) = bs[i]

/-- Execution leads from one state to another, one instruction after the other, and all states before the last one
are in the address range `[a, b)`. -/
inductive ReachesIn (decode : Nat → Option (String × AMode)) (mem : Nat → Nat) (a b : Nat) : Proc → Proc → Prop where
  | refl (p : Proc) : ReachesIn decode mem a b p p
  | next {p q r : Proc} : a ≤ p.pc → p.pc < b → step decode mem p = some q → ReachesIn decode mem a b q r →
      ReachesIn decode mem a b p r

end Verif.Spec
