import Verif.Spec.Bytes
import Verif.Spec.Cpu

/-! # Specification: what the bytes of an instruction mean

Written from the processor's point of view: the opcode byte is decoded, the operand bytes are read in
little-endian order, a branch displacement is a signed byte relative to the following instruction. -/

namespace Verif.Spec

/-- The operand as it is written in the source. -/
inductive Form where
  /-- `#v` -/
  | imm
  /-- `v` -/
  | dir
  /-- `v,x` -/
  | dirX
  /-- `v,y` -/
  | dirY
  /-- `(v)` -/
  | ind
  /-- `(v,x)` -/
  | indX
  /-- `(v),y` -/
  | indY
deriving DecidableEq, Repr

/-- The addressing modes that may implement a written form. -/
def Form.modes : Form → List AMode
  | .imm => [.immediate]
  | .dir => [.zeroPage, .absolute, .relative]
  | .dirX => [.zeroPageX, .absoluteX]
  | .dirY => [.zeroPageY, .absoluteY]
  | .ind => [.zeroPageIndirect, .indirect]
  | .indX => [.indexedIndirect, .absoluteIndexedIndirect]
  | .indY => [.indirectIndexed]

/-- Two's complement reading of a byte. -/
def signed (b : Nat) : Int := if b < 128 then b else (b : Int) - 256

/-- The operand bytes of an instruction at address `pc` stand for the value `v`. -/
def Denotes (am : AMode) (pc : Int) (rest : List Nat) (v : Int) : Prop :=
  if am = .relative then ∃ d, rest = [d] ∧ pc + 2 + signed d = v
  else rest.length = am.operandBytes ∧ (le rest : Int) = v

/-- The bytes are an instruction with this mnemonic and written form whose operand is `v`. -/
def Encodes (decode : Nat → Option (String × AMode)) (name : String) (form : Form) (pc v : Int) (bs : List Nat) :
    Prop :=
  Bytes bs ∧ ∃ op rest am, bs = op :: rest ∧ decode op = some (name, am) ∧ am ∈ form.modes ∧ Denotes am pc rest v

end Verif.Spec
