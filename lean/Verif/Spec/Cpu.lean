/-!
# Specification: the instruction sets of the 6502 and 65C02

Written from the processors' documentation, without reference to the assembler's tables: the
opcode byte is split into the fields `aaabbbcc`, which determine mnemonic and addressing mode.
-/

namespace Verif.Spec

/-- Addressing modes of the processor. -/
inductive AMode where
  | implied | accumulator | immediate | zeroPage | zeroPageX | zeroPageY
  | absolute | absoluteX | absoluteY | indirect | indexedIndirect | indirectIndexed
  | relative | zeroPageIndirect | absoluteIndexedIndirect | zeroPageRelative
deriving DecidableEq, Repr

/-- Bytes following the opcode byte. -/
def AMode.operandBytes : AMode → Nat
  | .implied | .accumulator => 0
  | .immediate | .zeroPage | .zeroPageX | .zeroPageY | .indexedIndirect | .indirectIndexed
  | .relative | .zeroPageIndirect => 1
  | .absolute | .absoluteX | .absoluteY | .indirect | .absoluteIndexedIndirect
  | .zeroPageRelative => 2

/-- Rows with `cc = 01`: the eight accumulator instructions. -/
def aluNames : List String := ["ora", "and", "eor", "adc", "sta", "lda", "cmp", "sbc"]
/-- Modes of the `cc = 01` rows, indexed by `bbb`. -/
def aluModes : List AMode :=
  [.indexedIndirect, .zeroPage, .immediate, .absolute, .indirectIndexed, .zeroPageX, .absoluteY,
   .absoluteX]
/-- Rows with `cc = 10`: shifts and X-register instructions. -/
def rmwNames : List String := ["asl", "rol", "lsr", "ror", "stx", "ldx", "dec", "inc"]
/-- Branches, indexed by `aaa` (`bbb = 100`, `cc = 00`). -/
def branchNames : List String := ["bpl", "bmi", "bvc", "bvs", "bcc", "bcs", "bne", "beq"]
/-- `bbb = 010`, `cc = 00`. -/
def col8Names : List String := ["php", "plp", "pha", "pla", "dey", "tay", "iny", "inx"]
/-- `bbb = 110`, `cc = 00`. -/
def col18Names : List String := ["clc", "sec", "cli", "sei", "tya", "clv", "cld", "sed"]

/-- Documented instructions of the NMOS 6502: mnemonic and mode of an opcode byte. -/
def decode6502 (op : Nat) : Option (String × AMode) :=
  let aaa := op / 32
  let bbb := op / 4 % 8
  let cc := op % 4
  if cc = 1 then
    if aaa = 4 ∧ bbb = 2 then none
    else (aluNames[aaa]?).bind fun n => (aluModes[bbb]?).map fun m => (n, m)
  else if cc = 2 then
    (rmwNames[aaa]?).bind fun n =>
      match bbb with
      | 0 => if aaa = 5 then some (n, .immediate) else none
      | 1 => some (n, .zeroPage)
      | 2 => if aaa < 4 then some (n, .accumulator)
             else (["txa", "tax", "dex", "nop"][aaa - 4]?).map fun n => (n, .implied)
      | 3 => some (n, .absolute)
      | 5 => some (n, if aaa = 4 ∨ aaa = 5 then .zeroPageY else .zeroPageX)
      | 6 => if aaa = 4 then some ("txs", .implied)
             else if aaa = 5 then some ("tsx", .implied) else none
      | 7 => if aaa = 4 then none else some (n, if aaa = 5 then .absoluteY else .absoluteX)
      | _ => none
  else if cc = 0 then
    match bbb with
    | 0 => match aaa with
      | 0 => some ("brk", .implied)
      | 1 => some ("jsr", .absolute)
      | 2 => some ("rti", .implied)
      | 3 => some ("rts", .implied)
      | 5 => some ("ldy", .immediate)
      | 6 => some ("cpy", .immediate)
      | 7 => some ("cpx", .immediate)
      | _ => none
    | 1 => match aaa with
      | 1 => some ("bit", .zeroPage)
      | 4 => some ("sty", .zeroPage)
      | 5 => some ("ldy", .zeroPage)
      | 6 => some ("cpy", .zeroPage)
      | 7 => some ("cpx", .zeroPage)
      | _ => none
    | 2 => (col8Names[aaa]?).map fun n => (n, .implied)
    | 3 => match aaa with
      | 1 => some ("bit", .absolute)
      | 2 => some ("jmp", .absolute)
      | 3 => some ("jmp", .indirect)
      | 4 => some ("sty", .absolute)
      | 5 => some ("ldy", .absolute)
      | 6 => some ("cpy", .absolute)
      | 7 => some ("cpx", .absolute)
      | _ => none
    | 4 => (branchNames[aaa]?).map fun n => (n, .relative)
    | 5 => if aaa = 4 then some ("sty", .zeroPageX)
           else if aaa = 5 then some ("ldy", .zeroPageX) else none
    | 6 => (col18Names[aaa]?).map fun n => (n, .implied)
    | 7 => if aaa = 5 then some ("ldy", .absoluteX) else none
    | _ => none
  else none

/-- The instructions the (Rockwell/WDC) 65C02 adds to the 6502. -/
def decode65C02Extra (op : Nat) : Option (String × AMode) :=
  if op % 32 = 0x12 then (aluNames[op / 32]?).map fun n => (n, .zeroPageIndirect)
  else if op % 16 = 0x07 then
    some ((if op < 0x80 then "rmb" else "smb") ++ toString (op / 16 % 8), .zeroPage)
  else if op % 16 = 0x0F then
    some ((if op < 0x80 then "bbr" else "bbs") ++ toString (op / 16 % 8), .zeroPageRelative)
  else match op with
    | 0x04 => some ("tsb", .zeroPage)
    | 0x0C => some ("tsb", .absolute)
    | 0x14 => some ("trb", .zeroPage)
    | 0x1C => some ("trb", .absolute)
    | 0x1A => some ("inc", .accumulator)
    | 0x3A => some ("dec", .accumulator)
    | 0x34 => some ("bit", .zeroPageX)
    | 0x3C => some ("bit", .absoluteX)
    | 0x89 => some ("bit", .immediate)
    | 0x5A => some ("phy", .implied)
    | 0x7A => some ("ply", .implied)
    | 0xDA => some ("phx", .implied)
    | 0xFA => some ("plx", .implied)
    | 0x64 => some ("stz", .zeroPage)
    | 0x74 => some ("stz", .zeroPageX)
    | 0x9C => some ("stz", .absolute)
    | 0x9E => some ("stz", .absoluteX)
    | 0x7C => some ("jmp", .absoluteIndexedIndirect)
    | 0x80 => some ("bra", .relative)
    | 0xCB => some ("wai", .implied)
    | 0xDB => some ("stp", .implied)
    | _ => none

/-- Documented instructions of the 65C02. -/
def decode65C02 (op : Nat) : Option (String × AMode) :=
  match decode65C02Extra op with
  | some r => some r
  | none => decode6502 op

/-- Length in bytes the NMOS 6502 uses for any opcode byte, documented or not (a property of its
fetch logic).  `brk` is counted as one byte, the convention of assemblers. -/
def length6502 (op : Nat) : Nat :=
  let lo := op % 16
  let odd := op / 16 % 2
  if op = 0x20 then 3
  else if lo = 0 then (if odd = 0 ∧ op < 0x80 then 1 else 2)
  else if lo = 1 ∨ lo = 3 then 2
  else if lo = 2 then (if odd = 0 ∧ 0x80 ≤ op then 2 else 1)
  else if lo < 8 then 2
  else if lo = 8 ∨ lo = 10 then 1
  else if lo = 9 ∨ lo = 11 then (if odd = 0 then 2 else 3)
  else 3

/-- Length in bytes the 65C02 uses for an opcode byte. -/
def length65C02 (op : Nat) : Nat :=
  let lo := op % 16
  let odd := op / 16 % 2
  if lo = 2 then 2
  else if lo = 3 ∨ lo = 11 then 1
  else if lo = 0 then (if op = 0x20 then 3 else if odd = 0 ∧ op < 0x80 then 1 else 2)
  else if lo = 1 then 2
  else if lo < 8 then 2
  else if lo = 8 ∨ lo = 10 then 1
  else if lo = 9 then (if odd = 0 then 2 else 3)
  else 3

end Verif.Spec
