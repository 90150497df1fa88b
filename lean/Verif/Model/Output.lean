import Verif.Model.Loop

/-! # Output file and listing (genoutput.cc, node.cc:1517-1864)

The functions that evaluate operands take `expand_node` as the parameter `ex`. -/

namespace Verif

/-- `write_byte` (genoutput.cc:49-59) together with the caller's `total_bytes_written += bytes_written`:
the value converted to `unsigned char` is appended.  `fwrite` is assumed to succeed. -/
def writeByte (v : Int) : M Unit :=
  modS fun s => { s with out := s.out ++ [(v % 256).toNat], totalBytes := s.totalBytes + 1 }

/-- `write_word` (genoutput.cc:61-72) with the caller's counter update: low byte, high byte. -/
def writeWord (v : Int) : M Unit := do
  writeByte (cand v 0xFF)
  writeByte (cand v 0xFF00 / 256)

/-- `write_string` (genoutput.cc:74-85) with the caller's counter update. -/
def writeBytes (v : Str) : M Unit :=
  modS fun s => { s with out := s.out ++ v.map (· % 256), totalBytes := s.totalBytes + v.length }

/-- `write_data` (genoutput.cc:38-47): `data_size` 1 writes a byte, 2 a word, others nothing (-1). -/
def writeData (v : Int) : M Unit := do
  let s ← getS
  if s.dataSize = 1 then writeByte v
  else if s.dataSize = 2 then writeWord v
  else M.pure ()

/-- `write_header` (genoutput.cc:87-108). -/
def writeHeader : M Unit := do
  modS fun s => { s with byteDelta := 0, origin := if s.originSpecified then s.origin else s.pc }
  let s ← getS
  match s.format with
  | .c64 => do
    writeWord s.origin
    modS fun s => { s with byteDelta := 2 }
  | .bin => M.pure ()

/-- `write_string_node` (genoutput.cc:124-144): the characters, padded to even length for words. -/
def writeStringNode (v : Str) : M Unit := do
  writeBytes v
  let s ← getS
  (if s.dataSize = 2 ∧ v.length % 2 = 1 then writeByte 0 else M.pure ())

/-- `write_data_node` after `expand_node` (genoutput.cc:150-199): `op` is the value. -/
def writeDataValue (op : Int) : M Unit := do
  let s ← getS
  if cand op (cnot 0xFFFF) ≠ 0 ∧ op < 0 then
    if s.dataSize ≠ 1 then
      if -op > 0xFFFE then error .valueOutOfRange else writeWord op
    else
      if -op > 0xFE then error .valueOutOfRange else writeByte (cand op 0xFF)
  else
    if (s.dataSize = 1 ∧ cand op (cnot 0xFF) ≠ 0) ∨ cand op (cnot 0xFFFF) ≠ 0 then error .valueOutOfRange
    else
      if s.dataSize = 1 ∨ (s.dataSize = 0 ∧ cand op (cnot 0xFF) = 0) then writeByte op
      else writeWord op

/-- `write_data_node` (genoutput.cc:146-200).  `-(op)` overflows for `INT_MIN`. -/
def writeDataNode (ex : Ptr → M Int) (p : Ptr) : M Unit := do
  let op ← ex p
  if op = -2147483648 then ubM else writeDataValue op

/-- Displacement of a relative branch: `op - (program_counter + 2)` (genoutput.cc:225, expand.cc:920,
node.cc:1753). -/
def branchDisp (op pc : Int) : Option Int := cchk (op - (pc + 2))

/-- The range test for displacements: `op > 128 || op < -127` (genoutput.cc:227, expand.cc:922,
node.cc:1754). -/
def branchBad (disp : Int) : Bool := decide (disp > 128) || decide (disp < -127)

/-- `write_opcode_node` (genoutput.cc:202-246). -/
def writeOpcodeNode (ex : Ptr → M Int) (p : Ptr) : M Unit := do
  let n ← node p
  match n.kind with
  | .opcode _ code mode pc => do
    writeByte code
    if opByteCount mode > 0 then do
      let o ← opAt n 0
      let op ← ex o
      if mode = .r then do
        let d ← liftO (branchDisp op pc)
        if branchBad d then error .valueOutOfRange
        else do
          modS fun s => { s with dataSize := opByteCount mode }
          writeData (cand d 0xFF)
      else do
        modS fun s => { s with dataSize := opByteCount mode }
        writeData op
    else M.pure ()
  | _ => ubM

/-- The `switch` of `generate_output` (genoutput.cc:286-299). -/
def payload (ex : Ptr → M Int) (p : Ptr) (n : Node) : M Unit :=
  match n.kind with
  | .str v => writeStringNode v
  | .opcode _ _ _ _ => writeOpcodeNode ex p
  | _ => writeDataNode ex p

/-- `generate_output` (genoutput.cc:258-307) for a non-null node.  The result is the number of bytes
written by this call, including the header. -/
def generateOutput (ex : Ptr → M Int) (p : Ptr) : M Int := do
  let s0 ← getS
  if s0.outputOpen = false ∨ s0.originSpecified = false then M.pure 0
  else do
    (if s0.totalBytes = 0 then writeHeader else M.pure ())
    let s1 ← getS
    if s1.pc - (s1.origin + s1.totalBytes) > 0 then do
      error .valueOutOfRange
      exitM (-1)
    else do
      let n ← node p
      payload ex p n
      let s2 ← getS
      M.pure (s2.totalBytes - s0.totalBytes)

/-- `sprintf("%0<w>X", v)` for an `int` (node.cc:1556-1857): the value is printed as unsigned. -/
def fmtX (w : Nat) (v : Int) : Str := hexStr w (v % 4294967296).toNat

/-- `sprintf("$%02X%02X:", op >> 8, op & 0xFF)` and `" $%02X"` for each byte (node.cc:1556, 1578-1584, 1705-1713, 1742-1776). -/
def rowStart (addr : Int) (bytes : List Int) : Str :=
  36 :: (fmtX 2 (addr / 256) ++ fmtX 2 (cand addr 0xFF) ++ [58]) ++ bytes.flatMap fun b => 32 :: 36 :: fmtX 2 b

/-- Address and bytes, filled with blanks up to column `SRC_LST_INDENT` (genlist.h:32; node.cc:1590-1595, 1715-1719,
1779-1783). -/
def rowHead (addr : Int) (bytes : List Int) : Str :=
  rowStart addr bytes ++ List.replicate (25 - (rowStart addr bytes).length) 32

/-- The entry made by `add_list` (genlist.cc:220-246) for the current line (`--line` and `line + 1` cancel). -/
def listRow (s : St) (output : Str) : ListEntry :=
  { line := s.line, file := s.file, output := output, printState := s.printListState }

/-- `add_list` (genlist.cc:213-259): append an entry. -/
def addList (output : Str) : M Unit := modS fun s => { s with listing := s.listing ++ [listRow s output] }

/-- A character as `char`, which is signed (node.cc:1651). -/
def charVal (c : Nat) : Int := if c % 256 < 128 then (c % 256 : Nat) else (c % 256 : Nat) - 256

/-- A character of a full row (node.cc:1606-1614): `'c'` or `$XX`.  `isprint` is that of the C locale; for characters
from 128 on its argument is negative, for which the C standard defines nothing and glibc answers no. -/
def showChar (c : Nat) : Str :=
  if 32 ≤ c % 256 ∧ c % 256 ≤ 126 then [39, c % 256, 39] else 36 :: fmtX 2 (c % 256 : Nat)

/-- A list of column texts, separated by `", "` (node.cc:1601-1605, 1640-1644). -/
def commaList : List Str → Str
  | [] => []
  | [x] => x
  | x :: xs => x ++ [44, 32] ++ commaList xs

/-- `.db ` -/
def dbWord : Str := [46, 100, 98, 32]

/-- A full row of a text (node.cc:1588-1617). -/
def fullRow (pc : Int) (a b c : Nat) : Str :=
  rowHead (cand pc 0xFFFF) [(a % 256 : Nat), (b % 256 : Nat), (c % 256 : Nat)] ++ dbWord ++
    commaList [showChar a, showChar b, showChar c]

/-- The last row of a text (node.cc:1622-1662): the characters as they are, and the pad byte, which is the NUL at the
end of the text. -/
def lastRow (pad : Bool) (pc : Int) (v : Str) : Str :=
  rowHead (cand pc 0xFFFF) ((v.map fun c => ((c % 256 : Nat) : Int)) ++ if pad then [0] else []) ++ dbWord ++
    commaList ((v.map fun c => [39, c % 256, 39]) ++ if pad then [36 :: fmtX 2 0] else [])

/-- Listing of a string: rows of three bytes (node.cc:1566-1620), the rest of at most two bytes in the last
row together with the pad byte (1623-1664).  When a pad byte follows a full row, the buffer still holds
that row (`prev`), so the extra row repeats it, with the first character of the row (`c0`) in the place of the pad byte.
The characters are not NUL (`string_node`, node.cc). -/
def listString (pad : Bool) : Int → (Str × Nat) → Str → M Unit
  | pc, _, a :: b :: c :: rest => do
    addList (fullRow pc a b c)
    listString pad (pc + 3) (fullRow pc a b c, a) rest
  | pc, _, [a, b] => addList (lastRow pad pc [a, b])
  | pc, _, [a] => addList (lastRow pad pc [a])
  | _, prev, [] =>
    if pad then addList (prev.1 ++ (32 :: 36 :: fmtX 2 0) ++ dbWord ++ (36 :: fmtX 2 (charVal prev.2))) else M.pure ()

/-- The row of a numeric data item (node.cc:1703-1728). -/
def dataRow (pc : Int) (bytes : List Int) : Str :=
  rowHead (cand pc 0xFFFF) bytes ++ dbWord ++ commaList (bytes.map fun b => 36 :: fmtX 2 b)

/-- Listing of a numeric data item (node.cc:1674-1735).  A high byte that does not fit frees the buffer and
prints it afterwards (1684-1689): undefined; so the second condition of node.cc:1724, `data_size == 0 && hi != 0`,
never holds. -/
def listData (ex : Ptr → M Int) (p : Ptr) : M Unit := do
  let s0 ← getS
  let op ← ex p
  let s ← getS
  let hi := if op < 0 ∧ s.dataSize = 1 then 0 else cand op 0xFF00 / 256
  if hi ≠ 0 ∧ s.dataSize < 2 then ubM
  else addList (dataRow s0.pc (if s.dataSize > 1 then [cand op 0xFF, hi] else [cand op 0xFF]))

/-- `instruction_to_string` (opcodes.cc:474-479): the mnemonic.  Negative numbers, which no caller passes, give the first
name instead of a read in front of the table. -/
def instrText (ins : Int) : Str := ((instrNames[ins.toNat]?).getD "Unknown").toList.map Char.toNat

/-- The operand as printed (node.cc:1796-1857). -/
def operandText (mode : Mode) (op : Int) : Str :=
  match mode with
  | .i | .A => []
  | .I => [35, 36] ++ fmtX 2 op ++ [32]
  | .zp => [36] ++ fmtX 2 op ++ [32]
  | .zpi => [40, 36] ++ fmtX 2 op ++ [41, 32]
  | .zpx => [36] ++ fmtX 2 op ++ [44, 120, 32]
  | .zpy => [36] ++ fmtX 2 op ++ [44, 121, 32]
  | .izx => [40, 36] ++ fmtX 2 op ++ [44, 120, 41, 32]
  | .izy => [40, 36] ++ fmtX 2 op ++ [41, 44, 121, 32]
  | .a => [36] ++ fmtX 4 op ++ [32]
  | .aix => [36] ++ fmtX 4 op ++ [44, 120, 32]
  | .ax => [36] ++ fmtX 4 op ++ [44, 120, 32]
  | .ay => [36] ++ fmtX 4 op ++ [44, 121, 32]
  | .ind => [40, 36] ++ fmtX 4 op ++ [41, 32]
  | .r => [36] ++ fmtX 4 op ++ [32]

/-- The disassembly column: mnemonic and operand (node.cc:1784-1857). -/
def opColumn (ins : Int) (numOps : Nat) (mode : Mode) (op : Int) : Str :=
  instrText ins ++ [32] ++ if opByteCount mode > 0 ∧ numOps > 0 then operandText mode op else []

/-- Listing of an instruction (node.cc:1739-1864).  The operand is evaluated a second time for the
disassembly column (1787-1795).  A branch out of range produces no entry, the text goes to the console (1754-1759). -/
def listOpcode (ex : Ptr → M Int) (n : Node) (ins code : Int) (mode : Mode) (pc : Int) : M Unit :=
  if opByteCount mode > 0 then do
    let o ← opAt n 0
    let op ← ex o
    let d ← (if mode = .r then liftO (branchDisp op pc) else M.pure op)
    if mode = .r ∧ branchBad d = true then
      modS fun s => { s with console := s.console ++ rowStart (cand pc 0xFFFF) [code] ++ [10] }
    else do
      let v := if mode = .r then cand d 0xFF else op
      let w ← (if n.numOps > 0 then ex o else M.pure 0)
      addList (rowHead (cand pc 0xFFFF)
        (code :: cand v 0xFF :: if opByteCount mode > 1 then [cand v 0xFF00 / 256] else []) ++ opColumn ins n.numOps mode w)
  else addList (rowHead (cand pc 0xFFFF) [code] ++ opColumn ins n.numOps mode 0)

/-- The entry marked as directive (node.cc:1544-1545). -/
def addDirective : M Unit := modS fun s => { s with listing := s.listing ++ [{ listRow s [] with directive := true }] }

/-- A change of the print state (node.cc:1539-1550). -/
def listPrintState (st : Bool) : M Unit := do
  let s ← getS
  if st = s.printListState then M.pure ()
  else do
    modS fun s => { s with printListState := false }
    addDirective
    modS fun s => { s with printListState := st }

/-- `generate_list_node` (node.cc:1517-1864) for a non-null node; `generate_list_node(nullptr)` is `addList []`
(node.cc:1528-1537) and not modelled where files, included files and skipped blocks begin and end (pass.cc:136-143,
file.cc:187-200, pasm.l:202-215, 433-443). -/
def generateListNode (ex : Ptr → M Int) (p : Ptr) : M Unit := do
  let n ← node p
  match n.kind with
  | .printState st => listPrintState st
  | .str v => do
    let s ← getS
    listString (decide (s.dataSize = 2 ∧ v.length % 2 = 1)) s.pc ([], 0) v
  | .opcode ins code mode pc => listOpcode ex n ins code mode pc
  | _ => listData ex p

end Verif
