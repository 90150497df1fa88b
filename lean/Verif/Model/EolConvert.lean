/-! # eolconvert.cc: `replace_eol` (CMakePasm/eolconvert/eolconvert.cc) -/

namespace Verif

/-- `is_eol` (eolconvert.cc:280-283). -/
def isEol (ch : Nat) : Bool := ch == 13 || ch == 10

/-- Loop state of `replace_eol` (eolconvert.cc:237-238). -/
structure EolState where
  /-- `last_eol` -/
  lastEol : Nat
  /-- `count` -/
  count : Nat

/-- One iteration of the loop (eolconvert.cc:239-262): new state and bytes written to the stream. -/
def eolStep (s : EolState) (ch : Nat) : EolState × List Nat :=
  if !isEol ch then (⟨s.lastEol, 0⟩, [ch])
  else if ch ≠ s.lastEol then
    let count := s.count + 1
    if count = 1 then (⟨ch, count⟩, [10])
    else if count = 2 then (⟨ch, 0⟩, [])
    else (⟨ch, count⟩, [])
  else (⟨s.lastEol, 0⟩, [10])

/-- The loop over the input buffer (eolconvert.cc:239-262). -/
def eolLoop (s : EolState) : List Nat → List Nat
  | [] => []
  | ch :: rest => (eolStep s ch).2 ++ eolLoop (eolStep s ch).1 rest

/-- `replace_eol` (eolconvert.cc:223-277): contents of the written file as a function of the contents
of the file read.  File system errors are not modelled. -/
def replaceEol (buf : List Nat) : List Nat := eolLoop ⟨0, 0⟩ buf

end Verif
