import Verif.Model.Str

/-! # hash.cc -/

namespace Verif

/-- Unsigned 32-bit wrap-around (`unsigned int` arithmetic of hash.cc). -/
def u32 (n : Nat) : Nat := n % 4294967296

/-- Body of the loop of `hash_function` (hash.cc:15-20). -/
def hashStep (hash index c : Nat) : Nat :=
  let h1 := u32 (hash + (if index % 2 ≠ 0 then tolower c else toupper c))
  let h2 := u32 (h1 + u32 (h1 * 1024))
  h2 ^^^ (h2 / 64)

/-- The loop of `hash_function` (hash.cc:15-20) from position `index`. -/
def hashLoop (hash index : Nat) : Str → Nat
  | [] => hash
  | c :: cs => hashLoop (hashStep hash index c) (index + 1) cs

/-- Final mixing of `hash_function` (hash.cc:21-24). -/
def hashFinish (hash : Nat) : Nat :=
  let h1 := u32 (hash + u32 (hash * 8))
  let h2 := h1 ^^^ (h1 / 2048)
  u32 (h2 + u32 (h2 * 32768))

/-- `hash_function` (hash.cc:11-25).  Simplification: characters are taken as unsigned bytes (for
bytes above 127 the C code adds a sign-extended value). -/
def hashFunction (key : Str) : Nat := hashFinish (hashLoop 0 0 key)

end Verif
