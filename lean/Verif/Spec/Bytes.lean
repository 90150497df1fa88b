/-! # Specification: little-endian byte order -/

namespace Verif.Spec

/-- The number a little-endian reader finds in a list of bytes. -/
def le : List Nat → Nat
  | [] => 0
  | b :: bs => b + 256 * le bs

/-- All elements are bytes. -/
def Bytes (bs : List Nat) : Prop := ∀ b ∈ bs, b < 256

end Verif.Spec
