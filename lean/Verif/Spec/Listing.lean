import Verif.Model.Parse
import Verif.Spec.Print

/-! # Specification: listing lines of data -/

namespace Verif.Spec

/-- Address (four digits) and bytes of a listing row, with blanks up to column 25. -/
def leftPart (addr : Int) (bytes : List Nat) : Str :=
  let a := (addr % 65536).toNat
  let t := [36, hexDig (a / 4096), hexDig (a / 256 % 16), hexDig (a / 16 % 16), hexDig (a % 16), 58] ++ bytes.flatMap shownByte
  t ++ List.replicate (25 - t.length) 32

/-- The entry belongs to this line of this file and shows these bytes at this address. -/
structure Shows (file : Str) (line addr : Int) (bytes : List Nat) (e : ListEntry) : Prop where
  file : e.file = file
  line : e.line = line
  text : ∃ column, e.output = leftPart addr bytes ++ column

/-- A byte in the last column: its hexadecimal digits or the character, which is one of `q`. -/
def ByteText (q : Nat → Prop) (b : Nat) (t : Str) : Prop :=
  t = [36, hexDig (b / 16), hexDig (b % 16)] ∨ (t = [39, b, 39] ∧ q b)

/-- The texts of several bytes. -/
def ByteTexts (q : Nat → Prop) : List Nat → List Str → Prop
  | [], [] => True
  | b :: bs, t :: ts => ByteText q b t ∧ ByteTexts q bs ts
  | _, _ => False

/-- A character that can be written between single quotes. -/
def Quotable (c : Nat) : Prop := c ≠ 10 ∧ c ≠ 39 ∧ c ≠ 92

/-- A byte as an item of a list. -/
def byteItem (b : Nat) : Item := .expr (.int b)

/-- The last column of a row with data: `.db` and the bytes, separated by commas. -/
def dbColumn (ts : List Str) : Str := [46, 100, 98, 32] ++ List.intercalate [44, 32] ts

/-- A row with data: it shows the bytes twice, on the left and in the last column.  Only characters of `q` are shown as
characters. -/
structure ShowsData (q : Nat → Prop) (file : Str) (line addr : Int) (bytes : List Nat) (e : ListEntry) : Prop where
  file : e.file = file
  line : e.line = line
  text : ∃ ts, ByteTexts q bytes ts ∧ e.output = leftPart addr bytes ++ dbColumn ts

/-- The entries show these bytes, in order and without gaps, at the addresses from `pc` on; no entry is empty or shows
more than three bytes. -/
inductive Prints (q : Nat → Prop) (file : Str) (line : Int) : Int → List ListEntry → List Nat → Prop where
  | nil (pc : Int) : Prints q file line pc [] []
  | cons {pc : Int} {bs rest : List Nat} {e : ListEntry} {ls : List ListEntry} (h0 : bs ≠ []) (h3 : bs.length ≤ 3)
      (h : ShowsData q file line pc bs e) (t : Prints q file line (pc + bs.length) ls rest) :
      Prints q file line pc (e :: ls) (bs ++ rest)

/-- Items whose listing is complete: no text in a `.word` directive has an odd length divisible by three.  The characters
are among `q`. -/
def Printable (q : Nat → Prop) (txt : Str → Option Str) (size : Int) : Item → Prop
  | .str raw => ∀ v, txt raw = some v → (size = 2 → v.length % 6 ≠ 3) ∧ ∀ c ∈ v, q (c % 256)
  | .expr _ => True

end Verif.Spec
