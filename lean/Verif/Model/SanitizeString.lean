import Verif.Model.Str

/-! # str.cc: `sanitize_string` -/

namespace Verif

/-- C-locale `isxdigit` (str.cc:81). -/
def isxdigit (c : Nat) : Bool :=
  (48 ≤ c && c ≤ 57) || (65 ≤ c && c ≤ 70) || (97 ≤ c && c ≤ 102)

/-- Value of one hexadecimal digit as `strtol` computes it (str.cc:86). -/
def hexVal (c : Nat) : Nat :=
  if 48 ≤ c ∧ c ≤ 57 then c - 48 else if 65 ≤ c ∧ c ≤ 70 then c - 55 else c - 87

/-- The loop decoding pairs of hexadecimal digits (str.cc:81-88): decoded bytes and remaining text.
The two-digit `strtol(temp, NULL, 16)` is the usual positional value. -/
def hexPairs : Str → List Nat × Str
  | a :: b :: rest =>
    if isxdigit a && isxdigit b then
      let r := hexPairs rest
      ((hexVal a * 16 + hexVal b) :: r.1, r.2)
    else ([], a :: b :: rest)
  | s => ([], s)

/-- The `switch` for a one-letter escape (str.cc:42-97): decoded character and whether the escape is
unknown (error, decoded as `?`).  `none` for `x`, which is handled separately. -/
def escapeChar (c : Nat) : Option (Nat × Bool) :=
  if tolower c = 97 then some (7, false)
  else if tolower c = 98 then some (8, false)
  else if tolower c = 102 then some (12, false)
  else if tolower c = 118 then some (11, false)
  else if tolower c = 114 then some (13, false)
  else if tolower c = 110 then some (10, false)
  else if tolower c = 116 then some (9, false)
  else if tolower c = 120 then none
  else if c = 39 ∨ c = 34 ∨ c = 92 then some (c, false)
  else some (63, true)

/-- The loop of `sanitize_string` (str.cc:36-108): decoded bytes and number of errors reported, or
`none` when the code reads beyond the terminating NUL (a backslash, or `\x`, at the very end).
`fuel` bounds the iterations; the length of the text suffices. -/
def sanitizeF : Nat → Str → Option (List Nat × Nat)
  | _, [] => some ([], 0)
  | 0, _ :: _ => none
  | fuel + 1, c :: rest =>
    if c = 92 then
      match rest with
      | [] => none
      | e :: rest =>
        match escapeChar e with
        | some (v, bad) =>
          (sanitizeF fuel rest).map fun r => (v :: r.1, r.2 + (if bad then 1 else 0))
        | none =>
          match rest with
          | [] => none
          | d :: rest =>
            let h := hexPairs (d :: rest)
            (sanitizeF fuel h.2).map fun r => (h.1 ++ r.1, r.2)
    else (sanitizeF fuel rest).map fun r => (c :: r.1, r.2)

/-- `sanitize_string` (str.cc:18-111).  The result is the contents of the output buffer; a decoded zero
byte (`\x00`) ends the C string that later code sees. -/
def sanitizeString (s : Str) : Option (List Nat × Nat) := sanitizeF s.length s

end Verif
