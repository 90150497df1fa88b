import Verif.Lemmas.SanitizeString
import Verif.Spec.Literals

/-! # Property C36: string escapes are decoded safely -/

namespace Verif

open Spec

private theorem isxdigit_eq (c : Nat) : isxdigit c =
    (decide ('0'.toNat ≤ c ∧ c ≤ '9'.toNat) || decide ('A'.toNat ≤ c ∧ c ≤ 'F'.toNat) ||
      decide ('a'.toNat ≤ c ∧ c ≤ 'f'.toNat)) := by
  rw [Bool.eq_iff_iff]
  simp [isxdigit, Char.toNat]

private theorem hexPairs_stop (s : Str) (h : startsHex2 s = false) : hexPairs s = ([], s) := by
  match s with
  | [] => rfl
  | [a] => rfl
  | a :: b :: rest =>
    simp only [startsHex2] at h
    unfold hexPairs
    rw [← isxdigit_eq, ← isxdigit_eq] at h
    rw [h]; simp

private theorem hexVal_digit (n : Nat) (h : n < 16) :
    isxdigit (hexDigitOf n) = true ∧ hexVal (hexDigitOf n) = n := by
  revert n; decide

private theorem hexPairs_text (bs : List Nat) (hb : ∀ b ∈ bs, b < 256) (rest : Str)
    (h : startsHex2 rest = false) :
    hexPairs ((bs.map fun b => [hexDigitOf (b / 16), hexDigitOf (b % 16)]).flatten ++ rest) =
      (bs, rest) := by
  induction bs with
  | nil => exact hexPairs_stop rest h
  | cons b bs ih =>
    have ih := ih (fun b hb' => hb b (by simp [hb']))
    have hb := hb b (by simp)
    obtain ⟨x1, v1⟩ := hexVal_digit (b / 16) (by omega)
    obtain ⟨x2, v2⟩ := hexVal_digit (b % 16) (by omega)
    simp only [List.map_cons, List.flatten_cons, List.cons_append, List.nil_append, hexPairs, x1, x2,
      Bool.and_self, if_true, ih, v1, v2, Prod.mk.injEq, List.cons.injEq, and_true]
    omega

private theorem escape_table : ∀ e ∈ escTable, escapeChar e.1 = some (e.2, false) := by decide

/-- **C36.** A string written with the documented escapes decodes to exactly the bytes it stands for,
without error and without reading outside the string. -/
theorem C36_escapes_decoded (is : List StrItem) (h : itemsOk is) :
    sanitizeString (is.map StrItem.text).flatten =
      some ((is.map StrItem.value).flatten, 0) := by
  simp only [sanitizeString_eq]
  induction is with
  | nil => simp [sanitizeWF]
  | cons i is ih =>
    obtain ⟨h1, h2, h3⟩ := h
    have ih := ih h2
    cases i with
    | lit c =>
      have h1 : c ≠ 92 := h1
      simp only [List.map_cons, StrItem.text, StrItem.value, List.flatten_cons, List.cons_append,
        List.nil_append]
      rw [sanitizeWF.eq_def]; simp only []; rw [if_neg h1, ih]; rfl
    | esc c =>
      obtain ⟨v, hv⟩ := Option.isSome_iff_exists.1 h1
      have hmem : (c, v) ∈ escTable := by
        have : ∀ (l : List (Nat × Nat)), l.lookup c = some v → (c, v) ∈ l := by
          intro l
          induction l with
          | nil => intro h; cases h
          | cons p l ih =>
            obtain ⟨p1, p2⟩ := p
            intro h
            rw [List.lookup_cons] at h
            split at h
            · rename_i hc
              simp only [beq_iff_eq] at hc
              cases h; subst hc; simp
            · exact List.mem_cons_of_mem _ (ih h)
        exact this _ hv
      have he := escape_table _ hmem
      simp only [List.map_cons, StrItem.text, StrItem.value, List.flatten_cons, List.cons_append,
        List.nil_append, hv, Option.getD_some]
      rw [sanitizeWF.eq_def]; simp only [if_true]
      simp only [he, ih, Option.map_some]
      rfl
    | hex bs =>
      obtain ⟨hne, hb⟩ := h1
      have hx := hexPairs_text bs hb _ h3
      simp only [List.map_cons, StrItem.text, StrItem.value, List.flatten_cons, List.cons_append,
        List.nil_append]
      rw [sanitizeWF.eq_def]; simp only [if_true]
      have he : escapeChar 120 = none := by decide
      simp only [he]
      cases bs with
      | nil => exact absurd rfl hne
      | cons b bs =>
        simp only [List.map_cons, List.flatten_cons, List.cons_append, List.nil_append] at hx ⊢
        simp only [hx, ih, Option.map_some]
        rfl

example : itemsOk [.lit 72, .esc 110, .hex [0x41, 0xFF], .lit 90] ∧
    sanitizeString (cstr! "H\\n\\x41FFZ") = some ([72, 10, 0x41, 0xFF, 90], 0) := by
  refine ⟨⟨by simp [StrItem.ok], ⟨by simp [StrItem.ok, escTable, List.lookup], ⟨?_, ?_, ?_⟩, trivial⟩,
    trivial⟩, ?_⟩
  · simp [StrItem.ok]
  · exact ⟨by simp [StrItem.ok], trivial, trivial⟩
  · decide
  · exact C36_escapes_decoded [.lit 72, .esc 110, .hex [0x41, 0xFF], .lit 90]
      ⟨by simp [StrItem.ok], ⟨by simp [StrItem.ok, escTable, List.lookup],
        ⟨by simp [StrItem.ok], ⟨by simp [StrItem.ok], trivial, trivial⟩, by decide⟩, trivial⟩,
        trivial⟩

/-- **C36**: text without a backslash is unchanged. -/
theorem C36_no_escape_identity (s : Str) (h : 92 ∉ s) : sanitizeString s = some (s, 0) := by
  have := C36_escapes_decoded (s.map StrItem.lit) (by
    induction s with
    | nil => trivial
    | cons c s ih =>
      refine ⟨?_, ih (by simp at h ⊢; exact h.2), trivial⟩
      simp only [StrItem.ok]
      simp at h; omega)
  have e : ∀ l : Str, (l.map fun c => [c]).flatten = l := by
    intro l; induction l with
    | nil => rfl
    | cons a l ih => simp only [List.map_cons, List.flatten_cons, ih]; rfl
  simpa [List.map_map, Function.comp_def, StrItem.text, StrItem.value, e] using this

example : 92 ∉ cstr! "hello" := by decide

private theorem hexPairs_len (s : Str) :
    (hexPairs s).1.length * 2 + (hexPairs s).2.length = s.length := by
  fun_induction hexPairs s with
  | case1 a b rest h r ih =>
    have : r = hexPairs rest := rfl
    simp only [this, List.length_cons]; omega
  | case2 => simp
  | case3 => simp

/-- **C36**: the decoded bytes never exceed the characters read, so the output buffer (one byte longer
than the input) always has room for them and the terminator. -/
theorem C36_output_fits (s : Str) (out : List Nat) (n : Nat)
    (h : sanitizeString s = some (out, n)) : out.length ≤ s.length := by
  rw [sanitizeString_eq] at h
  fun_induction sanitizeWF s generalizing out n with
  | case1 =>
    simp only [Option.some.injEq, Prod.mk.injEq] at h
    rw [← h.1]; simp
  | case2 => cases h
  | case3 e rest v bad heq ih =>
    simp only [Option.map_eq_some_iff, Prod.mk.injEq] at h
    obtain ⟨⟨o, m⟩, h1, rfl, rfl⟩ := h
    have := ih o m h1
    simp only [List.length_cons]; omega
  | case4 => cases h
  | case5 e heq d rest hx ih =>
    simp only [Option.map_eq_some_iff, Prod.mk.injEq] at h
    obtain ⟨⟨o, m⟩, h1, rfl, rfl⟩ := h
    have := ih o m h1
    have hl := hexPairs_len (d :: rest)
    have hh : hx = hexPairs (d :: rest) := rfl
    rw [hh] at this ⊢
    simp only [List.length_cons, List.length_append] at *
    omega
  | case6 c rest hc ih =>
    simp only [Option.map_eq_some_iff, Prod.mk.injEq] at h
    obtain ⟨⟨o, m⟩, h1, rfl, rfl⟩ := h
    have := ih o m h1
    simp only [List.length_cons]; omega

example : sanitizeString (cstr! "abc") = some (cstr! "abc", 0) :=
  C36_no_escape_identity _ (by decide)

private theorem hexPairs_last (s : Str) : (hexPairs s).2 = [] ∨ (hexPairs s).2.getLast? = s.getLast? := by
  fun_induction hexPairs s with
  | case1 a b rest h r ih =>
    have hr : r = hexPairs rest := rfl
    rcases ih with ih | ih
    · left; rw [hr]; exact ih
    · by_cases hn : (hexPairs rest).2 = []
      · left; rw [hr]; exact hn
      · right
        rw [hr]
        simp only [ih]
        cases rest with
        | nil => simp [hexPairs] at hn
        | cons x rest => simp [List.getLast?_cons]
  | case2 => right; rfl
  | case3 => right; rfl

/-- **C36**, safety: a text whose last character is neither a backslash nor `x` is decoded without
reading beyond its end.  (Texts from the scanner have lost their closing quote, so this is a condition
on the source text.) -/
theorem C36_safe_partial (s : Str) (h : ∀ c, s.getLast? = some c → c ≠ 92 ∧ c ≠ 120 ∧ c ≠ 88) :
    (sanitizeString s).isSome := by
  have last_tail : ∀ (a b : Nat) (l : Str), (a :: b :: l).getLast? = (b :: l).getLast? := by
    intro a b l; simp [List.getLast?_cons]
  rw [sanitizeString_eq]
  fun_induction sanitizeWF s with
  | case1 => rfl
  | case2 => exact absurd rfl (h 92 rfl).1
  | case3 e rest v bad heq ih =>
    rw [Option.isSome_map]
    apply ih
    intro c hc
    apply h
    cases rest with
    | nil => cases hc
    | cons x rest => rw [last_tail, last_tail]; exact hc
  | case4 e heq =>
    have h2 := h e rfl
    unfold escapeChar at heq
    exfalso
    have he : tolower e = 120 := by grind
    unfold tolower at he
    split at he <;> omega
  | case5 e heq d rest hx ih =>
    rw [Option.isSome_map]
    apply ih
    intro c hc
    apply h
    rw [last_tail, last_tail]
    rcases hexPairs_last (d :: rest) with hl | hl
    · have : hx = hexPairs (d :: rest) := rfl
      rw [this, hl] at hc; cases hc
    · rw [← hl]; exact hc
  | case6 c rest hc ih =>
    rw [Option.isSome_map]
    apply ih
    intro x hx
    apply h
    cases rest with
    | nil => cases hx
    | cons y rest => rw [last_tail]; exact hx

example : ∀ c, (cstr! "a\\").dropLast.getLast? = some c → c ≠ 92 ∧ c ≠ 120 ∧ c ≠ 88 := by
  intro c hc
  have : (cstr! "a\\").dropLast.getLast? = some 97 := rfl
  rw [this] at hc
  cases hc; decide

/-- **C36**, negation of unconditional safety: a text ending in a lone backslash, or in `\x`, is read
beyond its terminator. -/
theorem C36_unsafe : sanitizeString (cstr! "a\\") = none ∧ sanitizeString (cstr! "a\\x") = none := by
  decide

/-- **C36**: octal escapes, which the scanner accepts, are reported as errors and decode wrongly. -/
theorem C36_octal_rejected : sanitizeString (cstr! "\\101") = some (cstr! "?01", 1) := by
  decide

end Verif
