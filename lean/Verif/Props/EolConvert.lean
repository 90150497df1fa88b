import Verif.Model.EolConvert

/-! # Property C39: line-end conversion only changes line ends -/

namespace Verif

namespace Spec

/-- A piece of a text file: an ordinary byte or a line end (LF or CRLF). -/
inductive Piece where
  | byte (b : Nat)
  | lf
  | crlf
deriving DecidableEq

/-- Bytes of a piece. -/
def Piece.bytes : Piece → List Nat
  | .byte b => [b]
  | .lf => [10]
  | .crlf => [13, 10]

/-- Bytes of the piece with Unix line ends. -/
def Piece.unix : Piece → List Nat
  | .byte b => [b]
  | .lf => [10]
  | .crlf => [10]

/-- Ordinary bytes are neither CR nor LF. -/
def Piece.ok : Piece → Prop
  | .byte b => b ≠ 13 ∧ b ≠ 10
  | _ => True

end Spec

open Spec

/-- **C39.** For a text whose line ends are LF or CRLF (in any mixture), the converted file is the text
with every line end replaced by a single LF and everything else unchanged. -/
theorem C39_line_ends_normalised (ps : List Piece) (h : ∀ p ∈ ps, p.ok) :
    replaceEol (ps.map Piece.bytes).flatten = (ps.map Piece.unix).flatten := by
  have key : ∀ (ps : List Piece), (∀ p ∈ ps, p.ok) → ∀ s : EolState,
      (s.count = 0 ∧ (s.lastEol = 0 ∨ s.lastEol = 10)) ∨ (s.count = 1 ∧ s.lastEol = 10) →
      eolLoop s (ps.map Piece.bytes).flatten = (ps.map Piece.unix).flatten := by
    intro ps
    induction ps with
    | nil => intros; rfl
    | cons p ps ih =>
      intro hok s hs
      have ih := ih (fun p hp => hok p (by simp [hp]))
      obtain ⟨last, count⟩ := s
      have hp := hok p (by simp)
      cases p with
      | byte b =>
        have hb : isEol b = false := by simp [isEol, hp.1, hp.2]
        simp only [List.map_cons, Piece.bytes, Piece.unix, List.flatten_cons, List.cons_append,
          List.nil_append, eolLoop, eolStep, hb, Bool.not_false, if_true]
        rw [ih _ (by simp at hs ⊢; omega)]
      | lf =>
        simp only [List.map_cons, Piece.bytes, Piece.unix, List.flatten_cons, List.cons_append,
          List.nil_append, eolLoop]
        simp only at hs
        rcases hs with ⟨rfl, rfl | rfl⟩ | ⟨rfl, rfl⟩
        · have e : eolStep ⟨0, 0⟩ 10 = (⟨10, 1⟩, [10]) := rfl
          rw [e, ih _ (by simp)]; rfl
        · have e : eolStep ⟨10, 0⟩ 10 = (⟨10, 0⟩, [10]) := rfl
          rw [e, ih _ (by simp)]; rfl
        · have e : eolStep ⟨10, 1⟩ 10 = (⟨10, 0⟩, [10]) := rfl
          rw [e, ih _ (by simp)]; rfl
      | crlf =>
        simp only [List.map_cons, Piece.bytes, Piece.unix, List.flatten_cons, List.cons_append,
          List.nil_append, eolLoop]
        simp only at hs
        rcases hs with ⟨rfl, rfl | rfl⟩ | ⟨rfl, rfl⟩
        · have e : eolStep ⟨0, 0⟩ 13 = (⟨13, 1⟩, [10]) := rfl
          have e2 : eolStep ⟨13, 1⟩ 10 = (⟨10, 0⟩, []) := rfl
          rw [e, e2, ih _ (by simp)]; rfl
        · have e : eolStep ⟨10, 0⟩ 13 = (⟨13, 1⟩, [10]) := rfl
          have e2 : eolStep ⟨13, 1⟩ 10 = (⟨10, 0⟩, []) := rfl
          rw [e, e2, ih _ (by simp)]; rfl
        · have e : eolStep ⟨10, 1⟩ 13 = (⟨13, 0⟩, []) := rfl
          have e2 : eolStep ⟨13, 0⟩ 10 = (⟨10, 1⟩, [10]) := rfl
          rw [e, e2, ih _ (by simp)]; rfl
  exact key ps h ⟨0, 0⟩ (by simp)

example : (∀ p ∈ [Piece.byte 65, .crlf, .crlf, .lf, .byte 66, .lf, .crlf], p.ok) ∧
    replaceEol [65, 13, 10, 13, 10, 10, 66, 10, 13, 10] = [65, 10, 10, 10, 66, 10, 10] := by
  constructor
  · intro p hp
    simp only [List.mem_cons, List.not_mem_nil, or_false] at hp
    rcases hp with rfl | rfl | rfl | rfl | rfl | rfl | rfl <;> simp [Piece.ok]
  · decide

/-- **C39**, a file with LF line ends only is unchanged. -/
theorem C39_unix_identity (buf : List Nat) (h : 13 ∉ buf) : replaceEol buf = buf := by
  let ps : List Piece := buf.map fun b => if b = 10 then .lf else .byte b
  have h1 : (ps.map Piece.bytes).flatten = buf := by
    simp only [ps]
    clear h ps
    induction buf with
    | nil => rfl
    | cons b buf ih =>
      simp only [List.map_cons, List.flatten_cons, ih]
      split <;> simp_all [Piece.bytes]
  have h2 : (ps.map Piece.unix).flatten = buf := by
    simp only [ps]
    clear h ps h1
    induction buf with
    | nil => rfl
    | cons b buf ih =>
      simp only [List.map_cons, List.flatten_cons, ih]
      split <;> simp_all [Piece.unix]
  have := C39_line_ends_normalised ps (by
    intro p hp
    obtain ⟨b, hb, rfl⟩ := List.mem_map.1 hp
    split
    · trivial
    · rename_i hb10
      exact ⟨fun hb13 => h (hb13 ▸ hb), hb10⟩)
  rw [h1, h2] at this
  exact this

private theorem eolLoop_no_cr (buf : List Nat) : ∀ s : EolState, 13 ∉ eolLoop s buf := by
  induction buf with
  | nil => intro s; simp [eolLoop]
  | cons b buf ih =>
    intro s
    simp only [eolLoop, List.mem_append, not_or]
    refine ⟨?_, ih _⟩
    unfold eolStep
    split
    · rename_i hb
      simp only [isEol, Bool.not_eq_true', Bool.or_eq_false_iff, beq_eq_false_iff_ne] at hb
      simp; omega
    · split
      · simp only
        split
        · simp
        · split <;> simp
      · simp

/-- **C39**, for every input whatsoever: no CR remains, and the bytes that are not line-end characters
are preserved in order. -/
theorem C39_any_input (buf : List Nat) :
    13 ∉ replaceEol buf ∧
      (replaceEol buf).filter (fun b => b != 13 && b != 10) =
        buf.filter (fun b => b != 13 && b != 10) := by
  refine ⟨eolLoop_no_cr buf _, ?_⟩
  have key : ∀ (buf : List Nat) (s : EolState),
      (eolLoop s buf).filter (fun b => b != 13 && b != 10) =
        buf.filter (fun b => b != 13 && b != 10) := by
    intro buf
    induction buf with
    | nil => intro s; rfl
    | cons b buf ih =>
      intro s
      simp only [eolLoop, List.filter_append, ih]
      by_cases hb : isEol b = true
      · have h1 : (b != 13 && b != 10) = false := by
          simp only [isEol, Bool.or_eq_true, beq_iff_eq] at hb
          rcases hb with rfl | rfl <;> rfl
        have h2 : (eolStep s b).2.filter (fun b => b != 13 && b != 10) = [] := by
          unfold eolStep
          simp only [hb, Bool.not_true, Bool.false_eq_true, if_false]
          split
          · split
            · rfl
            · split <;> rfl
          · rfl
        rw [h2, List.filter_cons, h1]; rfl
      · have h1 : (b != 13 && b != 10) = true := by
          simp only [isEol, Bool.or_eq_true, beq_iff_eq, not_or] at hb
          simp [hb]
        have h2 : (eolStep s b).2 = [b] := by simp [eolStep, hb]
        rw [h2, List.filter_cons, List.filter_cons, h1]; rfl
  exact key buf _

/-- **C39**, converting twice is converting once, for every input. -/
theorem C39_idempotent (buf : List Nat) : replaceEol (replaceEol buf) = replaceEol buf :=
  C39_unix_identity _ (C39_any_input buf).1

example : replaceEol (replaceEol [65, 13, 13, 10, 66]) = [65, 10, 10, 10, 66] := by decide

end Verif
