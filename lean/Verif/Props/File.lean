import Verif.Model.File

/-! # Property C43: include search -/

namespace Verif

namespace Spec

/-- The pieces of a text between semicolons. -/
def splitSemi : List Nat → List Nat × List (List Nat)
  | [] => ([], [])
  | c :: s =>
    if c = ';'.toNat then ([], (splitSemi s).1 :: (splitSemi s).2)
    else (c :: (splitSemi s).1, (splitSemi s).2)

/-- Blanks and tabs. -/
def isBlank (c : Nat) : Bool := c == ' '.toNat || c == '\t'.toNat

/-- The entries of a search path: the text between semicolons, without the blanks that follow a
semicolon. -/
def pathEntries (dirs : List Nat) : List (List Nat) :=
  (splitSemi dirs).1 :: (splitSemi dirs).2.map (·.dropWhile isBlank)

/-- The names tried, in order. -/
def candidates (file : List Nat) (dirs : Option (List Nat)) : List (List Nat) :=
  file :: (match dirs with
    | none => []
    | some d => (pathEntries d).map (· ++ file))

end Spec

open Spec

private theorem copyEntry_spec (dir : Str) : ∀ room, (splitSemi dir).1.length ≤ room →
    (copyEntry room dir).1 = (splitSemi dir).1 ∧
    (((copyEntry room dir).2 = [] ∧ (splitSemi dir).2 = []) ∨
     ∃ r, (copyEntry room dir).2 = 59 :: r ∧ r.length < dir.length ∧
      (splitSemi dir).2 = (splitSemi r).1 :: (splitSemi r).2) := by
  induction dir with
  | nil =>
    intro room _
    cases room <;> exact ⟨rfl, Or.inl ⟨rfl, rfl⟩⟩
  | cons c dir ih =>
    intro room hl
    by_cases hc : c = 59
    · subst hc
      cases room with
      | zero => exact ⟨rfl, Or.inr ⟨dir, rfl, by simp, rfl⟩⟩
      | succ room => exact ⟨rfl, Or.inr ⟨dir, rfl, by simp, rfl⟩⟩
    · have h1 : splitSemi (c :: dir) = (c :: (splitSemi dir).1, (splitSemi dir).2) := by
        rw [splitSemi, if_neg (show ¬ c = ';'.toNat from hc)]
      rw [h1] at hl
      cases room with
      | zero => simp at hl
      | succ room =>
        have := ih room (by simpa using hl)
        rw [h1]
        simp only [copyEntry, if_neg hc]
        refine ⟨by rw [this.1], ?_⟩
        rcases this.2 with h | ⟨r, h2, h3, h4⟩
        · exact Or.inl h
        · exact Or.inr ⟨r, h2, by simp; omega, h4⟩

private theorem copyEntry_len (dir : Str) : ∀ room, (copyEntry room dir).1.length ≤ room := by
  induction dir with
  | nil => intro room; cases room <;> simp [copyEntry]
  | cons c dir ih =>
    intro room
    cases room with
    | zero => simp [copyEntry]
    | succ room =>
      simp only [copyEntry]
      split
      · simp
      · have := ih room
        simp; omega

private theorem splitSemi_drop (r : Str) :
    splitSemi (r.dropWhile isBlank) = ((splitSemi r).1.dropWhile isBlank, (splitSemi r).2) := by
  induction r with
  | nil => rfl
  | cons c r ih =>
    by_cases hb : isBlank c = true
    · have hc : c ≠ 59 := by rintro rfl; revert hb; decide
      rw [List.dropWhile_cons_of_pos hb, ih, splitSemi]
      rw [if_neg (show ¬ c = ';'.toNat from hc)]
      simp only [List.dropWhile_cons_of_pos hb]
    · rw [List.dropWhile_cons_of_neg hb, splitSemi]
      split
      · rfl
      · rw [List.dropWhile_cons_of_neg hb]

private theorem openLoop_spec (exist : Str → Bool) (file : Str) (hf : exist file = false) :
    ∀ (fuel : Nat) (dir : Str), dir.length < fuel →
      (∀ e ∈ pathEntries dir, e.length + file.length + 2 < pathMax) →
      openLoop exist file fuel dir =
        match ((pathEntries dir).map (· ++ file)).find? exist with
        | some p => .opened p
        | none => .null := by
  intro fuel
  induction fuel with
  | zero => intro dir h; omega
  | succ fuel ih =>
    intro dir hlen hfit
    cases dir with
    | nil => simp [openLoop, pathEntries, splitSemi, hf]
    | cons c dir =>
      have h1 := hfit _ (List.mem_cons_self ..)
      obtain ⟨he, hr⟩ := copyEntry_spec (c :: dir) (pathMax - 1) (by omega)
      simp only [openLoop, he]
      rw [if_neg (by omega), if_neg (by omega), if_neg (by simp; omega)]
      simp only [pathEntries, List.map_cons, List.find?_cons]
      cases hx : exist ((splitSemi (c :: dir)).1 ++ file) with
      | true => rfl
      | false =>
        simp only [Bool.false_eq_true, if_false]
        rcases hr with ⟨h2, h3⟩ | ⟨r, h2, h3, h4⟩
        · rw [h2, h3]
          have : skipSep [] = [] := rfl
          rw [this]
          cases fuel <;> rfl
        · rw [h2, h4]
          have h5 : skipSep (59 :: r) = r.dropWhile isBlank := rfl
          rw [h5]
          have h6 : pathEntries (r.dropWhile isBlank) =
              ((splitSemi (c :: dir)).2.map (·.dropWhile isBlank)) := by
            rw [pathEntries, splitSemi_drop, h4, List.map_cons]
          have h7 : (r.dropWhile isBlank).length ≤ r.length :=
            (List.dropWhile_sublist _).length_le
          rw [ih _ (by simp only [List.length_cons] at hlen h3; omega), h6, h4]
          intro e hm
          rw [h6] at hm
          exact hfit _ (List.mem_cons_of_mem _ hm)

/-- **C43.** If every search-path entry together with the name fits the path buffer, `open_file` opens
the first existing file among the name itself and the entries followed by the name (entries are
prefixes: no separator is inserted), in this order, and returns null if none exists. -/
theorem C43_opens_first_match (exist : Str → Bool) (file : Str) (dirs : Option Str)
    (hfit : ∀ d, dirs = some d → ∀ e ∈ pathEntries d, e.length + file.length + 2 < 4096) :
    openFile exist file dirs =
      match (candidates file dirs).find? exist with
      | some p => .opened p
      | none => .null := by
  unfold openFile candidates
  rw [List.find?_cons]
  cases hf : exist file with
  | true => rfl
  | false =>
    cases dirs with
    | none => rfl
    | some d => exact openLoop_spec exist file hf _ d (by omega) (hfit d rfl)

/-- A search path with three entries; the third one is the first that has the file. -/
example : (∀ e ∈ pathEntries (cstr! "lib/; inc/;	sys/"), e.length + (cstr! "a.h").length + 2 < 4096) ∧
    openFile (· == cstr! "sys/a.h") (cstr! "a.h") (some (cstr! "lib/; inc/;	sys/")) =
      .opened (cstr! "sys/a.h") := by decide

private theorem openLoop_no_overrun (exist : Str → Bool) (file : Str) : ∀ (fuel : Nat) (dir : Str),
    openLoop exist file fuel dir ≠ .overrun := by
  intro fuel
  induction fuel with
  | zero => intro dir; simp [openLoop]
  | succ fuel ih =>
    intro dir
    cases dir with
    | nil => simp [openLoop]
    | cons c dir =>
      have := copyEntry_len (c :: dir) (pathMax - 1)
      have hp : pathMax = 4096 := rfl
      simp only [openLoop]
      rw [if_neg (by omega)]
      split
      · simp
      · rw [if_neg (by simp only [List.length_append]; omega)]
        split
        · simp
        · exact ih _

/-- **C43**: the path buffer is never overrun, whatever the search path and the name. -/
theorem C43_no_overrun (exist : Str → Bool) (file : Str) (dirs : Option Str) :
    openFile exist file dirs ≠ .overrun := by
  unfold openFile
  split
  · simp
  · cases dirs with
    | none => simp
    | some d => exact openLoop_no_overrun exist file _ d

/-- **C43**: only files that exist are opened. -/
theorem C43_opened_exists (exist : Str → Bool) (file p : Str) (dirs : Option Str)
    (h : openFile exist file dirs = .opened p) : exist p = true := by
  have loop : ∀ (fuel : Nat) (dir : Str), openLoop exist file fuel dir = .opened p → exist p = true := by
    intro fuel
    induction fuel with
    | zero => intro dir h; simp [openLoop] at h
    | succ fuel ih =>
      intro dir h
      cases dir with
      | nil => simp [openLoop] at h
      | cons c dir =>
        simp only [openLoop] at h
        split at h
        · simp at h
        · split at h
          · simp at h
          · split at h
            · simp at h
            · split at h
              · rename_i h1; injection h with h; rw [← h]; exact h1
              · exact ih _ h
  unfold openFile at h
  split at h
  · rename_i h1; injection h with h; rw [← h]; exact h1
  · cases dirs with
    | none => simp at h
    | some d => exact loop _ d h

example : openFile (· == cstr! "lib/a.h") (cstr! "a.h") (some (cstr! "lib/")) =
    .opened (cstr! "lib/a.h") := by decide

end Verif
