import Verif.Model.Ifdef

/-! # Property C37: conditional assembly on defined symbols -/

namespace Verif

namespace Spec

/-- Well-nested source text. -/
inductive Block where
  /-- nothing -/
  | nil
  /-- a statement -/
  | line (n : Nat) (rest : Block)
  /-- `.ifdef` / `.ifndef` without `.else` -/
  | ifdef (neg : Bool) (name : Str) (thn rest : Block)
  /-- `.ifdef` / `.ifndef` with `.else` -/
  | ifdefElse (neg : Bool) (name : Str) (thn els rest : Block)
  /-- `.if` without `.else` -/
  | iff (thn rest : Block)
  /-- `.if` with `.else` -/
  | iffElse (thn els rest : Block)

/-- The source text of a block. -/
def Block.tokens : Block → List IfTok
  | .nil => []
  | .line n rest => .line n :: rest.tokens
  | .ifdef neg name thn rest => .ifdef neg name :: (thn.tokens ++ .endif :: rest.tokens)
  | .ifdefElse neg name thn els rest =>
    .ifdef neg name :: (thn.tokens ++ .els :: (els.tokens ++ .endif :: rest.tokens))
  | .iff thn rest => .iff :: (thn.tokens ++ .endif :: rest.tokens)
  | .iffElse thn els rest =>
    .iff :: (thn.tokens ++ .els :: (els.tokens ++ .endif :: rest.tokens))

/-- What the parser should get: exactly the selected branches.  `defined` says which symbols are
defined after the statements delivered so far; `out` are those statements. -/
def Block.select (defined : List IfOut → Str → Bool) (out : List IfOut) : Block → List IfOut
  | .nil => out
  | .line n rest => rest.select defined (out ++ [.line n])
  | .ifdef neg name thn rest =>
    if defined out name != neg then rest.select defined (thn.select defined out)
    else rest.select defined out
  | .ifdefElse neg name thn els rest =>
    if defined out name != neg then rest.select defined (thn.select defined out)
    else rest.select defined (els.select defined out)
  | .iff thn rest => rest.select defined (thn.select defined (out ++ [.iff]) ++ [.endif])
  | .iffElse thn els rest =>
    rest.select defined
      (els.select defined (thn.select defined (out ++ [.iff]) ++ [.els]) ++ [.endif])

/-- The restriction under which the scanner is right: an `.ifdef` that stands inside another active
conditional must end in its active branch, i.e. be satisfied and have no `.else`, or be unsatisfied and
have one.  (`nested` = inside an active conditional.)  Conditionals in skipped text and at top level
are unrestricted. -/
def Block.nestOk (defined : List IfOut → Str → Bool) (nested : Bool) (out : List IfOut) : Block → Bool
  | .nil => true
  | .line n rest => rest.nestOk defined nested (out ++ [.line n])
  | .ifdef neg name thn rest =>
    if defined out name != neg then
      thn.nestOk defined true out && rest.nestOk defined nested (thn.select defined out)
    else !nested && rest.nestOk defined nested out
  | .ifdefElse neg name thn els rest =>
    if defined out name != neg then
      !nested && thn.nestOk defined true out && rest.nestOk defined nested (thn.select defined out)
    else
      els.nestOk defined true out && rest.nestOk defined nested (els.select defined out)
  | .iff thn rest =>
    thn.nestOk defined true (out ++ [.iff]) &&
      rest.nestOk defined nested (thn.select defined (out ++ [.iff]) ++ [.endif])
  | .iffElse thn els rest =>
    thn.nestOk defined true (out ++ [.iff]) &&
      els.nestOk defined true (thn.select defined (out ++ [.iff]) ++ [.els]) &&
      rest.nestOk defined nested
        (els.select defined (thn.select defined (out ++ [.iff]) ++ [.els]) ++ [.endif])

end Spec

open Spec

private theorem ifRun_append (d : List IfOut → Str → Bool) (s : IfSt) (a b : List IfTok) :
    ifRun d s (a ++ b) = (ifRun d s a).bind fun s' => ifRun d s' b := by
  induction a generalizing s with
  | nil => rfl
  | cons t a ih =>
    simp only [List.cons_append, ifRun]
    cases ifStep d s t with
    | none => rfl
    | some s' => exact ih s'

/-- Skipped text leaves the scanner skipping and delivers nothing, whatever is nested in it. -/
private theorem skip_run (d : List IfOut → Str → Bool) (b : Block) (t : Int) (st : List Int)
    (out : List IfOut) :
    ifRun d ⟨true, t :: st, out⟩ b.tokens = some ⟨true, t :: st, out⟩ := by
  induction b generalizing t st with
  | nil => rfl
  | line n rest ih => simp [Block.tokens, ifRun, ifStep, ih]
  | ifdef neg name thn rest ih1 ih2 =>
    simp [Block.tokens, ifRun, ifStep, ifRun_append, ih1, ih2]
  | ifdefElse neg name thn els rest ih1 ih2 ih3 =>
    simp [Block.tokens, ifRun, ifStep, ifRun_append, ih1, ih2, ih3]
  | iff thn rest ih1 ih2 =>
    simp [Block.tokens, ifRun, ifStep, ifRun_append, ih1, ih2]
  | iffElse thn els rest ih1 ih2 ih3 =>
    simp [Block.tokens, ifRun, ifStep, ifRun_append, ih1, ih2, ih3]

private theorem active_run (d : List IfOut → Str → Bool) (b : Block) (st : List Int)
    (out : List IfOut) (h : b.nestOk d (!st.isEmpty) out = true) :
    ifRun d ⟨false, st, out⟩ b.tokens = some ⟨false, st, b.select d out⟩ := by
  induction b generalizing st out with
  | nil => rfl
  | line n rest ih =>
    simp only [Block.nestOk] at h
    simp [Block.tokens, ifRun, ifStep, Block.select, ih _ _ h]
  | ifdef neg name thn rest ih1 ih2 =>
    simp only [Block.nestOk] at h
    by_cases hc : (d out name != neg) = true
    · have hc' : (d out name == neg) = false := by simpa using hc
      rw [if_pos hc, Bool.and_eq_true] at h
      simp only [Block.tokens, ifRun, ifStep, ifRun_append, Block.select, if_pos hc, hc',
        Bool.false_eq_true, if_false, Option.bind_some]
      rw [ih1 _ _ (by simpa using h.1)]
      simp [ih2 _ _ h.2]
    · have hc' : (d out name == neg) = true := by simpa using hc
      rw [if_neg hc, Bool.and_eq_true] at h
      have hst : st = [] := by simpa using h.1
      subst hst
      simp only [Block.tokens, ifRun, ifStep, ifRun_append, Block.select, if_neg hc, hc',
        Bool.false_eq_true, if_false, Option.bind_some, skip_run, if_true]
      exact ih2 _ _ h.2
  | ifdefElse neg name thn els rest ih1 ih2 ih3 =>
    simp only [Block.nestOk] at h
    by_cases hc : (d out name != neg) = true
    · have hc' : (d out name == neg) = false := by simpa using hc
      rw [if_pos hc, Bool.and_eq_true, Bool.and_eq_true] at h
      have hst : st = [] := by simpa using h.1.1
      subst hst
      simp only [Block.tokens, ifRun, ifStep, ifRun_append, Block.select, if_pos hc, hc',
        Bool.false_eq_true, if_false, Option.bind_some]
      rw [ih1 _ _ (by simpa using h.1.2)]
      simp only [Option.bind_some, ne_eq, not_true_eq_false, if_false, Bool.false_eq_true, skip_run,
        if_true]
      exact ih3 _ _ h.2
    · have hc' : (d out name == neg) = true := by simpa using hc
      rw [if_neg hc, Bool.and_eq_true] at h
      simp only [Block.tokens, ifRun, ifStep, ifRun_append, Block.select, if_neg hc, hc',
        Bool.false_eq_true, if_false, Option.bind_some, skip_run, if_true]
      rw [ih2 _ _ (by simpa using h.1)]
      simp [ih3 _ _ h.2]
  | iff thn rest ih1 ih2 =>
    simp only [Block.nestOk, Bool.and_eq_true] at h
    simp only [Block.tokens, ifRun, ifStep, ifRun_append, Block.select,
        Bool.false_eq_true, if_false, Option.bind_some]
    rw [ih1 _ _ (by simpa using h.1)]
    simp [ih2 _ _ h.2]
  | iffElse thn els rest ih1 ih2 ih3 =>
    simp only [Block.nestOk, Bool.and_eq_true] at h
    simp only [Block.tokens, ifRun, ifStep, ifRun_append, Block.select,
        Bool.false_eq_true, if_false, Option.bind_some]
    rw [ih1 _ _ (by simpa using h.1.1)]
    simp only [Option.bind_some, ne_eq, Int.reduceEq, not_false_eq_true, if_true, Bool.false_eq_true,
      if_false]
    rw [ih2 _ _ (by simpa using h.1.2)]
    simp [ih3 _ _ h.2]

/-- **C37** (`_partial`).  For well-nested text in which every `.ifdef` standing inside an active
conditional ends in its active branch, the parser receives exactly the selected statements, and the
scanner ends in its initial state.  Missing: `.ifdef`s nested in an active conditional that end
skipping, see `C37_false_nested`. -/
theorem C37_ifdef_selects_partial (defined : List IfOut → Str → Bool) (b : Block)
    (h : b.nestOk defined false [] = true) :
    ifRun defined ⟨false, [], []⟩ b.tokens = some ⟨false, [], b.select defined []⟩ :=
  active_run defined b [] [] h

/-- The hypothesis of `C37_ifdef_selects_partial` holds e.g. for nesting inside skipped text and for
nesting with the inner condition satisfied; the selected lines differ from the source. -/
example : ∃ b : Block,
    b.nestOk (fun _ n => n == cstr! "yes") false [] = true ∧
    b.select (fun _ n => n == cstr! "yes") [] = [.line 1, .line 2, .line 6, .line 7] ∧
    b.tokens.length = 17 :=
  ⟨.line 1 (.ifdef false (cstr! "yes") (.ifdef true (cstr! "no") (.line 2 .nil) .nil)
    (.ifdefElse false (cstr! "no") (.ifdefElse false (cstr! "yes") (.line 3 .nil) (.line 4 .nil)
      (.line 5 .nil)) (.line 6 .nil) (.line 7 .nil))), by decide⟩

/-- **C37**: text in the unselected branch of an `.ifdef` is never delivered, whatever conditionals it
contains, and scanning resumes behind the matching `.endif` (top level). -/
theorem C37_skipped_text (defined : List IfOut → Str → Bool) (out : List IfOut) (neg : Bool) (name : Str)
    (thn rest : Block) (h : defined out name = neg) (hr : rest.nestOk defined false out = true) :
    ifRun defined ⟨false, [], out⟩ (Block.ifdef neg name thn rest).tokens =
      some ⟨false, [], rest.select defined out⟩ := by
  have := active_run defined (.ifdef neg name thn rest) [] out (by simp [Block.nestOk, h, hr])
  rw [this]
  simp [Block.select, h]

example : (Block.line 3 .nil).nestOk (fun _ _ => false) false [] = true := by decide

/-- **C37**, negation: an unsatisfied `.ifdef` (without `.else`) inside any active conditional swallows
the rest of that conditional: `rest` is never delivered although its condition holds. -/
theorem C37_false_nested (defined : List IfOut → Str → Bool) (outer inner : Str) (thn rest : Block)
    (ho : defined [] outer = true) (hi : defined [] inner = false) :
    ifRun defined ⟨false, [], []⟩
      (Block.ifdef false outer (.ifdef false inner thn rest) .nil).tokens = some ⟨false, [], []⟩ ∧
    (Block.ifdef false outer (.ifdef false inner thn rest) .nil).select defined [] =
      rest.select defined [] := by
  constructor
  · simp [Block.tokens, ifRun, ifStep, ifRun_append, skip_run, ho, hi]
  · simp [Block.select, ho, hi]

/-- The witness delivers a non-empty text according to the specification. -/
example : (Block.ifdef false (cstr! "a") (.ifdef false (cstr! "b") (.line 1 .nil) (.line 2 .nil))
    .nil).select (fun _ n => n == cstr! "a") [] = [.line 2] := by decide

/-- **C37**, the same defect for an inner `.ifdef … .else … .endif` whose first branch is selected. -/
theorem C37_false_nested_else (defined : List IfOut → Str → Bool) (outer inner : Str) (els rest : Block)
    (n : Nat) (ho : defined [] outer = true) (hi : defined [] inner = true) :
    ifRun defined ⟨false, [], []⟩
      (Block.ifdef false outer (.ifdefElse false inner (.line n .nil) els rest) .nil).tokens =
      some ⟨false, [], [.line n]⟩ ∧
    (Block.ifdef false outer (.ifdefElse false inner (.line n .nil) els rest) .nil).select defined [] =
      rest.select defined [.line n] := by
  constructor
  · simp [Block.tokens, ifRun, ifStep, ifRun_append, skip_run, ho, hi]
  · simp [Block.select, ho, hi]

example : (Block.line 2 .nil).select (fun _ _ => true) [.line 1] ≠ [.line 1] := by decide

end Verif
