import Verif.Lemmas.Regex
import Verif.Spec.Lex

/-! # Choosing a rule: reading a text character by character -/

namespace Verif

open Spec

/-- Can the pattern not match anything (as far as is seen at once)? -/
def Re.dead : Re → Bool
  | .empty => true
  | _ => false

theorem Re.dead_iff {r : Re} : r.dead = true ↔ r = .empty := by
  cases r <;> simp [Re.dead]

/-- The rules that are left after a character. -/
def derivRules (c : Nat) : List (Re × LexAct) → List (Re × LexAct)
  | [] => []
  | (r, a) :: rs => if (r.deriv c).dead then derivRules c rs else (r.deriv c, a) :: derivRules c rs

/-- The rules that are left after a text. -/
def afterText (R : List (Re × LexAct)) (w : Str) : List (Re × LexAct) := w.foldl (fun R c => derivRules c R) R

theorem longest_empty (s : Str) : Re.empty.longest s = none := by cases s <;> rfl

theorem best_cons_aux (s : Str) (c : Nat) (R : List (Re × LexAct)) :
    (∀ n a, bestRule s (derivRules c R) = some (n, a) → bestRule (c :: s) R = some (n + 1, a)) ∧
    (bestRule s (derivRules c R) = none → bestRule (c :: s) R = none ∨ ∃ a, bestRule (c :: s) R = some (0, a)) := by
  induction R with
  | nil => exact ⟨by simp [derivRules, bestRule], fun _ => .inl rfl⟩
  | cons x R ih =>
    obtain ⟨r, b⟩ := x
    by_cases hd : (r.deriv c).dead = true
    · have he := Re.dead_iff.1 hd
      have hl : r.longest (c :: s) = if r.nullable then some 0 else none := by
        rw [longest_cons, he, longest_empty]
      have h1 : derivRules c ((r, b) :: R) = derivRules c R := by simp [derivRules, hd]
      rw [h1]
      refine ⟨?_, ?_⟩
      · intro n a h
        have := ih.1 n a h
        simp only [bestRule, hl, this]
        by_cases hn : r.nullable = true <;> simp [hn]
      · intro h
        rcases ih.2 h with h | ⟨a, h⟩ <;> simp only [bestRule, hl, h] <;> by_cases hn : r.nullable = true <;> simp [hn]
    · have h1 : derivRules c ((r, b) :: R) = (r.deriv c, b) :: derivRules c R := by simp [derivRules, hd]
      rw [h1]
      have hl := longest_cons r c s
      cases hk : (r.deriv c).longest s with
      | none =>
        simp only [hk] at hl
        refine ⟨?_, ?_⟩
        · intro n a h
          simp only [bestRule, hk] at h
          simp only [bestRule, hl, ih.1 n a h]
          by_cases hn : r.nullable = true <;> simp [hn]
        · intro h
          simp only [bestRule, hk] at h
          rcases ih.2 h with h | ⟨a, h⟩ <;> simp only [bestRule, hl, h] <;> by_cases hn : r.nullable = true <;> simp [hn]
      | some k =>
        simp only [hk] at hl
        refine ⟨?_, ?_⟩
        · intro n a h
          simp only [bestRule, hk] at h
          cases hb : bestRule s (derivRules c R) with
          | none =>
            simp only [hb, Option.some.injEq, Prod.mk.injEq] at h
            obtain ⟨rfl, rfl⟩ := h
            rcases ih.2 hb with h | ⟨a, h⟩ <;> simp [bestRule, hl, h]
          | some y =>
            obtain ⟨m, a'⟩ := y
            simp only [hb] at h
            simp only [bestRule, hl, ih.1 m a' hb]
            by_cases hle : m ≤ k
            · simp only [hle, if_true, Option.some.injEq, Prod.mk.injEq] at h
              rw [if_pos (by omega), h.1, h.2]
            · simp only [hle, if_false, Option.some.injEq, Prod.mk.injEq] at h
              rw [if_neg (by omega), h.1, h.2]
        · intro h
          simp only [bestRule, hk] at h
          cases hb : bestRule s (derivRules c R) with
          | none => simp [hb] at h
          | some y =>
            obtain ⟨m, a'⟩ := y
            simp only [hb] at h
            split at h <;> cases h

theorem best_cons {s : Str} {c : Nat} {R : List (Re × LexAct)} {n : Nat} {a : LexAct}
    (h : bestRule s (derivRules c R) = some (n, a)) : bestRule (c :: s) R = some (n + 1, a) :=
  (best_cons_aux s c R).1 n a h

theorem best_append {w s : Str} {R : List (Re × LexAct)} {n : Nat} {a : LexAct}
    (h : bestRule s (afterText R w) = some (n, a)) : bestRule (w ++ s) R = some (w.length + n, a) := by
  induction w generalizing R with
  | nil => simpa [afterText] using h
  | cons c w ih =>
    have := ih (R := derivRules c R) h
    have := best_cons this
    rw [List.cons_append, this, List.length_cons]
    congr 2; omega

/-- No rule goes on with this character. -/
theorem best_closed {s : Str} {R : List (Re × LexAct)} (h : ∀ c, s.head? = some c → derivRules c R = []) :
    bestRule s R = bestRule [] R := by
  cases s with
  | nil => rfl
  | cons c s =>
    replace h := h c rfl
    induction R with
    | nil => rfl
    | cons x R ih =>
      obtain ⟨r, a⟩ := x
      by_cases hd : (r.deriv c).dead = true
      · have h1 : derivRules c ((r, a) :: R) = derivRules c R := by simp [derivRules, hd]
        rw [h1] at h
        have hl : r.longest (c :: s) = r.longest [] := by
          rw [longest_cons, Re.dead_iff.1 hd, longest_nil, longest_empty]
        simp only [bestRule, hl, ih h]
      · simp [derivRules, hd] at h

/-! ## Letter case -/

/-- Letters of both cases are treated alike. -/
def Re.caseless : Re → Bool
  | .empty | .eps => true
  | .chr p => (List.range 26).all fun i => p (65 + i) == p (97 + i)
  | .seq a b | .alt a b => a.caseless && b.caseless
  | .star a => a.caseless

theorem tolower_tolower (c : Nat) : tolower (tolower c) = tolower c := by
  unfold tolower; grind

theorem chr_caseless {p : Nat → Bool} (h : (Re.chr p).caseless = true) (c : Nat) : p (tolower c) = p c := by
  unfold tolower
  split
  · next hc =>
    simp only [Re.caseless, List.all_eq_true, List.mem_range, beq_iff_eq] at h
    have := h (c - 65) (by omega)
    rw [show 65 + (c - 65) = c by omega, show 97 + (c - 65) = c + 32 by omega] at this
    exact this.symm
  · rfl

theorem mkSeq_caseless {a b : Re} (ha : a.caseless = true) (hb : b.caseless = true) :
    (Re.mkSeq a b).caseless = true := by
  unfold Re.mkSeq
  split <;> simp_all [Re.caseless]

theorem mkAlt_caseless {a b : Re} (ha : a.caseless = true) (hb : b.caseless = true) :
    (Re.mkAlt a b).caseless = true := by
  unfold Re.mkAlt
  split <;> simp_all [Re.caseless]

theorem deriv_caseless {r : Re} (h : r.caseless = true) (c : Nat) :
    r.deriv (tolower c) = r.deriv c ∧ (r.deriv c).caseless = true := by
  induction r with
  | empty => exact ⟨rfl, rfl⟩
  | eps => exact ⟨rfl, rfl⟩
  | chr p =>
    simp only [Re.deriv, chr_caseless h, true_and]
    split <;> rfl
  | seq a b iha ihb =>
    simp only [Re.caseless, Bool.and_eq_true] at h
    obtain ⟨h1, h2⟩ := iha h.1
    obtain ⟨h3, h4⟩ := ihb h.2
    simp only [Re.deriv, h1, h3, true_and]
    split
    · exact mkAlt_caseless (mkSeq_caseless h2 h.2) h4
    · exact mkSeq_caseless h2 h.2
  | alt a b iha ihb =>
    simp only [Re.caseless, Bool.and_eq_true] at h
    obtain ⟨h1, h2⟩ := iha h.1
    obtain ⟨h3, h4⟩ := ihb h.2
    simp only [Re.deriv, h1, h3, true_and]
    exact mkAlt_caseless h2 h4
  | star a ih =>
    simp only [Re.caseless] at h
    obtain ⟨h1, h2⟩ := ih h
    simp only [Re.deriv, h1, true_and]
    exact mkSeq_caseless h2 (by simpa [Re.caseless] using h)

theorem longest_caseless {r : Re} (h : r.caseless = true) (s : Str) : r.longest (s.map tolower) = r.longest s := by
  induction s generalizing r with
  | nil => rfl
  | cons c s ih =>
    obtain ⟨h1, h2⟩ := deriv_caseless h c
    simp only [List.map_cons, longest_cons, h1, ih h2]

theorem best_caseless {R : List (Re × LexAct)} (h : R.all (fun x => x.1.caseless) = true) (s : Str) :
    bestRule (s.map tolower) R = bestRule s R := by
  induction R with
  | nil => rfl
  | cons x R ih =>
    obtain ⟨r, a⟩ := x
    simp only [List.all_cons, Bool.and_eq_true] at h
    simp only [bestRule, longest_caseless h.1, ih h.2]

theorem initial_caseless : initialRules.all (fun x => x.1.caseless) = true := by decide +kernel

theorem best_fold (w s : Str) : bestRule (w ++ s) initialRules = bestRule (w.map tolower ++ s) initialRules := by
  rw [← best_caseless initial_caseless (w ++ s), ← best_caseless initial_caseless (w.map tolower ++ s)]
  have : (tolower ∘ tolower) = tolower := funext tolower_tolower
  simp only [List.map_append, List.map_map, this]

theorem fold_map (w : Str) : foldCase w = w.map tolower := rfl

/-! ## Fixed words -/

/-- After the word, the rule with the action `a` is the best and no rule goes on with the character `c`. -/
def wordStops (w : Str) (a : LexAct) (ok : Nat → Bool) : Bool :=
  let R := afterText initialRules w
  bestRule [] R == some (0, a) && (List.range 256).all fun c => !ok c || (derivRules c R).isEmpty

theorem wordStops_best {w s : Str} {a : LexAct} {ok : Nat → Bool} {v : Str} (h : wordStops w a ok = true)
    (hv : foldCase v = w) (hs : Next (fun c => ok c = true) s) : bestRule (v ++ s) initialRules = some (v.length, a) := by
  simp only [wordStops, Bool.and_eq_true, beq_iff_eq, List.all_eq_true, List.mem_range, Bool.or_eq_true,
    Bool.not_eq_true', List.isEmpty_iff] at h
  rw [best_fold, ← fold_map, hv]
  have h1 : bestRule s (afterText initialRules w) = some (0, a) := by
    rw [best_closed, h.1]
    intro c hc
    obtain ⟨hlt, hok⟩ := hs c hc
    rcases h.2 c hlt with h2 | h2
    · rw [hok] at h2; cases h2
    · exact h2
  rw [best_append h1]
  have : w.length = v.length := by rw [← hv, fold_map, List.length_map]
  rw [this]; rfl

/-- Neither part of a name nor a colon, as a computable test. -/
def endsWord (c : Nat) : Bool := !isSymbChar c && c != 58

theorem symbStart_iff {c : Nat} : isSymbStart c = true ↔ NameStart c := by
  have e1 : 'a'.toNat = 97 := rfl
  have e2 : 'z'.toNat = 122 := rfl
  have e3 : 'A'.toNat = 65 := rfl
  have e4 : 'Z'.toNat = 90 := rfl
  have e5 : '_'.toNat = 95 := rfl
  simp only [isSymbStart, NameStart, e1, e2, e3, e4, e5, Bool.or_eq_true, decide_eq_true_eq, beq_iff_eq]
  omega

theorem symbChar_iff {c : Nat} : isSymbChar c = true ↔ NameChar c := by
  have e1 : '0'.toNat = 48 := rfl
  have e2 : '9'.toNat = 57 := rfl
  have e3 : '.'.toNat = 46 := rfl
  simp only [isSymbChar, NameChar, ← symbStart_iff, e1, e2, e3, Bool.or_eq_true, decide_eq_true_eq, beq_iff_eq, or_assoc]

theorem wordEnd_next {s : Str} (h : WordEnd s) : Next (fun c => endsWord c = true) s := by
  intro c hc
  obtain ⟨h1, h2, h3⟩ := h c hc
  refine ⟨h1, ?_⟩
  have : isSymbChar c = false := by
    rw [← Bool.not_eq_true, symbChar_iff]; exact h2
  have e : ':'.toNat = 58 := rfl
  rw [e] at h3
  simp [endsWord, this, h3]

/-- The words and what is done with them. -/
def wordActs : List (Str × LexAct) :=
  (Spec.words.map fun x => (bytes x.1, LexAct.tok x.2)) ++
  [(bytes ".c64", .setC64), (bytes ".if", .ifTok), (bytes ".else", .elseTok), (bytes ".endif", .endIfTok),
   (bytes ".do", .doTok), (bytes ".while", .whileTok), (bytes ".macro", .macroTok), (bytes ".mac", .macroTok),
   (bytes ".endmacro", .endMacroTok), (bytes ".endm", .endMacroTok)]

theorem words_stop : wordActs.all (fun x => wordStops x.1 x.2 endsWord) = true := by decide +kernel

end Verif
