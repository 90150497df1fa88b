import Verif.Spec.Regex

/-! # Derivatives compute what patterns match -/

namespace Verif

open Spec

theorem matches_empty {u : Str} : ¬ Matches .empty u := by
  intro h; cases h

theorem matches_eps {u : Str} : Matches .eps u ↔ u = [] := by
  constructor
  · intro h; cases h; rfl
  · rintro rfl; exact .eps

theorem matches_chr {p : Nat → Bool} {u : Str} : Matches (.chr p) u ↔ ∃ c, p c = true ∧ u = [c] := by
  constructor
  · intro h; cases h with
    | chr h => exact ⟨_, h, rfl⟩
  · rintro ⟨c, h, rfl⟩; exact .chr h

theorem matches_seq {a b : Re} {u : Str} : Matches (.seq a b) u ↔ ∃ v w, u = v ++ w ∧ Matches a v ∧ Matches b w := by
  constructor
  · intro h; cases h with
    | seq h1 h2 => exact ⟨_, _, rfl, h1, h2⟩
  · rintro ⟨v, w, rfl, h1, h2⟩; exact .seq h1 h2

theorem matches_alt {a b : Re} {u : Str} : Matches (.alt a b) u ↔ Matches a u ∨ Matches b u := by
  constructor
  · intro h; cases h with
    | left h => exact .inl h
    | right h => exact .inr h
  · rintro (h | h)
    · exact .left h
    · exact .right h

theorem matches_mkSeq {a b : Re} {u : Str} : Matches (Re.mkSeq a b) u ↔ Matches (.seq a b) u := by
  unfold Re.mkSeq
  split
  · simp only [matches_seq]
    exact ⟨fun h => (matches_empty h).elim, fun ⟨_, _, _, h, _⟩ => (matches_empty h).elim⟩
  · simp only [matches_seq, matches_eps]
    constructor
    · intro h; exact ⟨[], u, rfl, rfl, h⟩
    · rintro ⟨v, w, rfl, rfl, h⟩; exact h
  · rfl

theorem matches_mkAlt {a b : Re} {u : Str} : Matches (Re.mkAlt a b) u ↔ Matches (.alt a b) u := by
  unfold Re.mkAlt
  split
  · simp only [matches_alt]
    exact ⟨.inr, fun h => h.elim (fun h => (matches_empty h).elim) id⟩
  · simp only [matches_alt]
    exact ⟨.inl, fun h => h.elim id (fun h => (matches_empty h).elim)⟩
  · rfl

theorem matches_nullable {r : Re} : Matches r [] ↔ r.nullable = true := by
  induction r with
  | empty => exact ⟨fun h => (matches_empty h).elim, fun h => by cases h⟩
  | eps => simp [matches_eps, Re.nullable]
  | chr p => simp [matches_chr, Re.nullable]
  | seq a b iha ihb =>
    simp only [matches_seq, Re.nullable, Bool.and_eq_true, ← iha, ← ihb]
    constructor
    · rintro ⟨v, w, h, h1, h2⟩
      have := List.append_eq_nil_iff.1 h.symm
      rw [this.1] at h1; rw [this.2] at h2
      exact ⟨h1, h2⟩
    · rintro ⟨h1, h2⟩; exact ⟨[], [], rfl, h1, h2⟩
  | alt a b iha ihb => simp [matches_alt, Re.nullable, iha, ihb]
  | star a => simp only [Re.nullable, iff_true]; exact .nil

theorem matches_star_cons {a : Re} {c : Nat} {u : Str} :
    Matches (.star a) (c :: u) ↔ ∃ v w, u = v ++ w ∧ Matches a (c :: v) ∧ Matches (.star a) w := by
  constructor
  · intro h
    generalize ht : c :: u = t at h
    generalize hr : Re.star a = r at h
    induction h with
    | eps => cases hr
    | chr _ => cases hr
    | seq _ _ => cases hr
    | left _ => cases hr
    | right _ => cases hr
    | nil => cases ht
    | @more a' x v hx hv _ ihv =>
      cases hr
      cases x with
      | nil => exact ihv ht rfl
      | cons d x =>
        simp only [List.cons_append, List.cons.injEq] at ht
        obtain ⟨rfl, rfl⟩ := ht
        exact ⟨x, v, rfl, hx, hv⟩
  · rintro ⟨v, w, rfl, h1, h2⟩
    have := Matches.more h1 h2
    exact this

theorem matches_deriv {r : Re} {c : Nat} {u : Str} : Matches (r.deriv c) u ↔ Matches r (c :: u) := by
  induction r generalizing u with
  | empty => exact ⟨fun h => (matches_empty h).elim, fun h => (matches_empty h).elim⟩
  | eps =>
    simp only [Re.deriv, matches_eps]
    exact ⟨fun h => (matches_empty h).elim, fun h => by cases h⟩
  | chr p =>
    simp only [Re.deriv]
    split
    · next h =>
      simp only [matches_eps, matches_chr]
      constructor
      · rintro rfl; exact ⟨c, h, rfl⟩
      · rintro ⟨d, _, hd⟩; cases hd; rfl
    · next h =>
      simp only [matches_chr]
      constructor
      · intro h; exact (matches_empty h).elim
      · rintro ⟨d, hp, hd⟩; cases hd; exact absurd hp h
  | seq a b iha ihb =>
    have key : Matches (.seq a b) (c :: u) ↔
        (∃ v w, u = v ++ w ∧ Matches a (c :: v) ∧ Matches b w) ∨ (Matches a [] ∧ Matches b (c :: u)) := by
      rw [matches_seq]
      constructor
      · rintro ⟨v, w, h, h1, h2⟩
        cases v with
        | nil => exact .inr ⟨h1, by rw [h]; exact h2⟩
        | cons d v =>
          simp only [List.cons_append, List.cons.injEq] at h
          obtain ⟨rfl, rfl⟩ := h
          exact .inl ⟨v, w, rfl, h1, h2⟩
      · rintro (⟨v, w, rfl, h1, h2⟩ | ⟨h1, h2⟩)
        · exact ⟨c :: v, w, rfl, h1, h2⟩
        · exact ⟨[], c :: u, rfl, h1, h2⟩
    rw [key, matches_nullable]
    simp only [Re.deriv]
    split
    · next h =>
      simp only [matches_mkAlt, matches_alt, matches_mkSeq, matches_seq, iha, ihb, h, true_and]
    · next h =>
      simp only [matches_mkSeq, matches_seq, iha, h, false_and, or_false, Bool.false_eq_true]
  | alt a b iha ihb => simp only [Re.deriv, matches_mkAlt, matches_alt, iha, ihb]
  | star a ih =>
    simp only [Re.deriv, matches_mkSeq, matches_seq, matches_star_cons, ih]

theorem longest_cons (r : Re) (c : Nat) (s : Str) :
    r.longest (c :: s) = match (r.deriv c).longest s with
      | some n => some (n + 1)
      | none => if r.nullable then some 0 else none := by
  cases r <;> try rfl
  simp [Re.longest, Re.deriv, Re.nullable]

theorem longest_nil (r : Re) : r.longest [] = if r.nullable then some 0 else none := by
  cases r <;> rfl

/-- The longest match, in terms of what matches. -/
theorem longest_spec (r : Re) (s : Str) :
    (∀ n, r.longest s = some n ↔ n ≤ s.length ∧ Matches r (s.take n) ∧
      ∀ m, m ≤ s.length → Matches r (s.take m) → m ≤ n) ∧
    (r.longest s = none ↔ ∀ m, m ≤ s.length → ¬ Matches r (s.take m)) := by
  suffices H : (∀ n, r.longest s = some n → n ≤ s.length ∧ Matches r (s.take n) ∧
      ∀ m, m ≤ s.length → Matches r (s.take m) → m ≤ n) ∧
      (r.longest s = none → ∀ m, m ≤ s.length → ¬ Matches r (s.take m)) by
    refine ⟨fun n => ⟨H.1 n, ?_⟩, ⟨H.2, ?_⟩⟩
    · rintro ⟨h1, h2, h3⟩
      cases h : r.longest s with
      | none => exact absurd h2 (H.2 h n h1)
      | some k =>
        have := H.1 k h
        have h4 := h3 k this.1 this.2.1
        have h5 := this.2.2 n h1 h2
        congr; omega
    · intro hn
      cases h : r.longest s with
      | none => rfl
      | some k => exact absurd (H.1 k h).2.1 (hn k (H.1 k h).1)
  induction s generalizing r with
  | nil =>
    rw [longest_nil]
    simp only [List.length_nil, List.take_nil, matches_nullable]
    by_cases h : r.nullable = true
    · rw [if_pos h]
      refine ⟨?_, by simp⟩
      rintro n hn; cases hn
      exact ⟨Nat.le_refl 0, h, fun m hm _ => hm⟩
    · rw [if_neg h]
      exact ⟨by simp, fun _ _ _ => h⟩
  | cons c s ih =>
    rw [longest_cons]
    have hih := ih (r.deriv c)
    cases hl : (r.deriv c).longest s with
    | some k =>
      obtain ⟨h1, h2, h3⟩ := hih.1 k hl
      refine ⟨?_, by simp⟩
      rintro n hn; cases hn
      refine ⟨by simpa using h1, ?_, ?_⟩
      · rw [List.take_succ_cons]; exact matches_deriv.1 h2
      · intro m hm hmm
        cases m with
        | zero => omega
        | succ m =>
          rw [List.take_succ_cons] at hmm
          have := h3 m (by simpa using hm) (matches_deriv.2 hmm)
          omega
    | none =>
      have h0 := hih.2 hl
      have hm1 : ∀ m, m ≤ (c :: s).length → Matches r ((c :: s).take m) → m = 0 := by
        intro m hm hmm
        cases m with
        | zero => rfl
        | succ m =>
          rw [List.take_succ_cons] at hmm
          exact absurd (matches_deriv.2 hmm) (h0 m (by simpa using hm))
      simp only
      by_cases h : r.nullable = true
      · rw [if_pos h]
        refine ⟨?_, by simp⟩
        rintro n hn; cases hn
        exact ⟨Nat.zero_le _, matches_nullable.2 h, fun m hm hmm => Nat.le_of_eq (hm1 m hm hmm)⟩
      · rw [if_neg h]
        refine ⟨by simp, fun _ m hm hmm => ?_⟩
        have := hm1 m hm hmm
        subst this
        exact h (matches_nullable.1 hmm)

/-- The rule chosen, in terms of the longest matches. -/
theorem best_spec (s : Str) (rules : List (Re × LexAct)) :
    (∀ n a, bestRule s rules = some (n, a) → ∃ i, ∃ h : i < rules.length, (rules[i]'h).2 = a ∧ Chosen rules s i n) ∧
    (bestRule s rules = none → ∀ x ∈ rules, ∀ m, m ≤ s.length → ¬ Matches x.1 (s.take m)) := by
  induction rules with
  | nil => exact ⟨by simp [bestRule], by simp⟩
  | cons x rules ih =>
    obtain ⟨r, a⟩ := x
    have hsp := longest_spec r s
    unfold bestRule
    cases hl : r.longest s with
    | none =>
      have hno := hsp.2.1 hl
      refine ⟨?_, ?_⟩
      · intro n b h
        obtain ⟨i, hi, ha, hc⟩ := ih.1 n b h
        refine ⟨i + 1, by simpa using hi, ha, by simpa using hi, hc.fits, hc.matched, ?_, ?_⟩
        · rintro (_ | j) hj m hm hmm
          · exact absurd hmm (hno m hm)
          · exact hc.longest j (by simpa using hj) m hm hmm
        · rintro (_ | j) hj
          · exact hno n hc.fits
          · exact hc.first j (by omega)
      · intro h y hy
        rcases List.mem_cons.1 hy with rfl | hy
        · exact hno
        · exact ih.2 h y hy
    | some k =>
      obtain ⟨h1, h2, h3⟩ := (hsp.1 k).1 hl
      cases hb : bestRule s rules with
      | none =>
        refine ⟨?_, by simp⟩
        rintro n b h
        simp only [Option.some.injEq, Prod.mk.injEq] at h
        obtain ⟨rfl, rfl⟩ := h
        refine ⟨0, by simp, rfl, by simp, h1, h2, ?_, fun j hj => absurd hj (Nat.not_lt_zero j)⟩
        rintro (_ | j) hj m hm hmm
        · exact h3 m hm hmm
        · exact absurd hmm (ih.2 hb _ (List.getElem_mem (by simpa using hj)) m hm)
      | some y =>
        obtain ⟨m0, b0⟩ := y
        obtain ⟨i, hi, ha, hc⟩ := ih.1 m0 b0 hb
        simp only
        split
        · next hle =>
          refine ⟨?_, by simp⟩
          rintro n b h
          simp only [Option.some.injEq, Prod.mk.injEq] at h
          obtain ⟨rfl, rfl⟩ := h
          refine ⟨0, by simp, rfl, by simp, h1, h2, ?_, fun j hj => absurd hj (Nat.not_lt_zero j)⟩
          rintro (_ | j) hj m hm hmm
          · exact h3 m hm hmm
          · exact Nat.le_trans (hc.longest j (by simpa using hj) m hm hmm) hle
        · next hle =>
          refine ⟨?_, by simp⟩
          rintro n b h
          simp only [Option.some.injEq, Prod.mk.injEq] at h
          obtain ⟨rfl, rfl⟩ := h
          refine ⟨i + 1, by simpa using hi, ha, by simpa using hi, hc.fits, hc.matched, ?_, ?_⟩
          · rintro (_ | j) hj m hm hmm
            · exact Nat.le_of_lt (Nat.lt_of_le_of_lt (h3 m hm hmm) (by omega))
            · exact hc.longest j (by simpa using hj) m hm hmm
          · rintro (_ | j) hj
            · intro hmm
              have := h3 _ hc.fits hmm
              omega
            · exact hc.first j (by omega)

/-- What is chosen is unique. -/
theorem Spec.Chosen.unique {rules : List (Re × LexAct)} {s : Str} {i j n m : Nat} (h : Chosen rules s i n)
    (g : Chosen rules s j m) : i = j ∧ n = m := by
  have h1 := h.longest j g.rule m g.fits g.matched
  have h2 := g.longest i h.rule n h.fits h.matched
  have hnm : n = m := Nat.le_antisymm h2 h1
  subst hnm
  refine ⟨?_, rfl⟩
  rcases Nat.lt_trichotomy i j with hlt | heq | hgt
  · exact absurd h.matched (g.first i hlt)
  · exact heq
  · exact absurd g.matched (h.first j hgt)

/-- The chosen rule is found. -/
theorem Spec.Chosen.best {rules : List (Re × LexAct)} {s : Str} {i n : Nat} (h : Chosen rules s i n) :
    bestRule s rules = some (n, (rules[i]'h.rule).2) := by
  cases hb : bestRule s rules with
  | none => exact absurd h.matched ((best_spec s rules).2 hb _ (List.getElem_mem h.rule) n h.fits)
  | some x =>
    obtain ⟨m, a⟩ := x
    obtain ⟨j, hj, ha, hc⟩ := (best_spec s rules).1 m a hb
    obtain ⟨hij, hnm⟩ := h.unique hc
    subst hij hnm
    rw [← ha]

/-- The chosen rule by splitting the list. -/
theorem best_of {rules pre post : List (Re × LexAct)} {r : Re} {a : LexAct} {s : Str} {n : Nat}
    (hr : rules = pre ++ (r, a) :: post) (hn : n ≤ s.length) (hm : Matches r (s.take n))
    (hself : ∀ m, m ≤ s.length → Matches r (s.take m) → m ≤ n)
    (hpre : ∀ x ∈ pre, ∀ m, m ≤ s.length → Matches x.1 (s.take m) → m < n)
    (hpost : ∀ x ∈ post, ∀ m, m ≤ s.length → Matches x.1 (s.take m) → m ≤ n) :
    bestRule s rules = some (n, a) := by
  subst hr
  have hc : Chosen (pre ++ (r, a) :: post) s pre.length n := by
    refine ⟨by simp, hn, by simpa using hm, ?_, ?_⟩
    · intro j hj m hmm hmt
      rcases Nat.lt_trichotomy j pre.length with hlt | heq | hgt
      · rw [List.getElem_append_left hlt] at hmt
        exact Nat.le_of_lt (hpre _ (List.getElem_mem hlt) m hmm hmt)
      · subst heq
        exact hself m hmm (by simpa using hmt)
      · rw [List.getElem_append_right (by omega)] at hmt
        obtain ⟨k, hk⟩ : ∃ k, j = pre.length + (k + 1) := ⟨j - pre.length - 1, by omega⟩
        subst hk
        simp only [Nat.add_sub_cancel_left, List.getElem_cons_succ] at hmt
        exact hpost _ (List.getElem_mem _) m hmm hmt
    · intro j hj hmt
      rw [List.getElem_append_left hj] at hmt
      have := hpre _ (List.getElem_mem hj) n hn hmt
      omega
  have := hc.best
  simpa using this

end Verif
