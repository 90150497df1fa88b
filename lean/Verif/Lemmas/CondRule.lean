import Verif.Lemmas.NameRule

/-! # The rules of conditional assembly -/

namespace Verif

open Spec

set_option maxRecDepth 4000

theorem longest_cond {b n s : Str} (hb : b ≠ []) (hbl : ∀ c ∈ b, Blank c) (hn : Name n) (hs : NameEnd s) :
    (Re.seq (.plus blank) reSymb).longest (b ++ n ++ s) = some (b ++ n).length := by
  have hsc : ∀ c, s.head? = some c → isSymbChar c = false := by
    intro c hc
    rw [← Bool.not_eq_true, symbChar_iff]
    exact (hs c hc).2
  have hblank : ∀ c, Blank c ↔ (c == 32 || c == 9) = true := by
    intro c; unfold Blank; simp
  obtain ⟨c0, r0, hn0, hc0, _⟩ := name_head hn
  have notBlank : ∀ c, isSymbStart c = true ∨ c = 64 → ¬ Blank c := by
    intro c hc hb
    rcases hb with rfl | rfl <;> rcases hc with hc | hc <;> cases hc
  rw [(longest_spec _ _).1]
  refine ⟨by simp, ?_, ?_⟩
  · rw [List.take_left, matches_seq]
    exact ⟨b, n, rfl, matches_plus_chr.2 ⟨hb, fun c hc => (hblank c).1 (hbl c hc)⟩, matches_reSymb.2 hn⟩
  · intro m hm hmm
    obtain ⟨v, u, he, h1, h2⟩ := matches_seq.1 hmm
    obtain ⟨_, h1⟩ := matches_plus_chr.1 h1
    have h2 := matches_reSymb.1 h2
    obtain ⟨c1, r1, hu, hc1, _⟩ := name_head h2
    have hlen := congrArg List.length he
    rw [List.length_take, Nat.min_eq_left hm, List.length_append] at hlen
    have get : ∀ i, i < m → (b ++ n ++ s)[i]? = (v ++ u)[i]? := by
      intro i hi
      rw [← he, List.getElem?_take_of_lt hi]
    have hul : 0 < u.length := by rw [hu]; simp
    have hvb : v.length = b.length := by
      rcases Nat.lt_trichotomy v.length b.length with hlt | heq | hgt
      · exfalso
        have := get v.length (by omega)
        rw [List.append_assoc, List.getElem?_append_left hlt, List.getElem?_append_right (Nat.le_refl _), Nat.sub_self, hu,
          List.getElem?_cons_zero] at this
        exact notBlank c1 hc1 (hbl c1 (List.mem_of_getElem? this))
      · exact heq
      · exfalso
        have := get b.length (by omega)
        rw [List.append_assoc, List.getElem?_append_right (Nat.le_refl _), Nat.sub_self, hn0, List.cons_append,
          List.getElem?_cons_zero, List.getElem?_append_left hgt] at this
        exact notBlank c0 hc0 ((hblank c0).2 (h1 c0 (List.mem_of_getElem? this.symm)))
    have hu2 : u = (n ++ s).take (m - b.length) := by
      have h3 := congrArg (List.drop b.length) he
      rw [← hvb, List.drop_left, hvb, List.drop_take, List.append_assoc, List.drop_left] at h3
      exact h3.symm
    have hm2 : m - b.length ≤ (n ++ s).length := by
      simp only [List.length_append] at hm ⊢; omega
    have := take_in_name hm2 (fun i hi hi1 => name_tail (by rw [← hu2]; exact h2) hi1 hi)
      (by rw [hn0]; simp) hsc
    simp only [List.length_append]; omega

theorem after_ifdef : afterText initialRules (bytes ".ifdef") = [(.seq (.plus blank) reSymb, .ifDef false)] := rfl

theorem after_ifndef : afterText initialRules (bytes ".ifndef") = [(.seq (.plus blank) reSymb, .ifDef true)] := rfl

theorem best_cond {w name s : Str} {neg : Bool} (hw : IsCond neg w name) (hs : NameEnd s) :
    bestRule (w ++ s) initialRules = some (w.length, .ifDef neg) := by
  obtain ⟨k, b, rfl, hk, hb, hbl, hn⟩ := hw
  have e : k ++ b ++ name ++ s = k ++ (b ++ name ++ s) := by simp
  have hf : foldCase k = bytes (if neg then ".ifndef" else ".ifdef") := hk
  have hlen : (bytes (if neg then ".ifndef" else ".ifdef")).length = k.length := by rw [← hf, fold_map, List.length_map]
  rw [e, best_fold, ← fold_map, hf]
  have h1 : bestRule (b ++ name ++ s) (afterText initialRules (bytes (if neg then ".ifndef" else ".ifdef"))) =
      some ((b ++ name).length, .ifDef neg) := by
    have : afterText initialRules (bytes (if neg then ".ifndef" else ".ifdef")) = [(.seq (.plus blank) reSymb, .ifDef neg)] := by
      cases neg
      · exact after_ifdef
      · exact after_ifndef
    rw [this]
    simp only [bestRule, longest_cond hb hbl hn hs]
  rw [best_append h1, hlen]
  simp only [List.length_append]
  congr 2; omega

theorem cond_name {w name : Str} {neg : Bool} (hw : IsCond neg w name) : ifDefName w = name := by
  obtain ⟨k, b, rfl, hk, hb, hbl, hn⟩ := hw
  have hf : foldCase k = bytes (if neg then ".ifndef" else ".ifdef") := hk
  have h1 : ∀ c ∈ k, (c != 32 && c != 9) = true := by
    intro c hc
    have : tolower c ∈ foldCase k := List.mem_map.2 ⟨c, hc, rfl⟩
    rw [hf] at this
    have h2 : ∀ d ∈ bytes (if neg then ".ifndef" else ".ifdef"), d ≠ 32 ∧ d ≠ 9 := by cases neg <;> decide
    have h3 := h2 _ this
    have : c ≠ 32 ∧ c ≠ 9 := by
      constructor <;> rintro rfl
      · exact h3.1 rfl
      · exact h3.2 rfl
    simp [this]
  unfold ifDefName
  have e1 : (k ++ b ++ name).dropWhile (fun c => c != 32 && c != 9) = b ++ name := by
    rw [List.append_assoc, List.dropWhile_append_of_pos h1]
    cases b with
    | nil => exact absurd rfl hb
    | cons c b =>
      have : Blank c := hbl c (by simp)
      rw [List.cons_append, List.dropWhile_cons_of_neg]
      rcases this with rfl | rfl <;> decide
  rw [e1, List.dropWhile_append_of_pos (by
    intro c hc
    rcases hbl c hc with rfl | rfl <;> rfl)]
  obtain ⟨c0, r0, rfl, hc0, _⟩ := name_head hn
  rw [List.dropWhile_cons_of_neg]
  intro h
  simp only [Bool.or_eq_true, beq_iff_eq] at h
  rcases h with rfl | rfl <;> rcases hc0 with hc | hc <;> cases hc

theorem cond_facts {w name : Str} {neg : Bool} (hw : IsCond neg w name) :
    w ≠ [] ∧ 10 ∉ w ∧ 4 ≤ w.length ∧ ∃ k v, w = k ++ v ∧ Is (if neg then ".ifndef" else ".ifdef") k := by
  obtain ⟨k, b, rfl, hk, hb, hbl, hn⟩ := hw
  have hf : foldCase k = bytes (if neg then ".ifndef" else ".ifdef") := hk
  have hlen : (bytes (if neg then ".ifndef" else ".ifdef")).length = k.length := by rw [← hf, fold_map, List.length_map]
  have h4 : 4 ≤ (bytes (if neg then ".ifndef" else ".ifdef")).length := by cases neg <;> decide
  refine ⟨by simp [hb], ?_, by simp only [List.length_append]; omega, k, b ++ name, by simp, hk⟩
  simp only [List.mem_append, not_or]
  refine ⟨⟨?_, fun h => by rcases hbl 10 h with h | h <;> cases h⟩, ?_⟩
  · intro h
    have : tolower 10 ∈ foldCase k := List.mem_map.2 ⟨10, h, rfl⟩
    rw [hf] at this
    revert this; cases neg <;> decide
  · intro h
    obtain ⟨c, r, rfl, hc, _⟩ := name_head hn
    obtain ⟨i, hi, he⟩ := List.getElem_of_mem h
    cases i with
    | zero =>
      simp at he
      subst he
      rcases hc with hc | hc <;> cases hc
    | succ i =>
      have := name_tail hn (i := i + 1) (by omega) hi
      rw [he] at this
      cases this

/-! ## Skipped text -/

theorem ifDef_caseless : ifDefRules.all (fun x => x.1.caseless) = true := by decide +kernel

theorem skip_word {name : String} {a : LexAct} {w s : Str} (h : (name, a) ∈ [(".if", .skipIf), (".else", .skipElse), (".endif", .skipEndIf)])
    (hw : Is name w) : bestRule (w ++ s) ifDefRules = some (w.length, a) := by
  have hf : foldCase w = bytes name := hw
  have hlen : (bytes name).length = w.length := by rw [← hf, fold_map, List.length_map]
  have e : bestRule (w ++ s) ifDefRules = bestRule (w.map tolower ++ s) ifDefRules := by
    rw [← best_caseless ifDef_caseless (w ++ s), ← best_caseless ifDef_caseless (w.map tolower ++ s)]
    have : (tolower ∘ tolower) = tolower := funext tolower_tolower
    simp [this]
  rw [e, ← fold_map, hf]
  have h1 : bestRule s (afterText ifDefRules (bytes name)) = some (0, a) := by
    have : afterText ifDefRules (bytes name) = [(.eps, a)] := by
      simp only [List.mem_cons, List.not_mem_nil, or_false, Prod.mk.injEq] at h
      rcases h with ⟨rfl, rfl⟩ | ⟨rfl, rfl⟩ | ⟨rfl, rfl⟩ <;> rfl
    rw [this]
    cases s with
    | nil => rfl
    | cons c s => simp only [bestRule, longest_cons, Re.deriv, longest_empty, Re.nullable]; rfl
  rw [best_append h1, hlen]; rfl

theorem skip_char {c : Nat} {s : Str} (h : ¬ CondWord (c :: s)) : bestRule (c :: s) ifDefRules = some (1, .skip) := by
  have e : ifDefRules = [(lit (cstr! ".if"), .skipIf), (lit (cstr! ".else"), .skipElse), (lit (cstr! ".endif"), .skipEndIf)] ++
    (.alt dot (one 10), .skip) :: [] := rfl
  have hone : ∀ u : Str, Matches (.alt dot (one 10)) u ↔ ∃ c, u = [c] := by
    intro u
    rw [matches_alt]
    unfold dot one
    rw [matches_chr, matches_chr]
    constructor
    · rintro (⟨c, _, rfl⟩ | ⟨c, _, rfl⟩) <;> exact ⟨c, rfl⟩
    · rintro ⟨c, rfl⟩
      by_cases h10 : c = 10
      · exact .inr ⟨c, by simp [h10], rfl⟩
      · exact .inl ⟨c, by simp [h10], rfl⟩
  refine best_of e (by simp) ((hone _).2 ⟨c, rfl⟩) ?_ ?_ (by simp)
  · intro m hm hmm
    obtain ⟨d, hd⟩ := (hone _).1 hmm
    have := congrArg List.length hd
    rw [List.length_take, Nat.min_eq_left hm] at this
    simp at this; omega
  · intro x hx m hm hmm
    exfalso
    apply h
    simp only [List.mem_cons, List.not_mem_nil, or_false] at hx
    refine ⟨(c :: s).take m, (c :: s).drop m, (List.take_append_drop _ _).symm, ?_⟩
    rcases hx with rfl | rfl | rfl
    · exact .inl (matches_lit.1 hmm)
    · exact .inr (.inl (matches_lit.1 hmm))
    · exact .inr (.inr (matches_lit.1 hmm))

/-- A word of a conditional begins with a dot. -/
theorem notCond_of_head {c : Nat} {s : Str} (h : c ≠ 46) : ¬ CondWord (c :: s) := by
  rintro ⟨w, r, e, hw⟩
  have key : ∀ name : String, Is name w → (bytes name).head? = some 46 → c = 46 := by
    intro name hw hn
    have hf : foldCase w = bytes name := hw
    cases w with
    | nil => rw [← hf] at hn; cases hn
    | cons d w =>
      rw [← hf, fold_map] at hn
      simp only [List.map_cons, List.head?_cons, Option.some.injEq] at hn
      simp only [List.cons_append, List.cons.injEq] at e
      have : d = 46 := by
        unfold tolower at hn
        split at hn <;> omega
      omega
  refine h ?_
  rcases hw with hw | hw | hw
  · exact key _ hw rfl
  · exact key _ hw rfl
  · exact key _ hw rfl

/-- Text without a dot is passed over whole. -/
theorem skipped_plain {u s : Str} (h : 46 ∉ u) : Skipped 0 u s := by
  induction u with
  | nil => exact .done
  | cons c u ih =>
    simp only [List.mem_cons, not_or] at h
    exact .char (notCond_of_head fun e => h.1 e.symm) (ih h.2)

end Verif
