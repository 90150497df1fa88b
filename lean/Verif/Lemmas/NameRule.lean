import Verif.Lemmas.Tokens

/-! # The rule chosen for names -/

namespace Verif

open Spec

set_option maxRecDepth 4000

theorem matches_lit {v u : Str} : Matches (lit v) u ↔ u.map tolower = v := by
  induction v generalizing u with
  | nil => simp [lit, matches_eps]
  | cons c v ih =>
    simp only [lit, matches_seq]
    constructor
    · rintro ⟨x, y, rfl, h1, h2⟩
      obtain ⟨d, hd, rfl⟩ := matches_chr.1 h1
      simp at hd
      simp [hd, ih.1 h2]
    · intro h
      cases u with
      | nil => simp at h
      | cons d u =>
        simp only [List.map_cons, List.cons.injEq] at h
        exact ⟨[d], u, rfl, .chr (by simp [h.1]), ih.2 h.2⟩

theorem symbChar_tolower (c : Nat) : isSymbChar (tolower c) = isSymbChar c := by
  have : (Re.chr isSymbChar).caseless = true := by decide +kernel
  exact chr_caseless this c

theorem symbStart_tolower (c : Nat) : isSymbStart (tolower c) = isSymbStart c := by
  have : (Re.chr isSymbStart).caseless = true := by decide +kernel
  exact chr_caseless this c

/-- The patterns that are fixed words. -/
def fixedWords : List Str :=
  opWords.map Prod.fst ++ dirWords.map Prod.fst ++ loopWords.map Prod.fst ++ [cstr! "x", cstr! "y"]

/-- A reserved word in lower case. -/
def reservedB (v : Str) : Bool :=
  (instrNames.map bytes).contains v || v == bytes "not" || v == bytes "x" || v == bytes "y"

theorem reserved_of {w : Str} (h : reservedB (foldCase w) = true) : Reserved w := by
  simp only [reservedB, Bool.or_eq_true, beq_iff_eq, List.contains_iff_mem, List.mem_map] at h
  rcases h with ((⟨n, hn, he⟩ | h) | h) | h
  · exact .inl ⟨n, hn, he.symm⟩
  · exact .inr (.inl h)
  · exact .inr (.inr (.inl h))
  · exact .inr (.inr (.inr h))

theorem fixedWords_reserved : fixedWords.all (fun v =>
    !(v.head?.any fun c => isSymbStart c || c == 64) || (v.all isSymbChar && reservedB v)) = true := by decide +kernel

/-- The rules before the rule for names that are not fixed words. -/
def otherRules : List (Re × LexAct) := condRules.drop 4 ++ stateRules ++ valueRules.take 15

theorem otherRules_dead : (List.range 128).all (fun c => !(isSymbStart c || c == 64) ||
    (otherRules ++ lastRules.tail.dropLast).all fun x => (x.1.deriv c).dead) = true := by decide +kernel

theorem initial_split : initialRules = (opWords.map wordRule ++ condRules ++ dirWords.map wordRule ++ loopWords.map wordRule ++
    stateRules ++ valueRules) ++ (.seq reSymb (.opt (one 58)), .symb) :: (lastRules.tail.dropLast ++ [(dot, .bad)]) := by rfl

/-- Each rule before the rule for names is a fixed word, a numbered instruction, or begins differently. -/
theorem preRules_cases {x : Re × LexAct}
    (h : x ∈ opWords.map wordRule ++ condRules ++ dirWords.map wordRule ++ loopWords.map wordRule ++ stateRules ++ valueRules) :
    (∃ v ∈ fixedWords, x.1 = lit v) ∨
    (∃ v ∈ [cstr! "bbr", cstr! "bbs", cstr! "rmb", cstr! "smb"], x.1 = .seq (lit v) digit07) ∨ x ∈ otherRules := by
  have hc : condRules = [(.seq (lit (cstr! "bbr")) digit07, .opRel Ins._bbr0), (.seq (lit (cstr! "bbs")) digit07, .opRel Ins._bbs0),
      (.seq (lit (cstr! "rmb")) digit07, .opRel Ins._rmb0), (.seq (lit (cstr! "smb")) digit07, .opRel Ins._smb0)] ++
      condRules.drop 4 := rfl
  have hv : valueRules = valueRules.take 15 ++ [(lit (cstr! "x"), .tok .x), (lit (cstr! "y"), .tok .y)] := rfl
  have hw : ∀ {W : List (Str × Tok)}, x ∈ W.map wordRule → (∀ v ∈ W.map Prod.fst, v ∈ fixedWords) →
      ∃ v ∈ fixedWords, x.1 = lit v := by
    intro W hx hW
    obtain ⟨y, hy, rfl⟩ := List.mem_map.1 hx
    exact ⟨y.1, hW _ (List.mem_map.2 ⟨y, hy, rfl⟩), rfl⟩
  simp only [List.mem_append] at h
  rcases h with ((((h | h) | h) | h) | h) | h
  · exact .inl (hw h fun v hv => by simp only [fixedWords, List.mem_append]; exact .inl (.inl (.inl hv)))
  · rw [hc] at h
    rcases List.mem_append.1 h with h | h
    · right; left
      simp only [List.mem_cons, List.not_mem_nil, or_false] at h
      rcases h with rfl | rfl | rfl | rfl
      · exact ⟨_, by simp, rfl⟩
      · exact ⟨_, by simp, rfl⟩
      · exact ⟨_, by simp, rfl⟩
      · exact ⟨_, by simp, rfl⟩
    · right; right
      simp only [otherRules, List.mem_append]; exact .inl (.inl h)
  · exact .inl (hw h fun v hv => by simp only [fixedWords, List.mem_append]; exact .inl (.inl (.inr hv)))
  · exact .inl (hw h fun v hv => by simp only [fixedWords, List.mem_append]; exact .inl (.inr hv))
  · right; right
    simp only [otherRules, List.mem_append]; exact .inl (.inr h)
  · rw [hv] at h
    rcases List.mem_append.1 h with h | h
    · right; right
      simp only [otherRules, List.mem_append]; exact .inr h
    · left
      simp only [List.mem_cons, List.not_mem_nil, or_false] at h
      rcases h with rfl | rfl
      · exact ⟨cstr! "x", by simp [fixedWords], rfl⟩
      · exact ⟨cstr! "y", by simp [fixedWords], rfl⟩

theorem name_head {w : Str} (h : Name w) : ∃ c r, w = c :: r ∧ (isSymbStart c = true ∨ c = 64) ∧ c < 128 := by
  have hb : ∀ {c}, NameStart c → c < 128 := by
    intro c hc
    rw [← symbStart_iff] at hc
    simp [isSymbStart] at hc
    omega
  cases h with
  | global hc hw => exact ⟨_, _, rfl, .inl (symbStart_iff.2 hc), hb hc⟩
  | loc hc hw => exact ⟨_, _, rfl, .inr rfl, by decide⟩

theorem name_tail {w : Str} (h : Name w) {i : Nat} (h1 : 1 ≤ i) (h2 : i < w.length) : isSymbChar w[i] = true := by
  cases h with
  | global hc hw =>
    obtain ⟨j, rfl⟩ : ∃ j, i = j + 1 := ⟨i - 1, by omega⟩
    simp only [List.getElem_cons_succ]
    exact symbChar_iff.2 (hw _ (List.getElem_mem _))
  | loc hc hw =>
    obtain ⟨j, rfl⟩ : ∃ j, i = j + 1 := ⟨i - 1, by omega⟩
    simp only [List.getElem_cons_succ]
    cases j with
    | zero => exact symbChar_iff.2 (.inl hc)
    | succ j =>
      simp only [List.getElem_cons_succ]
      exact symbChar_iff.2 (hw _ (List.getElem_mem _))

theorem matches_reSymb {u : Str} : Matches reSymb u ↔ Name u := by
  have inner : ∀ {u}, Matches (.seq (.chr isSymbStart) (.star (.chr isSymbChar))) u ↔
      ∃ c w, u = c :: w ∧ NameStart c ∧ ∀ x ∈ w, NameChar x := by
    intro u
    rw [matches_seq]
    constructor
    · rintro ⟨v, w, rfl, h1, h2⟩
      obtain ⟨c, hc, rfl⟩ := matches_chr.1 h1
      exact ⟨c, w, rfl, symbStart_iff.1 hc, fun x hx => symbChar_iff.1 (matches_star_chr.1 h2 x hx)⟩
    · rintro ⟨c, w, rfl, hc, hw⟩
      exact ⟨[c], w, rfl, .chr (symbStart_iff.2 hc), matches_star_chr.2 fun x hx => symbChar_iff.2 (hw x hx)⟩
  unfold reSymb
  rw [matches_seq]
  constructor
  · rintro ⟨v, w, rfl, h1, h2⟩
    obtain ⟨c, w, rfl, hc, hw⟩ := inner.1 h2
    rcases matches_alt.1 h1 with h1 | h1
    · obtain ⟨d, hd, rfl⟩ := matches_chr.1 h1
      simp at hd
      subst hd
      exact .loc hc hw
    · rw [matches_eps.1 h1]
      exact .global hc hw
  · intro h
    cases h with
    | global hc hw => exact ⟨[], _, rfl, .right .eps, inner.2 ⟨_, _, rfl, hc, hw⟩⟩
    | loc hc hw => exact ⟨[64], _, rfl, .left (.chr rfl), inner.2 ⟨_, _, rfl, hc, hw⟩⟩

theorem matches_symbColon {u : Str} :
    Matches (.seq reSymb (.opt (one 58))) u ↔ Name u ∨ ∃ n, Name n ∧ u = n ++ [58] := by
  rw [matches_seq]
  constructor
  · rintro ⟨v, w, rfl, h1, h2⟩
    rcases matches_alt.1 h2 with h2 | h2
    · obtain ⟨d, hd, rfl⟩ := matches_chr.1 h2
      simp at hd
      subst hd
      exact .inr ⟨v, matches_reSymb.1 h1, rfl⟩
    · rw [matches_eps.1 h2, List.append_nil]
      exact .inl (matches_reSymb.1 h1)
  · rintro (h | ⟨n, h, rfl⟩)
    · exact ⟨u, [], by simp, matches_reSymb.2 h, .right .eps⟩
    · exact ⟨n, [58], rfl, matches_reSymb.2 h, .left (.chr rfl)⟩

/-- A word of name characters that is a prefix of a name and what follows lies within the name. -/
theorem take_in_name {w s : Str} {m : Nat} (hm : m ≤ (w ++ s).length)
    (h : ∀ i (hi : i < ((w ++ s).take m).length), 1 ≤ i → isSymbChar ((w ++ s).take m)[i] = true) (hw : w ≠ [])
    (hs : ∀ c, s.head? = some c → isSymbChar c = false) : m ≤ w.length := by
  rcases Nat.lt_or_ge w.length m with hlt | hge
  · exfalso
    cases s with
    | nil => simp at hm; omega
    | cons c s =>
      have h1 := h w.length (by rw [List.length_take]; omega) (List.length_pos_iff.2 hw)
      rw [List.getElem_take, List.getElem_append_right (by omega)] at h1
      simp only [Nat.sub_self, List.getElem_cons_zero] at h1
      rw [hs c rfl] at h1
      cases h1
  · exact hge

theorem start_dead {c : Nat} (hc : isSymbStart c = true ∨ c = 64) (hlt : c < 128) {x : Re × LexAct}
    (hx : x ∈ otherRules ++ lastRules.tail.dropLast) : x.1.deriv c = .empty := by
  have hd := List.all_eq_true.1 otherRules_dead c (List.mem_range.2 hlt)
  simp only [Bool.or_eq_true, Bool.not_eq_true', List.all_eq_true] at hd
  rcases hd with hd | hd
  · simp only [Bool.or_eq_false_iff, beq_eq_false_iff_ne] at hd
    rcases hc with hc | rfl
    · rw [hc] at hd; cases hd.1
    · exact absurd rfl hd.2
  · exact Re.dead_iff.1 (hd x hx)

theorem pre_name {w s : Str} (hw : Name w) (hs : ∀ c, s.head? = some c → isSymbChar c = false) {x : Re × LexAct}
    (hx : x ∈ opWords.map wordRule ++ condRules ++ dirWords.map wordRule ++ loopWords.map wordRule ++ stateRules ++ valueRules)
    {m : Nat} (hm : m ≤ (w ++ s).length) (hmm : Matches x.1 ((w ++ s).take m)) : m < w.length ∨ (m = w.length ∧ Reserved w) := by
  obtain ⟨c, r, hwc, hc, hlt⟩ := name_head hw
  have hne : w ≠ [] := by rw [hwc]; simp
  have fin : ∀ v : Str, ((w ++ s).take m).map tolower = v → v.all isSymbChar = true → reservedB v = true →
      m < w.length ∨ (m = w.length ∧ Reserved w) := by
    intro v hv hall hr
    have hle : m ≤ w.length := by
      refine take_in_name hm (fun i hi _ => ?_) hne hs
      rw [← symbChar_tolower]
      have := List.all_eq_true.1 hall (tolower ((w ++ s).take m)[i]) (by
        rw [← hv]; exact List.mem_map.2 ⟨_, List.getElem_mem hi, rfl⟩)
      exact this
    rcases Nat.lt_or_eq_of_le hle with h | h
    · exact .inl h
    · refine .inr ⟨h, ?_⟩
      subst h
      rw [List.take_left] at hv
      exact reserved_of (by rw [fold_map, hv]; exact hr)
  rcases preRules_cases hx with ⟨v, hv, he⟩ | ⟨v, hv, he⟩ | ho
  · rw [he, matches_lit] at hmm
    have hck := List.all_eq_true.1 fixedWords_reserved v hv
    cases m with
    | zero =>
      left
      rw [hwc]; simp
    | succ m =>
      simp only [Bool.or_eq_true, Bool.not_eq_true', Bool.and_eq_true] at hck
      rcases hck with hck | hck
      · exfalso
        rw [hwc, List.cons_append, List.take_succ_cons, List.map_cons] at hmm
        rw [← hmm] at hck
        simp only [List.head?_cons, Option.any_some, Bool.or_eq_false_iff, beq_eq_false_iff_ne] at hck
        rcases hc with hc | rfl
        · rw [symbStart_tolower, hc] at hck; cases hck.1
        · exact hck.2 rfl
      · exact fin v hmm hck.1 hck.2
  · rw [he, matches_seq] at hmm
    obtain ⟨a, b, hab, h1, h2⟩ := hmm
    rw [matches_lit] at h1
    obtain ⟨d, hd, rfl⟩ := matches_chr.1 h2
    have hd' : 48 ≤ d ∧ d ≤ 55 := by simpa using hd
    have htd : tolower d = d := by unfold tolower; rw [if_neg (by omega)]
    refine fin (v ++ [d]) (by rw [hab, List.map_append, h1, List.map_cons, List.map_nil, htd]) ?_ ?_
    · have : ∀ v ∈ [cstr! "bbr", cstr! "bbs", cstr! "rmb", cstr! "smb"], v.all isSymbChar = true := by decide
      rw [List.all_append, this v hv]
      simp [isSymbChar]; omega
    · have : ∀ v ∈ [cstr! "bbr", cstr! "bbs", cstr! "rmb", cstr! "smb"], ∀ d ∈ [48, 49, 50, 51, 52, 53, 54, 55],
          reservedB (v ++ [d]) = true := by decide +kernel
      refine this v hv d ?_
      simp only [List.mem_cons, List.not_mem_nil, or_false]; omega
  · cases m with
    | zero =>
      left
      rw [hwc]; simp
    | succ m =>
      exfalso
      have hdead := start_dead hc hlt (x := x) (by simp [ho])
      rw [hwc, List.cons_append, List.take_succ_cons, ← matches_deriv, hdead] at hmm
      exact matches_empty hmm

theorem post_name {w s : Str} (hw : Name w) {x : Re × LexAct} (hx : x ∈ lastRules.tail.dropLast ++ [(dot, .bad)])
    {m : Nat} (hm : m ≤ (w ++ s).length) (hmm : Matches x.1 ((w ++ s).take m)) : m ≤ w.length := by
  obtain ⟨c, r, hwc, hc, hlt⟩ := name_head hw
  have hpos : 1 ≤ w.length := by rw [hwc]; simp
  rcases List.mem_append.1 hx with hx | hx
  · cases m with
    | zero => omega
    | succ m =>
      exfalso
      have hdead := start_dead hc hlt (x := x) (by simp [hx])
      rw [hwc, List.cons_append, List.take_succ_cons, ← matches_deriv, hdead] at hmm
      exact matches_empty hmm
  · rw [List.mem_singleton.1 hx] at hmm
    obtain ⟨d, _, he⟩ := matches_chr.1 hmm
    have := congrArg List.length he
    rw [List.length_take, Nat.min_eq_left hm] at this
    simp at this
    omega

theorem best_name {w s : Str} (hw : Name w) (hr : ¬ Reserved w) (hs : WordEnd s) :
    bestRule (w ++ s) initialRules = some (w.length, .symb) := by
  have hsc : ∀ c, s.head? = some c → isSymbChar c = false := by
    intro c hc
    rw [← Bool.not_eq_true, symbChar_iff]
    exact (hs c hc).2.1
  have hne : w ≠ [] := by obtain ⟨c, r, rfl, _⟩ := name_head hw; simp
  refine best_of initial_split (by simp) ?_ ?_ ?_ ?_
  · rw [List.take_left]; exact matches_symbColon.2 (.inl hw)
  · intro m hm hmm
    rcases matches_symbColon.1 hmm with h | ⟨n, h, he⟩
    · exact take_in_name hm (fun i hi h1 => name_tail h h1 hi) hne hsc
    · rcases Nat.lt_or_ge w.length m with hlt | hge
      · exfalso
        cases s with
        | nil => simp at hm; omega
        | cons c s =>
          have hmem : ((w ++ c :: s).take m)[w.length]? = some c := by
            rw [List.getElem?_take_of_lt hlt, List.getElem?_append_right (Nat.le_refl _)]; simp
          rw [he] at hmem
          rcases Nat.lt_or_ge w.length n.length with h1 | h1
          · rw [List.getElem?_append_left h1, List.getElem?_eq_getElem h1] at hmem
            have h2 := name_tail h (List.length_pos_iff.2 hne) h1
            rw [Option.some.inj hmem, hsc c rfl] at h2
            cases h2
          · rw [List.getElem?_append_right h1] at hmem
            have : c = 58 := by
              cases hk : w.length - n.length with
              | zero => rw [hk] at hmem; simpa using hmem.symm
              | succ k => rw [hk] at hmem; simp at hmem
            exact (hs c rfl).2.2 this
      · exact hge
  · intro x hx m hm hmm
    rcases pre_name hw hsc hx hm hmm with h | ⟨_, h⟩
    · exact h
    · exact absurd h hr
  · intro x hx m hm hmm
    exact post_name hw hx hm hmm

theorem best_nameColon {w s : Str} (hw : Name w) :
    bestRule (w ++ 58 :: s) initialRules = some ((w ++ [58]).length, .symb) := by
  have hsc : ∀ c, (58 :: s).head? = some c → isSymbChar c = false := by
    intro c hc; cases hc; rfl
  have hne : w ≠ [] := by obtain ⟨c, r, rfl, _⟩ := name_head hw; simp
  refine best_of initial_split (by simp) ?_ ?_ ?_ ?_
  · have : (w ++ 58 :: s).take (w ++ [58]).length = w ++ [58] := by
      rw [show w ++ 58 :: s = (w ++ [58]) ++ s by simp, List.take_left]
    rw [this]; exact matches_symbColon.2 (.inr ⟨w, hw, rfl⟩)
  · intro m hm hmm
    rcases matches_symbColon.1 hmm with h | ⟨n, h, he⟩
    · have := take_in_name hm (fun i hi h1 => name_tail h h1 hi) hne hsc
      simp; omega
    · have hml : m = n.length + 1 := by
        have := congrArg List.length he
        rw [List.length_take, Nat.min_eq_left hm] at this
        simpa using this
      have hn : n = (w ++ 58 :: s).take n.length := by
        have := congrArg (List.take n.length) he
        rw [List.take_take, Nat.min_eq_left (by omega), List.take_left] at this
        exact this.symm
      have := take_in_name (w := w) (s := 58 :: s) (m := n.length) (by omega) (fun i hi h1 => by
        have hi' : i < n.length := by rw [← hn] at hi; exact hi
        have := name_tail h h1 hi'
        simpa only [← hn] using this) hne hsc
      simp; omega
  · intro x hx m hm hmm
    rcases pre_name hw hsc hx hm hmm with h | ⟨h, _⟩ <;> (simp; omega)
  · intro x hx m hm hmm
    have := post_name hw hx hm hmm
    simp; omega

end Verif
