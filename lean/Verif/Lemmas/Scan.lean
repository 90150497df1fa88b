import Verif.Lemmas.CondRule

/-! # Scanning a whole text -/

namespace Verif

open Spec

set_option maxRecDepth 4000

/-- Does the text begin with `.mac`? -/
def macText : Str → Bool
  | 46 :: m :: a :: c :: _ => tolower m == 109 && tolower a == 97 && tolower c == 99
  | _ => false

/-- The previous token agrees with the place. -/
def PlaceIs : Place → Option Str → Prop
  | .fileStart, l => l = none
  | .lineStart, l => ∃ r, l = some (10 :: r)
  | .macroName, l => ∃ w, l = some w ∧ macText w = true
  | .inside, l => ∃ w, l = some w ∧ w.head? ≠ some 10 ∧ macText w = false

/-- `ifdef_stack` in a situation. -/
def stackOf (ifs : Nat) (conds : List Nat) : List Int := List.replicate ifs 1 ++ conds.flatMap fun j => 0 :: List.replicate j 1

/-- What is known about names is so. -/
def Agrees (known : Str → Option Bool) (defined : Str → Bool) : Prop := ∀ n b, known n = some b → defined n = b

/-- The state of the scanner in a situation. -/
structure AtPlace (C : Scan) (st : LexSt) : Prop where
  cond : st.cond = .initial
  dos : st.doCount = C.dos
  macros : st.inMacro = C.macros
  ifs : st.ifStack = stackOf C.ifs C.conds
  line : st.line = C.line
  place : PlaceIs C.place st.last

theorem macText_foldCase (w : Str) : macText (foldCase w) = macText w := by
  rw [fold_map]
  match w with
  | [] => rfl
  | [_] => simp [macText]
  | [_, _] => simp [macText]
  | [_, _, _] => simp [macText]
  | x :: m :: a :: c :: r =>
    simp only [List.map_cons]
    by_cases hx : x = 46
    · subst hx
      have : tolower 46 = 46 := rfl
      simp only [this, macText, tolower_tolower]
    · have h1 : macText (x :: m :: a :: c :: r) = false := by
        unfold macText; split
        · rename_i h; simp only [List.cons.injEq] at h; exact absurd h.1 hx
        · rfl
      have h2 : tolower x ≠ 46 := by unfold tolower; split <;> omega
      rw [h1]
      unfold macText; split
      · rename_i h; simp only [List.cons.injEq] at h; exact absurd h.1 h2
      · rfl

theorem macText_head {c : Nat} {w : Str} (h : c ≠ 46) : macText (c :: w) = false := by
  unfold macText; split
  · rename_i h'; simp only [List.cons.injEq] at h'; exact absurd h'.1 h
  · rfl

theorem newline_foldCase (w : Str) : 10 ∈ foldCase w ↔ 10 ∈ w := by
  rw [fold_map]
  simp only [List.mem_map]
  constructor
  · rintro ⟨c, hc, h⟩
    have : c = 10 := by unfold tolower at h; split at h <;> omega
    rwa [← this]
  · intro h; exact ⟨10, h, rfl⟩

/-- One token. -/
theorem step_of {isMac defined : Str → Bool} {st : LexSt} {w s : Str} {a : LexAct} (hc : st.cond = .initial)
    (hn : 10 ∉ w) (hb : bestRule (w ++ s) initialRules = some (w.length, a)) :
    lexStep isMac defined st (w ++ s) = match lexAct isMac defined st w a with
      | none => none
      | some (s', ev, back) => some (s', ev, back ++ s) := by
  have h0 : w.count 10 = 0 := List.count_eq_zero.2 hn
  have hst : { st with line := st.line + ((0 : Nat) : Int) } = st := by simp
  have hru : st.cond.rules = initialRules := by rw [hc]; rfl
  unfold lexStep
  simp only [hru, hb, List.take_left, List.drop_left, h0, hst]
  rfl

/-- A run of the scanner over a text up to its part `tail`, for all sets of defined symbols that agree with what is known. -/
inductive LexTo (isMac : Str → Bool) (known : Str → Option Bool) (tail : Str) : LexSt → Str → List LexEv → LexSt → Prop
  | nil (st : LexSt) : LexTo isMac known tail st tail [] st
  | skip {st st' st2 : LexSt} {t rest : Str} {evs : List LexEv} (hne : t ≠ [])
      (h : ∀ defined, Agrees known defined → lexStep isMac defined st t = some (st', .none, rest)) (hl : rest.length < t.length)
      (r : LexTo isMac known tail st' rest evs st2) : LexTo isMac known tail st t evs st2
  | step {st st' st2 : LexSt} {t rest : Str} {ev : LexEv} {evs : List LexEv} (hne : t ≠ []) (hev : ev ≠ .none)
      (h : ∀ defined, Agrees known defined → lexStep isMac defined st t = some (st', ev, rest)) (hl : rest.length < t.length)
      (r : LexTo isMac known tail st' rest evs st2) : LexTo isMac known tail st t (ev :: evs) st2

/-- A run over the whole text. -/
abbrev LexRun (isMac : Str → Bool) (known : Str → Option Bool) : LexSt → Str → List LexEv → LexSt → Prop := LexTo isMac known []

variable {tail : Str}

theorem LexTo.scan {isMac : Str → Bool} {known : Str → Option Bool} {st st' : LexSt} {s : Str} {evs : List LexEv} (h : LexRun isMac known st s evs st')
    (defined : Str → Bool) (hd : Agrees known defined) : ∀ f, s.length ≤ f → scan isMac defined f st s = some (st', evs) := by
  induction h with
  | nil st => intro f _; cases f <;> rfl
  | @skip st st' st2 t rest evs hne h hl _ ih =>
    intro f hf
    obtain ⟨c, t, rfl⟩ := List.exists_cons_of_ne_nil hne
    cases f with
    | zero => simp at hf
    | succ f =>
      simp only [Verif.scan, h defined hd]
      rw [ih f (by simp at hl hf; omega)]
      rfl
  | @step st st' st2 t rest ev evs hne hev h hl _ ih =>
    intro f hf
    obtain ⟨c, t, rfl⟩ := List.exists_cons_of_ne_nil hne
    cases f with
    | zero => simp at hf
    | succ f =>
      simp only [Verif.scan, h defined hd]
      rw [ih f (by simp at hl hf; omega)]
      simp only
      rw [if_neg hev]

theorem AtPlace.mid {C : Scan} {st : LexSt} (h : AtPlace C st) {w : Str} (h1 : w.head? ≠ some 10) (h2 : macText w = false) :
    AtPlace C.mid { st with last := some w } :=
  ⟨h.cond, h.dos, h.macros, h.ifs, h.line, w, rfl, h1, h2⟩

theorem run_token {isMac : Str → Bool} {known : Str → Option Bool} {st st' st2 : LexSt} {w s : Str} {a : LexAct} {ev : LexEv}
    {evs : List LexEv} (hc : st.cond = .initial) (hw : w ≠ []) (hn : 10 ∉ w)
    (hb : bestRule (w ++ s) initialRules = some (w.length, a))
    (ha : ∀ {defined}, lexAct isMac defined st w a = some (st', ev, [])) (hev : ev ≠ .none)
    (ih : LexTo isMac known tail st' s evs st2) : LexTo isMac known tail st (w ++ s) (ev :: evs) st2 := by
  have hs : ∀ defined, lexStep isMac defined st (w ++ s) = some (st', ev, s) := by
    intro defined
    rw [step_of hc hn hb, ha]; rfl
  have hpos := List.length_pos_iff.2 hw
  exact .step (by simp [hw]) hev (fun d _ => hs d) (by simp; omega) ih

/-- The same for a text that hands out nothing. -/
theorem run_skip {isMac : Str → Bool} {known : Str → Option Bool} {st st2 : LexSt} {w s : Str}
    {evs : List LexEv} (hc : st.cond = .initial) (hw : w ≠ []) (hn : 10 ∉ w)
    (hb : bestRule (w ++ s) initialRules = some (w.length, .skip))
    (ih : LexTo isMac known tail st s evs st2) : LexTo isMac known tail st (w ++ s) evs st2 := by
  have hs : ∀ defined, lexStep isMac defined st (w ++ s) = some (st, .none, s) := by
    intro defined
    rw [step_of hc hn hb]; rfl
  have hpos := List.length_pos_iff.2 hw
  exact .skip (by simp [hw]) (fun d _ => hs d) (by simp; omega) ih

/-- A word in a skipped text. -/
theorem run_word {isMac : Str → Bool} {known : Str → Option Bool} {st st' st2 : LexSt} {w s : Str} {a : LexAct}
    {evs : List LexEv} (hc : st.cond = .ifDef) (hw : w ≠ []) (hn : 10 ∉ w)
    (hb : bestRule (w ++ s) ifDefRules = some (w.length, a))
    (ha : ∀ defined, lexAct isMac defined st w a = some (st', .none, []))
    (ih : LexTo isMac known tail st' s evs st2) : LexTo isMac known tail st (w ++ s) evs st2 := by
  have hru : st.cond.rules = ifDefRules := by rw [hc]; rfl
  have h0 : w.count 10 = 0 := List.count_eq_zero.2 hn
  have hs : ∀ defined, lexStep isMac defined st (w ++ s) = some (st', .none, s) := by
    intro defined
    have hst : { st with line := st.line + ((0 : Nat) : Int) } = st := by cases st; simp
    unfold lexStep
    simp only [hru, hb, List.take_left, List.drop_left, h0, hst, ha]
    rfl
  have hpos := List.length_pos_iff.2 hw
  exact .skip (by simp [hw]) (fun d _ => hs d) (by simp; omega) ih

/-- The inside of a comment. -/
theorem run_comment {isMac : Str → Bool} {known : Str → Option Bool} {w s : Str} (hw : ∀ u v, w ≠ u ++ bytes "*/" ++ v)
    {st st2 : LexSt} {evs : List LexEv} (hc : st.cond = .comment)
    (ih : LexTo isMac known tail
      { st with cond := .initial, last := some (bytes "*/"), line := st.line + (w.count 10 : Nat) } s evs st2) :
    LexTo isMac known tail st (w ++ bytes "*/" ++ s) evs st2 := by
  induction w generalizing st with
  | nil =>
    have hb : bestRule ([] ++ bytes "*/" ++ s) commentRules = some (2, .endComment) := by
      have h : afterText commentRules (bytes "*/") = [(.eps, .endComment)] := by rfl
      exact best_append (w := bytes "*/") (n := 0) (by rw [h]; simp [bestRule, longest_eps])
    have hs : ∀ defined, lexStep isMac defined st ([] ++ bytes "*/" ++ s) =
        some ({ st with cond := .initial, last := some (bytes "*/"), line := st.line + (([] : Str).count 10 : Nat) }, .none, s) := by
      intro defined
      have hru : st.cond.rules = commentRules := by rw [hc]; rfl
      unfold lexStep
      simp only [hru, hb]
      rfl
    exact .skip (by simp [bytes]) (fun d _ => hs d) (by simp [bytes]; omega) ih
  | cons c w ihw =>
    have hb : bestRule (c :: (w ++ bytes "*/" ++ s)) commentRules = some (1, .skip) := by
      refine best_cons (n := 0) ?_
      have hR : (c ≠ 42 ∧ derivRules c commentRules = [(.eps, .skip)]) ∨
          (c = 42 ∧ derivRules c commentRules = [(.seq (.chr fun x => tolower x == 47) .eps, .endComment), (.eps, .skip)]) := by
        by_cases h42 : c = 42
        · subst h42; exact .inr ⟨rfl, rfl⟩
        · refine .inl ⟨h42, ?_⟩
          have h1 : tolower c ≠ 42 := by unfold tolower; split <;> omega
          by_cases h10 : c = 10
          · subst h10; rfl
          · simp [commentRules, derivRules, lit, Re.deriv, dot, one, h1, h10, Re.nullable, Re.mkSeq, Re.mkAlt, Re.dead]
      rcases hR with ⟨_, hR⟩ | ⟨h42, hR⟩
      · rw [hR]; simp [bestRule, longest_eps]
      · rw [hR]
        have hno : (Re.seq (.chr fun x => tolower x == 47) .eps).longest (w ++ bytes "*/" ++ s) = none := by
          cases hws : w ++ bytes "*/" ++ s with
          | nil => rfl
          | cons d r =>
            have hd : d ≠ 47 := by
              rintro rfl
              cases w with
              | nil => cases hws
              | cons e w =>
                simp only [List.cons_append, List.cons.injEq] at hws
                obtain ⟨rfl, _⟩ := hws
                subst h42
                exact hw [] w rfl
            have h1 : tolower d ≠ 47 := by unfold tolower; split <;> omega
            rw [longest_cons]
            simp [Re.deriv, Re.nullable, h1, Re.mkSeq, longest_empty]
        simp only [bestRule, hno, longest_eps]
    have hcount : ((c :: w).count 10 : Nat) = ([c].count 10) + w.count 10 := by
      rw [← List.count_append]; rfl
    have hs : ∀ defined, lexStep isMac defined st ((c :: w) ++ bytes "*/" ++ s) =
        some ({ st with line := st.line + ([c].count 10 : Nat) }, .none, w ++ bytes "*/" ++ s) := by
      intro defined
      have hru : st.cond.rules = commentRules := by rw [hc]; rfl
      unfold lexStep
      simp only [hru, List.cons_append, hb]
      rfl
    have hw' : ∀ u v, w ≠ u ++ bytes "*/" ++ v := by
      intro u v h; exact hw (c :: u) v (by rw [h]; simp)
    refine .skip (by simp) (fun d _ => hs d) (by simp) (ihw hw' (st := { st with line := st.line + ([c].count 10 : Nat) }) hc ?_)
    have e : st.line + ([c].count 10 : Nat) + (w.count 10 : Nat) = st.line + ((c :: w).count 10 : Nat) := by
      rw [hcount]; omega
    simp only [e]
    exact ih

theorem lexSymb_place {isMac : Str → Bool} {C : Scan} {st : LexSt} (h : AtPlace C st) (w : Str) :
    lexSymb isMac st w = nameTok isMac C w := by
  have hp := h.place
  have hm := h.macros
  unfold lexSymb nameTok
  by_cases hmac : isMac w = true
  · simp [hmac]
  · simp only [hmac]
    cases hC : C.place with
    | fileStart =>
      rw [hC] at hp
      have hl : st.last = none := hp
      simp only [hl, Option.isNone_none, Bool.true_or, if_true]
      by_cases h0 : C.macros = 0
      · simp [hm, h0]
      · simp [hm, h0]
    | lineStart =>
      rw [hC] at hp
      obtain ⟨r, hl⟩ := hp
      have ha : st.afterNewline = true := by unfold LexSt.afterNewline; rw [hl]; rfl
      simp only [ha, Bool.or_true, if_true]
      by_cases h0 : C.macros = 0
      · simp [hm, h0]
      · simp [hm, h0]
    | macroName =>
      rw [hC] at hp
      obtain ⟨v, hl, hv⟩ := hp
      unfold macText at hv
      split at hv
      · have ha : st.afterNewline = false := by unfold LexSt.afterNewline; rw [hl]; rfl
        simp only [ha, hl, Option.isNone_some, Bool.or_false, hv]
        simp
      · cases hv
    | inside =>
      rw [hC] at hp
      obtain ⟨v, hl, hv, hv2⟩ := hp
      have ha : st.afterNewline = false := by
        unfold LexSt.afterNewline; rw [hl]
        split
        · rename_i h; cases h; exact absurd rfl hv
        · rfl
      have h3 : (lexSymb.match_1 (fun _ => Bool) st.last
          (fun m a c _ => tolower m == 109 && tolower a == 97 && tolower c == 99) fun _ => false) = false := by
        rw [hl]
        unfold macText at hv2
        split
        · rename_i h; cases h; exact hv2
        · rfl
      rw [if_neg (by simp), if_neg (by simp [ha, hl])]
      simp only [if_neg (Bool.eq_false_iff.1 h3)]
      simp

theorem AtPlace.after {C : Scan} {st : LexSt} (h : AtPlace C st) : st.afterNewline = true ↔ C.place = .lineStart := by
  have hp := h.place
  unfold LexSt.afterNewline
  cases hC : C.place with
  | fileStart => rw [hC] at hp; rw [show st.last = none from hp]; simp
  | lineStart => rw [hC] at hp; obtain ⟨r, hl⟩ := hp; rw [hl]; simp
  | macroName =>
    rw [hC] at hp
    obtain ⟨v, hl, hv⟩ := hp
    rw [hl]
    unfold macText at hv
    split at hv
    · simp
    · cases hv
  | inside =>
    rw [hC] at hp
    obtain ⟨v, hl, hv, _⟩ := hp
    rw [hl]
    split
    · rename_i h; cases h; exact absurd rfl hv
    · simp

theorem head_not_newline {w : Str} (h : 10 ∉ w) : w.head? ≠ some 10 := by
  intro hh
  exact h (List.mem_of_mem_head? (by rw [hh]; rfl))

/-- What is needed to know about a word. -/
theorem word_facts {name : String} {w : Str} (hw : Is name w) (hne : bytes name ≠ []) (hn : 10 ∉ bytes name) :
    w ≠ [] ∧ 10 ∉ w ∧ macText w = macText (bytes name) := by
  have hf : foldCase w = bytes name := hw
  refine ⟨?_, ?_, ?_⟩
  · rintro rfl; exact hne hf.symm
  · rw [← newline_foldCase, hf]; exact hn
  · rw [← macText_foldCase, hf]

theorem words_facts : Spec.words.all (fun x => !(bytes x.1).isEmpty && !(bytes x.1).contains 10 && !macText (bytes x.1)) = true := by
  decide +kernel

theorem mnemonic_facts : instrNames.all (fun x => !(bytes x).isEmpty && !(bytes x).contains 10 && !macText (bytes x)) = true := by
  decide +kernel

theorem signs_facts : signs.all (fun x => !(bytes x.1).isEmpty && !(bytes x.1).contains 10 && !macText (bytes x.1)) = true := by
  decide +kernel

theorem switches_facts : switches.all (fun x => !(bytes x.1).isEmpty && !(bytes x.1).contains 10 &&
    !(bytes x.2.1).contains 10 && !macText (bytes x.1) && decide (4 ≤ (bytes x.1).length)) = true := by
  decide +kernel

theorem macText_append {u v : Str} (h : 4 ≤ u.length) : macText (u ++ v) = macText u := by
  match u, h with
  | a :: b :: c :: d :: r, _ =>
    simp only [List.cons_append]
    by_cases ha : a = 46
    · subst ha; rfl
    · rw [macText_head ha, macText_head ha]

theorem items_no_newline {is : List StrItem} (hi : itemsOk is) (hl : ∀ c, StrItem.lit c ∈ is → c ≠ 10) :
    10 ∉ (is.map StrItem.text).flatten := by
  induction is with
  | nil => simp
  | cons i is ih =>
    rw [List.map_cons, List.flatten_cons, List.mem_append, not_or]
    refine ⟨?_, ih hi.2.1 fun c hc => hl c (by simp [hc])⟩
    cases i with
    | lit c => simpa [StrItem.text] using fun h => hl c (by simp) h.symm
    | esc c =>
      have h1 : (escTable.lookup c).isSome := hi.1
      intro h
      simp [StrItem.text] at h
      subst h
      revert h1; decide
    | hex bs =>
      have h1 : bs ≠ [] ∧ ∀ b ∈ bs, b < 256 := hi.1
      intro h
      have e : StrItem.text (.hex bs) =
          [92, 120] ++ (bs.map fun b => [hexDigitOf (b / 16), hexDigitOf (b % 16)]).flatten := rfl
      rw [e, List.mem_append] at h
      rcases h with h | h
      · revert h; decide
      · obtain ⟨l, hl, hcl⟩ := List.mem_flatten.1 h
        obtain ⟨b, hb, rfl⟩ := List.mem_map.1 hl
        have hb := h1.2 b hb
        have hx : ∀ n, n < 16 → hexDigitOf n ≠ 10 := by decide
        simp only [List.mem_cons, List.not_mem_nil, or_false] at hcl
        rcases hcl with h | h
        · exact hx _ (by omega) h.symm
        · exact hx _ (by omega) h.symm

theorem name_facts {w : Str} (hw : Name w) : w ≠ [] ∧ 10 ∉ w ∧ macText w = false := by
  obtain ⟨c, r, rfl, hc, _⟩ := name_head hw
  refine ⟨by simp, ?_, ?_⟩
  · intro h
    obtain ⟨i, hi, he⟩ := List.getElem_of_mem h
    cases i with
    | zero =>
      simp at he
      subst he
      rcases hc with hc | hc <;> cases hc
    | succ i =>
      have := name_tail hw (i := i + 1) (by omega) hi
      rw [he] at this
      cases this
  · refine macText_head ?_
    rintro rfl
    rcases hc with hc | hc <;> cases hc

/-- A skipped text: the scanner passes over it, counts the lines and comes back to the same stack. -/
theorem run_skipped {isMac : Str → Bool} {known : Str → Option Bool} {n : Nat} {u s : Str} (hu : Skipped n u s)
    {base : List Int} (hbase : base ≠ []) {st st2 : LexSt} {evs : List LexEv} (hc : st.cond = .ifDef)
    (hi : st.ifStack = List.replicate n 1 ++ base)
    (ih : ∀ last, LexTo isMac known tail { st with ifStack := base, last := last, line := st.line + (u.count 10 : Nat) } s evs st2) :
    LexTo isMac known tail st (u ++ s) evs st2 := by
  induction hu generalizing st with
  | done =>
    have := ih st.last
    simp only [List.count_nil, Int.natCast_zero, Int.add_zero] at this
    have e : { st with ifStack := base, last := st.last } = st := by
      cases st; simp only [List.replicate_zero, List.nil_append] at hi; subst hi; rfl
    rw [e] at this
    exact this
  | @char n c u s hw _ ihu =>
    have hru : st.cond.rules = ifDefRules := by rw [hc]; rfl
    have hs : ∀ defined, lexStep isMac defined st (c :: (u ++ s)) =
        some ({ st with line := st.line + ([c].count 10 : Nat) }, .none, u ++ s) := by
      intro defined
      unfold lexStep
      have hb : bestRule (c :: (u ++ s)) ifDefRules = some (1, .skip) := skip_char hw
      simp only [hru, hb]
      rfl
    refine .skip (by simp) (fun d _ => hs d) (by simp) (ihu (st := { st with line := st.line + ([c].count 10 : Nat) }) hc hi ?_)
    intro last
    have e : st.line + ([c].count 10 : Nat) + (u.count 10 : Nat) = st.line + ((c :: u).count 10 : Nat) := by
      have : (c :: u).count 10 = [c].count 10 + u.count 10 := by rw [← List.count_append]; rfl
      omega
    simp only [e]
    exact ih last
  | @«if» n w u s hw _ ihu =>
    obtain ⟨h1, h2, _⟩ := word_facts hw (by decide) (by decide)
    rw [List.append_assoc]
    refine run_word (st' := { st with last := some w, ifStack := 1 :: st.ifStack }) hc h1 h2
      (skip_word (a := .skipIf) (by simp) hw) (fun _ => rfl) (ihu hc ?_ ?_)
    · rw [hi]; rfl
    · intro last
      have := ih last
      rw [List.count_append, List.count_eq_zero.2 h2, Nat.zero_add] at this
      exact this
  | @«else» n w u s hw _ ihu =>
    obtain ⟨h1, h2, _⟩ := word_facts hw (by decide) (by decide)
    rw [List.append_assoc]
    refine run_word (st' := { st with last := some w }) hc h1 h2 (skip_word (a := .skipElse) (by simp) hw) ?_ (ihu hc hi ?_)
    · intro defined
      have : st.ifStack = 1 :: (List.replicate n 1 ++ base) := by rw [hi]; rfl
      simp [lexAct, this]
    · intro last
      have := ih last
      rw [List.count_append, List.count_eq_zero.2 h2, Nat.zero_add] at this
      exact this
  | @endIf n w u s hw _ ihu =>
    obtain ⟨h1, h2, _⟩ := word_facts hw (by decide) (by decide)
    rw [List.append_assoc]
    refine run_word (st' := { st with last := some w, ifStack := List.replicate n 1 ++ base }) hc h1 h2
      (skip_word (a := .skipEndIf) (by simp) hw) ?_ (ihu hc rfl ?_)
    · intro defined
      have : st.ifStack = 1 :: (List.replicate n 1 ++ base) := by rw [hi]; rfl
      simp [lexAct, this, hbase]
    · intro last
      have := ih last
      rw [List.count_append, List.count_eq_zero.2 h2, Nat.zero_add] at this
      exact this

theorem macText_cond {w name : Str} {neg : Bool} (hw : IsCond neg w name) : macText w = false := by
  obtain ⟨k, b, rfl, hk, _⟩ := hw
  have hf : foldCase k = bytes (if neg then ".ifndef" else ".ifdef") := hk
  have hlen : (bytes (if neg then ".ifndef" else ".ifdef")).length = k.length := by rw [← hf, fold_map, List.length_map]
  have h4 : 4 ≤ k.length := by rw [← hlen]; cases neg <;> decide
  rw [List.append_assoc, macText_append h4, ← macText_foldCase, hf]
  cases neg <;> decide

/-- How a token changes the numbers of open `.do`, `.macro` and `.if`. -/
def bump : LexEv → Nat × Nat × Nat → Nat × Nat × Nat
  | .tok .do, (d, m, i) => (d + 1, m, i)
  | .tok .endDo, (d, m, i) => (d - 1, m, i)
  | .tok .macro, (d, m, i) => (d, m + 1, i)
  | .tok .endMacro, (d, m, i) => (d, m - 1, i)
  | .tok .if, (d, m, i) => (d, m, i + 1)
  | .tok .endIf, (d, m, i) => (d, m, i - 1)
  | _, x => x

/-- These numbers after a text. -/
def depth (ts : List LexEv) (x : Nat × Nat × Nat) : Nat × Nat × Nat := ts.foldl (fun x t => bump t x) x

/-- These numbers. -/
def _root_.Verif.Spec.Scan.levels (C : Scan) : Nat × Nat × Nat := (C.dos, C.macros, C.ifs + C.conds.sum)

/-- Does a token leave these numbers alone? -/
def Tok.neutral (t : Tok) : Bool :=
  match t with
  | .do | .endDo | .macro | .endMacro | .if | .endIf => false
  | _ => true

theorem depth_tok {t : Tok} {ts : List LexEv} {x y : Nat × Nat × Nat} (h : t.neutral = true) (hd : depth ts x = y) :
    depth (.tok t :: ts) x = y := by
  have : bump (.tok t) x = x := by cases t <;> first | rfl | cases h
  simp only [depth, List.foldl_cons, this]
  exact hd

theorem words_neutral : words.all (fun x => x.2.neutral) = true := by decide

theorem signs_neutral : signs.all (fun x => x.2.1.neutral) = true := by decide

theorem nameTok_neutral (isMac : Str → Bool) (C : Scan) (w : Str) : (nameTok isMac C w).neutral = true := by
  unfold nameTok; repeat' split
  all_goals rfl

/-- The situation at the end of a text. -/
def AtEnd (C : Scan) (st : LexSt) : Prop := AtPlace C st ∧ C.conds = []

theorem run_source_to {isMac : Str → Bool} {known : Str → Option Bool} {fin : Scan → Prop} {C : Scan} {ts : List LexEv} {s : Str}
    (h : SourceTo isMac known fin tail C ts s) : ∀ (st : LexSt), AtPlace C st →
    ∃ st', LexTo isMac known tail st s ts st' ∧ ∃ C', (AtPlace C' st' ∧ fin C') ∧ depth ts C.levels = C'.levels := by
  induction h with
  | @nil C h => intro st hst; exact ⟨st, .nil st, C, ⟨hst, h⟩, rfl⟩
  | blanks hw hb hs _ ih =>
    intro st hst
    obtain ⟨st', hst', C', hC, hd'⟩ := ih st hst
    refine ⟨st', run_skip hst.cond hw ?_ (best_blanks hw hb hs) hst', C', hC, hd'⟩
    intro h10
    rcases hb 10 h10 with h | h <;> cases h
  | @comment C ts w s hw hs _ ih =>
    intro st hst
    obtain ⟨st', hst', C', hC, hd'⟩ := ih st hst
    refine ⟨st', run_skip (w := 59 :: w) hst.cond (by simp) ?_ (best_comment hw hs) hst', C', hC, hd'⟩
    intro h10
    rcases List.mem_cons.1 h10 with h | h
    · cases h
    · exact hw 10 h rfl
  | @slashes C ts w s hw hs _ ih =>
    intro st hst
    obtain ⟨st', hst', C', hC, hd'⟩ := ih st hst
    refine ⟨st', run_skip (w := 47 :: 47 :: w) hst.cond (by simp) ?_ (best_slashes hw hs) hst', C', hC, hd'⟩
    intro h10
    rcases List.mem_cons.1 h10 with h | h
    · cases h
    · rcases List.mem_cons.1 h with h | h
      · cases h
      · exact hw 10 h rfl
  | @block C ts w s hw _ ih =>
    intro st hst
    let st1 : LexSt := { st with last := some (bytes "/*"), cond := .comment }
    let st2 : LexSt := { st1 with cond := .initial, last := some (bytes "*/"), line := st1.line + (w.count 10 : Nat) }
    obtain ⟨st', hst', C', hC, hd'⟩ := ih st2 ⟨rfl, hst.dos, hst.macros, hst.ifs, by
      show st.line + _ = _
      rw [hst.line]; rfl, bytes "*/", rfl, by decide, rfl⟩
    refine ⟨st', ?_, C', hC, hd'⟩
    have hs : ∀ defined, lexStep isMac defined st (bytes "/*" ++ (w ++ bytes "*/" ++ s)) = some (st1, .none, w ++ bytes "*/" ++ s) := by
      intro defined; rw [step_of hst.cond (by decide) (best_open _)]; rfl
    have e : bytes "/*" ++ w ++ bytes "*/" ++ s = bytes "/*" ++ (w ++ bytes "*/" ++ s) := by simp
    rw [e]
    exact .skip (by simp [bytes]) (fun d _ => hs d) (by simp [bytes]; omega) (run_comment hw rfl hst')
  | @newline C ts s _ ih =>
    intro st hst
    let st1 : LexSt := { st with last := some [10], line := st.line + 1 }
    obtain ⟨st', hst', C', hC, hd'⟩ := ih st1 ⟨hst.cond, hst.dos, hst.macros, hst.ifs, by
      show st.line + 1 = _
      rw [hst.line], [], rfl⟩
    refine ⟨st', ?_, C', hC, hd'⟩
    have hs : ∀ defined, lexStep isMac defined st (10 :: s) = some (st1, .tok (.eol (C.line + 1)), s) := by
      intro defined
      have hru : st.cond.rules = initialRules := by rw [hst.cond]; rfl
      unfold lexStep
      simp only [hru, best_newline, lexAct, ← hst.line]
      rfl
    exact .step (by simp) (by simp) (fun d _ => hs d) (by simp) hst'
  | @word C ts w s name t ht hw hs _ ih =>
    intro st hst
    have hk := List.all_eq_true.1 words_facts _ ht
    simp only [Bool.and_eq_true, Bool.not_eq_true', List.isEmpty_eq_false_iff, List.contains_eq_mem, decide_eq_false_iff_not] at hk
    obtain ⟨h1, h2, h3⟩ := word_facts hw hk.1.1 hk.1.2
    obtain ⟨st', hst', C', hC, hd'⟩ := ih _ (hst.mid (head_not_newline h2) (h3.trans hk.2))
    refine ⟨st', run_token hst.cond h1 h2 (best_word (a := .tok t) ?_ hw hs) rfl (by simp) hst', C', hC, depth_tok (List.all_eq_true.1 words_neutral _ ht) hd'⟩
    exact List.mem_append_left _ (List.mem_map.2 ⟨_, ht, rfl⟩)
  | @mnemonic C ts w s i hi hw hs _ ih =>
    intro st hst
    have hst1 := List.all_eq_true.1 mnemonics_stop i (List.mem_range.2 hi)
    simp only [Bool.and_eq_true] at hst1
    have hname : mnemonic (i : Int) = instrNames[i]?.getD "" := rfl
    have hmem : instrNames[i]?.getD "" ∈ instrNames := by
      rw [List.getElem?_eq_getElem hi]; exact List.getElem_mem hi
    have hk := List.all_eq_true.1 mnemonic_facts _ hmem
    simp only [Bool.and_eq_true, Bool.not_eq_true', List.isEmpty_eq_false_iff, List.contains_eq_mem, decide_eq_false_iff_not] at hk
    rw [hname] at hw
    obtain ⟨h3, h4, h5⟩ := word_facts hw hk.1.1 hk.1.2
    obtain ⟨st', hst', C', hC, hd'⟩ := ih _ (hst.mid (head_not_newline h4) (h5.trans hk.2))
    refine ⟨st', run_token hst.cond h3 h4 (wordStops_best hst1.1 hw (wordEnd_next hs)) (fun {defined} => ?_) (by simp) hst', C', hC, hd'⟩
    have h6 := hst1.2
    cases hact : mnemonicAct i with
    | tok t =>
      rw [hact] at h6
      simp only [beq_iff_eq] at h6
      rw [h6]; rfl
    | opRel b =>
      rw [hact] at h6
      simp only [Bool.and_eq_true, beq_iff_eq] at h6
      have h7 : w[3]?.getD 48 = (bytes (instrNames[i]?.getD ""))[3]?.getD 48 := by
        have hf : foldCase w = bytes (instrNames[i]?.getD "") := hw
        rw [← hf, fold_map, List.getElem?_map]
        rw [← hf, fold_map, List.getElem?_map] at h6
        cases hw3 : w[3]? with
        | none => rfl
        | some c =>
          rw [hw3] at h6
          simp only [Option.map_some, Option.any_some, decide_eq_true_eq] at h6
          simp only [Option.map_some, Option.getD_some]
          have := h6.2
          unfold tolower at this ⊢
          split at this <;> split <;> omega
      show some (_, LexEv.tok (.opcode (b + ((w[3]?.getD 48 : Nat) : Int) - 48)), _) = _
      rw [h7, h6.1]
    | _ => rw [hact] at h6; cases h6
  | @sign C ts s w t no ht hs _ ih =>
    intro st hst
    have hk := List.all_eq_true.1 signs_facts _ ht
    simp only [Bool.and_eq_true, Bool.not_eq_true', List.isEmpty_eq_false_iff, List.contains_eq_mem, decide_eq_false_iff_not] at hk
    obtain ⟨st', hst', C', hC, hd'⟩ := ih _ (hst.mid (head_not_newline hk.1.2) hk.2)
    exact ⟨st', run_token hst.cond hk.1.1 hk.1.2 (best_sign ht hs) rfl (by simp) hst', C', hC, depth_tok (List.all_eq_true.1 signs_neutral _ ht) hd'⟩
  | @plus C ts s hp hs _ ih =>
    intro st hst
    obtain ⟨st', hst', C', hC, hd'⟩ := ih _ (hst.mid (w := bytes "+") (by decide) rfl)
    refine ⟨st', run_token (w := bytes "+") hst.cond (by decide) (by decide)
      (best_signs (c := 43) (w := []) (.inl rfl) (by simp) hs) (fun {defined} => ?_) (by simp) hst', C', hC, hd'⟩
    have : st.afterNewline = false := by rw [← Bool.not_eq_true, hst.after]; exact hp
    simp [lexAct, this, bytes]
  | @minus C ts s hp hs _ ih =>
    intro st hst
    obtain ⟨st', hst', C', hC, hd'⟩ := ih _ (hst.mid (w := bytes "-") (by decide) rfl)
    refine ⟨st', run_token (w := bytes "-") hst.cond (by decide) (by decide)
      (best_signs (c := 45) (w := []) (.inr rfl) (by simp) hs) (fun {defined} => ?_) (by simp) hst', C', hC, hd'⟩
    have : st.afterNewline = false := by rw [← Bool.not_eq_true, hst.after]; exact hp
    simp [lexAct, this, bytes]
  | @star C ts b s hb hs _ ih =>
    intro st hst
    obtain ⟨st', hst', C', hC, hd'⟩ := ih _ (hst.mid (w := [42]) (by decide) rfl)
    have hb' : bestRule ([42] ++ (b ++ s)) initialRules = some ([42].length, .tok .star) := best_star (b := b) hb hs
    exact ⟨st', run_token (w := [42]) hst.cond (by decide) (by decide) hb' rfl (by simp) hst', C', hC, hd'⟩
  | @pcAssign C ts b s hb hs _ ih =>
    intro st hst
    have hw10 : 10 ∉ 42 :: b ++ [61] := by
      intro h10
      simp only [List.cons_append, List.mem_cons, List.mem_append, List.not_mem_nil, or_false] at h10
      rcases h10 with h | h | h
      · cases h
      · rcases hb 10 h with h | h <;> cases h
      · cases h
    let st1 : LexSt := { st with last := some (42 :: b ++ [61]) }
    have h1 : AtPlace C.mid st1 := hst.mid (head_not_newline hw10) (macText_head (by decide))
    obtain ⟨st', hst', C', hC, hd'⟩ := ih _ (h1.mid (w := bytes "=") (by decide) rfl)
    have hsec : LexTo isMac known tail st1 (61 :: s) (.tok .assign :: ts) st' := by
      have hsn : Next (· ∉ bytes "=") s := by
        intro c hc
        have := hs c hc
        exact ⟨this.1, by simpa [bytes] using this.2⟩
      exact run_token (w := bytes "=") h1.cond (by decide) (by decide)
        (best_sign (w := "=") (no := "=") (t := .assign) (by decide) hsn) rfl (by simp) hst'
    refine ⟨st', ?_, C', hC, hd'⟩
    have hs1 : ∀ defined, lexStep isMac defined st ((42 :: b ++ [61]) ++ s) = some (st1, .tok .pcAssign, 61 :: s) := by
      intro defined; rw [step_of hst.cond hw10 (a := .pcAssign) (by simpa using best_pcAssign (s := s) hb)]; rfl
    have e : '*'.toNat :: b ++ '='.toNat :: s = (42 :: b ++ [61]) ++ s := by simp
    rw [e]
    exact .step (by simp) (by simp) (fun d _ => hs1 d) (by simp; omega) hsec
  | @print C ts w s hw hs ho _ ih =>
    intro st hst
    obtain ⟨h1, h2, h3⟩ := word_facts hw (by decide) (by decide)
    obtain ⟨st', hst', C', hC, hd'⟩ := ih _ (hst.mid (head_not_newline h2) (h3.trans (by decide)))
    exact ⟨st', run_token hst.cond h1 h2 (best_print hw hs ho) rfl (by simp) hst', C', hC, hd'⟩
  | @printSwitch C ts w b v s t hw hb hv hs _ ih =>
    intro st hst
    obtain ⟨h1, h2, h3⟩ := word_facts hw (by decide) (by decide)
    have hv10 : 10 ∉ v := by
      rcases hv with ⟨hv, _⟩ | ⟨hv, _⟩
      · exact (word_facts hv (by decide) (by decide)).2.1
      · exact (word_facts hv (by decide) (by decide)).2.1
    have h10 : 10 ∉ w ++ b :: v := by
      simp only [List.mem_append, List.mem_cons, not_or]
      exact ⟨h2, by rcases hb with rfl | rfl <;> decide, hv10⟩
    have hlen : 4 ≤ w.length := by
      have : foldCase w = bytes ".print" := hw
      have := congrArg List.length this
      rw [fold_map, List.length_map] at this
      rw [this]; decide
    obtain ⟨st', hst', C', hC, hd'⟩ := ih _ (hst.mid (w := w ++ b :: v) (head_not_newline h10)
      ((macText_append hlen).trans (h3.trans (by decide))))
    refine ⟨st', run_token (w := w ++ b :: v) hst.cond (by simp) h10 (best_printSwitch hw hb hv hs) rfl
      (by simp) hst', C', hC, depth_tok (by rcases hv with ⟨_, rfl⟩ | ⟨_, rfl⟩ <;> rfl) hd'⟩
  | @switch C ts w b v s name state ev hsw hw hb hv hs _ ih =>
    intro st hst
    have hk := List.all_eq_true.1 switches_facts _ hsw
    simp only [Bool.and_eq_true, Bool.not_eq_true', List.isEmpty_eq_false_iff, List.contains_eq_mem, decide_eq_false_iff_not,
      decide_eq_true_eq] at hk
    obtain ⟨h1, h2, h3⟩ := word_facts hw hk.1.1.1.1 hk.1.1.1.2
    have hv10 : 10 ∉ v := by
      rw [← newline_foldCase, show foldCase v = bytes state from hv]; exact hk.1.1.2
    have h10 : 10 ∉ w ++ b ++ v := by
      simp only [List.mem_append, not_or]
      exact ⟨⟨h2, fun h => by rcases hb 10 h with h | h <;> cases h⟩, hv10⟩
    have hlen : 4 ≤ w.length := by
      have : foldCase w = bytes name := hw
      have := congrArg List.length this
      rw [fold_map, List.length_map] at this
      rw [this]; exact hk.2
    obtain ⟨st', hst', C', hC, hd'⟩ := ih _ (hst.mid (w := w ++ b ++ v) (head_not_newline h10)
      (by rw [List.append_assoc]; exact (macText_append hlen).trans (h3.trans hk.1.2)))
    have hev : ev ≠ .none ∧ ∀ defined st1 u, lexAct isMac defined st1 u (switchAct ev) = some ({ st1 with last := some u }, ev, []) := by
      simp only [switches, List.mem_cons, List.not_mem_nil, or_false, Prod.mk.injEq] at hsw
      rcases hsw with ⟨_, _, rfl⟩ | ⟨_, _, rfl⟩ | ⟨_, _, rfl⟩ | ⟨_, _, rfl⟩ <;> exact ⟨by simp, fun _ _ _ => rfl⟩
    refine ⟨st', run_token (w := w ++ b ++ v) hst.cond (by simp [h1]) h10 (best_switch hsw hw hb hv hs)
      (hev.2 _ st _) hev.1 hst', C', hC, by
      simp only [switches, List.mem_cons, List.not_mem_nil, or_false, Prod.mk.injEq] at hsw
      rcases hsw with ⟨_, _, rfl⟩ | ⟨_, _, rfl⟩ | ⟨_, _, rfl⟩ | ⟨_, _, rfl⟩ <;> exact hd'⟩
  | @c64 C ts w s hw hs _ ih =>
    intro st hst
    obtain ⟨h1, h2, h3⟩ := word_facts hw (by decide) (by decide)
    obtain ⟨st', hst', C', hC, hd'⟩ := ih _ (hst.mid (head_not_newline h2) (h3.trans (by decide)))
    exact ⟨st', run_token hst.cond h1 h2 (best_word (a := .setC64) (by simp [wordActs]) hw hs) rfl (by simp) hst', C', hC, hd'⟩
  | @hex C ts ds s hd hv hs _ ih =>
    intro st hst
    have h10 : 10 ∉ 36 :: numText ds := by
      intro h
      rcases List.mem_cons.1 h with h | h
      · cases h
      · obtain ⟨d, hdm, he⟩ := List.mem_map.1 h
        have := char_range (hd d hdm); omega
    obtain ⟨st', hst', C', hC, hd'⟩ := ih _ (hst.mid (w := 36 :: numText ds) (by simp) (macText_head (by decide)))
    refine ⟨st', run_token (w := 36 :: numText ds) hst.cond (by simp) h10 (best_hex hd hs) (fun {defined} => ?_) (by simp) hst', C', hC, hd'⟩
    simp only [lexAct, List.drop_succ_cons, List.drop_zero]
    rw [strtol_ok ds hd (by omega), toInt32_small (by omega) (by omega)]
  | @binary C ts ds s hd hv hs _ ih =>
    intro st hst
    have h10 : 10 ∉ 37 :: numText ds := by
      intro h
      rcases List.mem_cons.1 h with h | h
      · cases h
      · obtain ⟨d, hdm, he⟩ := List.mem_map.1 h
        have := char_range (hd d hdm); omega
    obtain ⟨st', hst', C', hC, hd'⟩ := ih _ (hst.mid (w := 37 :: numText ds) (by simp) (macText_head (by decide)))
    refine ⟨st', run_token (w := 37 :: numText ds) hst.cond (by simp) h10 (best_binary hd hs) (fun {defined} => ?_) (by simp) hst', C', hC, hd'⟩
    simp only [lexAct, List.drop_succ_cons, List.drop_zero]
    rw [strtol_ok ds hd (by omega), toInt32_small (by omega) (by omega)]
  | @decimal C ts ds s hne hd hv hs _ ih =>
    intro st hst
    have hcls : ∀ c ∈ numText ds, 48 ≤ c := by
      intro c hc
      obtain ⟨d, hdm, rfl⟩ := List.mem_map.1 hc
      exact (char_range (hd d hdm)).1
    have hw : numText ds ≠ [] := by simpa [numText] using hne
    have h10 : 10 ∉ numText ds := fun h => by have := hcls 10 h; omega
    have hmac : macText (numText ds) = false := by
      cases hn : numText ds with
      | nil => rfl
      | cons c r =>
        have := hcls c (by rw [hn]; simp)
        exact macText_head (by omega)
    obtain ⟨st', hst', C', hC, hd'⟩ := ih _ (hst.mid (w := numText ds) (head_not_newline h10) hmac)
    refine ⟨st', run_token (w := numText ds) hst.cond hw h10 (best_decimal hne hd hs) (fun {defined} => ?_) (by simp) hst', C', hC, hd'⟩
    simp only [lexAct, List.drop_zero]
    rw [strtol_ok ds hd (by omega), toInt32_small (by omega) (by omega)]
  | @char C ts c s hc _ ih =>
    intro st hst
    have e1 : '\n'.toNat = 10 := rfl
    have e2 : '\\'.toNat = 92 := rfl
    rw [e1, e2] at hc
    obtain ⟨st', hst', C', hC, hd'⟩ := ih _ (hst.mid (w := [39, c, 39]) (by simp) (macText_head (by decide)))
    refine ⟨st', run_token (w := [39, c, 39]) hst.cond (by simp) ?_ (best_char hc.2.1 hc.2.2.2) (fun {defined} => ?_) (by simp) hst', C', hC, hd'⟩
    · simp; omega
    · have : sanitizeString [39, c, 39] = some ([39, c, 39], 0) := C36_no_escape_identity _ (by simp; omega)
      simp only [lexAct, lexInt1, this]
      simp; omega
  | @char2 C ts c s hc hs _ ih =>
    intro st hst
    have e1 : '\n'.toNat = 10 := rfl
    have e2 : '\\'.toNat = 92 := rfl
    have e3 : '"'.toNat = 34 := rfl
    rw [e1, e2, e3] at hc
    obtain ⟨st', hst', C', hC, hd'⟩ := ih _ (hst.mid (w := [34, c, 34]) (by simp) (macText_head (by decide)))
    refine ⟨st', run_token (w := [34, c, 34]) hst.cond (by simp) ?_
      (best_char2 hc.2.1 hc.2.2.2 hc.2.2.1 hs) (fun {defined} => ?_) (by simp) hst', C', hC, hd'⟩
    · simp; omega
    · have : sanitizeString [34, c, 34] = some ([34, c, 34], 0) := C36_no_escape_identity _ (by simp; omega)
      simp only [lexAct, lexInt1, this]
      simp; omega
  | @text C ts is s hi hl hn hs _ ih =>
    intro st hst
    have h10 : 10 ∉ 34 :: (is.map StrItem.text).flatten ++ [34] := by
      have := items_no_newline hi (fun c hc => (hl c hc).2)
      simp only [List.cons_append, List.mem_cons, List.mem_append, List.not_mem_nil, or_false, not_or]
      exact ⟨by decide, this, by decide⟩
    obtain ⟨st', hst', C', hC, hd'⟩ := ih _ (hst.mid (w := 34 :: (is.map StrItem.text).flatten ++ [34]) (by simp) (macText_head (by decide)))
    refine ⟨st', ?_, C', hC, hd'⟩
    have e : '"'.toNat :: (is.map StrItem.text).flatten ++ '"'.toNat :: s = (34 :: (is.map StrItem.text).flatten ++ [34]) ++ s := by
      simp
    rw [e]
    exact run_token hst.cond (by simp) h10 (by simpa using best_text hi hl hn hs) rfl (by simp) hst'
  | @name C ts w s hw hr hs _ ih =>
    intro st hst
    obtain ⟨h1, h2, h3⟩ := name_facts hw
    obtain ⟨st', hst', C', hC, hd'⟩ := ih _ (hst.mid (head_not_newline h2) h3)
    refine ⟨st', run_token hst.cond h1 h2 (best_name hw hr hs) (fun {defined} => ?_) (by simp) hst', C', hC, depth_tok (nameTok_neutral _ _ _) hd'⟩
    simp only [lexAct, lexSymb_place hst]
  | @nameColon C ts w s hw _ ih =>
    intro st hst
    obtain ⟨h1, h2, h3⟩ := name_facts hw
    obtain ⟨c, r, rfl, hc, _⟩ := name_head hw
    have h46 : c ≠ 46 := by
      rintro rfl
      rcases hc with hc | hc <;> cases hc
    have h10 : 10 ∉ (c :: r) ++ [58] := by
      simp only [List.mem_append, not_or]; exact ⟨h2, by decide⟩
    obtain ⟨st', hst', C', hC, hd'⟩ := ih _ (hst.mid (w := (c :: r) ++ [58]) (head_not_newline h10) (macText_head h46))
    refine ⟨st', ?_, C', hC, depth_tok (nameTok_neutral _ _ _) hd'⟩
    have e : (c :: r) ++ ':'.toNat :: s = ((c :: r) ++ [58]) ++ s := by simp
    rw [e]
    refine run_token hst.cond (by simp) h10 (a := .symb) (by simpa using best_nameColon (s := s) hw) (fun {defined} => ?_) (by simp) hst'
    simp only [lexAct, lexSymb_place hst]
    rfl
  | @anon C ts w s hp hne hw hs _ ih =>
    intro st hst
    obtain ⟨c, r, rfl⟩ := List.exists_cons_of_ne_nil hne
    have hall : ∀ x ∈ c :: r, x = 43 ∨ x = 45 := by
      rcases hw with hw | hw
      · exact fun x hx => .inl (hw x hx)
      · exact fun x hx => .inr (hw x hx)
    have h10 : 10 ∉ c :: r := fun h => by rcases hall 10 h with h | h <;> cases h
    have h46 : c ≠ 46 := by rcases hall c (by simp) with rfl | rfl <;> decide
    obtain ⟨st', hst', C', hC, hd'⟩ := ih _ (hst.mid (head_not_newline h10) (macText_head h46))
    refine ⟨st', run_token hst.cond hne h10
      (best_signs (hall c (by simp)) (fun x hx => hall x (by simp [hx])) hs) (fun {defined} => ?_) (by simp) hst', C', hC, hd'⟩
    simp [lexAct, hst.after.2 hp]
  | @anonRef C ts w s hp hl hw hs _ ih =>
    intro st hst
    have hne : w ≠ [] := by rintro rfl; simp at hl
    obtain ⟨c, r, rfl⟩ := List.exists_cons_of_ne_nil hne
    have hall : ∀ x ∈ c :: r, x = 43 ∨ x = 45 := by
      rcases hw with hw | hw
      · exact fun x hx => .inl (hw x hx)
      · exact fun x hx => .inr (hw x hx)
    have h10 : 10 ∉ c :: r := fun h => by rcases hall 10 h with h | h <;> cases h
    have h46 : c ≠ 46 := by rcases hall c (by simp) with rfl | rfl <;> decide
    obtain ⟨st', hst', C', hC, hd'⟩ := ih _ (hst.mid (head_not_newline h10) (macText_head h46))
    refine ⟨st', run_token hst.cond hne h10
      (best_signs (hall c (by simp)) (fun x hx => hall x (by simp [hx])) hs) (fun {defined} => ?_) (by simp) hst', C', hC, hd'⟩
    have ha : st.afterNewline = false := by rw [← Bool.not_eq_true, hst.after]; exact hp
    have hr : r ≠ [] := by rintro rfl; simp at hl
    simp [lexAct, ha, hr]
  | @«if» C ts w s hw hs _ ih =>
    intro st hst
    obtain ⟨h1, h2, h3⟩ := word_facts hw (by decide) (by decide)
    obtain ⟨st', hst', C', hC, hd'⟩ := ih { st with last := some w, ifStack := 1 :: st.ifStack }
      ⟨hst.cond, hst.dos, hst.macros, by rw [hst.ifs]; rfl, hst.line, w, rfl, head_not_newline h2, h3.trans (by decide)⟩
    refine ⟨st', run_token hst.cond h1 h2 (best_word (a := .ifTok) (by simp [wordActs]) hw hs) rfl (by simp) hst', C', hC, ?_⟩
    rw [← hd']
    show depth ts (C.dos, C.macros, C.ifs + C.conds.sum + 1) = depth ts (C.dos, C.macros, C.ifs + 1 + C.conds.sum)
    rw [Nat.add_right_comm]
  | @«else» C ts w s hw hi hs _ ih =>
    intro st hst
    obtain ⟨h1, h2, h3⟩ := word_facts hw (by decide) (by decide)
    obtain ⟨st', hst', C', hC, hd'⟩ := ih _ (hst.mid (head_not_newline h2) (h3.trans (by decide)))
    refine ⟨st', run_token hst.cond h1 h2 (best_word (a := .elseTok) (by simp [wordActs]) hw hs) (fun {defined} => ?_) (by simp) hst', C', hC, hd'⟩
    obtain ⟨k, hk⟩ : ∃ k, C.ifs = k + 1 := ⟨C.ifs - 1, by omega⟩
    have : st.ifStack = 1 :: stackOf k C.conds := by rw [hst.ifs, hk]; rfl
    simp [lexAct, this]
  | @endIf C ts w s hw hi hs _ ih =>
    intro st hst
    obtain ⟨h1, h2, h3⟩ := word_facts hw (by decide) (by decide)
    cases hk : C.ifs with
    | zero =>
      have h0 : st.ifStack = [] := by rw [hst.ifs, hk, hi hk]; rfl
      obtain ⟨st', hst', C', hC, hd'⟩ := ih { st with last := some w }
        ⟨hst.cond, hst.dos, hst.macros, by show st.ifStack = stackOf (C.ifs - 1) C.conds; rw [h0, hk, hi hk]; rfl, hst.line, w, rfl,
          head_not_newline h2, h3.trans (by decide)⟩
      refine ⟨st', run_token hst.cond h1 h2 (best_word (a := .endIfTok) (by simp [wordActs]) hw hs) (fun {defined} => ?_) (by simp) hst', C', hC, ?_⟩
      · simp [lexAct, h0]
      · rw [← hd']
        show depth ts (C.dos, C.macros, C.ifs + C.conds.sum - 1) = depth ts (C.dos, C.macros, C.ifs - 1 + C.conds.sum)
        rw [hk, hi hk]; rfl
    | succ k =>
      have h0 : st.ifStack = 1 :: stackOf k C.conds := by rw [hst.ifs, hk]; rfl
      obtain ⟨st', hst', C', hC, hd'⟩ := ih { st with last := some w, ifStack := stackOf k C.conds }
        ⟨hst.cond, hst.dos, hst.macros, by show _ = stackOf (C.ifs - 1) C.conds; rw [hk]; rfl, hst.line, w, rfl,
          head_not_newline h2, h3.trans (by decide)⟩
      refine ⟨st', run_token hst.cond h1 h2 (best_word (a := .endIfTok) (by simp [wordActs]) hw hs) (fun {defined} => ?_) (by simp) hst', C', hC, ?_⟩
      · simp [lexAct, h0]
      · rw [← hd']
        show depth ts (C.dos, C.macros, C.ifs + C.conds.sum - 1) = depth ts (C.dos, C.macros, C.ifs - 1 + C.conds.sum)
        rw [show C.ifs + C.conds.sum - 1 = C.ifs - 1 + C.conds.sum by omega]
  | @«do» C ts w s hw hs _ ih =>
    intro st hst
    obtain ⟨h1, h2, h3⟩ := word_facts hw (by decide) (by decide)
    obtain ⟨st', hst', C', hC, hd'⟩ := ih { st with last := some w, doCount := st.doCount + 1 }
      ⟨hst.cond, by show st.doCount + 1 = _; rw [hst.dos]; rfl, hst.macros, hst.ifs, hst.line, w, rfl, head_not_newline h2, h3.trans (by decide)⟩
    exact ⟨st', run_token hst.cond h1 h2 (best_word (a := .doTok) (by simp [wordActs]) hw hs) rfl (by simp) hst', C', hC, hd'⟩
  | @endDo C ts w s hw hd hs _ ih =>
    intro st hst
    obtain ⟨h1, h2, h3⟩ := word_facts hw (by decide) (by decide)
    have hdo := hst.dos
    obtain ⟨st', hst', C', hC, hd'⟩ := ih { st with last := some w, doCount := st.doCount - 1 }
      ⟨hst.cond, by show st.doCount - 1 = ((C.dos - 1 : Nat) : Int); omega, hst.macros, hst.ifs, hst.line, w, rfl, head_not_newline h2, h3.trans (by decide)⟩
    refine ⟨st', run_token hst.cond h1 h2 (best_word (a := .whileTok) (by simp [wordActs]) hw hs) (fun {defined} => ?_) (by simp) hst', C', hC, hd'⟩
    have : st.doCount > 0 := by omega
    simp [lexAct, this]
  | @«while» C ts w s hw hd hs _ ih =>
    intro st hst
    obtain ⟨h1, h2, h3⟩ := word_facts hw (by decide) (by decide)
    obtain ⟨st', hst', C', hC, hd'⟩ := ih _ (hst.mid (head_not_newline h2) (h3.trans (by decide)))
    refine ⟨st', run_token hst.cond h1 h2 (best_word (a := .whileTok) (by simp [wordActs]) hw hs) (fun {defined} => ?_) (by simp) hst', C', hC, hd'⟩
    have hdo := hst.dos
    have : ¬ st.doCount > 0 := by omega
    simp only [lexAct, this, if_false]
  | @«macro» C ts w s hw hs _ ih =>
    intro st hst
    have hf : ∃ name, (bytes name, LexAct.macroTok) ∈ wordActs ∧ Is name w ∧ w ≠ [] ∧ 10 ∉ w ∧ macText w = true := by
      rcases hw with hw | hw
      · obtain ⟨h1, h2, h3⟩ := word_facts hw (by decide) (by decide)
        exact ⟨_, by simp [wordActs], hw, h1, h2, h3.trans (by decide)⟩
      · obtain ⟨h1, h2, h3⟩ := word_facts hw (by decide) (by decide)
        exact ⟨_, by simp [wordActs], hw, h1, h2, h3.trans (by decide)⟩
    obtain ⟨name, hmem, hw, h1, h2, h3⟩ := hf
    obtain ⟨st', hst', C', hC, hd'⟩ := ih { st with last := some w, inMacro := st.inMacro + 1 }
      ⟨hst.cond, hst.dos, by show st.inMacro + 1 = _; rw [hst.macros]; rfl, hst.ifs, hst.line, w, rfl, h3⟩
    exact ⟨st', run_token hst.cond h1 h2 (best_word hmem hw hs) rfl (by simp) hst', C', hC, hd'⟩
  | @endMacro C ts w s hw hm hs _ ih =>
    intro st hst
    have hf : ∃ name, (bytes name, LexAct.endMacroTok) ∈ wordActs ∧ Is name w ∧ w ≠ [] ∧ 10 ∉ w ∧ macText w = false := by
      rcases hw with hw | hw
      · obtain ⟨h1, h2, h3⟩ := word_facts hw (by decide) (by decide)
        exact ⟨_, by simp [wordActs], hw, h1, h2, h3.trans (by decide)⟩
      · obtain ⟨h1, h2, h3⟩ := word_facts hw (by decide) (by decide)
        exact ⟨_, by simp [wordActs], hw, h1, h2, h3.trans (by decide)⟩
    obtain ⟨name, hmem, hw, h1, h2, h3⟩ := hf
    have hmo := hst.macros
    obtain ⟨st', hst', C', hC, hd'⟩ := ih { st with last := some w, inMacro := st.inMacro - 1 }
      ⟨hst.cond, hst.dos, by show st.inMacro - 1 = ((C.macros - 1 : Nat) : Int); omega, hst.ifs, hst.line, w, rfl, head_not_newline h2, h3⟩
    exact ⟨st', run_token hst.cond h1 h2 (best_word hmem hw hs) rfl (by simp) hst', C', hC, hd'⟩
  | @param C ts ds s hm hd h0 hs _ ih =>
    intro st hst
    have h10 : 10 ∉ 92 :: numText ds := by
      intro h
      rcases List.mem_cons.1 h with h | h
      · cases h
      · obtain ⟨d, hdm, he⟩ := List.mem_map.1 h
        have := char_range (hd d hdm); omega
    obtain ⟨st', hst', C', hC, hd'⟩ := ih _ (hst.mid (w := 92 :: numText ds) (by simp) (macText_head (by decide)))
    refine ⟨st', run_token (w := 92 :: numText ds) hst.cond (by simp) h10 (best_param hd h0 hs) (fun {defined} => ?_) (by simp) hst', C', hC, hd'⟩
    have hmo := hst.macros
    have : ¬ st.inMacro = 0 := by omega
    simp only [lexAct, this, if_false]
    rfl
  | @condOn C ts w name s neg hw hs hk _ ih =>
    intro st hst
    obtain ⟨h1, h2, _⟩ := cond_facts hw
    have hm := macText_cond hw
    obtain ⟨st', hst', C', hC, hd'⟩ := ih { st with last := some w, ifStack := 0 :: st.ifStack }
      ⟨hst.cond, hst.dos, hst.macros, by rw [hst.ifs]; rfl, hst.line, w, rfl, head_not_newline h2, hm⟩
    refine ⟨st', .skip (by simp [h1]) (st' := { st with last := some w, ifStack := 0 :: st.ifStack }) ?_ (by
      have := List.length_pos_iff.2 h1
      simp; omega) hst', C', hC, ?_⟩
    · intro defined hag
      rw [step_of hst.cond h2 (best_cond hw hs)]
      simp only [lexAct, cond_name hw, hag _ _ hk]
      have : ((!neg) == neg) = false := by cases neg <;> rfl
      simp [this, hst.cond]
    · rw [← hd']
      show depth ts (C.dos, C.macros, C.ifs + C.conds.sum) = depth ts (C.dos, C.macros, 0 + (C.ifs :: C.conds).sum)
      rw [List.sum_cons, Nat.zero_add]
  | @condOff C ts w name u e s neg hw hs hk hu he _ ih =>
    intro st hst
    obtain ⟨h1, h2, _⟩ := cond_facts hw
    obtain ⟨he1, he2, he3⟩ := word_facts he (by decide) (by decide)
    obtain ⟨st', hst', C', hC, hd'⟩ := ih { st with last := some e, ifStack := 0 :: st.ifStack, line := st.line + (u.count 10 : Nat) }
      ⟨hst.cond, hst.dos, hst.macros, by rw [hst.ifs]; rfl, by
        show st.line + _ = _
        rw [hst.line]; rfl, e, rfl, head_not_newline he2, he3.trans (by decide)⟩
    refine ⟨st', .skip (by simp [h1]) (st' := { st with last := some w, ifStack := 0 :: st.ifStack, cond := .ifDef }) ?_ (by
      have := List.length_pos_iff.2 h1
      simp; omega) (rest := u ++ e ++ s) ?_, C', hC, ?_⟩
    · intro defined hag
      rw [step_of hst.cond h2 (best_cond hw hs)]
      simp [lexAct, cond_name hw, hag _ _ hk]
    · rw [List.append_assoc]
      refine run_skipped hu (base := 0 :: st.ifStack) (by simp) rfl rfl ?_
      intro last
      refine run_word (a := .skipElse) rfl he1 he2 (skip_word (by simp) he) ?_ hst'
      intro defined
      simp [lexAct, hst.cond]
    · rw [← hd']
      show depth ts (C.dos, C.macros, C.ifs + C.conds.sum) = depth ts (C.dos, C.macros, 0 + (C.ifs :: C.conds).sum)
      rw [List.sum_cons, Nat.zero_add]
  | @condNone C ts w name u e s neg hw hs hk hi hcs hu he _ ih =>
    intro st hst
    obtain ⟨h1, h2, _⟩ := cond_facts hw
    obtain ⟨he1, he2, he3⟩ := word_facts he (by decide) (by decide)
    have h0 : st.ifStack = [] := by rw [hst.ifs, hi, hcs]; rfl
    obtain ⟨st', hst', C', hC, hd'⟩ := ih { st with last := some e, ifStack := [], line := st.line + (u.count 10 : Nat) }
      ⟨hst.cond, hst.dos, hst.macros, by rw [← h0, hst.ifs]; rfl, by
        show st.line + _ = _
        rw [hst.line]; rfl, e, rfl, head_not_newline he2, he3.trans (by decide)⟩
    refine ⟨st', .skip (by simp [h1]) (st' := { st with last := some w, ifStack := 0 :: st.ifStack, cond := .ifDef }) ?_ (by
      have := List.length_pos_iff.2 h1
      simp; omega) (rest := u ++ e ++ s) ?_, C', hC, hd'⟩
    · intro defined hag
      rw [step_of hst.cond h2 (best_cond hw hs)]
      simp [lexAct, cond_name hw, hag _ _ hk]
    · rw [List.append_assoc]
      refine run_skipped hu (base := 0 :: st.ifStack) (by simp) rfl rfl ?_
      intro last
      refine run_word (a := .skipEndIf) rfl he1 he2 (skip_word (by simp) he) ?_ hst'
      intro defined
      simp [lexAct, hst.cond, h0]
  | @condElse C ts w u e s hw hi hcs hs hu he _ ih =>
    intro st hst
    obtain ⟨h1, h2, _⟩ := word_facts hw (by decide) (by decide)
    obtain ⟨he1, he2, he3⟩ := word_facts he (by decide) (by decide)
    have h0 : st.ifStack = [0] := by rw [hst.ifs, hi, hcs]; rfl
    obtain ⟨st', hst', C', hC, hd'⟩ := ih { st with last := some e, ifStack := [], line := st.line + (u.count 10 : Nat) }
      ⟨hst.cond, hst.dos, hst.macros, by show [] = stackOf C.ifs []; rw [hi]; rfl, by
        show st.line + _ = _
        rw [hst.line]; rfl, e, rfl, head_not_newline he2, he3.trans (by decide)⟩
    refine ⟨st', .skip (by simp [h1]) (st' := { st with last := some w, cond := .ifDef }) ?_ (by
      have := List.length_pos_iff.2 h1
      simp; omega) (rest := u ++ e ++ s) ?_, C', hC, ?_⟩
    · intro defined hag
      rw [step_of hst.cond h2 (best_word (a := .elseTok) (by simp [wordActs]) hw hs)]
      simp [lexAct, h0]
    · rw [List.append_assoc]
      refine run_skipped hu (base := [0]) (by simp) rfl h0 ?_
      intro last
      refine run_word (a := .skipEndIf) rfl he1 he2 (skip_word (by simp) he) ?_ hst'
      intro defined
      simp [lexAct, hst.cond]
    · rw [← hd']
      show depth ts (C.dos, C.macros, C.ifs + C.conds.sum) = depth ts (C.dos, C.macros, C.ifs + 0)
      rw [hcs]; rfl
  | @condEnd C ts w s i r hw hi hcs hs _ ih =>
    intro st hst
    obtain ⟨h1, h2, h3⟩ := word_facts hw (by decide) (by decide)
    have h0 : st.ifStack = 0 :: stackOf i r := by rw [hst.ifs, hi, hcs]; rfl
    obtain ⟨st', hst', C', hC, hd'⟩ := ih { st with last := some w, ifStack := stackOf i r }
      ⟨hst.cond, hst.dos, hst.macros, rfl, hst.line, w, rfl, head_not_newline h2, h3.trans (by decide)⟩
    refine ⟨st', .skip (by simp [h1]) (st' := { st with last := some w, ifStack := stackOf i r }) ?_ (by
      have := List.length_pos_iff.2 h1
      simp; omega) hst', C', hC, ?_⟩
    · intro defined hag
      rw [step_of hst.cond h2 (best_word (a := .endIfTok) (by simp [wordActs]) hw hs)]
      simp [lexAct, h0]
    · rw [← hd']
      show depth ts (C.dos, C.macros, C.ifs + C.conds.sum) = depth ts (C.dos, C.macros, i + r.sum)
      rw [hi, hcs, List.sum_cons, Nat.zero_add]

theorem run_source {isMac : Str → Bool} {known : Str → Option Bool} {C : Scan} {ts : List LexEv} {s : Str} (h : Source isMac known C ts s) :
    ∀ (st : LexSt), AtPlace C st → ∃ st', LexRun isMac known st s ts st' ∧ ∃ C', AtEnd C' st' ∧ depth ts C.levels = C'.levels :=
  run_source_to h

theorem scan_source {isMac defined : Str → Bool} {known : Str → Option Bool} (hag : Agrees known defined) {C : Scan} {ts : List LexEv} {s : Str} (h : Source isMac known C ts s)
    (st : LexSt) (hst : AtPlace C st) : ∃ st', ∀ f, s.length ≤ f → scan isMac defined f st s = some (st', ts) := by
  obtain ⟨st', h1, _⟩ := run_source h st hst
  exact ⟨st', h1.scan defined hag⟩

theorem next_cons {P : Nat → Prop} {c : Nat} {s : Str} (h : c < 256 ∧ P c) : Next P (c :: s) := by
  intro x hx
  cases hx
  exact h

theorem next_nil {P : Nat → Prop} : Next P [] := by
  intro x hx
  cases hx

/-- In each start condition a rule takes any single character. -/
theorem single_rule (c : LexCond) (x : Nat) : ∃ r a, (r, a) ∈ c.rules ∧ Matches r [x] := by
  cases c with
  | comment =>
    refine ⟨.alt dot (one 10), .skip, by simp [LexCond.rules, commentRules], ?_⟩
    by_cases h : x = 10
    · exact .right (.chr (by simp [h]))
    · exact .left (.chr (by simp [h]))
  | ifDef =>
    refine ⟨.alt dot (one 10), .skip, by simp [LexCond.rules, ifDefRules], ?_⟩
    by_cases h : x = 10
    · exact .right (.chr (by simp [h]))
    · exact .left (.chr (by simp [h]))
  | initial =>
    by_cases h : x = 10
    · exact ⟨.chr fun c => c == 13 || c == 10, .eol, by simp [LexCond.rules, initialRules, condRules], .chr (by simp [h])⟩
    · exact ⟨dot, .bad, by simp [LexCond.rules, initialRules, lastRules], .chr (by simp [h])⟩

/-- The least number of characters a pattern matches. -/
def Re.least : Re → Nat
  | .empty => 0
  | .eps => 0
  | .chr _ => 1
  | .seq a b => a.least + b.least
  | .alt a b => min a.least b.least
  | .star _ => 0

theorem least_le {r : Re} {w : Str} (h : Matches r w) : r.least ≤ w.length := by
  induction h with
  | eps => simp [Re.least]
  | chr h => simp [Re.least]
  | seq hu hv ihu ihv => simp only [Re.least, List.length_append]; omega
  | left h ih => simp only [Re.least]; omega
  | right h ih => simp only [Re.least]; omega
  | nil => simp [Re.least]
  | more hu hv ihu ihv => simp [Re.least]

/-- A pattern that never matches a newline. -/
def Re.oneLine : Re → Bool
  | .empty => true
  | .eps => true
  | .chr p => !p 10
  | .seq a b => a.oneLine && b.oneLine
  | .alt a b => a.oneLine && b.oneLine
  | .star a => a.oneLine

theorem oneLine_no {r : Re} {w : Str} (h : Matches r w) (ho : r.oneLine = true) : 10 ∉ w := by
  induction h with
  | eps => simp
  | @chr p c h =>
    simp only [Re.oneLine, Bool.not_eq_true'] at ho
    simp only [List.mem_singleton]
    rintro rfl
    rw [h] at ho; cases ho
  | seq hu hv ihu ihv =>
    simp only [Re.oneLine, Bool.and_eq_true] at ho
    simp only [List.mem_append, not_or]
    exact ⟨ihu ho.1, ihv ho.2⟩
  | left h ih => simp only [Re.oneLine, Bool.and_eq_true] at ho; exact ih ho.1
  | right h ih => simp only [Re.oneLine, Bool.and_eq_true] at ho; exact ih ho.2
  | nil => simp
  | more hu hv ihu ihv =>
    simp only [Re.oneLine] at ho ihv
    simp only [List.mem_append, not_or]
    exact ⟨ihu ho, ihv ho⟩

theorem back_rules : (initialRules ++ commentRules ++ ifDefRules).all (fun x =>
    (x.2 != .pcAssign || (decide (2 ≤ x.1.least) && x.1.oneLine)) && (x.2 != .param || x.1.oneLine)) = true := by
  decide +kernel

theorem cond_rules (c : LexCond) {x : Re × LexAct} (h : x ∈ c.rules) : x ∈ initialRules ++ commentRules ++ ifDefRules := by
  cases c <;> simp only [List.mem_append] <;> simp only [LexCond.rules] at h <;> simp [h]

/-- What an action puts back; and no action touches the line number. -/
theorem act_back {isMac defined : Str → Bool} {st st' : LexSt} {w back : Str} {ev : LexEv} {a : LexAct}
    (h : lexAct isMac defined st w a = some (st', ev, back)) : st'.line = st.line ∧
    (back = [] ∨ (a = .param ∧ back = w.drop 1) ∨ (a = .pcAssign ∧ back = [61] ∧ ev = .tok .pcAssign)) := by
  cases a <;> simp only [lexAct] at h <;> (try split at h) <;> (try split at h) <;>
    first
    | (cases h; done)
    | (cases h; exact ⟨rfl, .inl rfl⟩)
    | (cases h; exact ⟨rfl, .inr (.inl ⟨rfl, rfl⟩)⟩)
    | (cases h; exact ⟨rfl, .inr (.inr ⟨rfl, rfl, rfl⟩)⟩)

theorem step_parts {isMac defined : Str → Bool} {st st' : LexSt} {s rest : Str} {ev : LexEv} (hs : s ≠ [])
    (h : lexStep isMac defined st s = some (st', ev, rest)) : ∃ n back, 1 ≤ n ∧ n ≤ s.length ∧ rest = back ++ s.drop n ∧
      st'.line = st.line + ((s.take n).count 10 : Nat) ∧
      (back = [] ∨ (back = (s.take n).drop 1 ∧ 10 ∉ s.take n) ∨ (back = [61] ∧ 2 ≤ n ∧ ev = .tok .pcAssign)) := by
  obtain ⟨x, t, rfl⟩ := List.exists_cons_of_ne_nil hs
  obtain ⟨r, a, hm, hr⟩ := single_rule st.cond x
  unfold lexStep at h
  cases hb : bestRule (x :: t) st.cond.rules with
  | none => rw [hb] at h; cases h
  | some p =>
    obtain ⟨n, b⟩ := p
    simp only [hb] at h
    obtain ⟨i, hi, rfl, hc⟩ := (best_spec _ _).1 n b hb
    obtain ⟨j, hj, he⟩ := List.getElem_of_mem hm
    have h1 := hc.longest j hj 1 (by simp) (by rw [he]; exact hr)
    have hrule := List.all_eq_true.1 back_rules _ (cond_rules st.cond (List.getElem_mem hi))
    simp only [Bool.and_eq_true, Bool.or_eq_true, bne_iff_ne, ne_eq, decide_eq_true_eq] at hrule
    split at h
    · cases h
    · rename_i s' ev' back hact
      cases h
      obtain ⟨hl, hback⟩ := act_back hact
      refine ⟨n, back, h1, hc.fits, rfl, hl, ?_⟩
      rcases hback with h | ⟨ha, h⟩ | ⟨ha, h, h'⟩
      · exact .inl h
      · exact .inr (.inl ⟨h, oneLine_no hc.matched (hrule.2.resolve_left (by simp [ha]))⟩)
      · refine .inr (.inr ⟨h, ?_, h'⟩)
        have := least_le hc.matched
        have h2 := (hrule.1.resolve_left (by simp [ha])).1
        have h3 := List.length_take_le n (x :: t)
        omega

theorem step_progress {isMac defined : Str → Bool} {st st' : LexSt} {s rest : Str} {ev : LexEv} (hs : s ≠ [])
    (h : lexStep isMac defined st s = some (st', ev, rest)) : rest.length < s.length ∧
      (rest <:+ s ∨ ∃ r, rest = 61 :: r ∧ r <:+ s ∧ ev = .tok .pcAssign) := by
  obtain ⟨n, back, h1, h2, rfl, _, hb⟩ := step_parts hs h
  rcases hb with rfl | ⟨rfl, _⟩ | ⟨rfl, h3, h4⟩
  · refine ⟨by simp; omega, .inl (by simpa using List.drop_suffix n s)⟩
  · refine ⟨by simp; omega, .inl ?_⟩
    refine ⟨s.take 1, ?_⟩
    have : s.take 1 ++ (s.take n).drop 1 = s.take n := by
      have e : s.take 1 = (s.take n).take 1 := by rw [List.take_take]; congr 1; omega
      rw [e, List.take_append_drop]
    rw [← List.append_assoc, this, List.take_append_drop]
  · exact ⟨by simp; omega, .inr ⟨s.drop n, rfl, List.drop_suffix n s, h4⟩⟩

theorem scan_line {isMac defined : Str → Bool} : ∀ (f : Nat) (st st' : LexSt) (s : Str) (evs : List LexEv),
    scan isMac defined f st s = some (st', evs) → st'.line = st.line + (s.count 10 : Nat)
  | f, st, st', [], evs, h => by
    unfold scan at h
    cases h
    simp
  | 0, _, _, _ :: _, _, h => by cases h
  | f + 1, st, st', c :: t, evs, h => by
    unfold scan at h
    cases hs : lexStep isMac defined st (c :: t) with
    | none => rw [hs] at h; cases h
    | some p =>
      obtain ⟨s1, ev, rest⟩ := p
      simp only [hs] at h
      cases hr : scan isMac defined f s1 rest with
      | none => rw [hr] at h; cases h
      | some q =>
        obtain ⟨s2, evs2⟩ := q
        simp only [hr] at h
        cases h
        have ih := scan_line f s1 st' rest evs2 hr
        obtain ⟨n, back, h1, h2, rfl, hl, hb⟩ := step_parts (by simp) hs
        have hcount : (c :: t).count 10 = ((c :: t).take n).count 10 + ((c :: t).drop n).count 10 := by
          rw [← List.count_append, List.take_append_drop]
        have hback : back.count 10 = 0 := by
          rcases hb with rfl | ⟨rfl, h10⟩ | ⟨rfl, _⟩
          · rfl
          · exact List.count_eq_zero.2 fun hm => h10 (List.mem_of_mem_drop hm)
          · rfl
        rw [List.count_append, hback] at ih
        rw [hcount]
        omega

/-- Every situation can arise. -/
theorem at_exists (C : Scan) : ∃ st, AtPlace C st := by
  cases hp : C.place with
  | fileStart => exact ⟨⟨.initial, none, C.dos, C.macros, stackOf C.ifs C.conds, C.line⟩, rfl, rfl, rfl, rfl, rfl, by rw [hp]; rfl⟩
  | lineStart => exact ⟨⟨.initial, some [10], C.dos, C.macros, stackOf C.ifs C.conds, C.line⟩, rfl, rfl, rfl, rfl, rfl, by rw [hp]; exact ⟨[], rfl⟩⟩
  | macroName => exact ⟨⟨.initial, some (bytes ".mac"), C.dos, C.macros, stackOf C.ifs C.conds, C.line⟩, rfl, rfl, rfl, rfl, rfl, by rw [hp]; exact ⟨_, rfl, rfl⟩⟩
  | inside => exact ⟨⟨.initial, some [], C.dos, C.macros, stackOf C.ifs C.conds, C.line⟩, rfl, rfl, rfl, rfl, rfl, by rw [hp]; exact ⟨[], rfl, by simp, rfl⟩⟩

end Verif
