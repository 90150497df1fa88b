import Verif.Lemmas.Lex
import Verif.Lemmas.Numbers
import Verif.Props.SanitizeString

/-! # The rule chosen for each kind of token -/

namespace Verif

open Spec

set_option maxRecDepth 4000

/-! ## General -/

theorem longest_eps (s : Str) : Re.eps.longest s = some 0 := by
  cases s with
  | nil => rfl
  | cons c s => rw [longest_cons]; simp [Re.deriv, longest_empty, Re.nullable]

theorem longest_star_chr (p : Nat → Bool) (s : Str) : (Re.star (.chr p)).longest s = some (s.takeWhile p).length := by
  induction s with
  | nil => rfl
  | cons c s ih =>
    rw [longest_cons]
    by_cases h : p c = true
    · simp only [Re.deriv, h, if_true, Re.mkSeq, ih, List.takeWhile_cons_of_pos h, List.length_cons]
    · simp only [Re.deriv, h, Re.mkSeq, longest_empty, Re.nullable, if_true, if_false, Bool.false_eq_true]
      rw [List.takeWhile_cons_of_neg h]; rfl

theorem takeWhile_run {p : Nat → Bool} {w s : Str} (hw : ∀ c ∈ w, p c = true) (hs : ∀ c, s.head? = some c → p c = false) :
    ((w ++ s).takeWhile p).length = w.length := by
  induction w with
  | nil =>
    cases s with
    | nil => rfl
    | cons c s =>
      have := hs c rfl
      rw [List.nil_append, List.takeWhile_cons_of_neg (by simp [this])]
  | cons c w ih =>
    rw [List.cons_append, List.takeWhile_cons_of_pos (hw c (by simp)), List.length_cons,
      ih (fun x hx => hw x (by simp [hx])), List.length_cons]

/-- A run of characters of a class, where the one-character rules may also apply. -/
theorem best_run {p : Nat → Bool} {a : LexAct} {rest : List (Re × LexAct)} {w s : Str} (hw : ∀ c ∈ w, p c = true)
    (hs : ∀ c, s.head? = some c → p c = false) (hr : ∀ n b, bestRule (w ++ s) rest = some (n, b) → n = 0) :
    bestRule (w ++ s) ((.star (.chr p), a) :: rest) = some (w.length, a) := by
  simp only [bestRule, longest_star_chr, takeWhile_run hw hs]
  cases h : bestRule (w ++ s) rest with
  | none => rfl
  | some x =>
    obtain ⟨n, b⟩ := x
    have := hr n b h
    simp [this]

theorem best_eps {s : Str} {R : List (Re × LexAct)} (h : ∀ x ∈ R, x.1 = .eps) {n : Nat} {b : LexAct}
    (hb : bestRule s R = some (n, b)) : n = 0 := by
  induction R generalizing n b with
  | nil => cases hb
  | cons x R ih =>
    obtain ⟨r, a⟩ := x
    have hr : r = .eps := h (r, a) (by simp)
    simp only [bestRule, hr, longest_eps] at hb
    cases hk : bestRule s R with
    | none => simp only [hk, Option.some.injEq, Prod.mk.injEq] at hb; omega
    | some y =>
      obtain ⟨m, c⟩ := y
      have := ih (fun x hx => h x (by simp [hx])) hk
      simp only [hk, this] at hb
      simp at hb; omega

theorem longest_none_of_best {s : Str} {R : List (Re × LexAct)} (h : bestRule s R = none) :
    ∀ x ∈ R, x.1.longest s = none := by
  induction R with
  | nil => simp
  | cons x R ih =>
    obtain ⟨r, a⟩ := x
    intro y hy
    simp only [bestRule] at h
    cases hl : r.longest s with
    | none =>
      simp only [hl] at h
      rcases List.mem_cons.1 hy with rfl | hy
      · exact hl
      · exact ih h y hy
    | some n =>
      simp only [hl] at h
      split at h
      · simp_all
      · cases h
      · split at h <;> cases h

/-- If the rules that go on with the character lead nowhere, the match ends before it. -/
theorem best_dead {c : Nat} {s : Str} {R : List (Re × LexAct)} (h : bestRule s (derivRules c R) = none) :
    bestRule (c :: s) R = bestRule [] R := by
  have hx := longest_none_of_best h
  clear h
  induction R with
  | nil => rfl
  | cons x R ih =>
    obtain ⟨r, a⟩ := x
    by_cases hd : (r.deriv c).dead = true
    · have h1 : derivRules c ((r, a) :: R) = derivRules c R := by simp [derivRules, hd]
      rw [h1] at hx
      have hl : r.longest (c :: s) = r.longest [] := by
        rw [longest_cons, Re.dead_iff.1 hd, longest_nil, longest_empty]
      simp only [bestRule, hl, ih hx]
    · have h1 : derivRules c ((r, a) :: R) = (r.deriv c, a) :: derivRules c R := by simp [derivRules, hd]
      rw [h1] at hx
      have h2 := hx _ (List.mem_cons_self ..)
      have hl : r.longest (c :: s) = r.longest [] := by
        rw [longest_cons, longest_nil]; simp only [h2]
      simp only [bestRule, hl, ih (fun y hy => hx y (List.mem_cons_of_mem _ hy))]

theorem afterText_append (R : List (Re × LexAct)) (u v : Str) : afterText R (u ++ v) = afterText (afterText R u) v := by
  simp [afterText]

theorem afterText_cons (R : List (Re × LexAct)) (c : Nat) (v : Str) :
    afterText R (c :: v) = afterText (derivRules c R) v := rfl

theorem afterText_stable {R : List (Re × LexAct)} {w : Str} (h : ∀ c ∈ w, derivRules c R = R) : afterText R w = R := by
  induction w with
  | nil => rfl
  | cons c w ih => rw [afterText_cons, h c (by simp), ih (fun x hx => h x (by simp [hx]))]

theorem blank_iff {c : Nat} : Blank c ↔ c = 32 ∨ c = 9 := Iff.rfl

theorem blank_test {c : Nat} : (c == 32 || c == 9) = true ↔ Blank c := by
  simp [blank_iff]

/-! ## Blanks and comments -/

theorem best_blanks {w s : Str} (hw : w ≠ []) (hb : ∀ c ∈ w, Blank c) (hs : Next (fun c => ¬ Blank c) s) :
    bestRule (w ++ s) initialRules = some (w.length, .skip) := by
  cases w with
  | nil => exact absurd rfl hw
  | cons c w =>
    have h : derivRules c initialRules = [(.star blank, .skip), (.eps, .bad)] := by
      rcases hb c (by simp) with rfl | rfl <;> rfl
    refine best_cons ?_
    rw [h]
    refine best_run (fun x hx => blank_test.2 (hb x (by simp [hx]))) (fun x hx => ?_) (fun n b => best_eps (by simp))
    rw [← Bool.not_eq_true, blank_test]
    exact (hs x hx).2

theorem best_comment {w s : Str} (hw : ∀ c ∈ w, c ≠ 10) (hs : Next (· = 10) s) :
    bestRule (59 :: w ++ s) initialRules = some ((59 :: w).length, .skip) := by
  have h : derivRules 59 initialRules = [(.star dot, .skip), (.eps, .bad)] := by rfl
  refine best_cons (s := w ++ s) ?_
  rw [h]
  refine best_run (fun x hx => by simp [hw x hx]) (fun x hx => by simp [(hs x hx).2]) (fun n b => best_eps (by simp))

theorem best_slashes {w s : Str} (hw : ∀ c ∈ w, c ≠ 10) (hs : Next (· = 10) s) :
    bestRule (47 :: 47 :: w ++ s) initialRules = some ((47 :: 47 :: w).length, .skip) := by
  have h : derivRules 47 (derivRules 47 initialRules) = [(.star dot, .skip)] := by rfl
  refine best_cons (s := 47 :: w ++ s) (best_cons (s := w ++ s) ?_)
  rw [h]
  refine best_run (fun x hx => by simp [hw x hx]) (fun x hx => by simp [(hs x hx).2]) (fun n b => best_eps (by simp))

theorem best_open (s : Str) : bestRule (bytes "/*" ++ s) initialRules = some (2, .comment) := by
  have h : afterText initialRules (bytes "/*") = [(.eps, .comment)] := by rfl
  have := best_append (w := bytes "/*") (s := s) (R := initialRules) (n := 0) (a := .comment)
    (by rw [h]; simp [bestRule, longest_eps])
  exact this

theorem best_newline (s : Str) : bestRule (10 :: s) initialRules = some (1, .eol) := by
  have h : derivRules 10 initialRules = [(.eps, .eol)] := by rfl
  exact best_cons (by rw [h]; simp [bestRule, longest_eps])

/-! ## Words and signs -/

theorem best_word {name : Str} {a : LexAct} {w s : Str} (h : (name, a) ∈ wordActs) (hw : foldCase w = name) (hs : WordEnd s) :
    bestRule (w ++ s) initialRules = some (w.length, a) :=
  wordStops_best (List.all_eq_true.1 words_stop _ h) hw (wordEnd_next hs)

/-- What is done with a mnemonic. -/
def mnemonicAct (ins : Nat) : LexAct :=
  if 24 ≤ ins ∧ ins ≤ 31 then .opRel Ins._rmb0
  else if 32 ≤ ins ∧ ins ≤ 39 then .opRel Ins._smb0
  else if 64 ≤ ins ∧ ins ≤ 71 then .opRel Ins._bbr0
  else if 72 ≤ ins ∧ ins ≤ 79 then .opRel Ins._bbs0
  else .tok (.opcode ins)

theorem mnemonics_stop : (List.range instrNames.length).all (fun i =>
    wordStops (bytes (instrNames[i]?.getD "")) (mnemonicAct i) endsWord &&
    (match mnemonicAct i with
      | .opRel b => b + (((bytes (instrNames[i]?.getD ""))[3]?.getD 48 : Nat) : Int) - 48 == i &&
        (bytes (instrNames[i]?.getD ""))[3]?.any (fun c => decide (48 ≤ c ∧ c ≤ 57))
      | .tok t => t == .opcode i
      | _ => false)) = true := by decide +kernel

theorem signs_stop : signs.all (fun x =>
    wordStops (bytes x.1) (.tok x.2.1) (fun c => !(bytes x.2.2).contains c) &&
      (foldCase (bytes x.1) == bytes x.1)) = true := by decide +kernel

theorem best_sign {w no : String} {t : Tok} {s : Str} (h : (w, t, no) ∈ signs) (hs : Next (· ∉ bytes no) s) :
    bestRule (bytes w ++ s) initialRules = some ((bytes w).length, .tok t) := by
  have := List.all_eq_true.1 signs_stop _ h
  simp only [Bool.and_eq_true, beq_iff_eq] at this
  refine wordStops_best this.1 this.2 (fun c hc => ⟨(hs c hc).1, ?_⟩)
  have h2 := (hs c hc).2
  simpa using h2

/-- `+`, `-` and `|` are read as far as they go. -/
theorem best_signs {c : Nat} {w s : Str} (hc : c = 43 ∨ c = 45) (hw : ∀ x ∈ w, x = 43 ∨ x = 45)
    (hs : Next (· ∉ bytes "+-|") s) : bestRule (c :: w ++ s) initialRules = some ((c :: w).length, .plusMinus) := by
  have h : ∃ t, derivRules c initialRules =
      [(.star (.chr fun c => c == 43 || c == 124 || c == 45), .plusMinus), (.eps, .tok t), (.eps, .bad)] := by
    rcases hc with rfl | rfl
    · exact ⟨.plus, by rfl⟩
    · exact ⟨.minus, by rfl⟩
  obtain ⟨t, h⟩ := h
  refine best_cons (s := w ++ s) ?_
  rw [h]
  refine best_run (fun x hx => ?_) (fun x hx => ?_) (fun n b => best_eps (by simp))
  · rcases hw x hx with rfl | rfl <;> rfl
  · have := (hs x hx).2
    have e : bytes "+-|" = [43, 45, 124] := rfl
    rw [e] at this
    simp only [List.mem_cons, List.not_mem_nil, or_false, not_or] at this
    simp [this.1, this.2.1, this.2.2]

/-! ## The location counter -/

/-- The rules for an assignment to the location counter after `*`. -/
def pcRules : List (Re × LexAct) :=
  [(.seq (.star blank) (one 61), .pcAssign), (.seq (.star blank) (lit (cstr! ".equ")), .pcAssign)]

theorem deriv_star : derivRules 42 initialRules = pcRules ++ [(.eps, .tok .star), (.eps, .bad)] := by rfl

theorem deriv_pcRules {c : Nat} (hc : Blank c) : derivRules c pcRules = pcRules ∧
    derivRules c (pcRules ++ [(.eps, .tok .star), (.eps, .bad)]) = pcRules := by
  rcases hc with rfl | rfl <;> exact ⟨rfl, rfl⟩

theorem deriv_pcRules_dead {c : Nat} (h1 : ¬ Blank c) (h2 : c ≠ 61) (h3 : c ≠ 46) : derivRules c pcRules = [] ∧
    derivRules c (pcRules ++ [(.eps, .tok .star), (.eps, .bad)]) = [] := by
  have hb : (c == 32 || c == 9) = false := by rw [← Bool.not_eq_true, blank_test]; exact h1
  have hn : ¬ (c = 32 ∨ c = 9) := h1
  have h46 : ¬ tolower c = 46 := by unfold tolower; split <;> omega
  constructor <;>
  simp [pcRules, derivRules, Re.deriv, Re.nullable, blank, one, lit, hn, h2, h46, Re.mkSeq, Re.mkAlt, Re.dead]

theorem best_pcRules_none {b s : Str} (hb : ∀ c ∈ b, Blank c)
    (hs : Next (fun c => ¬ Blank c ∧ c ≠ 61 ∧ c ≠ 46) s) : bestRule (b ++ s) pcRules = none := by
  induction b with
  | nil =>
    cases s with
    | nil => rfl
    | cons c s =>
      obtain ⟨_, h1, h2, h3⟩ := hs c rfl
      rw [List.nil_append, best_dead (by rw [(deriv_pcRules_dead h1 h2 h3).1]; rfl)]; rfl
  | cons c b ih =>
    rw [List.cons_append, best_dead]
    · rfl
    · rw [(deriv_pcRules (hb c (by simp))).1]
      exact ih (fun x hx => hb x (by simp [hx]))

theorem best_star {b s : Str} (hb : ∀ c ∈ b, Blank c) (hs : Next (fun c => ¬ Blank c ∧ c ≠ 61 ∧ c ≠ 46) s) :
    bestRule (42 :: (b ++ s)) initialRules = some (1, .tok .star) := by
  refine best_cons ?_
  rw [deriv_star]
  have hlast : bestRule [] (pcRules ++ [(.eps, .tok .star), (.eps, .bad)]) = some (0, .tok .star) := by rfl
  cases b with
  | nil =>
    cases s with
    | nil => exact hlast
    | cons c s =>
      obtain ⟨_, h1, h2, h3⟩ := hs c rfl
      rw [List.nil_append, best_dead (by rw [(deriv_pcRules_dead h1 h2 h3).2]; rfl)]
      exact hlast
  | cons c b =>
    rw [List.cons_append, best_dead]
    · exact hlast
    · rw [(deriv_pcRules (hb c (by simp))).2]
      exact best_pcRules_none (fun x hx => hb x (by simp [hx])) hs

theorem best_pcAssign {b s : Str} (hb : ∀ c ∈ b, Blank c) :
    bestRule (42 :: b ++ 61 :: s) initialRules = some ((42 :: b ++ [61]).length, .pcAssign) := by
  have h61 : derivRules 61 pcRules = [(.eps, .pcAssign)] := by rfl
  have h61' : derivRules 61 (pcRules ++ [(.eps, .tok .star), (.eps, .bad)]) = [(.eps, .pcAssign)] := by rfl
  have hR : afterText initialRules (42 :: b ++ [61]) = [(.eps, .pcAssign)] := by
    rw [List.cons_append, afterText_cons, deriv_star]
    cases b with
    | nil => exact h61'
    | cons c b =>
      rw [List.cons_append, afterText_cons, (deriv_pcRules (hb c (by simp))).2, afterText_append,
        afterText_stable fun x hx => (deriv_pcRules (hb x (by simp [hx]))).1]
      exact h61
  have := best_append (w := 42 :: b ++ [61]) (s := s) (R := initialRules) (n := 0) (a := .pcAssign)
    (by rw [hR]; simp [bestRule, longest_eps])
  simpa using this

/-! ## Switches -/

theorem print_eq : afterText initialRules (bytes ".print") =
    [(.eps, .tok .print), (lit (cstr! "all"), .tok .printAll), (.seq blank (lit (cstr! "on")), .tok .printOn),
     (.seq blank (lit (cstr! "off")), .tok .printOff)] := by rfl

theorem best_print {w s : Str} (hw : Is ".print" w) (hs : WordEnd s) (ho : Next (· ∉ bytes "oO") (s.drop 1)) :
    bestRule (w ++ s) initialRules = some (w.length, .tok .print) := by
  have hlen : w.length = (bytes ".print").length := by
    have : foldCase w = bytes ".print" := hw
    rw [← this, fold_map, List.length_map]
  rw [best_fold, ← fold_map, show foldCase w = bytes ".print" from hw]
  have key : bestRule s (afterText initialRules (bytes ".print")) = some (0, .tok .print) := by
    rw [print_eq]
    cases s with
    | nil => rfl
    | cons c s =>
      rw [best_dead]
      · rfl
      · obtain ⟨h0, h1, _⟩ := hs c rfl
        have ha : ¬ tolower c = 97 := by
          intro ha
          apply h1
          rw [← symbChar_iff]
          have : c = 97 ∨ c = 65 := by unfold tolower at ha; split at ha <;> omega
          rcases this with rfl | rfl <;> rfl
        by_cases hb : Blank c
        · have hR : derivRules c [(.eps, .tok .print), (lit (cstr! "all"), .tok .printAll), (.seq blank (lit (cstr! "on")), .tok .printOn),
              (.seq blank (lit (cstr! "off")), .tok .printOff)] = [(lit (cstr! "on"), .tok .printOn), (lit (cstr! "off"), .tok .printOff)] := by
            rcases hb with rfl | rfl <;> rfl
          rw [hR]
          cases s with
          | nil => rfl
          | cons d s =>
            have hd := (ho d rfl).2
            have e : bytes "oO" = [111, 79] := rfl
            rw [e] at hd
            simp only [List.mem_cons, List.not_mem_nil, or_false, not_or] at hd
            have ho : ¬ tolower d = 111 := by unfold tolower; split <;> omega
            rw [best_dead]
            · rfl
            · simp [derivRules, Re.deriv, Re.nullable, lit, ho, Re.mkSeq, Re.dead, bestRule]
        · have hn : ¬ (c = 32 ∨ c = 9) := hb
          simp [derivRules, Re.deriv, Re.nullable, lit, blank, ha, hn, Re.mkSeq, Re.dead, bestRule]
  rw [best_append key, hlen]; rfl

theorem printSwitch_stop : [32, 9].all (fun b => wordStops (bytes ".print" ++ b :: bytes "on") (.tok .printOn) endsWord &&
    wordStops (bytes ".print" ++ b :: bytes "off") (.tok .printOff) endsWord) = true := by decide +kernel

theorem foldCase_blanks {b : Str} (hb : ∀ c ∈ b, Blank c) : foldCase b = b := by
  rw [fold_map]
  induction b with
  | nil => rfl
  | cons c b ih =>
    rw [List.map_cons, ih (fun x hx => hb x (by simp [hx]))]
    rcases hb c (by simp) with rfl | rfl <;> rfl

theorem fold_append (u v : Str) : foldCase (u ++ v) = foldCase u ++ foldCase v := by
  simp [fold_map]

theorem best_printSwitch {w v s : Str} {b : Nat} {t : Tok} (hw : Is ".print" w) (hb : Blank b)
    (hv : (Is "on" v ∧ t = Tok.printOn) ∨ (Is "off" v ∧ t = Tok.printOff)) (hs : WordEnd s) :
    bestRule ((w ++ b :: v) ++ s) initialRules = some ((w ++ b :: v).length, .tok t) := by
  have hst := List.all_eq_true.1 printSwitch_stop b (by rcases hb with rfl | rfl <;> decide)
  simp only [Bool.and_eq_true] at hst
  have hbf : foldCase [b] = [b] := foldCase_blanks (by simpa using hb)
  have hf : foldCase (w ++ b :: v) = bytes ".print" ++ b :: foldCase v := by
    rw [show w ++ b :: v = w ++ ([b] ++ v) by simp, fold_append, fold_append, hbf, show foldCase w = _ from hw]; rfl
  rcases hv with ⟨hv, rfl⟩ | ⟨hv, rfl⟩
  · exact wordStops_best hst.1 (by rw [hf, show foldCase v = _ from hv]) (wordEnd_next hs)
  · exact wordStops_best hst.2 (by rw [hf, show foldCase v = _ from hv]) (wordEnd_next hs)

/-- What is done with a switch. -/
def switchAct : LexEv → LexAct
  | .setCpu c => .setCpu c
  | .setIllegal b => .setIllegal b
  | _ => .bad

theorem switch_stable : ∀ x ∈ switches, ∀ c, Blank c →
    derivRules c (afterText initialRules (bytes x.1)) = afterText initialRules (bytes x.1) := by
  intro x hx c hc
  simp only [switches, List.mem_cons, List.not_mem_nil, or_false] at hx
  rcases hx with rfl | rfl | rfl | rfl <;> rcases hc with rfl | rfl <;> rfl

theorem switch_stop : switches.all (fun x => wordStops (bytes x.1 ++ bytes x.2.1) (switchAct x.2.2) endsWord) = true := by
  decide +kernel

theorem best_switch {name state : String} {ev : LexEv} {w b v s : Str} (h : (name, state, ev) ∈ switches) (hw : Is name w)
    (hb : ∀ c ∈ b, Blank c) (hv : Is state v) (hs : WordEnd s) :
    bestRule ((w ++ b ++ v) ++ s) initialRules = some ((w ++ b ++ v).length, switchAct ev) := by
  have hst := List.all_eq_true.1 switch_stop _ h
  simp only [wordStops, Bool.and_eq_true, beq_iff_eq, List.all_eq_true, List.mem_range, Bool.or_eq_true,
    Bool.not_eq_true', List.isEmpty_iff] at hst
  have hR : afterText initialRules (bytes name ++ b ++ bytes state) = afterText initialRules (bytes name ++ bytes state) := by
    rw [afterText_append, afterText_append, afterText_append, afterText_stable fun c hc => switch_stable _ h c (hb c hc)]
  have hf : foldCase (w ++ b ++ v) = bytes name ++ b ++ bytes state := by
    rw [fold_append, fold_append, foldCase_blanks hb, show foldCase w = _ from hw, show foldCase v = _ from hv]
  have hlen : (w ++ b ++ v).length = (bytes name ++ b ++ bytes state).length := by
    rw [← hf, fold_map, List.length_map]
  rw [best_fold, ← fold_map, hf]
  have key : bestRule s (afterText initialRules (bytes name ++ b ++ bytes state)) = some (0, switchAct ev) := by
    rw [hR, best_closed, hst.1]
    intro c hc
    obtain ⟨hlt, hok⟩ := wordEnd_next hs c hc
    rcases hst.2 c hlt with h2 | h2
    · rw [hok] at h2; cases h2
    · exact h2
  rw [best_append key, hlen]; rfl

/-! ## Numbers and characters -/

theorem digit_class {base : Nat} {d : Digit} (h : d.ok base) :
    isxdigit d.char = true ∧ (base ≤ 10 → 48 ≤ d.char ∧ d.char < 48 + base) := by
  obtain ⟨h0, h | h⟩ := h
  · have : d.char = 48 + d.val := h.2
    refine ⟨?_, fun _ => by omega⟩
    simp [isxdigit]; omega
  · have : d.char = 65 + (d.val - 10) ∨ d.char = 97 + (d.val - 10) := h.2.2
    refine ⟨?_, fun hb => by omega⟩
    simp [isxdigit]; omega

theorem digit_exists {c : Nat} (h : isxdigit c = true) : ∃ d : Digit, d.ok 16 ∧ d.char = c := by
  simp only [isxdigit, Bool.or_eq_true, decide_eq_true_eq, Bool.and_eq_true] at h
  by_cases h9 : 48 ≤ c ∧ c ≤ 57
  · exact ⟨⟨c, c - 48⟩, ⟨by simp only; omega, .inl ⟨by simp only; omega, by
      show c = 48 + (c - 48); omega⟩⟩, rfl⟩
  · by_cases hA : 65 ≤ c ∧ c ≤ 70
    · exact ⟨⟨c, c - 55⟩, ⟨by simp only; omega, .inr ⟨by simp only; omega, by simp only; omega, .inl (by
        show c = 65 + (c - 55 - 10); omega)⟩⟩, rfl⟩
    · exact ⟨⟨c, c - 87⟩, ⟨by simp only; omega, .inr ⟨by simp only; omega, by simp only; omega, .inr (by
        show c = 97 + (c - 87 - 10); omega)⟩⟩, rfl⟩

theorem digit_exists_small {base c : Nat} (h : 48 ≤ c ∧ c < 48 + base) (hb : base ≤ 10) :
    ∃ d : Digit, d.ok base ∧ d.char = c :=
  ⟨⟨c, c - 48⟩, ⟨by simp only; omega, .inl ⟨by simp only; omega, by show c = 48 + (c - 48); omega⟩⟩, rfl⟩

theorem best_hex {ds : List Digit} {s : Str} (hd : ∀ d ∈ ds, d.ok 16)
    (hs : Next (fun c => ∀ d : Digit, d.ok 16 → c ≠ d.char) s) :
    bestRule (36 :: numText ds ++ s) initialRules = some ((36 :: numText ds).length, .int 1 16) := by
  have h : derivRules 36 initialRules = [(.star digitHex, .int 1 16), (.eps, .bad)] := by rfl
  refine best_cons (s := numText ds ++ s) ?_
  rw [h]
  refine best_run (fun x hx => ?_) (fun x hx => ?_) (fun n b => best_eps (by simp))
  · obtain ⟨d, hdm, rfl⟩ := List.mem_map.1 hx
    exact (digit_class (hd d hdm)).1
  · rw [← Bool.not_eq_true]
    intro hc
    obtain ⟨d, hok, hch⟩ := digit_exists hc
    exact (hs x hx).2 d hok hch.symm

theorem best_binary {ds : List Digit} {s : Str} (hd : ∀ d ∈ ds, d.ok 2)
    (hs : Next (fun c => ∀ d : Digit, d.ok 2 → c ≠ d.char) s) :
    bestRule (37 :: numText ds ++ s) initialRules = some ((37 :: numText ds).length, .int 1 2) := by
  have h : derivRules 37 initialRules = [(.star digit01, .int 1 2), (.eps, .bad)] := by rfl
  refine best_cons (s := numText ds ++ s) ?_
  rw [h]
  refine best_run (fun x hx => ?_) (fun x hx => ?_) (fun n b => best_eps (by simp))
  · obtain ⟨d, hdm, rfl⟩ := List.mem_map.1 hx
    have := (digit_class (hd d hdm)).2 (by omega)
    simp; omega
  · rw [← Bool.not_eq_true]
    intro hc
    obtain ⟨d, hok, hch⟩ := digit_exists_small (base := 2) (c := x) (by simp at hc; omega) (by omega)
    exact (hs x hx).2 d hok hch.symm

theorem deriv_digit {c : Nat} (h : 48 ≤ c ∧ c < 58) : derivRules c initialRules = (.star digit09, .int 0 10) ::
    ((if c = 48 then [(.seq (.seq (.chr fun x => tolower x == 98) .eps) (.star digit01), .int 2 2)] else []) ++
      [(.eps, .bad)]) := by
  have : c = 48 ∨ c = 49 ∨ c = 50 ∨ c = 51 ∨ c = 52 ∨ c = 53 ∨ c = 54 ∨ c = 55 ∨ c = 56 ∨ c = 57 := by omega
  rcases this with rfl | rfl | rfl | rfl | rfl | rfl | rfl | rfl | rfl | rfl <;> rfl

theorem best_decimal {ds : List Digit} {s : Str} (hne : ds ≠ []) (hd : ∀ d ∈ ds, d.ok 10)
    (hs : Next (fun c => (∀ d : Digit, d.ok 10 → c ≠ d.char) ∧ c ∉ bytes "bB") s) :
    bestRule (numText ds ++ s) initialRules = some ((numText ds).length, .int 0 10) := by
  have hcls : ∀ x ∈ numText ds, 48 ≤ x ∧ x < 58 := by
    intro x hx
    obtain ⟨d, hdm, rfl⟩ := List.mem_map.1 hx
    exact (digit_class (hd d hdm)).2 (by omega)
  revert hcls
  generalize hw : numText ds = w
  intro hcls
  cases w with
  | nil =>
    exfalso
    apply hne
    simpa [numText] using hw
  | cons c w =>
    refine best_cons (s := w ++ s) ?_
    rw [deriv_digit (hcls c (by simp))]
    refine best_run (fun x hx => ?_) (fun x hx => ?_) ?_
    · have := hcls x (by simp [hx])
      simp; omega
    · rw [← Bool.not_eq_true]
      intro hc
      obtain ⟨d, hok, hch⟩ := digit_exists_small (base := 10) (c := x) (by simp at hc; omega) (by omega)
      exact (hs x hx).2.1 d hok hch.symm
    · intro n b hb
      have hbin : (Re.seq (.seq (.chr fun x => tolower x == 98) .eps) (.star digit01)).longest (w ++ s) = none := by
        have hhead : ∀ x, (w ++ s).head? = some x → tolower x ≠ 98 := by
          intro x hx
          cases w with
          | nil =>
            have := (hs x hx).2.2
            have e : bytes "bB" = [98, 66] := rfl
            rw [e] at this
            simp only [List.mem_cons, List.not_mem_nil, or_false, not_or] at this
            unfold tolower; split <;> omega
          | cons y w =>
            cases hx
            have := hcls x (by simp)
            unfold tolower; split <;> omega
        cases hws : w ++ s with
        | nil => rfl
        | cons x t =>
          have := hhead x (by rw [hws]; rfl)
          rw [longest_cons]
          simp [Re.deriv, Re.nullable, this, Re.mkSeq, longest_empty]
      split at hb
      · simp only [List.cons_append, List.nil_append, bestRule, hbin, longest_eps] at hb
        simp at hb; omega
      · exact best_eps (by simp) hb

theorem best_char {c : Nat} {s : Str} (h1 : c ≠ 10) (h2 : c ≠ 92) :
    bestRule (39 :: c :: 39 :: s) initialRules = some (3, .int1) := by
  have h : derivRules 39 initialRules = [(.seq dot (one 39), .int1), (.seq (one 92) (.seq dot (one 39)), .int1),
      (.seq (one 92) (.seq (lit [120]) (.seq (.plus digitHex) (one 39))), .int 3 16),
      (.seq (one 92) (.seq digit07 (.seq digit07 (.seq digit07 (one 39)))), .int 2 8), (.eps, .bad)] := by rfl
  have hc : derivRules c (derivRules 39 initialRules) = [(one 39, .int1)] := by
    rw [h]
    simp [derivRules, Re.deriv, Re.nullable, dot, one, h1, h2, Re.mkSeq, Re.dead]
  refine best_cons (n := 2) (best_cons (n := 1) ?_)
  rw [hc]
  refine best_cons (n := 0) ?_
  have : derivRules 39 [(one 39, LexAct.int1)] = [(.eps, .int1)] := by rfl
  rw [this]
  simp [bestRule, longest_eps]

/-- What follows the opening quote of a text. -/
def strTail : Re := .seq (.seq (.star (.alt (.chr fun c => c != 34 && c != 92 && c != 10) reEs)) (one 34))
  (.star (.seq (one 34) (.seq (.star (.alt (.chr fun c => c != 34 && c != 92 && c != 10) reEs)) (one 34))))

theorem deriv_quote : derivRules 34 initialRules = [(.seq dot (one 34), .int1),
    (.seq (one 92) (.seq dot (.chr fun c => c == 39 || c == 34)), .int1), (strTail, .str), (.eps, .bad)] := by rfl

theorem strTail_plain {c : Nat} (h1 : c ≠ 10) (h2 : c ≠ 92) (h3 : c ≠ 34) : strTail.deriv c = strTail := by
  simp [strTail, Re.deriv, Re.nullable, one, h1, h2, h3, reEs, Re.mkSeq, Re.mkAlt]

theorem best_char2 {c : Nat} {s : Str} (h1 : c ≠ 10) (h2 : c ≠ 92) (h3 : c ≠ 34) (hs : Next (· ≠ 34) s) :
    bestRule (34 :: c :: 34 :: s) initialRules = some (3, .int1) := by
  have hc : derivRules c (derivRules 34 initialRules) = [(one 34, .int1), (strTail, .str)] := by
    rw [deriv_quote]
    simp only [derivRules, strTail_plain h1 h2 h3]
    simp [Re.deriv, Re.nullable, dot, one, h1, h2, Re.mkSeq, Re.dead, strTail]
  refine best_cons (n := 2) (best_cons (n := 1) ?_)
  rw [hc]
  refine best_cons (n := 0) ?_
  have : derivRules 34 [(one 34, LexAct.int1), (strTail, .str)] = [(.eps, .int1),
    (.star (.seq (one 34) (.seq (.star (.alt (.chr fun c => c != 34 && c != 92 && c != 10) reEs)) (one 34))), .str)] := by
    rfl
  rw [this, best_closed]
  · rfl
  · intro x hx
    have := (hs x hx).2
    simp [derivRules, Re.deriv, one, this, Re.nullable, Re.mkSeq, Re.dead]

theorem matches_star_chr {p : Nat → Bool} {u : Str} : Matches (.star (.chr p)) u ↔ ∀ c ∈ u, p c = true := by
  induction u with
  | nil => exact ⟨fun _ => by simp, fun _ => .nil⟩
  | cons c u ih =>
    rw [matches_star_cons]
    constructor
    · rintro ⟨v, w, rfl, h1, h2⟩
      obtain ⟨d, hd, he⟩ := matches_chr.1 h1
      cases he
      intro x hx
      rcases List.mem_cons.1 hx with rfl | hx
      · exact hd
      · exact ih.1 h2 x hx
    · intro h
      exact ⟨[], u, rfl, .chr (h c (by simp)), ih.2 fun x hx => h x (by simp [hx])⟩

theorem matches_plus_chr {p : Nat → Bool} {u : Str} :
    Matches (.plus (.chr p)) u ↔ u ≠ [] ∧ ∀ c ∈ u, p c = true := by
  unfold Re.plus
  rw [matches_seq]
  constructor
  · rintro ⟨v, w, rfl, h1, h2⟩
    obtain ⟨c, hc, rfl⟩ := matches_chr.1 h1
    rw [matches_star_chr] at h2
    refine ⟨by simp, ?_⟩
    intro x hx
    rcases List.mem_append.1 hx with hx | hx
    · rw [List.mem_singleton.1 hx]; exact hc
    · exact h2 x hx
  · rintro ⟨hne, h⟩
    cases u with
    | nil => exact absurd rfl hne
    | cons c u =>
      exact ⟨[c], u, rfl, .chr (h c (by simp)), matches_star_chr.2 fun x hx => h x (by simp [hx])⟩

/-- A prefix made of the same characters is not longer than their run. -/
theorem take_le_run {p : Nat → Prop} {w s : Str} {m : Nat} (hm : m ≤ (w ++ s).length)
    (h : ∀ c ∈ (w ++ s).take m, p c) (hs : ∀ c, s.head? = some c → ¬ p c) : m ≤ w.length := by
  rcases Nat.lt_or_ge w.length m with hlt | hge
  · exfalso
    cases s with
    | nil => simp at hm; omega
    | cons c s =>
      apply hs c rfl
      apply h
      rw [List.take_append]
      have : m - w.length = (m - w.length - 1) + 1 := by omega
      rw [this, List.take_succ_cons]
      simp
  · exact hge

theorem best_param {ds : List Digit} {s : Str} (hd : ∀ d ∈ ds, d.ok 10) (h0 : ∃ d r, ds = d :: r ∧ d.val ≠ 0)
    (hs : Next (fun c => ∀ d : Digit, d.ok 10 → c ≠ d.char) s) :
    bestRule (92 :: numText ds ++ s) initialRules = some ((92 :: numText ds).length, .param) := by
  have h : derivRules 92 initialRules =
      [(.seq (.plus (.chr fun c => decide (49 ≤ c ∧ c ≤ 57))) (.star digit09), .param), (.eps, .bad)] := by rfl
  refine best_cons (s := numText ds ++ s) ?_
  rw [h]
  have hcls : ∀ x ∈ numText ds, 48 ≤ x ∧ x < 58 := by
    intro x hx
    obtain ⟨d, hdm, rfl⟩ := List.mem_map.1 hx
    exact (digit_class (hd d hdm)).2 (by omega)
  have hl : (Re.seq (.plus (.chr fun c => decide (49 ≤ c ∧ c ≤ 57))) (.star digit09)).longest (numText ds ++ s) =
      some (numText ds).length := by
    rw [(longest_spec _ _).1]
    refine ⟨by simp, ?_, ?_⟩
    · rw [List.take_left]
      obtain ⟨d, r, rfl, hne⟩ := h0
      rw [matches_seq]
      refine ⟨[d.char], numText r, rfl, matches_plus_chr.2 ⟨by simp, ?_⟩, matches_star_chr.2 ?_⟩
      · intro x hx
        rw [List.mem_singleton.1 hx]
        obtain ⟨h1, h2 | h2⟩ := hd d (by simp)
        · have : d.char = 48 + d.val := h2.2
          simp; omega
        · omega
      · intro x hx
        have := hcls x (by simp only [numText, List.map_cons, List.mem_cons] at hx ⊢; exact .inr hx)
        simp; omega
    · intro m hm hmm
      refine take_le_run (p := fun c => 48 ≤ c ∧ c < 58) hm ?_ ?_
      · obtain ⟨v, w, he, h1, h2⟩ := matches_seq.1 hmm
        rw [he]
        intro c hc
        rcases List.mem_append.1 hc with hc | hc
        · have := (matches_plus_chr.1 h1).2 c hc
          simp at this; omega
        · have := matches_star_chr.1 h2 c hc
          simp at this; omega
      · intro c hc hp
        obtain ⟨d, hok, hch⟩ := digit_exists_small (base := 10) (c := c) (by omega) (by omega)
        exact (hs c hc).2 d hok hch.symm
  simp only [bestRule, hl, longest_eps]
  simp

/-! ## Texts -/

/-- Where the closing quote of a text is. -/
def closes : Str → Option Nat
  | [] => none
  | 34 :: _ => some 0
  | 92 :: _ :: s => (closes s).map (· + 2)
  | _ :: s => (closes s).map (· + 1)

theorem closes_plain {c : Nat} (h1 : c ≠ 34) (h2 : c ≠ 92) (s : Str) : closes (c :: s) = (closes s).map (· + 1) := by
  rw [closes]
  · exact h1
  · intro d t h _; exact h2 h

theorem closes_run {w : Str} (h : ∀ c ∈ w, c ≠ 34 ∧ c ≠ 92) (s : Str) : closes (w ++ s) = (closes s).map (· + w.length) := by
  induction w with
  | nil => simp
  | cons c w ih =>
    rw [List.cons_append, closes_plain (h c (by simp)).1 (h c (by simp)).2, ih fun x hx => h x (by simp [hx])]
    cases closes s with
    | none => rfl
    | some n => simp; omega

theorem closes_es {u : Str} (h : Matches reEs u) (s : Str) : closes (u ++ s) = (closes s).map (· + u.length) := by
  obtain ⟨v, w, rfl, h1, h2⟩ := matches_seq.1 h
  obtain ⟨c, hc, rfl⟩ := matches_chr.1 h1
  simp at hc
  subst hc
  have key : ∃ d t, w = d :: t ∧ ∀ c ∈ t, c ≠ 34 ∧ c ≠ 92 := by
    rcases matches_alt.1 h2 with h2 | h2
    · obtain ⟨d, _, rfl⟩ := matches_chr.1 h2
      exact ⟨d, [], rfl, by simp⟩
    · have hoct : ∀ {z : Str}, Matches (.opt digit07) z → ∀ c ∈ z, c ≠ 34 ∧ c ≠ 92 := by
        intro z hz c hc
        rcases matches_alt.1 hz with hz | hz
        · obtain ⟨d, hd, rfl⟩ := matches_chr.1 hz
          simp at hd
          rw [List.mem_singleton.1 hc]; omega
        · rw [matches_eps.1 hz] at hc; cases hc
      rcases matches_alt.1 h2 with h2 | h2
      · obtain ⟨v, w, rfl, h3, h4⟩ := matches_seq.1 h2
        obtain ⟨d, _, rfl⟩ := matches_chr.1 h3
        obtain ⟨v2, w2, rfl, h5, h6⟩ := matches_seq.1 h4
        refine ⟨d, v2 ++ w2, rfl, ?_⟩
        intro c hc
        rcases List.mem_append.1 hc with hc | hc
        · exact hoct h5 c hc
        · exact hoct h6 c hc
      · obtain ⟨v, w, rfl, h3, h4⟩ := matches_seq.1 h2
        obtain ⟨v1, w1, rfl, h5, h6⟩ := matches_seq.1 h3
        obtain ⟨d, _, rfl⟩ := matches_chr.1 h5
        rw [matches_eps.1 h6]
        refine ⟨d, w, rfl, ?_⟩
        intro c hc
        have := (matches_plus_chr.1 h4).2 c hc
        constructor <;> (rintro rfl; revert this; decide)
  obtain ⟨d, t, rfl, ht⟩ := key
  have : closes ([92] ++ d :: t ++ s) = (closes (t ++ s)).map (· + 2) := by
    show closes (92 :: d :: (t ++ s)) = _
    rw [closes]
  rw [this, closes_run ht]
  cases closes s with
  | none => rfl
  | some n => simp; omega

/-- The inside of a text. -/
def strBody : Re := .star (.alt (.chr fun c => c != 34 && c != 92 && c != 10) reEs)

theorem closes_piece {u : Str} (h : Matches (.alt (.chr fun c => c != 34 && c != 92 && c != 10) reEs) u) (s : Str) :
    closes (u ++ s) = (closes s).map (· + u.length) := by
  rcases matches_alt.1 h with h | h
  · obtain ⟨c, hc, rfl⟩ := matches_chr.1 h
    simp at hc
    exact closes_plain hc.1.1 hc.1.2 s
  · exact closes_es h s

theorem closes_body {u : Str} (h : Matches strBody u) (s : Str) : closes (u ++ s) = (closes s).map (· + u.length) := by
  unfold strBody at h
  generalize hr : Re.star (.alt (.chr fun c => c != 34 && c != 92 && c != 10) reEs) = r at h
  induction h with
  | eps => cases hr
  | chr _ => cases hr
  | seq _ _ => cases hr
  | left _ => cases hr
  | right _ => cases hr
  | nil => simp
  | more hu _ _ ih =>
    cases hr
    rw [List.append_assoc, closes_piece hu, ih rfl]
    cases closes s with
    | none => rfl
    | some n => simp; omega

theorem closes_quote (s : Str) : closes (34 :: s) = some 0 := by rw [closes]

/-- What the rule for texts matches is a sequence of quoted texts. -/
theorem strTail_closes {u : Str} (h : Matches strTail u) :
    ∃ b t, u = b ++ 34 :: t ∧ Matches strBody b ∧ (t = [] ∨ ∃ r, t = 34 :: r) := by
  obtain ⟨v, w, rfl, h1, h2⟩ := matches_seq.1 h
  obtain ⟨b, q, rfl, h3, h4⟩ := matches_seq.1 h1
  obtain ⟨c, hc, rfl⟩ := matches_chr.1 h4
  simp at hc
  subst hc
  refine ⟨b, w, by simp, h3, ?_⟩
  cases w with
  | nil => exact .inl rfl
  | cons d w =>
    obtain ⟨x, y, rfl, h5, h6⟩ := matches_star_cons.1 h2
    obtain ⟨p, q, he, h7, h8⟩ := matches_seq.1 h5
    obtain ⟨c, hc, rfl⟩ := matches_chr.1 h7
    simp at hc
    subst hc
    cases he
    exact .inr ⟨_, rfl⟩

theorem longest_strTail {b s : Str} (hb : Matches strBody b) (hs : ∀ c, s.head? = some c → c ≠ 34) :
    strTail.longest (b ++ 34 :: s) = some (b.length + 1) := by
  rw [(longest_spec _ _).1]
  refine ⟨by simp, ?_, ?_⟩
  · have : (b ++ 34 :: s).take (b.length + 1) = (b ++ [34]) ++ [] := by
      rw [List.take_append, List.take_of_length_le (by omega)]; simp
    rw [this]
    exact .seq (.seq hb (.chr rfl)) .nil
  · intro m hm hmm
    obtain ⟨b', t, he, hb', ht⟩ := strTail_closes hmm
    have h1 : closes (b ++ 34 :: s) = some b.length := by rw [closes_body hb, closes_quote]; simp
    have h2 : b ++ 34 :: s = b' ++ 34 :: (t ++ (b ++ 34 :: s).drop m) := by
      have := List.take_append_drop m (b ++ 34 :: s)
      rw [he] at this
      rw [List.append_assoc, List.cons_append] at this
      exact this.symm
    have h3 : closes (b ++ 34 :: s) = some b'.length := by
      rw [h2, closes_body hb', closes_quote]; simp
    have hlen : b.length = b'.length := by
      rw [h1] at h3
      exact Option.some.inj h3
    obtain ⟨hbb, hss⟩ := List.append_inj h2 hlen
    simp only [List.cons.injEq, true_and] at hss
    have hml : m = b'.length + 1 + t.length := by
      have := congrArg List.length he
      rw [List.length_take, Nat.min_eq_left hm] at this
      simp at this; omega
    rcases ht with rfl | ⟨r, rfl⟩
    · simp at hml; omega
    · exact absurd rfl (hs 34 (by rw [hss]; rfl))

theorem items_body {is : List StrItem} (hi : itemsOk is)
    (hl : ∀ c, StrItem.lit c ∈ is → c ≠ 34 ∧ c ≠ 10) : Matches strBody (is.map StrItem.text).flatten := by
  induction is with
  | nil => exact .nil
  | cons i is ih =>
    have h2 := ih hi.2.1 fun c hc => hl c (by simp [hc])
    rw [List.map_cons, List.flatten_cons]
    refine .more ?_ h2
    cases i with
    | lit c =>
      have h1 : c ≠ 92 := hi.1
      have := hl c (by simp)
      exact .left (.chr (by simp [h1, this]))
    | esc c =>
      have h1 : (escTable.lookup c).isSome := hi.1
      refine .right ?_
      have : StrItem.text (.esc c) = [92] ++ [c] := rfl
      rw [this]
      refine .seq (.chr rfl) (.left (.chr ?_))
      have hm : c ∈ escTable.map Prod.fst := by
        have key : ∀ (l : List (Nat × Nat)), (l.lookup c).isSome → c ∈ l.map Prod.fst := by
          intro l
          induction l with
          | nil => simp
          | cons x l ih =>
            obtain ⟨k, v⟩ := x
            intro h
            by_cases hk : c = k
            · simp [hk]
            · have : (c == k) = false := by simp [hk]
              simp only [List.lookup, this] at h
              simp only [List.map_cons, List.mem_cons]
              exact .inr (ih h)
        exact key _ h1
      have e : escTable.map Prod.fst = [97, 98, 116, 110, 118, 102, 114, 39, 34, 92] := rfl
      rw [e] at hm
      simp only [List.mem_cons, List.not_mem_nil, or_false] at hm
      rcases hm with rfl | rfl | rfl | rfl | rfl | rfl | rfl | rfl | rfl | rfl <;> rfl
    | hex bs =>
      have h1 : bs ≠ [] ∧ ∀ b ∈ bs, b < 256 := hi.1
      refine .right ?_
      have : StrItem.text (.hex bs) =
          [92] ++ ([120] ++ (bs.map fun b => [hexDigitOf (b / 16), hexDigitOf (b % 16)]).flatten) := rfl
      rw [this]
      refine .seq (.chr rfl) (.right (.right (.seq (.seq (u := [120]) (v := []) (.chr rfl) .eps) (matches_plus_chr.2 ⟨?_, ?_⟩))))
      · cases bs with
        | nil => exact absurd rfl h1.1
        | cons b bs => simp
      · intro c hc
        obtain ⟨l, hl, hcl⟩ := List.mem_flatten.1 hc
        obtain ⟨b, hb, rfl⟩ := List.mem_map.1 hl
        have hb := h1.2 b hb
        have hx : ∀ n, n < 16 → isxdigit (hexDigitOf n) = true := by decide
        simp only [List.mem_cons, List.not_mem_nil, or_false] at hcl
        rcases hcl with rfl | rfl
        · exact hx _ (by omega)
        · exact hx _ (by omega)

theorem item_length {is : List StrItem} (hi : itemsOk is) : ∀ i ∈ is, 1 ≤ i.text.length ∧
    (i.text.length = 1 → ∃ c, i = .lit c ∧ c ≠ 92) := by
  induction is with
  | nil => simp
  | cons j is ih =>
    intro i hmem
    rcases List.mem_cons.1 hmem with rfl | hmem
    · cases i with
      | lit c => exact ⟨by simp [StrItem.text], fun _ => ⟨c, rfl, hi.1⟩⟩
      | esc c => simp [StrItem.text]
      | hex bs => simp [StrItem.text]
    · exact ih hi.2.1 i hmem

theorem best_text {is : List StrItem} {s : Str} (hi : itemsOk is)
    (hl : ∀ c, StrItem.lit c ∈ is → c ≠ 34 ∧ c ≠ 10) (hn : is.length ≠ 1) (hs : Next (· ≠ 34) s) :
    bestRule (34 :: (is.map StrItem.text).flatten ++ 34 :: s) initialRules =
      some ((34 :: (is.map StrItem.text).flatten ++ [34]).length, .str) := by
  have hbody := items_body hi hl
  have hlong := longest_strTail hbody (s := s) (fun c hc => (hs c hc).2)
  have hlen := item_length hi
  generalize hb : (is.map StrItem.text).flatten = b at hbody hlong ⊢
  have hI1 : ∀ m, (Re.seq dot (one 34)).longest (b ++ 34 :: s) = some m → m < b.length + 1 := by
    intro m hm
    obtain ⟨h1, h2, _⟩ := ((longest_spec _ _).1 m).1 hm
    obtain ⟨v, w, he, h3, h4⟩ := matches_seq.1 h2
    obtain ⟨c, hc, rfl⟩ := matches_chr.1 h3
    obtain ⟨d, hd, rfl⟩ := matches_chr.1 h4
    simp at hd
    subst hd
    have hm2 : m = 2 := by
      have := congrArg List.length he
      rw [List.length_take, Nat.min_eq_left h1] at this
      simpa using this
    subst hm2
    match is, hn, hlen, hb with
    | [], _, _, hb =>
      simp at hb
      subst hb
      simp only [List.nil_append, List.cons_append, List.take_succ_cons, List.cons.injEq] at he
      cases s with
      | nil => simp at he
      | cons x s =>
        simp only [List.take_succ_cons, List.cons.injEq] at he
        exact absurd he.2.1 (hs x rfl).2
    | [i], hn, _, _ => exact absurd rfl hn
    | i :: j :: is, _, hlen, hb =>
      have h1 := (hlen i (by simp)).1
      have h2 := (hlen j (by simp)).1
      rw [← hb]
      simp; omega
  have hI2 : ∀ m, (Re.seq (one 92) (.seq dot (.chr fun c => c == 39 || c == 34))).longest (b ++ 34 :: s) = some m →
      m < b.length + 1 := by
    intro m hm
    obtain ⟨h1, h2, _⟩ := ((longest_spec _ _).1 m).1 hm
    obtain ⟨v, w, he, h3, h4⟩ := matches_seq.1 h2
    obtain ⟨c, hc, rfl⟩ := matches_chr.1 h3
    obtain ⟨v2, w2, rfl, h5, h6⟩ := matches_seq.1 h4
    obtain ⟨d, hd, rfl⟩ := matches_chr.1 h5
    obtain ⟨e, he', rfl⟩ := matches_chr.1 h6
    simp at hc
    subst hc
    have hm2 : m = 3 := by
      have := congrArg List.length he
      rw [List.length_take, Nat.min_eq_left h1] at this
      simpa using this
    subst hm2
    match is, hn, hlen, hb with
    | [], _, _, hb =>
      simp at hb
      subst hb
      simp at he
    | [i], hn, _, _ => exact absurd rfl hn
    | i :: j :: is, _, hlen, hb =>
      have h1 := hlen i (by simp)
      have h2 := hlen j (by simp)
      by_cases h3 : i.text.length = 1
      · obtain ⟨c, rfl, hc⟩ := h1.2 h3
        rw [← hb] at he
        simp [StrItem.text] at he
        exact absurd he.1 hc
      · have h1 := h1.1
        have h2 := h2.1
        rw [← hb]
        simp; omega
  refine best_cons (s := b ++ 34 :: s) (n := (b ++ [34]).length) ?_
  rw [deriv_quote]
  have e1 : bestRule (b ++ 34 :: s) [(strTail, .str), (.eps, .bad)] = some (b.length + 1, .str) := by
    simp [bestRule, hlong, longest_eps]
  have e2 : bestRule (b ++ 34 :: s) [(.seq (one 92) (.seq dot (.chr fun c => c == 39 || c == 34)), .int1), (strTail, .str),
      (.eps, .bad)] = some (b.length + 1, .str) := by
    rw [bestRule, e1]
    split
    · simp_all
    · simp_all
    · next h3 h4 =>
      cases h4
      rw [if_neg (by have := hI2 _ h3; omega)]
  rw [bestRule, e2]
  split
  · simp_all
  · simp_all
  · next h3 h4 =>
    cases h4
    rw [if_neg (by have := hI1 _ h3; omega)]
    simp

end Verif
