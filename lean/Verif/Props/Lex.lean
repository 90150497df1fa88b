import Verif.Lemmas.Scan

/-! # Property C53: from text to tokens -/

namespace Verif

open Spec

/-- **C53.**  The rule the scanner uses is the one that matches most, and the first in the file among those. -/
theorem C53_longest_match (s : Str) (rules : List (Re × LexAct)) (n : Nat) (a : LexAct) :
    bestRule s rules = some (n, a) ↔ ∃ i, ∃ h : i < rules.length, (rules[i]'h).2 = a ∧ Chosen rules s i n := by
  constructor
  · exact (best_spec s rules).1 n a
  · rintro ⟨i, h, rfl, hc⟩
    exact hc.best

/-- `.endif` is taken whole, although `.end` is a word too. -/
example : bestRule (bytes ".endif") initialRules = some (6, .endIfTok) := by decide +kernel

/-- **C53.**  In every start condition every text that is not empty is matched by some rule, and by at least one
character: the scanner never stops. -/
theorem C53_always_matches (c : LexCond) (s : Str) (hs : s ≠ []) : ∃ n a, bestRule s c.rules = some (n, a) ∧ 1 ≤ n ∧ n ≤ s.length := by
  obtain ⟨x, t, rfl⟩ := List.exists_cons_of_ne_nil hs
  obtain ⟨r, a, hm, hr⟩ := single_rule c x
  cases hb : bestRule (x :: t) c.rules with
  | none => exact absurd hr ((best_spec _ _).2 hb _ hm 1 (by simp))
  | some p =>
    obtain ⟨n, b⟩ := p
    obtain ⟨i, hi, rfl, hc⟩ := (best_spec _ _).1 n b hb
    obtain ⟨j, hj, he⟩ := List.getElem_of_mem hm
    exact ⟨n, _, rfl, hc.longest j hj 1 (by simp) (by rw [he]; exact hr), hc.fits⟩

/-- **C53.**  A step of the scanner uses up at least one character and leaves an end of the text, or an end of the text
after one `=` put back. -/
theorem C53_progress (isMac defined : Str → Bool) (st st' : LexSt) (s rest : Str) (ev : LexEv) (hs : s ≠ [])
    (h : lexStep isMac defined st s = some (st', ev, rest)) : rest.length < s.length ∧ 
      (rest <:+ s ∨ ∃ r, rest = 61 :: r ∧ r <:+ s ∧ ev = .tok .pcAssign) := step_progress hs h

/-- **C53.**  The line number: the number of newlines that have been read, in every text the scanner gets through. -/
theorem C53_line_number (isMac defined : Str → Bool) (f : Nat) (st st' : LexSt) (s : Str) (evs : List LexEv)
    (h : scan isMac defined f st s = some (st', evs)) : st'.line = st.line + (s.count '\n'.toNat : Nat) :=
  scan_line f st st' s evs h

/-- **C53.**  A text written as `Source` says is divided into these tokens, if what `known` says about names is so. -/
theorem C53_scan (isMac defined : Str → Bool) (known : Str → Option Bool) (hk : ∀ n b, known n = some b → defined n = b)
    (evs : List LexEv) (s : Str) (h : Source isMac known { place := .fileStart, dos := 0, macros := 0, ifs := 0, line := 1 } evs s) :
    ∃ st', scan isMac defined s.length {} s = some (st', evs) ∧ st'.line = 1 + (s.count '\n'.toNat : Nat) := by
  obtain ⟨st', h'⟩ := scan_source (defined := defined) hk h {} ⟨rfl, rfl, rfl, rfl, rfl, rfl⟩
  have := h' s.length (Nat.le_refl _)
  exact ⟨st', this, scan_line _ _ _ _ _ this⟩

/-- **C53.**  No text can be read in two ways. -/
theorem C53_one_reading {isMac : Str → Bool} {known : Str → Option Bool} {C : Scan} {e1 e2 : List LexEv} {s : Str}
    (h1 : Source isMac known C e1 s) (h2 : Source isMac known C e2 s) : e1 = e2 := by
  obtain ⟨st, hst⟩ := at_exists C
  have hag : Agrees known fun n => (known n).getD false := fun n b h => by simp [h]
  obtain ⟨s1, g1⟩ := scan_source hag h1 st hst
  obtain ⟨s2, g2⟩ := scan_source hag h2 st hst
  have := (g1 _ (Nat.le_refl _)).symm.trans (g2 _ (Nat.le_refl _))
  cases this
  rfl

/-- A loop in two lines. -/
example : Source (fun _ => false) (fun _ => none) { place := .fileStart, dos := 0, macros := 0, ifs := 0, line := 1 }
    [.tok (.label (cstr! "loop:")), .tok (.opcode 9), .tok (.eol 2), .tok (.opcode 18), .tok .hash, .tok (.int 255),
      .tok (.eol 3)]
    (cstr! "loop: DEX ; count\n\tlda #$fF\n") := by
  refine .nameColon (w := cstr! "loop") (.global (by decide) (by decide)) ?_
  refine .blanks (w := cstr! " ") (by decide) (by decide) (next_cons (by decide)) ?_
  refine .mnemonic (w := cstr! "DEX") (ins := 9) (by decide) (by decide) (next_cons (by decide)) ?_
  refine .blanks (w := cstr! " ") (by decide) (by decide) (next_cons (by decide)) ?_
  refine .comment (w := cstr! " count") (by decide) (next_cons (by decide)) ?_
  refine .newline ?_
  refine .blanks (w := cstr! "\t") (by decide) (by decide) (next_cons (by decide)) ?_
  refine .mnemonic (w := cstr! "lda") (ins := 18) (by decide) (by decide) (next_cons (by decide)) ?_
  refine .blanks (w := cstr! " ") (by decide) (by decide) (next_cons (by decide)) ?_
  refine .sign (w := "#") (no := "") (by decide) (next_cons (by decide)) ?_
  refine .hex (ds := [⟨102, 15⟩, ⟨70, 15⟩]) (s := [10]) (by simp [Digit.ok]) (by decide) (next_cons ⟨by decide, fun d hd h => ?_⟩) ?_
  · have := char_range hd
    omega
  · exact .newline .nil

/-- **C53.**  A run of two or more of `+` and `-` inside a line is one token, an anonymous label: the scanner does not see
two operators.  The sum `a+-1` is therefore no expression, while `a+ -1` is. -/
theorem C53_signs_join (isMac defined : Str → Bool) (st : LexSt) (w s : Str) (hl : 2 ≤ w.length) (hc : st.cond = .initial)
    (hn : st.afterNewline = false) (hw : ∀ c ∈ w, c = '+'.toNat ∨ c = '-'.toNat) (hs : Next (· ∉ bytes "+-|") s) :
    ∃ st', lexStep isMac defined st (w ++ s) = some (st', .tok (.sym w), s) := by
  match w, hl with
  | c :: d :: r, _ =>
    have hb := best_signs (w := d :: r) (hw c (by simp)) (fun x hx => hw x (List.mem_cons_of_mem _ hx)) hs
    have h10 : 10 ∉ c :: d :: r := fun h => by rcases hw 10 h with h | h <;> cases h
    exact ⟨{ st with last := some (c :: d :: r) }, by rw [step_of hc h10 hb]; simp [lexAct, hn]⟩

/-- Without and with a blank. -/
example : (scan (fun _ => false) (fun _ => false) 9 {} (cstr! " lda a+-1")).map Prod.snd =
      some [.tok (.opcode 18), .tok (.sym [97]), .tok (.sym [43, 45]), .tok (.int 1)] ∧
    parseExpr [.sym [97], .sym [43, 45], .int 1] ≠ some (.bin .add (.sym [97]) (.un .neg (.int 1)), []) ∧
    (scan (fun _ => false) (fun _ => false) 10 {} (cstr! " lda a+ -1")).map Prod.snd =
      some [.tok (.opcode 18), .tok (.sym [97]), .tok .plus, .tok .minus, .tok (.int 1)] ∧
    parseExpr [.sym [97], .plus, .minus, .int 1] = some (.bin .add (.sym [97]) (.un .neg (.int 1)), []) := by decide +kernel

/-- **C53.**  A name after a comment `/* … */` is not a label, even if nothing else stands before it in its line. -/
theorem C53_after_comment (isMac defined : Str → Bool) (w u s : Str) (hw : ∀ a b, w ≠ a ++ bytes "*/" ++ b) (hu : Name u)
    (hr : ¬ Reserved u) (hm : isMac u = false) (hs : WordEnd s) (evs : List LexEv)
    (h : Source isMac (fun _ => none) { place := .inside, dos := 0, macros := 0, ifs := 0, line := 1 + (w.count '\n'.toNat : Nat) } evs s) :
    ∃ st', scan isMac defined (bytes "/*" ++ w ++ bytes "*/" ++ (u ++ s)).length {} (bytes "/*" ++ w ++ bytes "*/" ++ (u ++ s)) =
      some (st', .tok (.sym u) :: evs) := by
  have := SourceTo.name (C := { place := .inside, dos := 0, macros := 0, ifs := 0, line := 1 + (w.count '\n'.toNat : Nat) }) hu hr hs h
  rw [nameTok, hm] at this
  obtain ⟨st', h1, _⟩ := C53_scan isMac defined _ (fun _ _ h => by cases h) _ _ (.block hw this)
  exact ⟨st', h1⟩

/-- The same line with and without the comment. -/
example : (scan (fun _ => false) (fun _ => false) 8 {} (cstr! "lab nop\n")).map Prod.snd =
      some [.tok (.label (cstr! "lab")), .tok (.opcode 97), .tok (.eol 2)] ∧
    (scan (fun _ => false) (fun _ => false) 13 {} (cstr! "/* */lab nop\n")).map Prod.snd =
      some [.tok (.sym (cstr! "lab")), .tok (.opcode 97), .tok (.eol 2)] := by decide +kernel

end Verif
