import Verif.Model.Statements
import Verif.Spec.Statements
import Verif.Props.Grammar

/-! # The statement parser and the way statements are written -/

namespace Verif

open Spec

theorem lineOf_eq : ∀ ts : List Tok, firstEol ts = lineOf ts
  | [] => rfl
  | t :: ts => by
    cases t <;> first | rfl | exact lineOf_eq ts

theorem lineOf_append {l : Int} : ∀ (ts rest : List Tok), .eol l ∈ ts → lineOf (ts ++ rest) = lineOf ts
  | t :: ts, rest, h => by
    by_cases ht : ∃ k, t = .eol k
    · obtain ⟨k, rfl⟩ := ht
      rfl
    · have h' : .eol l ∈ ts := by
        rcases List.mem_cons.1 h with h | h
        · exact absurd ⟨l, h.symm⟩ ht
        · exact h
      have := lineOf_append ts rest h'
      cases t <;> first | exact this | exact absurd ⟨_, rfl⟩ ht

/-! ## Expressions -/

/-- The next token ends an expression. -/
def Tok.ends (t : Tok) : Bool :=
  t.bin?.isNone && t != .lpar && t != .rpar && match t with | .int _ => false | _ => true

theorem ends_of {t : Tok} {ts : List Tok} (h : t.ends = true) : Ends (t :: ts) := by
  unfold Tok.ends at h
  refine ⟨fun o he => ?_, fun he => ?_, fun he => ?_, fun v he => ?_⟩
  · subst he
    rw [binTok_bin] at h
    simp at h
  · subst he
    simp at h
  · subst he
    simp at h
  · subst he
    simp at h

theorem expr_parse {e : Expr} {ts : List Tok} (h : ExprText e ts) {t : Tok} (ht : t.ends = true) (rest : List Tok) :
    parseExpr (ts ++ t :: rest) = some (e, t :: rest) :=
  (C52_parse e ts _ (ends_of ht)).2 h

theorem expr_parse_rpar {e : Expr} {ts : List Tok} (h : ExprText e ts) (rest : List Tok) :
    parseExpr (ts ++ .rpar :: rest) = some (e, .rpar :: rest) := by
  obtain ⟨l, o, h⟩ := h
  obtain ⟨fr, e', h1, h2, h3⟩ := written_parse h [] (.rpar :: rest) trivial ⟨by decide, fun v h => by cases h⟩
  unfold parseExpr
  rw [h1, parse_rpar, reduceAll_fold fr e' h3, h2]
  rfl

theorem expr_sound {e : Expr} {ts rest : List Tok} (h : parseExpr ts = some (e, rest)) :
    ∃ mid, ts = mid ++ rest ∧ ExprText e mid := by
  obtain ⟨l, o, mid, h1, h2⟩ := (parse_sound _ _ (Nat.le_refl _) [] [] .nil e rest).1 h
  exact ⟨mid, h1, l, o, h2⟩

/-- An expression ends before a token that is not an operator. -/
theorem expr_rest (n : Nat) : ∀ (ts : List Tok), ts.length ≤ n → ∀ (st : List PFrame) (e : Expr) (t : Tok) (rest : List Tok),
    (parseOperand st ts = some (e, t :: rest) → t.bin? = none) ∧
    ∀ x, parseRest st x ts = some (e, t :: rest) → t.bin? = none := by
  induction n with
  | zero =>
    intro ts hn st e t rest
    cases List.length_eq_zero_iff.1 (Nat.le_zero.1 hn)
    refine ⟨fun h => ?_, fun x h => ?_⟩
    · simp only [parseOperand] at h
      cases h
    · rw [parseRest] at h
      split at h <;> cases h
  | succ n ih =>
    intro ts hn st e t rest
    refine ⟨fun h => ?_, fun x h => ?_⟩
    · match ts, hn, h with
      | .int v :: ts2, hn, h => exact (ih ts2 (Nat.le_of_succ_le_succ hn) _ e t rest).2 _ (by rw [parseOperand] at h; exact h)
      | .sym name :: ts2, hn, h => exact (ih ts2 (Nat.le_of_succ_le_succ hn) _ e t rest).2 _ (by rw [parseOperand] at h; exact h)
      | .star :: ts2, hn, h => exact (ih ts2 (Nat.le_of_succ_le_succ hn) _ e t rest).2 _ (by rw [parseOperand] at h; exact h)
      | .plus :: ts2, hn, h => exact (ih ts2 (Nat.le_of_succ_le_succ hn) _ e t rest).2 _ (by rw [parseOperand] at h; exact h)
      | .lpar :: ts2, hn, h => exact (ih ts2 (Nat.le_of_succ_le_succ hn) _ e t rest).1 (by rw [parseOperand] at h; exact h)
      | .tilde :: ts2, hn, h => exact (ih ts2 (Nat.le_of_succ_le_succ hn) _ e t rest).1 (by rw [parseOperand] at h; exact h)
      | .lt :: ts2, hn, h => exact (ih ts2 (Nat.le_of_succ_le_succ hn) _ e t rest).1 (by rw [parseOperand] at h; exact h)
      | .gt :: ts2, hn, h => exact (ih ts2 (Nat.le_of_succ_le_succ hn) _ e t rest).1 (by rw [parseOperand] at h; exact h)
      | .not :: ts2, hn, h => exact (ih ts2 (Nat.le_of_succ_le_succ hn) _ e t rest).1 (by rw [parseOperand] at h; exact h)
      | .minus :: ts2, hn, h =>
        by_cases hs : Stop ts2
        · rw [parse_minus hs] at h
          exact (ih ts2 (Nat.le_of_succ_le_succ hn) _ e t rest).2 _ h
        · rcases not_stop hs with ⟨v, ts3, rfl⟩ | ⟨ts3, rfl⟩
          · exact (ih ts3 (by simp at hn; omega) _ e t rest).2 _ (by rw [parseOperand] at h; exact h)
          · exact (ih ts3 (by simp at hn; omega) _ e t rest).1 (by rw [parseOperand] at h; exact h)
    · match ts, hn, h with
      | [], hn, h =>
        rw [parseRest] at h
        split at h <;> cases h
      | u :: ts2, hn, h =>
        have hn2 : ts2.length ≤ n := Nat.le_of_succ_le_succ hn
        rw [parseRest] at h
        cases hb : u.bin? with
        | some o =>
          simp only [hb] at h
          exact (ih ts2 hn2 _ e t rest).1 h
        | none =>
          simp only [hb] at h
          generalize reduceAll st x = r at h
          obtain ⟨st', e'⟩ := r
          by_cases hr : u = .rpar
          · rw [if_pos hr] at h
            match st', h with
            | .par :: st', h => exact (ih ts2 hn2 _ e t rest).2 _ h
            | .neg :: st', h => exact (ih ts2 hn2 _ e t rest).2 _ h
            | [], h =>
              cases h
              exact hb
          · rw [if_neg hr] at h
            match st', h with
            | [], h =>
              cases h
              exact hb

theorem expr_stops {e : Expr} {ts rest : List Tok} {t : Tok} (h : parseExpr ts = some (e, t :: rest)) : t.bin? = none :=
  (expr_rest _ ts (Nat.le_refl _) [] e t rest).1 h

theorem expr_nonempty {e : Expr} {ts : List Tok} (h : ExprText e ts) : ts ≠ [] := by
  rintro rfl
  obtain ⟨l, o, h⟩ := h
  have := expr_parse (t := .eol 0) ⟨l, o, h⟩ rfl []
  simp [parseExpr, parseOperand] at this

/-- The tokens an expression can begin with. -/
def Tok.begins : Tok → Bool
  | .int _ | .sym _ | .star | .plus | .minus | .lpar | .tilde | .lt | .gt | .not => true
  | _ => false

theorem expr_begins {e : Expr} {ts : List Tok} (h : ExprText e ts) : ∃ t u, ts = t :: u ∧ t.begins = true := by
  obtain ⟨l, o, h⟩ := h
  induction h with
  | @un op t e l o ts ht h ih => exact ⟨t, ts, rfl, by cases op <;> cases ht <;> rfl⟩
  | @bin op a b la lb o ta tb ha hla hb hlb iha ihb =>
    obtain ⟨t, u, rfl, hb⟩ := iha
    exact ⟨t, _, rfl, hb⟩
  | _ => exact ⟨_, _, rfl, rfl⟩

/-! ## Lists -/

theorem item_parse {x : Item} {ts : List Tok} (h : ItemText x ts) {t : Tok} (ht : t.ends = true) (rest : List Tok) :
    parseItem (ts ++ t :: rest) = some (x, t :: rest) := by
  cases h with
  | str raw => rfl
  | expr h =>
    obtain ⟨u, us, rfl, hu⟩ := expr_begins h
    have := expr_parse h ht rest
    rw [List.cons_append] at this ⊢
    rw [parseItem]
    · rw [this]
    · rintro raw ts' h'
      cases h'
      cases hu

theorem item_sound {x : Item} {ts rest : List Tok} (h : parseItem ts = some (x, rest)) :
    ∃ mid, ts = mid ++ rest ∧ ItemText x mid := by
  unfold parseItem at h
  split at h
  · cases h
    exact ⟨[_], rfl, .str _⟩
  · split at h
    · next e r he =>
      cases h
      obtain ⟨mid, h1, h2⟩ := expr_sound he
      exact ⟨mid, h1, .expr h2⟩
    · cases h

/-- The end of a list. -/
def ListEnd (t : Tok) : Prop := t.ends = true ∧ t ≠ .comma ∧ t ≠ .assign

theorem listEnd_eol (l : Int) : ListEnd (.eol l) := ⟨rfl, by simp, by simp⟩

theorem further_parse {α : Type} {P : α → List Tok → Prop} {p : List Tok → Option (α × List Tok)}
    (hp : ∀ {x : α} {ts : List Tok}, P x ts → ∀ {t : Tok}, t.ends = true → t ≠ .assign → ∀ rest,
      p (ts ++ t :: rest) = some (x, t :: rest)) {xs : List α} {ts : List Tok} (h : Further P xs ts) {t : Tok}
    (ht : ListEnd t) (rest : List Tok) :
    ∀ f, ts.length ≤ f → parseFurther p f (ts ++ t :: rest) = some (xs, t :: rest) := by
  induction h with
  | nil =>
    intro f _
    obtain ⟨h1, h2⟩ := ht
    cases f <;> cases t <;> first | rfl | exact absurd rfl h2.1
  | @cons x xs a b h hs ih =>
    intro f hf
    match f, hf with
    | f + 1, hf =>
      have hf' : b.length ≤ f := by simp at hf; omega
      have key : p (a ++ (b ++ t :: rest)) = some (x, b ++ t :: rest) := by
        cases hs with
        | nil => exact hp h ht.1 ht.2.2 rest
        | cons _ _ => exact hp h rfl (by decide) _
      rw [List.cons_append, parseFurther, List.append_assoc]
      simp only [key, ih f hf']

theorem further_sound {α : Type} {P : α → List Tok → Prop} {p : List Tok → Option (α × List Tok)}
    (hp : ∀ {x : α} {ts rest : List Tok}, p ts = some (x, rest) → ∃ mid, ts = mid ++ rest ∧ P x mid) :
    ∀ (f : Nat) (ts : List Tok) {xs : List α} {rest : List Tok}, parseFurther p f ts = some (xs, rest) →
      ∃ mid, ts = mid ++ rest ∧ Further P xs mid := by
  intro f
  induction f with
  | zero =>
    intro ts xs rest h
    rw [parseFurther] at h
    · cases h
      exact ⟨[], rfl, .nil⟩
    · intro f _ h1
      cases h1
  | succ f ih =>
    intro ts xs rest h
    by_cases hc : ∃ ts2, ts = .comma :: ts2
    · obtain ⟨ts2, rfl⟩ := hc
      rw [parseFurther] at h
      split at h
      · next x r hx =>
        split at h
        · next ys r' hy =>
          cases h
          obtain ⟨m1, h1, h2⟩ := hp hx
          obtain ⟨m2, h3, h4⟩ := ih r hy
          exact ⟨.comma :: (m1 ++ m2), by rw [h1, h3]; simp, .cons h2 h4⟩
        · cases h
      · cases h
    · rw [parseFurther] at h
      · cases h
        exact ⟨[], rfl, .nil⟩
      · intro f' ts2 _ h2
        exact hc ⟨ts2, h2⟩

theorem items_parse {x : Item} {xs : List Item} {ts : List Tok} (h : ListText (some (x, xs)) ts) {t : Tok}
    (ht : ListEnd t) (rest : List Tok) : parseItems (ts ++ t :: rest) = some ((x, xs), t :: rest) := by
  match h with
  | .some (t := a) (u := b) hx hs =>
    have key : parseItem (a ++ (b ++ t :: rest)) = some (x, b ++ t :: rest) := by
      cases hs with
      | nil => exact item_parse hx ht.1 rest
      | cons _ _ => exact item_parse hx rfl _
    unfold parseItems
    rw [List.append_assoc, key]
    simp only []
    rw [further_parse (fun h _ ht _ => item_parse h ht) hs ht rest _ (by simp)]

theorem items_sound {x : Item} {xs : List Item} {ts rest : List Tok} (h : parseItems ts = some ((x, xs), rest)) :
    ∃ mid, ts = mid ++ rest ∧ ListText (some (x, xs)) mid := by
  unfold parseItems at h
  split at h
  · next x r hx =>
    split at h
    · next ys r' hy =>
      cases h
      obtain ⟨m1, h1, h2⟩ := item_sound hx
      obtain ⟨m2, h3, h4⟩ := further_sound item_sound _ r hy
      exact ⟨m1 ++ m2, by rw [h1, h3]; simp, .some h2 h4⟩
    · cases h
  · cases h

theorem item_begins {x : Item} {ts : List Tok} (h : ItemText x ts) :
    ∃ t u, ts = t :: u ∧ (t.begins = true ∨ ∃ raw, t = .str raw) := by
  cases h with
  | str raw => exact ⟨_, _, rfl, .inr ⟨raw, rfl⟩⟩
  | expr h =>
    obtain ⟨t, u, h1, h2⟩ := expr_begins h
    exact ⟨t, u, h1, .inl h2⟩

theorem items?_parse {x : Option (Item × List Item)} {ts : List Tok} (h : ListText x ts) (l : Int) (rest : List Tok) :
    parseItems? (ts ++ .eol l :: rest) = some (x, .eol l :: rest) := by
  match h with
  | .none => rfl
  | .some (x := x) (xs := xs) (t := a) (u := b) h hs =>
    have := items_parse (.some h hs) (listEnd_eol l) rest
    obtain ⟨t, u, rfl, ht⟩ := item_begins h
    simp only [List.cons_append] at this ⊢
    rw [parseItems?, this]
    rintro k ts' h'
    cases h'
    rcases ht with ht | ⟨raw, ht⟩ <;> cases ht

theorem items?_sound {x : Option (Item × List Item)} {ts rest : List Tok} (h : parseItems? ts = some (x, rest)) :
    ∃ mid, ts = mid ++ rest ∧ ListText x mid := by
  unfold parseItems? at h
  split at h
  · cases h
    exact ⟨[], rfl, .none⟩
  · split at h
    · next y r hy =>
      cases h
      obtain ⟨y1, y2⟩ := y
      exact items_sound hy
    · cases h

theorem var_parse {x : Str × Option Expr} {ts : List Tok} (h : VarText x ts) {t : Tok} (ht : t.ends = true)
    (hn : t ≠ .assign) (rest : List Tok) : parseVar (ts ++ t :: rest) = some (x, t :: rest) := by
  cases h with
  | plain name => cases t <;> first | rfl | exact absurd rfl hn
  | init name h =>
    rw [List.cons_append, List.cons_append, parseVar, expr_parse h ht]

theorem var_sound {x : Str × Option Expr} {ts rest : List Tok} (h : parseVar ts = some (x, rest)) :
    ∃ mid, ts = mid ++ rest ∧ VarText x mid := by
  unfold parseVar at h
  split at h
  · split at h
    · next e r he =>
      cases h
      obtain ⟨mid, h1, h2⟩ := expr_sound he
      exact ⟨_ :: _ :: mid, by rw [h1]; rfl, .init _ h2⟩
    · cases h
  · cases h
    exact ⟨[_], rfl, .plain _⟩
  · cases h

/-! ## Operands -/

theorem abs_parse (ins : Int) {e : Expr} {ts : List Tok} (h : ExprText e ts) (hb : Bare ts) {t : Tok} (ht : t.ends = true)
    (rest : List Tok) :
    parseAbs ins (ts ++ t :: rest) =
      match t :: rest with
      | .comma :: .x :: r' => some (.op ins .ax (some e), r')
      | .comma :: .y :: r' => some (.op ins .ay (some e), r')
      | _ => some (.op ins .a (some e), t :: rest) := by
  unfold parseAbs
  rw [expr_parse h ht]
  simp only []
  rw [if_neg]
  · rfl
  intro hc
  exact hb.1 (List.append_cancel_right (hc.trans (by rfl : _ = [Tok.star] ++ (t :: rest))))

theorem abs_sound {ins : Int} {st : Stmt} {ts rest : List Tok} (h : parseAbs ins ts = some (st, rest))
    (hb : ∀ e u r, ts = .lpar :: (u ++ .rpar :: r) → ExprText e u → ∃ t r', r = t :: r' ∧ t.bin?.isSome = true) :
    ∃ mid m arg, ts = mid ++ rest ∧ st = .op ins m arg ∧ OperandText m arg mid := by
  unfold parseAbs at h
  split at h
  · next e r he =>
    split at h
    · cases h
    · next hs =>
      obtain ⟨mid, h1, h2⟩ := expr_sound he
      have bare : Bare mid := by
        refine ⟨?_, ?_⟩
        · rintro rfl
          exact hs h1
        · rintro e' u rfl hu
          obtain ⟨t, r', hr, ht⟩ := hb e' u r (by rw [h1]; simp) hu
          subst hr
          rw [expr_stops he] at ht
          cases ht
      split at h
      · cases h
        exact ⟨_, _, _, by rw [h1]; simp, rfl, .absoluteX h2 bare⟩
      · cases h
        exact ⟨_, _, _, by rw [h1]; simp, rfl, .absoluteY h2 bare⟩
      · cases h
        exact ⟨_, _, _, h1, rfl, .absolute h2 bare⟩
  · cases h

/-- After the first pair of parentheses of a bare operand comes an operator. -/
theorem bare_par {e : Expr} {l : Nat} {o : Bool} {ts : List Tok} (h : WrittenAs e l o ts) :
    ∀ {v : List Tok}, ts = .lpar :: v → (∃ u x, v = u ++ [.rpar] ∧ ExprText x u) ∨
      ∃ u x op w, v = u ++ .rpar :: binTok op :: w ∧ ExprText x u := by
  induction h with
  | @par e l o ts h ih =>
    rintro v hv
    cases hv
    exact .inl ⟨ts, e, rfl, l, o, h⟩
  | @un op t e l o ts ht h ih =>
    rintro v hv
    cases hv
    cases op <;> cases ht
  | @bin op a b la lb o ta tb ha hla hb hlb iha ihb =>
    rintro v hv
    obtain ⟨t, u, rfl, ht⟩ := expr_begins ⟨_, _, ha⟩
    rw [List.cons_append] at hv
    cases hv
    rcases iha rfl with ⟨u', x, rfl, hx⟩ | ⟨u', x, op', w, rfl, hx⟩
    · exact .inr ⟨u', x, op, tb, by simp, hx⟩
    · exact .inr ⟨u', x, op', w ++ binTok op :: tb, by simp, hx⟩
  | _ =>
    rintro v hv
    cases hv

theorem opcode_abs (ins : Int) {e : Expr} {ts : List Tok} (h : ExprText e ts) (hb : Bare ts) (rest : List Tok) :
    parseOpcode ins (ts ++ rest) = parseAbs ins (ts ++ rest) := by
  obtain ⟨u, us, rfl, hu⟩ := expr_begins h
  by_cases hp : u = .lpar
  · subst hp
    obtain ⟨l, o, h⟩ := h
    rcases bare_par h rfl with ⟨w, x, rfl, hx⟩ | ⟨w, x, op, w', rfl, hx⟩
    · exact absurd hx (hb.2 x w rfl)
    · have := expr_parse_rpar hx (binTok op :: (w' ++ rest))
      rw [List.cons_append, parseOpcode, List.append_assoc, List.cons_append, List.cons_append, this]
      cases op <;> rfl
  · rw [List.cons_append]
    cases u <;> first | rfl | exact absurd rfl hp | cases hu

theorem opcode_parse (ins : Int) {m : Mode} {arg : Option Expr} {ts : List Tok} (h : OperandText m arg ts) (l : Int)
    (rest : List Tok) : parseOpcode ins (ts ++ .eol l :: rest) = some (.op ins m arg, .eol l :: rest) := by
  cases h with
  | implied => rfl
  | immediate h => rw [List.cons_append, parseOpcode, expr_parse h rfl]
  | absolute h hb => rw [opcode_abs ins h hb, abs_parse ins h hb rfl]
  | absoluteX h hb =>
    rw [List.append_assoc, opcode_abs ins h hb, List.cons_append, abs_parse ins h hb rfl]
    rfl
  | absoluteY h hb =>
    rw [List.append_assoc, opcode_abs ins h hb, List.cons_append, abs_parse ins h hb rfl]
    rfl
  | indirect h =>
    rw [List.cons_append, parseOpcode, List.append_assoc, List.singleton_append, expr_parse_rpar h]
    rfl
  | indirectX h =>
    rw [List.cons_append, parseOpcode, List.append_assoc, List.cons_append, expr_parse h rfl]
    rfl
  | indirectY h =>
    rw [List.cons_append, parseOpcode, List.append_assoc, List.cons_append, expr_parse_rpar h]
    rfl

theorem opcode_sound {ins : Int} {st : Stmt} {ts rest : List Tok} (h : parseOpcode ins ts = some (st, rest)) :
    ∃ mid m arg, ts = mid ++ rest ∧ st = .op ins m arg ∧ OperandText m arg mid := by
  unfold parseOpcode at h
  split at h
  · cases h
    exact ⟨[], _, _, rfl, rfl, .implied⟩
  · split at h
    · next e r he =>
      cases h
      obtain ⟨mid, rfl, h2⟩ := expr_sound he
      exact ⟨.hash :: mid, _, _, rfl, rfl, .immediate h2⟩
    · cases h
  · split at h
    · next e r he =>
      cases h
      obtain ⟨mid, rfl, h2⟩ := expr_sound he
      exact ⟨.lpar :: (mid ++ [.rpar, .comma, .y]), _, _, by simp, rfl, .indirectY h2⟩
    · next e t r _ he =>
      split at h
      · next ht =>
        refine abs_sound h ?_
        rintro e' u r' hr hu
        cases hr
        have := expr_parse_rpar hu r'
        rw [he] at this
        cases this
        exact ⟨t, r, rfl, ht⟩
      · cases h
        obtain ⟨mid, rfl, h2⟩ := expr_sound he
        exact ⟨.lpar :: (mid ++ [.rpar]), _, _, by simp, rfl, .indirect h2⟩
    · next e r he =>
      cases h
      obtain ⟨mid, rfl, h2⟩ := expr_sound he
      exact ⟨.lpar :: (mid ++ [.comma, .x, .rpar]), _, _, by simp, rfl, .indirectX h2⟩
    · cases h
  · next h1 h2 h3 =>
    refine abs_sound h ?_
    rintro e' u r' hr hu
    exact absurd hr (h3 _)

/-! ## Lines -/

theorem with_parse (k : Expr → Stmt) {e : Expr} {ts : List Tok} (h : ExprText e ts) (l : Int) (rest : List Tok) :
    parseWith k (ts ++ .eol l :: rest) = some (k e, .eol l :: rest) := by
  rw [parseWith, expr_parse h rfl]

theorem with_sound {k : Expr → Stmt} {st : Stmt} {ts rest : List Tok} (h : parseWith k ts = some (st, rest)) :
    ∃ mid e, ts = mid ++ rest ∧ st = k e ∧ ExprText e mid := by
  unfold parseWith at h
  split at h
  · next e r he =>
    cases h
    obtain ⟨mid, h1, h2⟩ := expr_sound he
    exact ⟨mid, e, h1, rfl, h2⟩
  · cases h

theorem data_parse (n : Int) {x : Item} {xs : List Item} {ts : List Tok} (h : ListText (some (x, xs)) ts) (l : Int)
    (rest : List Tok) : parseData n (ts ++ .eol l :: rest) = some (.data n x xs, .eol l :: rest) := by
  rw [parseData, items_parse h (listEnd_eol l)]

theorem data_sound {n : Int} {st : Stmt} {ts rest : List Tok} (h : parseData n ts = some (st, rest)) :
    ∃ mid x xs, ts = mid ++ rest ∧ st = .data n x xs ∧ ListText (some (x, xs)) mid := by
  unfold parseData at h
  split at h
  · next x xs r he =>
    cases h
    obtain ⟨mid, h1, h2⟩ := items_sound he
    exact ⟨mid, x, xs, h1, rfl, h2⟩
  · cases h

theorem simple_parse {st : Stmt} {ts : List Tok} (h : LineText st ts) (l : Int) (rest : List Tok) :
    parseSimple (ts ++ .eol l :: rest) = some (st, .eol l :: rest) := by
  cases h with
  | op ins h => exact opcode_parse ins h l rest
  | org h => exact with_parse _ h l rest
  | ds h => exact with_parse _ h l rest
  | byte h => exact data_parse 1 h l rest
  | word h => exact data_parse 2 h l rest
  | str h => exact data_parse 0 h l rest
  | @fill v n t u hv hn =>
    rw [List.cons_append, parseSimple, List.append_assoc, List.cons_append, expr_parse hv rfl]
    exact with_parse _ hn l rest
  | print h => rw [List.cons_append, parseSimple, items?_parse h]
  | printAll h => rw [List.cons_append, parseSimple, items?_parse h]
  | printOn => rfl
  | printOff => rfl
  | sect name => rfl
  | endSect => rfl
  | endProg => rfl
  | load raw => rfl
  | inc raw => rfl
  | assign hn hq h => cases hn <;> cases hq <;> exact with_parse _ h l rest
  | pcAssign hq h => cases hq <;> exact with_parse _ h l rest
  | name name => rfl
  | call name h => rw [List.cons_append, parseSimple, items?_parse h]
  | @var x xs t u h hs =>
    have key : parseVar (t ++ (u ++ .eol l :: rest)) = some (x, u ++ .eol l :: rest) := by
      cases hs with
      | nil => exact var_parse h rfl (by simp) rest
      | cons _ _ => exact var_parse h rfl (by simp) _
    rw [List.cons_append, parseSimple, List.append_assoc, key]
    simp only []
    rw [further_parse (fun h _ => var_parse h) hs (listEnd_eol l) rest _ (by simp)]

theorem simple_sound {st : Stmt} {ts rest : List Tok} (h : parseSimple ts = some (st, rest)) :
    ∃ mid, ts = mid ++ rest ∧ LineText st mid := by
  unfold parseSimple at h
  split at h
  · obtain ⟨mid, m, arg, rfl, rfl, h1⟩ := opcode_sound h
    exact ⟨_ :: mid, rfl, .op _ h1⟩
  · obtain ⟨mid, e, rfl, rfl, h1⟩ := with_sound h
    exact ⟨_ :: mid, rfl, .org h1⟩
  · obtain ⟨mid, e, rfl, rfl, h1⟩ := with_sound h
    exact ⟨_ :: mid, rfl, .ds h1⟩
  · obtain ⟨mid, x, xs, rfl, rfl, h1⟩ := data_sound h
    exact ⟨_ :: mid, rfl, .byte h1⟩
  · obtain ⟨mid, x, xs, rfl, rfl, h1⟩ := data_sound h
    exact ⟨_ :: mid, rfl, .word h1⟩
  · obtain ⟨mid, x, xs, rfl, rfl, h1⟩ := data_sound h
    exact ⟨_ :: mid, rfl, .str h1⟩
  · split at h
    · next v r he =>
      obtain ⟨m1, h1, h2⟩ := expr_sound he
      obtain ⟨m2, e, rfl, rfl, h3⟩ := with_sound h
      exact ⟨.fill :: (m1 ++ .comma :: m2), by rw [h1]; simp, .fill h2 h3⟩
    · cases h
  · split at h
    · next x r he =>
      cases h
      obtain ⟨mid, rfl, h2⟩ := items?_sound he
      exact ⟨_ :: mid, rfl, .print h2⟩
    · cases h
  · split at h
    · next x r he =>
      cases h
      obtain ⟨mid, rfl, h2⟩ := items?_sound he
      exact ⟨_ :: mid, rfl, .printAll h2⟩
    · cases h
  · cases h
    exact ⟨[_], rfl, .printOn⟩
  · cases h
    exact ⟨[_], rfl, .printOff⟩
  · cases h
    exact ⟨[_, _], rfl, .sect _⟩
  · cases h
    exact ⟨[_], rfl, .endSect⟩
  · cases h
    exact ⟨[_], rfl, .endProg⟩
  · cases h
    exact ⟨[_, _], rfl, .load _⟩
  · cases h
    exact ⟨[_, _], rfl, .inc _⟩
  · obtain ⟨mid, e, rfl, rfl, h1⟩ := with_sound h
    exact ⟨_ :: _ :: mid, rfl, .assign (.label _) .sign h1⟩
  · obtain ⟨mid, e, rfl, rfl, h1⟩ := with_sound h
    exact ⟨_ :: _ :: mid, rfl, .assign (.label _) .word h1⟩
  · obtain ⟨mid, e, rfl, rfl, h1⟩ := with_sound h
    exact ⟨_ :: _ :: mid, rfl, .assign (.sym _) .sign h1⟩
  · obtain ⟨mid, e, rfl, rfl, h1⟩ := with_sound h
    exact ⟨_ :: _ :: mid, rfl, .assign (.sym _) .word h1⟩
  · cases h
    exact ⟨[_], rfl, .name _⟩
  · split at h
    · next x r he =>
      cases h
      obtain ⟨mid, rfl, h2⟩ := items?_sound he
      exact ⟨_ :: mid, rfl, .call _ h2⟩
    · cases h
  · obtain ⟨mid, e, rfl, rfl, h1⟩ := with_sound h
    exact ⟨_ :: _ :: mid, rfl, .pcAssign .sign h1⟩
  · obtain ⟨mid, e, rfl, rfl, h1⟩ := with_sound h
    exact ⟨_ :: _ :: mid, rfl, .pcAssign .word h1⟩
  · split at h
    · next x r hx =>
      split at h
      · next xs r' hy =>
        cases h
        obtain ⟨m1, h1, h2⟩ := var_sound hx
        obtain ⟨m2, h3, h4⟩ := further_sound var_sound _ r hy
        exact ⟨.var :: (m1 ++ m2), by rw [h1, h3]; simp, .var h2 h4⟩
      · cases h
    · cases h
  · cases h

/-! ## Statements -/

/-- The tokens a statement can begin with. -/
def Tok.opens : Tok → Bool
  | .opcode _ | .sym _ | .label _ | .macsym _ | .eol _ | .pcAssign | .while | .repeat | .if | .print | .printAll | .org
  | .end' | .do | .macro | .str' | .for | .byte | .word | .ds | .load | .inc | .var | .fill | .printOn | .printOff | .sect
  | .endSect => true
  | _ => false

theorem line_opens {st : Stmt} {ts : List Tok} (h : LineText st ts) : ∃ t u, ts = t :: u ∧ t.opens = true ∧
    (match t with | .eol _ | .if | .repeat | .do | .while | .for | .macro => False | _ => True) := by
  cases h with
  | assign hn hq h => cases hn <;> exact ⟨_, _, rfl, rfl, trivial⟩
  | _ => exact ⟨_, _, rfl, rfl, trivial⟩

theorem stmt_opens {p : Part} {st : Stmt} {ts : List Tok} (h : StmtText p st ts) :
    ∃ t u, ts = t :: u ∧ t.opens = true := by
  induction h with
  | line l h =>
    obtain ⟨t, u, rfl, h1, _⟩ := line_opens h
    exact ⟨t, _, rfl, h1⟩
  | one h ih => exact ih
  | more ha hb iha ihb =>
    obtain ⟨t, u, rfl, h1⟩ := iha
    exact ⟨t, _, rfl, h1⟩
  | _ => exact ⟨_, _, rfl, rfl⟩

theorem opens_ends {t : Tok} (h : t.opens = true) : t.ends = true := by
  cases t <;> first | rfl | cases h

theorem opens_not_closes {t : Tok} (h : t.opens = true) : t.closes = false := by
  cases t <;> first | rfl | cases h

theorem stmt_eol {p : Part} {st : Stmt} {ts : List Tok} (h : StmtText p st ts) : ∃ l, .eol l ∈ ts := by
  induction h with
  | one h ih => exact ih
  | more ha hb iha ihb =>
    obtain ⟨l, h⟩ := iha
    exact ⟨l, List.mem_append_left _ h⟩
  | _ => exact ⟨‹Int›, by simp⟩

theorem parseStmt_line (f : Nat) {t : Tok} (ts : List Tok)
    (h : match t with | .eol _ | .if | .repeat | .do | .while | .for | .macro => False | _ => True) :
    parseStmt f (t :: ts) =
      match parseSimple (t :: ts) with
      | some (st, r) => endLine st r
      | none => none := by
  cases f <;> cases t <;> first | rfl | exact h.elim

/-- How the parser reads a written statement or block. -/
def Read : Part → Stmt → List Tok → Prop
  | .stmt, st, ts => ∀ f rest, 2 * ts.length ≤ f → parseStmt f (ts ++ rest) = some (st, rest)
  | .body, st, ts => ∀ f rest, 2 * ts.length + 1 ≤ f →
      ∃ f', f ≤ f' + ts.length ∧ parseList f none (ts ++ rest) = parseList f' (some st) rest

theorem read_body {st : Stmt} {ts : List Tok} (h : Read .body st ts) {f : Nat} (hf : 2 * ts.length + 1 ≤ f) {t : Tok}
    (ht : t.closes = true) (rest : List Tok) : parseList f none (ts ++ t :: rest) = some (st, t :: rest) := by
  obtain ⟨f', h1, h2⟩ := h f (t :: rest) hf
  rw [h2]
  match f', h1 with
  | 0, h1 => omega
  | f' + 1, _ =>
    rw [parseList, if_pos]
    simp [ht]

theorem list_step {f : Nat} {st : Stmt} {ts rest : List Tok} (hs : parseStmt f (ts ++ rest) = some (st, rest))
    {l : Int} (hl : .eol l ∈ ts) :
    parseList (f + 1) none (ts ++ rest) = parseList f (some (.at (lineOf ts) st)) rest := by
  rw [parseList, hs, lineOf_eq, lineOf_append ts rest hl]

theorem list_more {f : Nat} {acc st : Stmt} {t : Tok} {ts rest : List Tok} (ht : t.closes = false)
    (hs : parseStmt f (t :: ts ++ rest) = some (st, rest)) {l : Int} (hl : .eol l ∈ t :: ts) :
    parseList (f + 1) (some acc) (t :: ts ++ rest) =
      parseList f (some (.seq acc (.at (lineOf (t :: ts)) st))) rest := by
  rw [parseList, if_neg, hs, lineOf_eq, lineOf_append (t :: ts) rest hl]
  simp [ht]

theorem stmt_read {p : Part} {st : Stmt} {ts : List Tok} (h : StmtText p st ts) : Read p st ts := by
  induction h with
  | empty l =>
    intro f rest _
    cases f <;> rfl
  | @line st ts l h =>
    intro f rest _
    obtain ⟨t, u, rfl, _, ht⟩ := line_opens h
    have := simple_parse h l rest
    rw [List.append_assoc, List.singleton_append]
    rw [List.cons_append] at this ⊢
    rw [parseStmt_line f _ ht, this]
    rfl
  | @ifThen c t tc tt l hc ht ih =>
    intro f rest hf
    simp only [List.length_cons, List.length_append, List.length_nil] at hf
    obtain ⟨f, rfl⟩ : ∃ g, f = g + 1 := ⟨f - 1, by omega⟩
    obtain ⟨u, us, hu, ho⟩ := stmt_opens ht
    have h1 := expr_parse hc (opens_ends ho) (us ++ .endIf :: .eol l :: rest)
    have h2 := read_body ih (f := f) (by omega) (t := .endIf) rfl (.eol l :: rest)
    rw [hu] at h2
    simp only [hu, List.cons_append, List.append_assoc, List.nil_append] at h1 h2 ⊢
    rw [parseStmt]
    simp only [h1, h2]
    rfl
  | @ifElse c t e tc tt te l hc ht he iht ihe =>
    intro f rest hf
    simp only [List.length_cons, List.length_append, List.length_nil] at hf
    obtain ⟨f, rfl⟩ : ∃ g, f = g + 1 := ⟨f - 1, by omega⟩
    obtain ⟨u, us, hu, ho⟩ := stmt_opens ht
    have h1 := expr_parse hc (opens_ends ho) (us ++ .else :: (te ++ .endIf :: .eol l :: rest))
    have h2 := read_body iht (f := f) (by omega) (t := .else) rfl (te ++ .endIf :: .eol l :: rest)
    have h3 := read_body ihe (f := f) (by omega) (t := .endIf) rfl (.eol l :: rest)
    rw [hu] at h2
    simp only [hu, List.cons_append, List.append_assoc, List.nil_append] at h1 h2 h3 ⊢
    rw [parseStmt]
    simp only [h1, h2, h3]
    rfl
  | @repeatLoop c b tc tb l l' hb hc ih =>
    intro f rest hf
    simp only [List.length_cons, List.length_append, List.length_nil] at hf
    obtain ⟨f, rfl⟩ : ∃ g, f = g + 1 := ⟨f - 1, by omega⟩
    have h1 := expr_parse hc (t := .eol l') rfl rest
    have h2 := read_body ih (f := f) (by omega) (t := .until) rfl (tc ++ .eol l' :: rest)
    simp only [List.cons_append, List.append_assoc, List.nil_append] at h1 h2 ⊢
    rw [parseStmt]
    simp only [h1, h2]
    rfl
  | @doLoop c b tc tb l hb hc ih =>
    intro f rest hf
    simp only [List.length_cons, List.length_append, List.length_nil] at hf
    obtain ⟨f, rfl⟩ : ∃ g, f = g + 1 := ⟨f - 1, by omega⟩
    have h1 := expr_parse hc (t := .eol l) rfl rest
    have h2 := read_body ih (f := f) (by omega) (t := .endDo) rfl (tc ++ .eol l :: rest)
    simp only [List.cons_append, List.append_assoc, List.nil_append] at h1 h2 ⊢
    rw [parseStmt]
    simp only [h1, h2]
    rfl
  | @whileLoop c b tc tb l l' hc hb ih =>
    intro f rest hf
    simp only [List.length_cons, List.length_append, List.length_nil] at hf
    obtain ⟨f, rfl⟩ : ∃ g, f = g + 1 := ⟨f - 1, by omega⟩
    have h1 := expr_parse hc (t := .eol l) rfl (tb ++ .wend :: .eol l' :: rest)
    have h2 := read_body ih (f := f) (by omega) (t := .wend) rfl (.eol l' :: rest)
    simp only [List.cons_append, List.append_assoc, List.nil_append] at h1 h2 ⊢
    rw [parseStmt]
    simp only [h1, h2]
    rfl
  | @forLoop name next t q a z b ta tz tb l l' hn hq ha hz hb ih =>
    intro f rest hf
    simp only [List.length_cons, List.length_append, List.length_nil] at hf
    obtain ⟨f, rfl⟩ : ∃ g, f = g + 1 + 1 + 1 := ⟨f - 3, by omega⟩
    have h1 := expr_parse ha (t := .to) rfl (tz ++ .eol l :: (tb ++ .next :: .sym next :: .eol l' :: rest))
    have h2 := expr_parse hz (t := .eol l) rfl (tb ++ .next :: .sym next :: .eol l' :: rest)
    have h3 := read_body ih (f := f) (by omega) (t := .next) rfl (.sym next :: .eol l' :: rest)
    simp only [List.cons_append, List.append_assoc, List.nil_append] at h1 h2 h3 ⊢
    cases hn <;> cases hq <;> rw [parseStmt] <;> simp only [parseFor, parseSymFor, h1, h2, h3, reduceCtorEq, or_self, if_false] <;> rfl
  | @forStep name next t q a z d b ta tz td tb l l' hn hq ha hz hd hb ih =>
    intro f rest hf
    simp only [List.length_cons, List.length_append, List.length_nil] at hf
    obtain ⟨f, rfl⟩ : ∃ g, f = g + 1 + 1 + 1 := ⟨f - 3, by omega⟩
    have h1 := expr_parse ha (t := .to) rfl (tz ++ .step :: (td ++ .eol l :: (tb ++ .next :: .sym next :: .eol l' :: rest)))
    have h2 := expr_parse hz (t := .step) rfl (td ++ .eol l :: (tb ++ .next :: .sym next :: .eol l' :: rest))
    have h4 := expr_parse hd (t := .eol l) rfl (tb ++ .next :: .sym next :: .eol l' :: rest)
    have h3 := read_body ih (f := f) (by omega) (t := .next) rfl (.sym next :: .eol l' :: rest)
    simp only [List.cons_append, List.append_assoc, List.nil_append] at h1 h2 h3 h4 ⊢
    cases hn <;> cases hq <;> rw [parseStmt] <;> simp only [parseFor, parseSymFor, h1, h2, h3, h4, reduceCtorEq, or_self, if_false] <;> rfl
  | @forReg isX up a z b ta tz tb l l' ha hz hb ih =>
    intro f rest hf
    simp only [List.length_cons, List.length_append, List.length_nil] at hf
    obtain ⟨f, rfl⟩ : ∃ g, f = g + 1 + 1 + 1 := ⟨f - 3, by omega⟩
    have h1 := expr_parse ha (t := dirTok up) (by cases up <;> rfl)
      (tz ++ .eol l :: (tb ++ .next :: regEnd isX :: .eol l' :: rest))
    have h2 := expr_parse hz (t := .eol l) rfl (tb ++ .next :: regEnd isX :: .eol l' :: rest)
    have h3 := read_body ih (f := f) (by omega) (t := .next) rfl (regEnd isX :: .eol l' :: rest)
    simp only [List.cons_append, List.append_assoc, List.nil_append] at h1 h2 h3 ⊢
    rw [parseStmt, parseFor, h1]
    cases isX <;> cases up <;> simp only [regTok, dirTok, parseRegFor, h2, h3] <;> rfl
  | @macroDef name b tb l hb ih =>
    intro f rest hf
    simp only [List.length_cons, List.length_append, List.length_nil] at hf
    obtain ⟨f, rfl⟩ : ∃ g, f = g + 1 := ⟨f - 1, by omega⟩
    have h2 := read_body ih (f := f) (by omega) (t := .endMacro) rfl (.eol l :: rest)
    simp only [List.cons_append, List.append_assoc, List.nil_append] at h2 ⊢
    rw [parseStmt]
    simp only [h2]
    rfl
  | @one st ts h ih =>
    intro f rest hf
    obtain ⟨f, rfl⟩ : ∃ g, f = g + 1 := ⟨f - 1, by omega⟩
    obtain ⟨l, hl⟩ := stmt_eol h
    refine ⟨f, ?_, list_step (ih f rest (by omega)) hl⟩
    obtain ⟨t, u, rfl, _⟩ := stmt_opens h
    simp
  | @more a b ta tb ha hb iha ihb =>
    intro f rest hf
    rw [List.length_append] at hf
    obtain ⟨f1, h1, h2⟩ := iha f (tb ++ rest) (by omega)
    obtain ⟨l, hl⟩ := stmt_eol hb
    obtain ⟨t, u, rfl, ho⟩ := stmt_opens hb
    obtain ⟨f1, rfl⟩ : ∃ g, f1 = g + 1 := ⟨f1 - 1, by simp at hf; omega⟩
    refine ⟨f1, ?_, ?_⟩
    · rw [List.length_append, List.length_cons]
      omega
    · rw [List.append_assoc, h2, list_more (opens_not_closes ho) (ihb f1 rest (by omega)) hl]

/-! ## Soundness -/

theorem endLine_sound {st st' : Stmt} {ts rest : List Tok} (h : endLine st ts = some (st', rest)) :
    st' = st ∧ ∃ l, ts = .eol l :: rest := by
  unfold endLine at h
  split at h
  · cases h
    exact ⟨rfl, _, rfl⟩
  · cases h

/-- What the parser accepts with a given fuel is written as it should be. -/
structure Sound (f : Nat) : Prop where
  stmt : ∀ {ts st r}, parseStmt f ts = some (st, r) → ∃ mid, ts = mid ++ r ∧ StmtText .stmt st mid
  for' : ∀ {t ts st r}, parseFor f t ts = some (st, r) → ∀ q, Equals q → (q = .assign ∨ ¬(t = .regX ∨ t = .regY)) →
    ∃ mid, ts = mid ++ r ∧ StmtText .stmt st (.for :: t :: q :: mid)
  reg : ∀ {isX a up ts st r}, parseRegFor f isX a up ts = some (st, r) → ∃ mid, ts = mid ++ r ∧
    ∀ ta, ExprText a ta → StmtText .stmt st (.for :: regTok isX :: .assign :: (ta ++ dirTok up :: mid))
  sym : ∀ {name a ts st r}, parseSymFor f name a ts = some (st, r) → ∃ mid, ts = mid ++ r ∧
    ∀ t q ta, Named name t → Equals q → ExprText a ta → StmtText .stmt st (.for :: t :: q :: (ta ++ .to :: mid))
  first : ∀ {ts st r}, parseList f none ts = some (st, r) → ∃ mid, ts = mid ++ r ∧ StmtText .body st mid
  more : ∀ {acc ts st r}, parseList f (some acc) ts = some (st, r) → ∀ ta, StmtText .body acc ta →
    ∃ mid, ts = mid ++ r ∧ StmtText .body st (ta ++ mid)

theorem line_sound {ts : List Tok} {st : Stmt} {r : List Tok}
    (h : (match parseSimple ts with | some (st, r) => endLine st r | none => none) = some (st, r)) :
    ∃ mid, ts = mid ++ r ∧ StmtText .stmt st mid := by
  split at h
  · next st' r' hp =>
    obtain ⟨rfl, l, rfl⟩ := endLine_sound h
    obtain ⟨mid, rfl, h2⟩ := simple_sound hp
    exact ⟨mid ++ [.eol l], by simp, .line l h2⟩
  · cases h

theorem sound : ∀ f, Sound f
  | 0 => by
    refine ⟨?_, ?_, ?_, ?_, ?_, ?_⟩
    · intro ts st r h
      unfold parseStmt at h
      split at h
      all_goals first
        | (cases h; exact ⟨[.eol _], rfl, .empty _⟩)
        | (contradiction)
        | exact line_sound h
    · intro t ts st r h
      rw [parseFor] at h
      cases h
    · intro isX a up ts st r h
      rw [parseRegFor] at h
      cases h
    · intro name a ts st r h
      rw [parseSymFor] at h
      cases h
    · intro ts st r h
      rw [parseList] at h
      cases h
    · intro acc ts st r h
      rw [parseList] at h
      cases h
  | f + 1 => by
    have ih := sound f
    refine ⟨?_, ?_, ?_, ?_, ?_, ?_⟩
    · intro ts st r h
      unfold parseStmt at h
      split at h
      · cases h
        exact ⟨[.eol _], rfl, .empty _⟩
      · next f' ts hf =>
        cases hf
        split at h
        · next c r1 he =>
          obtain ⟨tc, rfl, hc⟩ := expr_sound he
          split at h
          · next t r2 hl =>
            obtain ⟨rfl, l, rfl⟩ := endLine_sound h
            obtain ⟨tt, rfl, ht⟩ := ih.first hl
            exact ⟨_, by simp, .ifThen l hc ht⟩
          · next t r2 hl =>
            obtain ⟨tt, rfl, ht⟩ := ih.first hl
            split at h
            · next e r3 hl2 =>
              obtain ⟨rfl, l, rfl⟩ := endLine_sound h
              obtain ⟨te, rfl, hee⟩ := ih.first hl2
              exact ⟨_, by simp, .ifElse l hc ht hee⟩
            · cases h
          · cases h
        · cases h
      · next f' l ts hf =>
        cases hf
        split at h
        · next b r1 hl =>
          obtain ⟨tb, rfl, hb⟩ := ih.first hl
          split at h
          · next c r2 he =>
            obtain ⟨rfl, l', rfl⟩ := endLine_sound h
            obtain ⟨tc, rfl, hc⟩ := expr_sound he
            exact ⟨_, by simp, .repeatLoop l l' hb hc⟩
          · cases h
        · cases h
      · next f' ts hf =>
        cases hf
        split at h
        · next b r1 hl =>
          obtain ⟨tb, rfl, hb⟩ := ih.first hl
          split at h
          · next c r2 he =>
            obtain ⟨rfl, l', rfl⟩ := endLine_sound h
            obtain ⟨tc, rfl, hc⟩ := expr_sound he
            exact ⟨_, by simp, .doLoop l' hb hc⟩
          · cases h
        · cases h
      · next f' ts hf =>
        cases hf
        split at h
        · next c l r1 he =>
          obtain ⟨tc, rfl, hc⟩ := expr_sound he
          split at h
          · next b r2 hl =>
            obtain ⟨tb, rfl, hb⟩ := ih.first hl
            obtain ⟨rfl, l', rfl⟩ := endLine_sound h
            exact ⟨_, by simp, .whileLoop l l' hc hb⟩
          · cases h
        · cases h
      · next f' t ts hf =>
        cases hf
        obtain ⟨mid, rfl, h1⟩ := ih.for' h .assign .sign (.inl rfl)
        exact ⟨_, by simp, h1⟩
      · next f' t ts hf =>
        cases hf
        split at h
        · cases h
        · next hn =>
          obtain ⟨mid, rfl, h1⟩ := ih.for' h .equ .word (.inr hn)
          exact ⟨_, by simp, h1⟩
      · next f' name ts hf =>
        cases hf
        split at h
        · next b r1 hl =>
          obtain ⟨tb, rfl, hb⟩ := ih.first hl
          obtain ⟨rfl, l', rfl⟩ := endLine_sound h
          exact ⟨_, by simp, .macroDef name l' hb⟩
        · cases h
      · exact line_sound h
    · intro t ts st r h q hq hqt
      rw [parseFor] at h
      split at h
      · cases h
      · next a r1 he =>
        obtain ⟨ta, rfl, ha⟩ := expr_sound he
        have regCase : ∀ {isX up r2}, t = regTok isX → parseRegFor f isX a up r2 = some (st, r) → r1 = dirTok up :: r2 →
            ∃ mid, ta ++ r1 = mid ++ r ∧ StmtText .stmt st (.for :: t :: q :: mid) := by
          rintro isX up r2 rfl hg rfl
          obtain rfl : q = .assign := hqt.resolve_right fun h => h (by cases isX <;> simp [regTok])
          obtain ⟨mid, rfl, h1⟩ := ih.reg hg
          exact ⟨_, by simp, h1 ta ha⟩
        have symCase : ∀ {name r2}, Named name t → parseSymFor f name a r2 = some (st, r) → r1 = .to :: r2 →
            ∃ mid, ta ++ r1 = mid ++ r ∧ StmtText .stmt st (.for :: t :: q :: mid) := by
          rintro name r2 hn hg rfl
          obtain ⟨mid, rfl, h1⟩ := ih.sym hg
          exact ⟨_, by simp, h1 t q ta hn hq ha⟩
        split at h
        · exact regCase (isX := true) (up := true) rfl h rfl
        · exact regCase (isX := true) (up := false) rfl h rfl
        · exact regCase (isX := false) (up := true) rfl h rfl
        · exact regCase (isX := false) (up := false) rfl h rfl
        · exact symCase (.sym _) h rfl
        · exact symCase (.label _) h rfl
        · cases h
    · intro isX a up ts st r h
      rw [parseRegFor] at h
      split at h
      · next z l r1 he =>
        obtain ⟨tz, rfl, hz⟩ := expr_sound he
        split at h
        · next b t r2 hl =>
          obtain ⟨tb, rfl, hb⟩ := ih.first hl
          split at h
          · next ht =>
            obtain ⟨rfl, l', rfl⟩ := endLine_sound h
            obtain rfl : t = regEnd isX := by
              cases isX <;> cases t <;> first | rfl | cases ht
            exact ⟨tz ++ .eol l :: (tb ++ [.next, regEnd isX, .eol l']), by simp, fun ta ha => .forReg isX up l l' ha hz hb⟩
          · cases h
        · cases h
      · cases h
    · intro name a ts st r h
      rw [parseSymFor] at h
      split at h
      · next z l r1 he =>
        obtain ⟨tz, rfl, hz⟩ := expr_sound he
        split at h
        · next b nx r2 hl =>
          obtain ⟨tb, rfl, hb⟩ := ih.first hl
          obtain ⟨rfl, l', rfl⟩ := endLine_sound h
          exact ⟨tz ++ .eol l :: (tb ++ [.next, .sym nx, .eol l']), by simp,
            fun t q ta hn hq ha => .forLoop l l' hn hq ha hz hb⟩
        · cases h
      · next z r1 he =>
        obtain ⟨tz, rfl, hz⟩ := expr_sound he
        split at h
        · next d l r2 he =>
          obtain ⟨td, rfl, hd⟩ := expr_sound he
          split at h
          · next b nx r3 hl =>
            obtain ⟨tb, rfl, hb⟩ := ih.first hl
            obtain ⟨rfl, l', rfl⟩ := endLine_sound h
            exact ⟨tz ++ .step :: (td ++ .eol l :: (tb ++ [.next, .sym nx, .eol l'])), by simp,
              fun t q ta hn hq ha => .forStep l l' hn hq ha hz hd hb⟩
          · cases h
        · cases h
      · cases h
    · intro ts st r h
      rw [parseList] at h
      split at h
      · next s r1 hs =>
        obtain ⟨mid, rfl, h1⟩ := ih.stmt hs
        obtain ⟨l, hl⟩ := stmt_eol h1
        rw [lineOf_eq, lineOf_append mid r1 hl] at h
        obtain ⟨m2, rfl, h2⟩ := ih.more h mid (.one h1)
        exact ⟨mid ++ m2, by simp, h2⟩
      · cases h
    · intro acc ts st r h ta ha
      rw [parseList] at h
      split at h
      · cases h
        exact ⟨[], rfl, by rw [List.append_nil]; exact ha⟩
      · split at h
        · next s r1 hs =>
          obtain ⟨mid, rfl, h1⟩ := ih.stmt hs
          obtain ⟨l, hl⟩ := stmt_eol h1
          rw [lineOf_eq, lineOf_append mid r1 hl] at h
          obtain ⟨m2, rfl, h2⟩ := ih.more h (ta ++ mid) (.more ha h1)
          exact ⟨mid ++ m2, by simp, by rw [← List.append_assoc]; exact h2⟩
        · cases h

/-! ## Programs -/

theorem stmt_parse {st : Stmt} {ts : List Tok} (h : StmtText .stmt st ts) {f : Nat} (hf : 2 * ts.length ≤ f)
    (rest : List Tok) : parseStmt f (ts ++ rest) = some (st, rest) :=
  stmt_read h f rest hf

theorem stmt_label {st : Stmt} {name : Str} {ts : List Tok} (h : StmtText .stmt st (.label name :: ts)) :
    ts.head? = some .assign ∨ ts.head? = some .equ := by
  generalize hk : Tok.label name :: ts = k at h
  generalize hp : Part.stmt = p at h
  cases h with
  | line l h =>
    cases h with
    | assign hn hq h =>
      cases hq
      · cases hk
        exact .inl rfl
      · cases hk
        exact .inr rfl
    | _ => cases hk
  | one h => cases hp
  | more ha hb => cases hp
  | _ => cases hk

theorem top_parse {file : Str} {t : Top} {ts : List Tok} (h : TopText file t ts) (rest : List Tok) :
    parseTop file (ts ++ rest) = some (t, rest) := by
  cases h with
  | @stmt st ts h =>
    have key := stmt_parse h (f := 3 * (ts ++ rest).length) (by rw [List.length_append]; omega) rest
    obtain ⟨l, hl⟩ := stmt_eol h
    have he : firstEol (ts ++ rest) = lineOf ts := by rw [lineOf_eq, lineOf_append ts rest hl]
    unfold parseTop
    split
    · next name r hr =>
      have hh : r.head? = some .assign ∨ r.head? = some .equ := by
        obtain ⟨u, us, rfl, _⟩ := stmt_opens h
        rw [List.cons_append] at hr
        cases hr
        rcases stmt_label h with h' | h' <;> cases us <;> first | (cases h'; done) | (cases h'; simp)
      rw [if_pos hh, key, he]
    · rw [key, he]
  | @labelled name st ts h =>
    have key := stmt_parse h (f := 3 * (.label name :: ts ++ rest).length)
      (by rw [List.length_append, List.length_cons]; omega) rest
    obtain ⟨l, hl⟩ := stmt_eol h
    have he : firstEol (.label name :: (ts ++ rest)) = lineOf ts := by
      rw [lineOf_eq]
      exact lineOf_append ts rest hl
    obtain ⟨u, us, rfl, ho⟩ := stmt_opens h
    unfold parseTop
    simp only [List.cons_append] at key he ⊢
    have hne : ¬((u :: (us ++ rest)).head? = some Tok.assign ∨ (u :: (us ++ rest)).head? = some Tok.equ) := by
      rintro (h' | h') <;> cases h' <;> cases ho
    rw [if_neg hne, key, he]

theorem top_sound {file : Str} {t : Top} {ts rest : List Tok} (h : parseTop file ts = some (t, rest)) :
    ∃ mid, ts = mid ++ rest ∧ TopText file t mid := by
  have plain : ∀ {f}, (match parseStmt f ts with
      | some (st, r') => some (Top.stmt file (firstEol ts) st, r')
      | none => none) = some (t, rest) → ∃ mid, ts = mid ++ rest ∧ TopText file t mid := by
    intro f h
    split at h
    · next st r hs =>
      cases h
      obtain ⟨mid, rfl, h1⟩ := (sound _).stmt hs
      obtain ⟨l, hl⟩ := stmt_eol h1
      rw [lineOf_eq, lineOf_append mid _ hl]
      exact ⟨mid, rfl, .stmt h1⟩
    · cases h
  unfold parseTop at h
  split at h
  · split at h
    · exact plain h
    · split at h
      · next st r hs =>
        cases h
        obtain ⟨mid, rfl, h1⟩ := (sound _).stmt hs
        obtain ⟨l, hl⟩ := stmt_eol h1
        rw [lineOf_eq, lineOf, lineOf_append mid _ hl]
        · exact ⟨_ :: mid, rfl, .labelled _ h1⟩
        · simp
      · cases h
  · exact plain h

theorem top_nonempty {file : Str} {t : Top} {ts : List Tok} (h : TopText file t ts) : 0 < ts.length := by
  cases h with
  | stmt h =>
    obtain ⟨u, us, rfl, _⟩ := stmt_opens h
    simp
  | labelled name h => simp

theorem program_parse {file : Str} {l : List Top} {ts : List Tok} (h : ProgText file l ts) :
    ∀ f, ts.length ≤ f → parseProgram file f ts = some l := by
  induction h with
  | nil =>
    intro f _
    cases f <;> rfl
  | @cons t l tt tl h hl ih =>
    intro f hf
    have h0 := top_nonempty h
    rw [List.length_append] at hf
    obtain ⟨f, rfl⟩ : ∃ g, f = g + 1 := ⟨f - 1, by omega⟩
    have h1 := top_parse h tl
    rw [parseProgram]
    · rw [h1]
      simp only []
      rw [ih f (by omega)]
    · intro hn
      have := congrArg List.length hn
      rw [List.length_append, List.length_nil] at this
      omega

theorem program_sound {file : Str} : ∀ (f : Nat) {ts : List Tok} {l : List Top}, parseProgram file f ts = some l →
    ProgText file l ts
  | f, [], l, h => by
    have : l = [] := by
      cases f <;> cases h <;> rfl
    subst this
    exact .nil
  | 0, _ :: _, l, h => by cases h
  | f + 1, t :: ts, l, h => by
    rw [parseProgram] at h
    · split at h
      · next x r hx =>
        split at h
        · next l' hl =>
          cases h
          obtain ⟨mid, h1, h2⟩ := top_sound hx
          rw [h1]
          exact .cons h2 (program_sound f hl)
        · cases h
      · cases h
    · simp

end Verif
