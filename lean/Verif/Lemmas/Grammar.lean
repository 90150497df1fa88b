import Verif.Spec.Grammar

/-! # The expression parser and the way expressions are written -/

namespace Verif

open Spec

theorem prec_level (o : BinOp) : o.prec = level o + 1 := by cases o <;> decide

theorem level_lt (o : BinOp) : level o < levels.length := by cases o <;> decide

theorem binTok_bin (o : BinOp) : (binTok o).bin? = some o := by cases o <;> rfl

theorem bin_binTok {t : Tok} {o : BinOp} (h : t.bin? = some o) : t = binTok o := by
  cases t <;> first | (cases h; done) | (cases h; rfl)

/-- Frames reduced onto an expression. -/
def foldFrames : List PFrame → Expr → Expr
  | .bin a o :: fr, e => foldFrames fr (.bin o a e)
  | .un o :: fr, e => foldFrames fr (.un o e)
  | _, e => e

/-- Frames inside a text of level `l`. -/
def Inner (l : Nat) (o : Bool) : PFrame → Prop
  | .bin _ op => o = true ∨ l ≤ level op
  | .un _ => o = true
  | _ => False

/-- The stack does not take a text of level `l` apart. -/
def OpenAt (l : Nat) : List PFrame → Prop
  | .bin _ o :: _ => level o < l
  | _ => True

/-- What may follow an operand. -/
def Stop : List Tok → Prop
  | [] => True
  | t :: _ => t ≠ .lpar ∧ ∀ v, t ≠ .int v

theorem reduceAll_fold {l : Nat} {o : Bool} {st : List PFrame} : ∀ (fr : List PFrame) (e : Expr),
    (∀ f ∈ fr, Inner l o f) → reduceAll (fr ++ st) e = reduceAll st (foldFrames fr e)
  | [], _, _ => rfl
  | .bin _ _ :: fr, _, h => reduceAll_fold fr _ fun f hf => h f (List.mem_cons_of_mem _ hf)
  | .un _ :: fr, _, h => reduceAll_fold fr _ fun f hf => h f (List.mem_cons_of_mem _ hf)
  | .par :: _, _, h => (h .par (by simp)).elim
  | .neg :: _, _, h => (h .neg (by simp)).elim

theorem reduceTo_fold {l p : Nat} {st : List PFrame} (hp : p ≤ l + 1) : ∀ (fr : List PFrame) (e : Expr),
    (∀ f ∈ fr, Inner l false f) → reduceTo p (fr ++ st) e = reduceTo p st (foldFrames fr e)
  | [], _, _ => rfl
  | .bin a o :: fr, e, h => by
    have h1 : l ≤ level o := (h (.bin a o) (by simp)).resolve_left (by decide)
    rw [List.cons_append, reduceTo, if_pos (by rw [prec_level]; omega)]
    exact reduceTo_fold hp fr _ fun f hf => h f (List.mem_cons_of_mem _ hf)
  | .un o :: _, _, h => nomatch (h (.un o) (by simp) : false = true)
  | .par :: _, _, h => (h .par (by simp)).elim
  | .neg :: _, _, h => (h .neg (by simp)).elim

theorem reduceTo_open {l : Nat} {st : List PFrame} (e : Expr) (h : OpenAt l st) : reduceTo (l + 1) st e = (st, e) := by
  match st, h with
  | .bin a o :: st, h =>
    have h : level o < l := h
    rw [reduceTo, if_neg (by rw [prec_level]; omega)]
  | .un _ :: _, _ => rfl
  | .par :: _, _ => rfl
  | .neg :: _, _ => rfl
  | [], _ => rfl

theorem OpenAt.mono {l m : Nat} {st : List PFrame} (h : OpenAt l st) (hl : l ≤ m) : OpenAt m st := by
  match st, h with
  | .bin a o :: st, h =>
    have h : level o < l := h
    exact (by omega : level o < m)
  | .un _ :: _, _ => trivial
  | .par :: _, _ => trivial
  | .neg :: _, _ => trivial
  | [], _ => trivial

theorem Inner.mono {l m : Nat} {o : Bool} {f : PFrame} (h : Inner l o f) (hl : m ≤ l) : Inner m o f := by
  cases f with
  | bin a op => exact h.imp id (Nat.le_trans hl)
  | un op => exact h
  | par => exact h
  | neg => exact h

theorem not_stop {ts : List Tok} (h : ¬Stop ts) : (∃ v ts2, ts = .int v :: ts2) ∨ ∃ ts2, ts = .lpar :: ts2 := by
  match ts, h with
  | [], h => exact absurd trivial h
  | t :: ts2, h =>
    by_cases h1 : t = .lpar
    · exact .inr ⟨ts2, by rw [h1]⟩
    · by_cases h2 : ∀ v, t ≠ .int v
      · exact absurd ⟨h1, h2⟩ h
      · obtain ⟨v, hv⟩ := Classical.not_forall.1 h2
        exact .inl ⟨v, ts2, by rw [Classical.not_not.1 hv]⟩

theorem stop_binTok (o : BinOp) (ts : List Tok) : Stop (binTok o :: ts) := by
  cases o <;> exact ⟨(by decide), fun v h => (by cases h)⟩

theorem parse_minus {st : List PFrame} {rest : List Tok} (h : Stop rest) :
    parseOperand st (.minus :: rest) = parseRest st (.sym [45]) rest := by
  match rest, h with
  | [], _ => rw [parseOperand] <;> simp
  | t :: ts, h =>
    rw [parseOperand]
    · rintro v ts' h'
      cases h'
      exact h.2 v rfl
    · rintro ts' h'
      cases h'
      exact h.1 rfl

theorem parse_bin {st : List PFrame} {e : Expr} (o : BinOp) (ts : List Tok) :
    parseRest st e (binTok o :: ts) =
      parseOperand (.bin (reduceTo o.prec st e).2 o :: (reduceTo o.prec st e).1) ts := by
  rw [parseRest, binTok_bin]

theorem parse_rpar {st : List PFrame} {e : Expr} (ts : List Tok) :
    parseRest st e (.rpar :: ts) =
      match reduceAll st e with
        | (.par :: st', e') => parseRest st' e' ts
        | (.neg :: st', e') => parseRest st' (.un .neg e') ts
        | ([], e') => some (e', .rpar :: ts)
        | _ => none := by
  rw [parseRest]
  simp only [Tok.bin?, if_true]
  rfl

theorem foldFrames_append {l : Nat} {o : Bool} {g : List PFrame} : ∀ (fr : List PFrame) (x : Expr),
    (∀ f ∈ fr, Inner l o f) → foldFrames (fr ++ g) x = foldFrames g (foldFrames fr x)
  | [], _, _ => rfl
  | .bin _ _ :: fr, _, h => foldFrames_append fr _ fun f hf => h f (List.mem_cons_of_mem _ hf)
  | .un _ :: fr, _, h => foldFrames_append fr _ fun f hf => h f (List.mem_cons_of_mem _ hf)
  | .par :: _, _, h => (h .par (by simp)).elim
  | .neg :: _, _, h => (h .neg (by simp)).elim

/-- Reading a written expression. -/
theorem written_parse {e : Expr} {l : Nat} {o : Bool} {ts : List Tok} (h : WrittenAs e l o ts) :
    ∀ (st : List PFrame) (rest : List Tok), OpenAt l st → Stop rest →
      ∃ fr e', parseOperand st (ts ++ rest) = parseRest (fr ++ st) e' rest ∧ foldFrames fr e' = e ∧
        ∀ f ∈ fr, Inner l o f := by
  induction h with
  | int v => exact fun st rest _ _ => ⟨[], .int v, by rw [List.cons_append, parseOperand]; rfl, rfl, by simp⟩
  | sym name => exact fun st rest _ _ => ⟨[], .sym name, by rw [List.cons_append, parseOperand]; rfl, rfl, by simp⟩
  | pc => exact fun st rest _ _ => ⟨[], .pc, by rw [List.cons_append, parseOperand]; rfl, rfl, by simp⟩
  | plus => exact fun st rest _ _ => ⟨[], .sym [43], by rw [List.cons_append, parseOperand]; rfl, rfl, by simp⟩
  | minus => exact fun st rest _ hr => ⟨[], .sym [45], parse_minus hr, rfl, by simp⟩
  | @par e l o ts h ih =>
    intro st rest _ hr
    obtain ⟨fr, e', h1, h2, h3⟩ := ih (.par :: st) (.rpar :: rest) trivial ⟨by decide, fun v h => by cases h⟩
    refine ⟨[], e, ?_, rfl, by simp⟩
    rw [List.cons_append, parseOperand, List.append_assoc, List.singleton_append, h1, parse_rpar,
      reduceAll_fold fr e' h3, h2]
    rfl
  | negInt v => exact fun st rest _ _ => ⟨[], .un .neg (.int v), by
      rw [List.cons_append, List.cons_append, parseOperand]; rfl, rfl, by simp⟩
  | @negPar e l o ts h ih =>
    intro st rest _ hr
    obtain ⟨fr, e', h1, h2, h3⟩ := ih (.neg :: st) (.rpar :: rest) trivial ⟨by decide, fun v h => by cases h⟩
    refine ⟨[], .un .neg e, ?_, rfl, by simp⟩
    rw [List.cons_append, List.cons_append, parseOperand, List.append_assoc, List.singleton_append, h1, parse_rpar,
      reduceAll_fold fr e' h3, h2]
    rfl
  | @un op t e l o ts ht h ih =>
    intro st rest _ hr
    obtain ⟨fr, e', h1, h2, h3⟩ := ih (.un op :: st) rest trivial hr
    refine ⟨fr ++ [.un op], e', ?_, ?_, ?_⟩
    · rw [List.append_assoc, List.singleton_append, ← h1, List.cons_append]
      cases op <;> cases ht <;> rw [parseOperand]
    · rw [foldFrames_append fr e' h3, h2]
      rfl
    · intro f hf
      rcases List.mem_append.1 hf with hf | hf
      · have := h3 f hf
        cases f with
        | bin a q => exact .inl rfl
        | un q => rfl
        | par => exact this.elim
        | neg => exact this.elim
      · cases List.mem_singleton.1 hf
        rfl
  | @bin op a b la lb o ta tb ha hla hb hlb iha ihb =>
    intro st rest hst hr
    obtain ⟨fa, ea, a1, a2, a3⟩ := iha st (binTok op :: (tb ++ rest)) (hst.mono hla) (stop_binTok _ _)
    have key : reduceTo op.prec (fa ++ st) ea = (st, a) := by
      rw [prec_level, reduceTo_fold (l := la) (by omega) fa ea a3, a2, reduceTo_open _ hst]
    obtain ⟨fb, eb, b1, b2, b3⟩ := ihb (.bin a op :: st) rest hlb hr
    refine ⟨fb ++ [.bin a op], eb, ?_, ?_, ?_⟩
    · rw [List.append_assoc, List.cons_append, a1, parse_bin, key, List.append_assoc, List.singleton_append, ← b1]
    · rw [foldFrames_append fb eb b3, b2]
      rfl
    · intro f hf
      rcases List.mem_append.1 hf with hf | hf
      · exact (b3 f hf).mono (by omega)
      · cases List.mem_singleton.1 hf
        exact .inr (Nat.le_refl _)

/-! ## Soundness -/

/-- The tokens behind a stack. -/
inductive StackReads : List PFrame → List Tok → Prop where
  | nil : StackReads [] []
  | bin {st : List PFrame} {ts ta : List Tok} {a : Expr} {la : Nat} {o : BinOp} (h : StackReads st ts)
      (ha : WrittenAs a la false ta) (hla : level o ≤ la) (ho : OpenAt (level o) st) :
      StackReads (.bin a o :: st) (ts ++ (ta ++ [binTok o]))
  | un {st : List PFrame} {ts : List Tok} {o : UnOp} {t : Tok} (h : StackReads st ts) (ht : unTok o = some t) :
      StackReads (.un o :: st) (ts ++ [t])
  | par {st : List PFrame} {ts : List Tok} (h : StackReads st ts) : StackReads (.par :: st) (ts ++ [.lpar])
  | neg {st : List PFrame} {ts : List Tok} (h : StackReads st ts) : StackReads (.neg :: st) (ts ++ [.minus, .lpar])

theorem openAt_top (st : List PFrame) : OpenAt levels.length st := by
  match st with
  | .bin _ o :: _ => exact level_lt o
  | .un _ :: _ => trivial
  | .par :: _ => trivial
  | .neg :: _ => trivial
  | [] => trivial

theorem reduceTo_sound {q : Nat} {st : List PFrame} {ts : List Tok} (h : StackReads st ts) :
    ∀ {e : Expr} {l : Nat} {te : List Tok}, WrittenAs e l false te → OpenAt l st → q ≤ l →
      ∃ l' ts' te', StackReads (reduceTo (q + 1) st e).1 ts' ∧ WrittenAs (reduceTo (q + 1) st e).2 l' false te' ∧
        ts ++ te = ts' ++ te' ∧ OpenAt q (reduceTo (q + 1) st e).1 ∧ q ≤ l' := by
  induction h with
  | nil => exact fun {e l te} he _ hq => ⟨l, [], te, .nil, he, rfl, trivial, hq⟩
  | @bin st ts ta a la o h ha hla ho ih =>
    intro e l te he hop hq
    have hop : level o < l := hop
    rw [reduceTo, prec_level]
    by_cases hc : q + 1 ≤ level o + 1
    · rw [if_pos hc]
      obtain ⟨l', ts', te', h1, h2, h3, h4, h5⟩ := ih (.bin ha hla he hop) ho (by omega)
      refine ⟨l', ts', te', h1, h2, ?_, h4, h5⟩
      rw [← h3]
      simp
    · rw [if_neg hc]
      exact ⟨l, _, te, .bin h ha hla ho, he, rfl, (by omega : level o < q), hq⟩
  | @un st ts o t h ht ih => exact fun {e l te} he _ hq => ⟨l, _, te, .un h ht, he, rfl, trivial, hq⟩
  | @par st ts h ih => exact fun {e l te} he _ hq => ⟨l, _, te, .par h, he, rfl, trivial, hq⟩
  | @neg st ts h ih => exact fun {e l te} he _ hq => ⟨l, _, te, .neg h, he, rfl, trivial, hq⟩

theorem reduceAll_sound {st : List PFrame} {ts : List Tok} (h : StackReads st ts) :
    ∀ {e : Expr} {l : Nat} {o : Bool} {te : List Tok}, WrittenAs e l o te → OpenAt l st →
      ∃ l' o' ts' te', StackReads (reduceAll st e).1 ts' ∧ WrittenAs (reduceAll st e).2 l' o' te' ∧ ts ++ te = ts' ++ te' := by
  induction h with
  | nil => exact fun {e l o te} he _ => ⟨l, o, [], te, .nil, he, rfl⟩
  | @bin st ts ta a la o h ha hla ho ih =>
    intro e l o' te he hop
    obtain ⟨l', o', ts', te', h1, h2, h3⟩ := ih (.bin ha hla he hop) ho
    refine ⟨l', o', ts', te', h1, h2, ?_⟩
    rw [← h3]
    simp
  | @un st ts o t h ht ih =>
    intro e l o' te he hop
    obtain ⟨l', o', ts', te', h1, h2, h3⟩ := ih (.un ht he) (openAt_top _)
    refine ⟨l', o', ts', te', h1, h2, ?_⟩
    rw [← h3]
    simp
  | @par st ts h ih => exact fun {e l o te} he _ => ⟨l, o, _, te, .par h, he, rfl⟩
  | @neg st ts h ih => exact fun {e l o te} he _ => ⟨l, o, _, te, .neg h, he, rfl⟩

/-- The tokens read are a way to write the result. -/
theorem parse_sound (n : Nat) : ∀ (ts : List Tok), ts.length ≤ n → ∀ (st : List PFrame) (pre : List Tok), StackReads st pre →
    ∀ (e : Expr) (rest : List Tok),
    (parseOperand st ts = some (e, rest) → ∃ l o mid, ts = mid ++ rest ∧ WrittenAs e l o (pre ++ mid)) ∧
    ∀ (x : Expr) (tx : List Tok), WrittenAs x levels.length false tx → parseRest st x ts = some (e, rest) →
      ∃ l o mid, ts = mid ++ rest ∧ WrittenAs e l o (pre ++ tx ++ mid) := by
  induction n with
  | zero =>
    intro ts hn st pre hst e rest
    cases List.length_eq_zero_iff.1 (Nat.le_zero.1 hn)
    constructor
    · intro h
      simp only [parseOperand] at h
      cases h
    · intro x tx hx h
      rw [parseRest] at h
      obtain ⟨l, o, ts', te', h1, h2, h3⟩ := reduceAll_sound hst hx (openAt_top _)
      generalize reduceAll st x = r at h h1 h2
      obtain ⟨st', e'⟩ := r
      match st', h with
      | [], h =>
        cases h
        cases h1
        exact ⟨l, o, [], rfl, by rw [List.append_nil, h3]; exact h2⟩
  | succ n ih =>
    intro ts hn st pre hst e rest
    have atom : ∀ (k : List Tok) (ts2 : List Tok) (x : Expr), ts = k ++ ts2 → ts2.length ≤ n →
        WrittenAs x levels.length false k → parseRest st x ts2 = some (e, rest) →
        ∃ l o mid, ts = mid ++ rest ∧ WrittenAs e l o (pre ++ mid) := by
      intro k ts2 x hts hl hw h
      obtain ⟨l, o, mid, h1, h2⟩ := (ih ts2 hl st pre hst e rest).2 x k hw h
      exact ⟨l, o, k ++ mid, by rw [hts, h1, List.append_assoc], by rw [← List.append_assoc]; exact h2⟩
    have push : ∀ (k : List Tok) (ts2 : List Tok) (st2 : List PFrame), ts = k ++ ts2 → ts2.length ≤ n →
        StackReads st2 (pre ++ k) → parseOperand st2 ts2 = some (e, rest) →
        ∃ l o mid, ts = mid ++ rest ∧ WrittenAs e l o (pre ++ mid) := by
      intro k ts2 st2 hts hl hw h
      obtain ⟨l, o, mid, h1, h2⟩ := (ih ts2 hl st2 _ hw e rest).1 h
      exact ⟨l, o, k ++ mid, by rw [hts, h1, List.append_assoc], by rw [← List.append_assoc]; exact h2⟩
    constructor
    · intro h
      match ts, hn, h with
      | .int v :: ts2, hn, h =>
        rw [parseOperand] at h
        exact atom [.int v] ts2 _ rfl (Nat.le_of_succ_le_succ hn) (.int v) h
      | .sym name :: ts2, hn, h =>
        rw [parseOperand] at h
        exact atom [.sym name] ts2 _ rfl (Nat.le_of_succ_le_succ hn) (.sym name) h
      | .star :: ts2, hn, h =>
        rw [parseOperand] at h
        exact atom [.star] ts2 _ rfl (Nat.le_of_succ_le_succ hn) .pc h
      | .plus :: ts2, hn, h =>
        rw [parseOperand] at h
        exact atom [.plus] ts2 _ rfl (Nat.le_of_succ_le_succ hn) .plus h
      | .lpar :: ts2, hn, h =>
        rw [parseOperand] at h
        exact push [.lpar] ts2 _ rfl (Nat.le_of_succ_le_succ hn) (.par hst) h
      | .tilde :: ts2, hn, h =>
        rw [parseOperand] at h
        exact push [.tilde] ts2 _ rfl (Nat.le_of_succ_le_succ hn) (.un hst rfl) h
      | .lt :: ts2, hn, h =>
        rw [parseOperand] at h
        exact push [.lt] ts2 _ rfl (Nat.le_of_succ_le_succ hn) (.un hst rfl) h
      | .gt :: ts2, hn, h =>
        rw [parseOperand] at h
        exact push [.gt] ts2 _ rfl (Nat.le_of_succ_le_succ hn) (.un hst rfl) h
      | .not :: ts2, hn, h =>
        rw [parseOperand] at h
        exact push [.not] ts2 _ rfl (Nat.le_of_succ_le_succ hn) (.un hst rfl) h
      | .minus :: ts2, hn, h =>
        by_cases hs : Stop ts2
        · rw [parse_minus hs] at h
          exact atom [.minus] ts2 _ rfl (Nat.le_of_succ_le_succ hn) .minus h
        · rcases not_stop hs with ⟨v, ts3, rfl⟩ | ⟨ts3, rfl⟩
          · rw [parseOperand] at h
            exact atom [.minus, .int v] ts3 _ rfl (by simp at hn; omega) (.negInt v) h
          · rw [parseOperand] at h
            exact push [.minus, .lpar] ts3 _ rfl (by simp at hn; omega) (.neg hst) h
    · intro x tx hx h
      match ts, hn, h with
      | [], hn, h => exact (ih [] (by simp) st pre hst e rest).2 x tx hx h
      | t :: ts2, hn, h =>
        have hn2 : ts2.length ≤ n := Nat.le_of_succ_le_succ hn
        rw [parseRest] at h
        cases hb : t.bin? with
        | some o =>
          simp only [hb, prec_level] at h
          cases bin_binTok hb
          obtain ⟨l', ts', te', h1, h2, h3, h4, h5⟩ := reduceTo_sound (q := level o) hst hx (openAt_top _)
            (Nat.le_of_lt (level_lt o))
          obtain ⟨l, o', mid, g1, g2⟩ := (ih ts2 hn2 _ _ (.bin h1 h2 h5 h4) e rest).1 h
          refine ⟨l, o', binTok o :: mid, by rw [g1]; rfl, ?_⟩
          rw [h3]
          simpa using g2
        | none =>
          simp only [hb] at h
          obtain ⟨l, o, ts', te', h1, h2, h3⟩ := reduceAll_sound hst hx (openAt_top _)
          generalize reduceAll st x = r at h h1 h2
          obtain ⟨st', e'⟩ := r
          by_cases hr : t = .rpar
          · rw [if_pos hr] at h
            subst hr
            match st', h, h1 with
            | .par :: st', h, .par h1 =>
              obtain ⟨l2, o2, mid, g1, g2⟩ := (ih ts2 hn2 st' _ h1 e rest).2 _ _ (.par h2) h
              refine ⟨l2, o2, .rpar :: mid, by rw [g1]; rfl, ?_⟩
              rw [h3]
              simpa using g2
            | .neg :: st', h, .neg h1 =>
              obtain ⟨l2, o2, mid, g1, g2⟩ := (ih ts2 hn2 st' _ h1 e rest).2 _ _ (.negPar h2) h
              refine ⟨l2, o2, .rpar :: mid, by rw [g1]; rfl, ?_⟩
              rw [h3]
              simpa using g2
            | [], h, .nil =>
              cases h
              exact ⟨l, o, [], rfl, by rw [List.append_nil, h3]; exact h2⟩
          · rw [if_neg hr] at h
            match st', h, h1 with
            | [], h, .nil =>
              cases h
              exact ⟨l, o, [], rfl, by rw [List.append_nil, h3]; exact h2⟩

end Verif
