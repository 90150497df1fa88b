import Verif.Lemmas.Grammar

/-! # Property C52: the grammar of expressions -/

namespace Verif

open Spec

/-- **C52.**  The parser accepts exactly the texts in which the expression can be written under the table of operator
levels, and builds exactly that expression, leaving the tokens behind the expression unread. -/
theorem C52_parse (e : Expr) (ts rest : List Tok) (hr : Ends rest) :
    parseExpr (ts ++ rest) = some (e, rest) ↔ ∃ l o, WrittenAs e l o ts := by
  constructor
  · intro h
    obtain ⟨l, o, mid, h1, h2⟩ := (parse_sound _ _ (Nat.le_refl _) [] [] .nil e rest).1 h
    rw [List.append_cancel_right h1]
    exact ⟨l, o, h2⟩
  · rintro ⟨l, o, h⟩
    have hs : Stop rest := by
      match rest, hr with
      | [], _ => trivial
      | _ :: _, hr => exact ⟨hr.2.1, hr.2.2.2⟩
    obtain ⟨fr, e', h1, h2, h3⟩ := written_parse h [] rest trivial hs
    unfold parseExpr
    rw [h1]
    have key : reduceAll (fr ++ []) e' = ([], e) := by
      rw [reduceAll_fold fr e' h3, h2]
      rfl
    match rest, hr with
    | [], _ => rw [parseRest, key]
    | t :: ts2, hr =>
      rw [parseRest]
      have hb : t.bin? = none := by
        cases hb : t.bin? with
        | none => rfl
        | some o => exact absurd (bin_binTok hb) (hr.1 o)
      simp only [hb]
      rw [if_neg hr.2.2.1, key]

/-- `a + b * (c - 1) << 2`, at the end of a line. -/
example : Ends [.eol 2] ∧
    WrittenAs (.bin .shl (.bin .add (.sym [97]) (.bin .mul (.sym [98]) (.bin .sub (.sym [99]) (.int 1)))) (.int 2)) 0 false
      ([.sym [97], .plus, .sym [98], .star, .lpar, .sym [99], .minus, .int 1, .rpar] ++ .shl :: [.int 2]) :=
  ⟨⟨fun o => by cases o <;> decide, by decide, by decide, fun v h => by cases h⟩,
    .bin (op := .shl) (ta := [.sym [97], .plus, .sym [98], .star, .lpar, .sym [99], .minus, .int 1, .rpar])
      (.bin (op := .add) (ta := [.sym [97]]) (.sym _) (by decide)
        (.bin (op := .mul) (ta := [.sym [98]]) (.sym _) (by decide)
          (.par (ts := [.sym [99], .minus, .int 1]) (.bin (op := .sub) (ta := [.sym [99]]) (.sym _) (by decide) (.int 1)
            (by decide))) (by decide)) (by decide))
      (by decide) (.int 2) (by decide)⟩

/-- **C52**: no text has two readings. -/
theorem C52_unambiguous {e1 e2 : Expr} {l1 l2 : Nat} {o1 o2 : Bool} {ts : List Tok} (h1 : WrittenAs e1 l1 o1 ts)
    (h2 : WrittenAs e2 l2 o2 ts) : e1 = e2 := by
  have g1 := (C52_parse e1 ts [] trivial).2 ⟨_, _, h1⟩
  have g2 := (C52_parse e2 ts [] trivial).2 ⟨_, _, h2⟩
  rw [g1] at g2
  cases g2
  rfl

example : WrittenAs (.un .lo (.bin .add .pc (.int 1))) levels.length true [.lt, .star, .plus, .int 1] :=
  .un rfl (.bin (op := .add) (ta := [.star]) .pc (by decide) (.int 1) (by decide))

/-- **C52**: every expression can be written. -/
theorem C52_every (e : Expr) : ∃ l o ts, WrittenAs e l o ts := by
  induction e with
  | int v => exact ⟨_, _, _, .int v⟩
  | sym name => exact ⟨_, _, _, .sym name⟩
  | pc => exact ⟨_, _, _, .pc⟩
  | un op e ih =>
    obtain ⟨l, o, ts, h⟩ := ih
    cases op
    · exact ⟨_, _, _, .negPar h⟩
    all_goals exact ⟨_, _, _, .un rfl h⟩
  | bin op a b iha ihb =>
    obtain ⟨_, _, _, ha⟩ := iha
    obtain ⟨_, _, _, hb⟩ := ihb
    exact ⟨_, _, _, .bin (.par ha) (Nat.le_of_lt (level_lt op)) (.par hb) (level_lt op)⟩

/-- **C52**: a minus sign before a name is not an expression. -/
theorem C52_no_minus_name (name : Str) : ¬ ∃ e l o, WrittenAs e l o [.minus, .sym name] := by
  rintro ⟨e, l, o, h⟩
  have := (C52_parse e [.minus, .sym name] [] trivial).2 ⟨l, o, h⟩
  simp [parseExpr, parseOperand, parseRest, Tok.bin?, reduceAll] at this

/-- **C52**: the levels differ from those of C.  `1 << 2 == 4` shifts by the result of the comparison, and
`a == 1 && b == 2` compares the conjunction with 2. -/
theorem C52_unlike_c (a b : Str) :
    parseExpr [.int 1, .shl, .int 2, .eq, .int 4] = some (.bin .shl (.int 1) (.bin .eq (.int 2) (.int 4)), []) ∧
    parseExpr [.sym a, .eq, .int 1, .and, .sym b, .eq, .int 2] =
      some (.bin .eq (.bin .land (.bin .eq (.sym a) (.int 1)) (.sym b)) (.int 2), []) ∧
    parseExpr [.not, .sym a, .and, .sym b] = some (.un .lnot (.bin .land (.sym a) (.sym b)), []) := by
  refine ⟨?_, ?_, ?_⟩ <;>
  simp [parseExpr, parseOperand, parseRest, Tok.bin?, reduceAll, reduceTo, BinOp.prec]

end Verif
