import Verif.Model.Lex

/-! # Specification: what patterns match -/

namespace Verif.Spec

/-- The texts a pattern stands for. -/
inductive Matches : Re → Str → Prop where
  | eps : Matches .eps []
  | chr {p : Nat → Bool} {c : Nat} (h : p c = true) : Matches (.chr p) [c]
  | seq {a b : Re} {u v : Str} (hu : Matches a u) (hv : Matches b v) : Matches (.seq a b) (u ++ v)
  | left {a b : Re} {u : Str} (h : Matches a u) : Matches (.alt a b) u
  | right {a b : Re} {u : Str} (h : Matches b u) : Matches (.alt a b) u
  | nil {a : Re} : Matches (.star a) []
  | more {a : Re} {u v : Str} (hu : Matches a u) (hv : Matches (.star a) v) : Matches (.star a) (u ++ v)

/-- The rule chosen for a text by its position in the list: it matches `n` characters, no rule matches more, and no
earlier rule matches as many. -/
structure Chosen (rules : List (Re × LexAct)) (s : Str) (i n : Nat) : Prop where
  /-- the rule is in the list -/
  rule : i < rules.length
  /-- it matches this many characters -/
  fits : n ≤ s.length
  /-- … -/
  matched : Matches (rules[i]'rule).1 (s.take n)
  /-- no rule matches more -/
  longest : ∀ j (h : j < rules.length) m, m ≤ s.length → Matches (rules[j]'h).1 (s.take m) → m ≤ n
  /-- no earlier rule matches as much -/
  first : ∀ j (h : j < i), ¬ Matches (rules[j]'(Nat.lt_trans h rule)).1 (s.take n)

end Verif.Spec
