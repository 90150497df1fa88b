import Verif.Lemmas.Statements

/-! # Property C54: the grammar of statements -/

namespace Verif

open Spec

/-- **C54.**  A token sequence is accepted exactly if it is a written program, and the statements are those of the
writing, each with its line. -/
theorem C54_program (file : Str) (ts : List Tok) (l : List Top) :
    parseProgram file ts.length ts = some l ↔ ProgText file l ts :=
  ⟨program_sound _, fun h => program_parse h _ (Nat.le_refl _)⟩

/-- `.if a`, an instruction with the operand `(v)`, `.endif`; then a label with `.byte 1, "x"`. -/
example : ProgText [112] [.stmt [112] 2 (.ifThen (.sym [97]) (.seq (.at 2 .empty) (.at 3 (.op 30 .ind (some (.sym [118])))))),
      .labelled [112] 5 [98] (.data 1 (.expr (.int 1)) [.str [34, 120, 34]])]
    ([.if, .sym [97], .eol 2, .opcode 30, .lpar, .sym [118], .rpar, .eol 3, .endIf, .eol 4] ++
      ([.label [98], .byte, .int 1, .comma, .str [34, 120, 34], .eol 5] ++ [])) :=
  .cons (.stmt (.ifThen (tc := [.sym [97]]) (tt := [.eol 2] ++ [.opcode 30, .lpar, .sym [118], .rpar, .eol 3]) 4 ⟨_, _, .sym _⟩
      (.more (.one (.empty 2)) (.line (ts := [.opcode 30, .lpar, .sym [118], .rpar]) 3
        (.op 30 (.indirect (ts := [.sym [118]]) ⟨_, _, .sym _⟩))))))
    (.cons (.labelled [98] (.line (ts := [.byte, .int 1, .comma, .str [34, 120, 34]]) 5
      (.byte (.some (t := [.int 1]) (u := [.comma, .str [34, 120, 34]]) (.expr ⟨_, _, .int 1⟩)
        (.cons (t := [.str [34, 120, 34]]) (.str _) .nil))))) .nil)

/-- **C54**: statements outside blocks are read one at a time; what follows has no influence on the reading. -/
theorem C54_top (file : Str) (t : Top) (ts rest : List Tok) :
    parseTop file (ts ++ rest) = some (t, rest) ↔ TopText file t ts := by
  constructor
  · intro h
    obtain ⟨mid, h1, h2⟩ := top_sound h
    rw [List.append_cancel_right h1]
    exact h2
  · exact fun h => top_parse h rest

example : TopText [] (.stmt [] 2 (.assign [97] (.bin .add .pc (.int 1)))) [.label [97], .assign, .star, .plus, .int 1, .eol 2] :=
  .stmt (.line (ts := [.label [97], .assign, .star, .plus, .int 1]) 2 (.assign (.label [97]) .sign
    ⟨_, _, .bin (op := .add) (ta := [.star]) .pc (by decide) (.int 1) (by decide)⟩))

/-- **C54**: no text has two readings, and no text of a statement is the beginning of another one. -/
theorem C54_one_reading {file : Str} {t1 t2 : Top} {a b r1 r2 : List Tok} (h1 : TopText file t1 a) (h2 : TopText file t2 b)
    (h : a ++ r1 = b ++ r2) : t1 = t2 ∧ a = b ∧ r1 = r2 := by
  have e1 := top_parse h1 r1
  have e2 := top_parse h2 r2
  rw [h, e2] at e1
  cases e1
  exact ⟨rfl, List.append_cancel_right h, rfl⟩

/-- **C54**: a program has one reading. -/
theorem C54_unambiguous {file : Str} {l1 l2 : List Top} {ts : List Tok} (h1 : ProgText file l1 ts) (h2 : ProgText file l2 ts) :
    l1 = l2 := by
  have e1 := program_parse h1 _ (Nat.le_refl _)
  have e2 := program_parse h2 _ (Nat.le_refl _)
  rw [e1] at e2
  cases e2
  rfl

/-- One statement has one reading. -/
theorem stmt_unique {s1 s2 : Stmt} {ts : List Tok} (h1 : StmtText .stmt s1 ts) (h2 : StmtText .stmt s2 ts) : s1 = s2 := by
  have e1 := stmt_parse h1 (Nat.le_refl _) []
  have e2 := stmt_parse h2 (Nat.le_refl _) []
  rw [e1] at e2
  cases e2
  rfl

/-- **C54**: an operand that is one pair of parentheses is an indirect operand, whatever is inside. -/
theorem C54_indirect (ins : Int) (e : Expr) (u : List Tok) (l : Int) (st : Stmt) (h : ExprText e u) :
    StmtText .stmt st (.opcode ins :: .lpar :: (u ++ [.rpar, .eol l])) ↔ st = .op ins .ind (some e) := by
  have key : StmtText .stmt (.op ins .ind (some e)) (.opcode ins :: .lpar :: (u ++ [.rpar, .eol l])) := by
    have := StmtText.line l (.op ins (.indirect h))
    simpa using this
  exact ⟨fun h' => stmt_unique h' key, fun h' => h' ▸ key⟩

/-- **C54**: with an operator after the parentheses the operand is an address, and the parentheses are part of the
expression. -/
theorem C54_grouping (ins : Int) (op : BinOp) (a b : Expr) (u v : List Tok) (l : Int) (st : Stmt) (ha : ExprText a u)
    (hb : ∃ lb o, WrittenAs b lb o v ∧ level op < lb) :
    StmtText .stmt st (.opcode ins :: .lpar :: (u ++ .rpar :: binTok op :: (v ++ [.eol l]))) ↔
      st = .op ins .a (some (.bin op a b)) := by
  obtain ⟨lb, o, hb, hlb⟩ := hb
  have hbare : Bare (.lpar :: (u ++ [.rpar]) ++ binTok op :: v) := by
    refine ⟨by simp, ?_⟩
    rintro x w hw hx
    have e1 := expr_parse_rpar hx []
    have e2 := expr_parse_rpar ha (binTok op :: v)
    simp only [List.cons_append, List.append_assoc, List.nil_append, List.cons.injEq, true_and] at hw
    rw [hw, e1] at e2
    cases e2
  have key : StmtText .stmt (.op ins .a (some (.bin op a b)))
      (.opcode ins :: .lpar :: (u ++ .rpar :: binTok op :: (v ++ [.eol l]))) := by
    obtain ⟨la, oa, ha⟩ := ha
    have := StmtText.line l (.op ins (.absolute (ts := .lpar :: (u ++ [.rpar]) ++ binTok op :: v)
      ⟨_, _, .bin (.par ha) (Nat.le_of_lt (level_lt op)) hb hlb⟩ hbare))
    simpa using this
  exact ⟨fun h' => stmt_unique h' key, fun h' => h' ▸ key⟩

/-- `(a)+1` -/
example : ExprText (.sym [97]) [.sym [97]] ∧ ∃ lb o, WrittenAs (.int 1) lb o [.int 1] ∧ level .add < lb :=
  ⟨⟨_, _, .sym _⟩, _, _, .int 1, by decide⟩

/-- **C54**: a pair of parentheses followed by `,X` is not a statement. -/
theorem C54_no_paren_x (ins : Int) (e : Expr) (u : List Tok) (l : Int) (h : ExprText e u) :
    ¬ ∃ st, StmtText .stmt st (.opcode ins :: .lpar :: (u ++ [.rpar, .comma, .x, .eol l])) := by
  rintro ⟨st, hs⟩
  have e1 := stmt_parse hs (Nat.le_refl _) []
  rw [List.cons_append, parseStmt_line _ _ trivial, parseSimple, List.cons_append, parseOpcode, List.append_assoc,
    List.cons_append, expr_parse_rpar h] at e1
  simp [Tok.bin?, endLine] at e1

/-- **C54**: the operands that can be written as addresses are exactly the expressions other than the program counter
alone. -/
theorem C54_address_operand (e : Expr) : (∃ ts, ExprText e ts ∧ Bare ts) ↔ e ≠ .pc := by
  constructor
  · rintro ⟨ts, ⟨l, o, h⟩, hb⟩ rfl
    cases h with
    | pc => exact hb.1 rfl
    | par h => exact hb.2 _ _ rfl ⟨_, _, h⟩
  · intro he
    cases e with
    | pc => exact absurd rfl he
    | int v => exact ⟨[.int v], ⟨_, _, .int v⟩, by simp, by simp⟩
    | sym name => exact ⟨[.sym name], ⟨_, _, .sym name⟩, by simp, by simp⟩
    | un op e =>
      obtain ⟨l, o, ts, h⟩ := C52_every e
      cases op
      · exact ⟨_, ⟨_, _, .negPar h⟩, by simp, by simp⟩
      all_goals exact ⟨_, ⟨_, _, .un rfl h⟩, by simp, by simp⟩
    | bin op a b =>
      obtain ⟨la, oa, ta, ha⟩ := C52_every a
      obtain ⟨lb, ob, tb, hb⟩ := C52_every b
      refine ⟨_, ⟨_, _, .bin (.par ha) (Nat.le_of_lt (level_lt op)) (.par hb) (level_lt op)⟩, by simp, ?_⟩
      rintro x w hw hx
      have e1 := expr_parse_rpar hx []
      have e2 := expr_parse_rpar ⟨_, _, ha⟩ (binTok op :: .lpar :: (tb ++ [.rpar]))
      simp only [List.cons_append, List.append_assoc, List.nil_append, List.cons.injEq, true_and] at hw
      rw [hw, e1] at e2
      cases e2

/-- **C54**: inside a block a line cannot begin with a label; only a definition may begin with such a word. -/
theorem C54_no_label_in_block {st : Stmt} {name : Str} {t : Tok} {ts : List Tok}
    (h : StmtText .stmt st (.label name :: t :: ts)) : Equals t ∧ ∃ e, st = .assign name e := by
  generalize hk : Tok.label name :: t :: ts = k at h
  generalize hp : Part.stmt = p at h
  cases h with
  | line l h =>
    cases h with
    | assign hn hq h =>
      cases hk
      cases hn
      exact ⟨hq, _, rfl⟩
    | _ => cases hk
  | one h => cases hp
  | more ha hb => cases hp
  | _ => cases hk

example : StmtText .stmt (.assign [97] (.int 1)) [.label [97], .equ, .int 1, .eol 3] :=
  .line (ts := [.label [97], .equ, .int 1]) 3 (.assign (.label _) .word ⟨_, _, .int 1⟩)

end Verif
