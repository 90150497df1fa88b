import Verif.Lemmas.Text
import Verif.Spec.Rows
import Verif.Lemmas.Pick
import Verif.Lemmas.Data

/-! # Reading the rows of the listing as source text -/

namespace Verif

open Spec

/-! ## Numbers -/

/-- A character printed by `%X`. -/
private def upper (c : Char) : Nat := if 97 ≤ c.toNat ∧ c.toNat ≤ 102 then c.toNat - 32 else c.toNat

private theorem digit_ok : ∀ n : Fin 16, Digit.ok 16 ⟨upper (Nat.digitChar n.val), n.val⟩ := by
  unfold Digit.ok
  decide

private theorem toDigits_digits (n : Nat) : ∃ ds : List Digit, (∀ d ∈ ds, Digit.ok 16 d) ∧ numVal 16 ds = n ∧
    (Nat.toDigits 16 n).map upper = numText ds := by
  induction n using Nat.strongRecOn with
  | _ n ih =>
    by_cases h : n < 16
    · refine ⟨[⟨upper (Nat.digitChar n), n⟩], ?_, ?_, ?_⟩
      rotate_left 2
      · rw [Nat.toDigits_of_lt_base h]
        rfl
      · intro d hd
        simp only [List.mem_singleton] at hd
        rw [hd]
        exact digit_ok ⟨n, h⟩
      · simp [numVal]
    · obtain ⟨ds, h1, h2, h3⟩ := ih (n / 16) (by omega)
      refine ⟨ds ++ [⟨upper (Nat.digitChar (n % 16)), n % 16⟩], ?_, ?_, ?_⟩
      rotate_left 2
      · rw [Nat.toDigits_of_base_le (by decide) (by omega), List.map_append, h3]
        unfold numText
        rw [List.map_append]
        rfl
      · intro d hd
        simp only [List.mem_append, List.mem_singleton] at hd
        rcases hd with hd | hd
        · exact h1 d hd
        · rw [hd]
          exact digit_ok ⟨n % 16, by omega⟩
      · unfold numVal at h2 ⊢
        rw [List.foldl_append, h2]
        simp only [List.foldl_cons, List.foldl_nil]
        omega

private theorem zeros_val (k : Nat) (ds : List Digit) : numVal 16 (List.replicate k ⟨48, 0⟩ ++ ds) = numVal 16 ds := by
  unfold numVal
  rw [List.foldl_append]
  congr 1
  induction k with
  | zero => rfl
  | succ k ih => simpa [List.replicate_succ] using ih

/-- A number as printed reads as this number. -/
theorem fmtX_digits (w : Nat) {v : Int} (h0 : 0 ≤ v) (h1 : v < 2147483648) : ∃ ds : List Digit, (∀ d ∈ ds, Digit.ok 16 d) ∧
    (numVal 16 ds : Int) = v ∧ fmtX w v = numText ds := by
  obtain ⟨ds, h2, h3, h4⟩ := toDigits_digits v.toNat
  unfold fmtX hexStr
  rw [show (v % 4294967296).toNat = v.toNat by omega]
  have h5 : (Nat.toDigits 16 v.toNat).map (fun c => if 97 ≤ c.toNat ∧ c.toNat ≤ 102 then c.toNat - 32 else c.toNat) =
      numText ds := h4
  simp only [h5]
  refine ⟨List.replicate (w - (numText ds).length) ⟨48, 0⟩ ++ ds, ?_, ?_, ?_⟩
  · intro d hd
    simp only [List.mem_append, List.mem_replicate] at hd
    rcases hd with ⟨_, rfl⟩ | hd
    · exact ⟨by decide, Or.inl ⟨by decide, rfl⟩⟩
    · exact h2 d hd
  · rw [zeros_val, h3]
    omega
  · unfold numText
    rw [List.map_append, List.map_replicate]

/-- A printed number in a source text. -/
theorem source_fmtX {isMac : Str → Bool} {known : Str → Option Bool} {C : Scan} {ts : List LexEv} {s : Str} (w : Nat) {v : Int}
    (h0 : 0 ≤ v) (h1 : v < 2147483648) {c : Nat} (hc : c < 48) (h : Source isMac known C.mid ts (c :: s)) :
    Source isMac known C (.tok (.int v) :: ts) (36 :: (fmtX w v ++ c :: s)) := by
  obtain ⟨ds, h2, h3, h4⟩ := fmtX_digits w h0 h1
  rw [h4, ← h3]
  refine .hex h2 (by omega) (next_cons ⟨by omega, fun d hd e => ?_⟩) h
  have := char_range hd
  omega

/-! ## Instructions -/

theorem instrText_is : ∀ i : Fin 118, Is (Spec.mnemonic (i.val : Nat)) (instrText (i.val : Nat)) := by decide +kernel

theorem getOpCode_ins {cpu : Cpu} {ill : Bool} {ins : Int} {m : Mode} (h : getOpCode cpu ill ins m ≠ -1) :
    0 ≤ ins ∧ ins < 118 := by
  rcases getOpCodeRaw_cases cpu ill ins m.toInt with h' | ⟨h1, h2, h3, h4, h5, h6⟩
  · simp [getOpCode, h'] at h
  · exact ⟨by omega, by omega⟩

/-- A line alone. -/
theorem Spec.LineAt.fileText {file : Str} {st : Stmt} {text : Str} (h : LineAt file 0 st text) (given : Str → Bool) :
    FileText given file [.stmt file 1 st] text := by
  obtain ⟨tt, h1, h2⟩ := h
  have := h2 (knownNames given) .fileStart [] [] .nil
  rw [List.append_nil, List.append_nil] at this
  refine ⟨_, this, ?_⟩
  have := LinesText.top h1 .nil
  rw [List.append_nil] at this
  exact this

/-- The place behind the mnemonic. -/
def midScan (n : Int) : Scan := ⟨.inside, 0, 0, 0, n, []⟩

/-- The start of the next line. -/
def nextScan (n : Int) : Scan := ⟨.lineStart, 0, 0, 0, n + 1, []⟩

/-- A line of a mnemonic and an operand. -/
theorem line_reads {file : Str} {n : Int} {ins : Int} (hi : 0 ≤ ins ∧ ins < 118) {m : Mode} {arg : Option Expr} {tt : List Tok}
    (ht : OperandText m arg tt) (hl : lineOf (tt ++ [.eol (n + 1)]) = n + 1) {opText : Str}
    (hn : ∀ rest, Next (fun c => ¬ Blank c) (opText ++ rest))
    (hs : ∀ known evs rest, Source (fun _ => false) known (nextScan n) evs rest →
      Source (fun _ => false) known (midScan n) (tt.map .tok ++ .tok (.eol (n + 1)) :: evs) (opText ++ rest)) :
    LineAt file n (.op ins m arg) (32 :: (instrText ins ++ 32 :: opText)) := by
  obtain ⟨k, rfl⟩ : ∃ k : Nat, ins = k := ⟨ins.toNat, by omega⟩
  have hn118 : k < 118 := by omega
  refine ⟨.opcode k :: tt ++ [.eol (n + 1)], ?_, ?_⟩
  · have h := TopText.stmt (file := file) (.line (n + 1) (.op k ht))
    rw [show lineOf (.opcode k :: tt ++ [.eol (n + 1)]) = n + 1 from hl] at h
    exact h
  · intro known place evs rest h
    have hw := instrText_is ⟨k, hn118⟩
    have hh : ∀ s : Str, Next (fun c => ¬ Blank c) (instrText k ++ s) := by
      have key : ∀ i : Fin 118, ((instrText (i.val : Nat)).head?.any fun c => decide (c < 256 ∧ ¬ Blank c)) = true := by
        decide +kernel
      have : ∃ c r, instrText k = c :: r ∧ c < 256 ∧ ¬ Blank c := by
        have := key ⟨k, hn118⟩
        simp only at this
        cases h : instrText k with
        | nil => rw [h] at this; cases this
        | cons c r =>
          rw [h] at this
          simp only [List.head?_cons, Option.any_some, decide_eq_true_eq] at this
          exact ⟨c, r, rfl, this⟩
      obtain ⟨c, r, e, h1, h2⟩ := this
      intro s
      rw [e]
      exact next_cons ⟨h1, h2⟩
    have e1 : (Tok.opcode k :: tt ++ [Tok.eol (n + 1)]).map LexEv.tok ++ evs =
        .tok (.opcode k) :: (tt.map .tok ++ .tok (.eol (n + 1)) :: evs) := by simp
    have e2 : 32 :: (instrText k ++ 32 :: opText) ++ rest = [32] ++ (instrText k ++ ([32] ++ (opText ++ rest))) := by simp
    rw [e1, e2]
    refine .blanks (w := [32]) (by decide) (by decide) (hh _) ?_
    refine .mnemonic hn118 hw (next_cons (by decide)) ?_
    exact .blanks (w := [32]) (by decide) (by decide) (hn rest) (hs known evs rest h)

/-- The last blank and the end of the line. -/
theorem tail_reads {isMac : Str → Bool} {known : Str → Option Bool} {n : Int} {evs : List LexEv} {rest : Str}
    (h : Source isMac known (nextScan n) evs rest) : Source isMac known (midScan n) (.tok (.eol (n + 1)) :: evs) (32 :: 10 :: rest) :=
  .blanks (w := [32]) (by decide) (by decide) (next_cons (by decide)) (.newline h)

private theorem bare_int (v : Int) : Bare [.int v] := by
  refine ⟨(by simp), fun _ _ h => ?_⟩
  cases h

/-- How an operand in this mode is written. -/
inductive WrittenIn : Spec.Form → Mode → Prop where
  | imm : WrittenIn .imm .I
  | zp : WrittenIn .dir .zp
  | abs : WrittenIn .dir .a
  | rel : WrittenIn .dir .r
  | zpx : WrittenIn .dirX .zpx
  | absX : WrittenIn .dirX .ax
  | zpy : WrittenIn .dirY .zpy
  | absY : WrittenIn .dirY .ay
  | zpi : WrittenIn .ind .zpi
  | ind : WrittenIn .ind .ind
  | izx : WrittenIn .indX .izx
  | izy : WrittenIn .indY .izy

/-- The operand column of a listing row is read as the operand. -/
theorem operand_reads {file : Str} {n : Int} {form : Spec.Form} {m : Mode} (hm : WrittenIn form m) {ins : Int}
    (hi : 0 ≤ ins ∧ ins < 118) {v : Int} (h0 : 0 ≤ v) (h1 : v < 65536) :
    LineAt file n (.op ins (Form.mode form) (some (.int v))) (32 :: (opColumn ins 1 m v ++ [10])) := by
  have hcol : opColumn ins 1 m v = instrText ins ++ 32 :: operandText m v := by
    cases hm <;> simp [opColumn, opByteCount]
  rw [hcol, List.append_assoc]
  have hv : v < 2147483648 := by omega
  have hx : ExprText (.int v) [.int v] := ⟨_, _, .int v⟩
  have hb := bare_int v
  have comma : ∀ {known : Str → Option Bool} {s : Str} {ts : List LexEv} {c : Nat}, c < 256 → Source (fun _ => false) known (midScan n) ts (c :: s) →
      Source (fun _ => false) known (midScan n) (.tok .comma :: ts) (44 :: c :: s) :=
    fun hc h => .sign (w := ",") (t := .comma) (no := "") (by decide) (next_cons ⟨hc, by simp [bytes]⟩) h
  have rpar : ∀ {known : Str → Option Bool} {s : Str} {ts : List LexEv} {c : Nat}, c < 256 → Source (fun _ => false) known (midScan n) ts (c :: s) →
      Source (fun _ => false) known (midScan n) (.tok .rpar :: ts) (41 :: c :: s) :=
    fun hc h => .sign (w := ")") (t := .rpar) (no := "") (by decide) (next_cons ⟨hc, by simp [bytes]⟩) h
  have lpar : ∀ {known : Str → Option Bool} {s : Str} {ts : List LexEv} {c : Nat}, c < 256 → Source (fun _ => false) known (midScan n) ts (c :: s) →
      Source (fun _ => false) known (midScan n) (.tok .lpar :: ts) (40 :: c :: s) :=
    fun hc h => .sign (w := "(") (t := .lpar) (no := "") (by decide) (next_cons ⟨hc, by simp [bytes]⟩) h
  have x : ∀ {known : Str → Option Bool} {s : Str} {ts : List LexEv}, WordEnd s → Source (fun _ => false) known (midScan n) ts s →
      Source (fun _ => false) known (midScan n) (.tok .x :: ts) (120 :: s) :=
    fun hs h => .word (name := "x") (w := [120]) (by decide) (by decide) hs h
  have y : ∀ {known : Str → Option Bool} {s : Str} {ts : List LexEv}, WordEnd s → Source (fun _ => false) known (midScan n) ts s →
      Source (fun _ => false) known (midScan n) (.tok .y :: ts) (121 :: s) :=
    fun hs h => .word (name := "y") (w := [121]) (by decide) (by decide) hs h
  have num : ∀ (w : Nat) {known : Str → Option Bool} {s : Str} {ts : List LexEv} {c : Nat}, c < 48 → Source (fun _ => false) known (midScan n) ts (c :: s) →
      Source (fun _ => false) known (midScan n) (.tok (.int v) :: ts) (36 :: (fmtX w v ++ c :: s)) :=
    fun w {known s ts c} hc h => source_fmtX w h0 hv hc h
  have we : ∀ {c : Nat} {s : Str}, (c = 32 ∨ c = 41) → WordEnd (c :: s) := by
    intro c s h
    rcases h with rfl | rfl <;> exact next_cons (by decide)
  cases hm
  all_goals
    simp only [operandText, Form.mode, List.cons_append, List.nil_append, List.append_assoc]
  · refine line_reads hi (.immediate hx) rfl (opText := 35 :: 36 :: (fmtX 2 v ++ [32, 10])) (fun _ => next_cons (by decide)) (fun known evs rest h => ?_)
    simp only [List.cons_append, List.append_assoc, List.nil_append]
    exact .sign (w := "#") (t := .hash) (no := "") (by decide) (next_cons (by decide)) (num 2 (by decide) (tail_reads h))
  · refine line_reads hi (.absolute hx hb) rfl (opText := 36 :: (fmtX 2 v ++ [32, 10])) (fun _ => next_cons (by decide)) (fun known evs rest h => ?_)
    simp only [List.cons_append, List.append_assoc, List.nil_append]
    exact num 2 (by decide) (tail_reads h)
  · refine line_reads hi (.absolute hx hb) rfl (opText := 36 :: (fmtX 4 v ++ [32, 10])) (fun _ => next_cons (by decide)) (fun known evs rest h => ?_)
    simp only [List.cons_append, List.append_assoc, List.nil_append]
    exact num 4 (by decide) (tail_reads h)
  · refine line_reads hi (.absolute hx hb) rfl (opText := 36 :: (fmtX 4 v ++ [32, 10])) (fun _ => next_cons (by decide)) (fun known evs rest h => ?_)
    simp only [List.cons_append, List.append_assoc, List.nil_append]
    exact num 4 (by decide) (tail_reads h)
  · refine line_reads hi (.absoluteX hx hb) rfl (opText := 36 :: (fmtX 2 v ++ [44, 120, 32, 10])) (fun _ => next_cons (by decide)) (fun known evs rest h => ?_)
    simp only [List.cons_append, List.append_assoc, List.nil_append]
    exact num 2 (by decide) (comma (by decide) (x (we (Or.inl rfl)) (tail_reads h)))
  · refine line_reads hi (.absoluteX hx hb) rfl (opText := 36 :: (fmtX 4 v ++ [44, 120, 32, 10])) (fun _ => next_cons (by decide)) (fun known evs rest h => ?_)
    simp only [List.cons_append, List.append_assoc, List.nil_append]
    exact num 4 (by decide) (comma (by decide) (x (we (Or.inl rfl)) (tail_reads h)))
  · refine line_reads hi (.absoluteY hx hb) rfl (opText := 36 :: (fmtX 2 v ++ [44, 121, 32, 10])) (fun _ => next_cons (by decide)) (fun known evs rest h => ?_)
    simp only [List.cons_append, List.append_assoc, List.nil_append]
    exact num 2 (by decide) (comma (by decide) (y (we (Or.inl rfl)) (tail_reads h)))
  · refine line_reads hi (.absoluteY hx hb) rfl (opText := 36 :: (fmtX 4 v ++ [44, 121, 32, 10])) (fun _ => next_cons (by decide)) (fun known evs rest h => ?_)
    simp only [List.cons_append, List.append_assoc, List.nil_append]
    exact num 4 (by decide) (comma (by decide) (y (we (Or.inl rfl)) (tail_reads h)))
  · refine line_reads hi (.indirect hx) rfl (opText := 40 :: 36 :: (fmtX 2 v ++ [41, 32, 10])) (fun _ => next_cons (by decide)) (fun known evs rest h => ?_)
    simp only [List.cons_append, List.append_assoc, List.nil_append]
    exact lpar (by decide) (num 2 (by decide) (rpar (by decide) (tail_reads h)))
  · refine line_reads hi (.indirect hx) rfl (opText := 40 :: 36 :: (fmtX 4 v ++ [41, 32, 10])) (fun _ => next_cons (by decide)) (fun known evs rest h => ?_)
    simp only [List.cons_append, List.append_assoc, List.nil_append]
    exact lpar (by decide) (num 4 (by decide) (rpar (by decide) (tail_reads h)))
  · refine line_reads hi (.indirectX hx) rfl (opText := 40 :: 36 :: (fmtX 2 v ++ [44, 120, 41, 32, 10])) (fun _ => next_cons (by decide)) (fun known evs rest h => ?_)
    simp only [List.cons_append, List.append_assoc, List.nil_append]
    exact lpar (by decide) (num 2 (by decide) (comma (by decide) (x (we (Or.inr rfl)) (rpar (by decide) (tail_reads h)))))
  · refine line_reads hi (.indirectY hx) rfl (opText := 40 :: 36 :: (fmtX 2 v ++ [41, 44, 121, 32, 10])) (fun _ => next_cons (by decide)) (fun known evs rest h => ?_)
    simp only [List.cons_append, List.append_assoc, List.nil_append]
    exact lpar (by decide) (num 2 (by decide) (rpar (by decide) (comma (by decide) (y (we (Or.inl rfl)) (tail_reads h)))))

/-- A row without operand is read as the mnemonic alone. -/
theorem implied_reads {file : Str} {n : Int} {ins : Int} (hi : 0 ≤ ins ∧ ins < 118) {m : Mode} {k : Nat}
    (hm : opByteCount m = 0) (v : Int) : LineAt file n (.op ins .i none) (32 :: (opColumn ins k m v ++ [10])) := by
  have hcol : opColumn ins k m v = instrText ins ++ [32] := by
    unfold opColumn
    rw [if_neg (by omega), List.append_nil]
  rw [hcol, List.append_assoc]
  exact line_reads hi .implied rfl (opText := [10]) (fun _ => next_cons (by decide)) (fun known evs rest h => .newline h)

/-! ## Data -/

private theorem hexDig_ok {n : Nat} (h : n < 16) : Digit.ok 16 ⟨hexDig n, n⟩ := by
  refine ⟨h, ?_⟩
  simp only [hexDig]
  split
  · exact Or.inl ⟨by omega, rfl⟩
  · exact Or.inr ⟨by omega, h, Or.inl (by simp only [show 'A'.toNat = 65 from rfl]; omega)⟩

private theorem part_reads {isMac : Str → Bool} {known : Str → Option Bool} {b c : Nat} {t s : Str} {ts : List LexEv}
    (h1 : b < 256) (ht : ByteText Quotable b t) (hc : c < 48) {n : Int} (h : Source isMac known (midScan n) ts (c :: s)) :
    Source isMac known (midScan n) (.tok (.int b) :: ts) (t ++ c :: s) := by
  rcases ht with rfl | ⟨rfl, h2, h3, h4⟩
  · have hv : numVal 16 [⟨hexDig (b / 16), b / 16⟩, ⟨hexDig (b % 16), b % 16⟩] = b := by
      simp only [numVal, List.foldl_cons, List.foldl_nil]
      omega
    have := SourceTo.hex (isMacro := isMac) (known := known) (C := midScan n) (ts := ts) (s := c :: s)
      (ds := [⟨hexDig (b / 16), b / 16⟩, ⟨hexDig (b % 16), b % 16⟩]) ?_ (by rw [hv]; omega) ?_ h
    · rw [hv] at this
      exact this
    · intro d hd
      simp only [List.mem_cons, List.not_mem_nil, or_false] at hd
      rcases hd with rfl | rfl
      · exact hexDig_ok (by omega)
      · exact hexDig_ok (by omega)
    · refine next_cons ⟨by omega, fun d hd e => ?_⟩
      have := char_range hd
      omega
  · exact .char ⟨h1, h2, h3, h4⟩ h

private theorem part_next {b : Nat} {t : Str} (ht : ByteText Quotable b t) (s : Str) : Next (fun c => ¬ Blank c) (t ++ s) := by
  rcases ht with rfl | ⟨rfl, _⟩ <;> exact next_cons (by decide)

/-- The further bytes of a row. -/
private theorem parts_reads {n : Int} : ∀ {bs : List Nat} {ts : List Str},
    (∀ b ∈ bs, b < 256) → ByteTexts Quotable bs ts →
    ∃ u r c, Further ItemText (bs.map byteItem) u ∧ lineOf (u ++ [.eol (n + 1)]) = n + 1 ∧
      ts.flatMap ([44, 32] ++ ·) ++ [10] = c :: r ∧ c < 48 ∧
      ∀ known evs rest, Source (fun _ => false) known (nextScan n) evs rest →
        Source (fun _ => false) known (midScan n) (u.map .tok ++ .tok (.eol (n + 1)) :: evs) (c :: (r ++ rest))
  | [], [], _, _ => ⟨[], [], 10, .nil, rfl, rfl, by decide, fun _ _ _ h => .newline h⟩
  | b :: bs, t :: ts, hb, ht => by
    obtain ⟨u, r, c, h1, h2, h3, h4, h5⟩ := parts_reads (n := n) (bs := bs) (ts := ts)
      (fun x hx => hb x (by simp [hx])) ht.2
    refine ⟨.comma :: ([Tok.int b] ++ u), 32 :: (t ++ c :: r), 44, .cons (t := [.int b]) (.expr ⟨_, _, .int b⟩) h1, h2, ?_, by decide, ?_⟩
    · rw [← h3]
      simp
    · intro known evs rest h
      simp only [List.cons_append, List.append_assoc, List.nil_append, List.map_cons]
      refine .sign (w := ",") (t := .comma) (no := "") (by decide) (next_cons (by decide)) ?_
      refine .blanks (w := [32]) (by decide) (by decide) (part_next ht.1 _) ?_
      exact part_reads (hb b (by simp)) ht.1 h4 (h5 known evs rest h)
  | [], _ :: _, _, ht => ht.elim
  | _ :: _, [], _, ht => ht.elim

private theorem intercalate_cons (t : Str) (ts : List Str) :
    List.intercalate [44, 32] (t :: ts) = t ++ ts.flatMap ([44, 32] ++ ·) := by
  induction ts generalizing t with
  | nil => simp [List.intercalate]
  | cons u ts ih =>
    have := ih u
    simp only [List.intercalate] at this ⊢
    rw [List.intersperse_cons_cons, List.flatten_cons, List.flatten_cons, this]
    simp

/-- The last column of a row with data is read as the bytes. -/
theorem data_reads {file : Str} {n : Int} {b : Nat} {bs : List Nat} {ts : List Str} (hb : ∀ x ∈ b :: bs, x < 256)
    (ht : ByteTexts Quotable (b :: bs) ts) :
    LineAt file n (.data 1 (byteItem b) (bs.map byteItem)) (32 :: (dbColumn ts ++ [10])) := by
  cases ts with
  | nil => exact ht.elim
  | cons t ts =>
    obtain ⟨u, r, c, h1, h2, h3, h4, h5⟩ := parts_reads (n := n) (bs := bs) (ts := ts)
      (fun x hx => hb x (by simp [hx])) ht.2
    refine ⟨.byte :: .int b :: (u ++ [.eol (n + 1)]), ?_, ?_⟩
    · have h := TopText.stmt (file := file) (.line (n + 1) (.byte (.some (.expr ⟨_, _, .int b⟩) h1)))
      rw [show lineOf (.byte :: ([.int b] ++ u) ++ [.eol (n + 1)]) = n + 1 from h2] at h
      exact h
    · intro known place evs rest h
      have e : 32 :: (dbColumn (t :: ts) ++ [10]) ++ rest = [32] ++ (cstr! ".db" ++ ([32] ++ (t ++ c :: (r ++ rest)))) := by
        have e3 : ts.flatMap ([44, 32] ++ ·) ++ (10 :: rest) = c :: (r ++ rest) := by
          rw [← List.cons_append, ← h3]
          simp
        rw [← e3]
        simp [dbColumn, intercalate_cons]
      rw [e]
      simp only [List.map_cons, List.map_append, List.map_nil, List.cons_append, List.append_assoc, List.nil_append]
      refine .blanks (w := [32]) (by decide) (by decide) (next_cons (by decide)) ?_
      refine .word (w := cstr! ".db") (name := ".db") (by decide) (by decide) (next_cons (by decide)) ?_
      refine .blanks (w := [32]) (by decide) (by decide) (part_next ht.1 _) ?_
      exact part_reads (hb b (by simp)) ht.1 h4 (h5 known evs rest h)

theorem hex_printable (w n : Nat) : ∀ x ∈ hexStr w n, 32 ≤ x ∧ x ≤ 126 := by
  intro x hx
  simp only [hexStr, List.mem_append, List.mem_replicate, List.mem_map] at hx
  rcases hx with ⟨_, rfl⟩ | ⟨c, hc, rfl⟩
  · omega
  · have key : ∀ n : Nat, ∀ c ∈ Nat.toDigits 16 n, ∃ d, d < 16 ∧ c = d.digitChar := by
      intro n
      induction n using Nat.strongRecOn with
      | _ n ih =>
        intro c hc
        rw [Nat.toDigits_eq_if (by decide)] at hc
        split at hc
        · rename_i hlt
          exact ⟨n, hlt, by simpa using hc⟩
        · rcases List.mem_append.1 hc with hc | hc
          · exact ih _ (by omega) c hc
          · exact ⟨n % 16, by omega, by simpa using hc⟩
    obtain ⟨d, hd, rfl⟩ := key n c hc
    have all : ∀ d : Nat, d < 16 → 48 ≤ d.digitChar.toNat ∧ d.digitChar.toNat ≤ 102 := by decide
    have := all d hd
    split <;> omega

end Verif
