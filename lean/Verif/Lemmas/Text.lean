import Verif.Model.Text
import Verif.Lemmas.NoMacro
import Verif.Lemmas.Scan
import Verif.Lemmas.Statements

/-! # From texts to programs -/

namespace Verif

open Spec

/-! ## Statements leave the numbers of open blocks unchanged -/

/-- The tokens leave the numbers of open blocks unchanged. -/
def TokBal (ts : List Tok) : Prop := ∀ x, depth (ts.map .tok) x = x

theorem depth_append (a b : List LexEv) (x : Nat × Nat × Nat) : depth (a ++ b) x = depth b (depth a x) := by
  simp [depth]

theorem TokBal.nil : TokBal [] := fun _ => rfl

theorem TokBal.append {a b : List Tok} (ha : TokBal a) (hb : TokBal b) : TokBal (a ++ b) := by
  intro x
  rw [List.map_append, depth_append, ha, hb]

theorem TokBal.cons {t : Tok} {a : List Tok} (ht : t.neutral = true) (ha : TokBal a) : TokBal (t :: a) :=
  fun x => depth_tok ht (ha x)

theorem TokBal.one {t : Tok} (ht : t.neutral = true) : TokBal [t] := .cons ht .nil

theorem written_bal {e : Expr} {l : Nat} {o : Bool} {ts : List Tok} (h : WrittenAs e l o ts) : TokBal ts := by
  induction h with
  | par _ ih => exact .cons rfl (.append ih (.one rfl))
  | negPar _ ih => exact .cons rfl (.cons rfl (.append ih (.one rfl)))
  | @un op t e l o ts ht _ ih => exact .cons (by cases op <;> cases ht <;> rfl) ih
  | @bin op a b la lb o ta tb _ _ _ _ iha ihb => exact .append iha (.cons (by cases op <;> rfl) ihb)
  | negInt v => exact .cons rfl (.one rfl)
  | _ => exact .one rfl

theorem expr_bal {e : Expr} {ts : List Tok} (h : ExprText e ts) : TokBal ts := by
  obtain ⟨_, _, h⟩ := h
  exact written_bal h

theorem item_bal {x : Item} {ts : List Tok} (h : ItemText x ts) : TokBal ts := by
  cases h with
  | str => exact .one rfl
  | expr h => exact expr_bal h

theorem var_bal {x : Str × Option Expr} {ts : List Tok} (h : VarText x ts) : TokBal ts := by
  cases h with
  | plain => exact .one rfl
  | init _ h => exact .cons rfl (.cons rfl (expr_bal h))

theorem further_bal {α : Type} {P : α → List Tok → Prop} (hP : ∀ x ts, P x ts → TokBal ts) {xs : List α} {ts : List Tok}
    (h : Further P xs ts) : TokBal ts := by
  induction h with
  | nil => exact .nil
  | cons h _ ih => exact .cons rfl (.append (hP _ _ h) ih)

theorem list_bal {x : Option (Item × List Item)} {ts : List Tok} (h : ListText x ts) : TokBal ts := by
  cases h with
  | none => exact .nil
  | some h hs => exact .append (item_bal h) (further_bal (fun _ _ => item_bal) hs)

theorem operand_bal {m : Mode} {a : Option Expr} {ts : List Tok} (h : OperandText m a ts) : TokBal ts := by
  cases h with
  | implied => exact .nil
  | immediate h => exact .cons rfl (expr_bal h)
  | absolute h _ => exact expr_bal h
  | absoluteX h _ => exact .append (expr_bal h) (.cons rfl (.one rfl))
  | absoluteY h _ => exact .append (expr_bal h) (.cons rfl (.one rfl))
  | indirect h => exact .cons rfl (.append (expr_bal h) (.one rfl))
  | indirectX h => exact .cons rfl (.append (expr_bal h) (.cons rfl (.cons rfl (.one rfl))))
  | indirectY h => exact .cons rfl (.append (expr_bal h) (.cons rfl (.cons rfl (.one rfl))))

theorem equals_neutral {q : Tok} (h : Equals q) : q.neutral = true := by cases h <;> rfl

theorem named_neutral {n : Str} {t : Tok} (h : Named n t) : t.neutral = true := by cases h <;> rfl

theorem line_bal {st : Stmt} {ts : List Tok} (h : LineText st ts) : TokBal ts := by
  cases h with
  | op _ h => exact .cons rfl (operand_bal h)
  | org h => exact .cons rfl (expr_bal h)
  | ds h => exact .cons rfl (expr_bal h)
  | byte h => exact .cons rfl (list_bal h)
  | word h => exact .cons rfl (list_bal h)
  | str h => exact .cons rfl (list_bal h)
  | fill hv hn => exact .cons rfl (.append (expr_bal hv) (.cons rfl (expr_bal hn)))
  | print h => exact .cons rfl (list_bal h)
  | printAll h => exact .cons rfl (list_bal h)
  | printOn => exact .one rfl
  | printOff => exact .one rfl
  | sect => exact .cons rfl (.one rfl)
  | endSect => exact .one rfl
  | endProg => exact .one rfl
  | load => exact .cons rfl (.one rfl)
  | inc => exact .cons rfl (.one rfl)
  | assign hn hq h => exact .cons (named_neutral hn) (.cons (equals_neutral hq) (expr_bal h))
  | pcAssign hq h => exact .cons rfl (.cons (equals_neutral hq) (expr_bal h))
  | name => exact .one rfl
  | call _ h => exact .cons rfl (list_bal h)
  | var h hs => exact .cons rfl (.append (var_bal h) (further_bal (fun _ _ => var_bal) hs))

/-- A block between two tokens that cancel each other. -/
theorem TokBal.block {t u : Tok} {a b : List Tok} (h : ∀ x, bump (.tok u) (bump (.tok t) x) = x) (ha : TokBal a) (hb : TokBal b) :
    TokBal (t :: (a ++ u :: b)) := by
  intro x
  have : depth ((t :: (a ++ u :: b)).map .tok) x = depth (b.map .tok) (bump (.tok u) (depth (a.map .tok) (bump (.tok t) x))) := by
    simp [depth]
  rw [this, ha, h, hb]

theorem stmt_bal {p : Part} {st : Stmt} {ts : List Tok} (h : StmtText p st ts) : TokBal ts := by
  induction h with
  | empty => exact .one rfl
  | line _ h => exact .append (line_bal h) (.one rfl)
  | @ifThen c t tc tt l hc _ ih =>
    have := TokBal.block (t := .if) (u := .endIf) (a := tc ++ tt) (b := [.eol l]) (fun _ => rfl) (.append (expr_bal hc) ih) (.one rfl)
    simpa using this
  | @ifElse c t e tc tt te l hc _ _ ih1 ih2 =>
    have := TokBal.block (t := .if) (u := .endIf) (a := tc ++ (tt ++ .else :: te)) (b := [.eol l]) (fun _ => rfl)
      (.append (expr_bal hc) (.append ih1 (.cons rfl ih2))) (.one rfl)
    simpa using this
  | repeatLoop _ _ _ hc ih =>
    exact .cons rfl (.cons rfl (.append ih (.cons rfl (.append (expr_bal hc) (.one rfl)))))
  | doLoop _ _ hc ih => exact .block (fun _ => rfl) ih (.append (expr_bal hc) (.one rfl))
  | whileLoop _ _ hc _ ih =>
    exact .cons rfl (.append (expr_bal hc) (.cons rfl (.append ih (.cons rfl (.one rfl)))))
  | forLoop _ _ hn hq ha hz _ ih =>
    exact .cons rfl (.cons (named_neutral hn) (.cons (equals_neutral hq) (.append (expr_bal ha) (.cons rfl
      (.append (expr_bal hz) (.cons rfl (.append ih (.cons rfl (.cons rfl (.one rfl))))))))))
  | forStep _ _ hn hq ha hz hd _ ih =>
    exact .cons rfl (.cons (named_neutral hn) (.cons (equals_neutral hq) (.append (expr_bal ha) (.cons rfl
      (.append (expr_bal hz) (.cons rfl (.append (expr_bal hd) (.cons rfl (.append ih (.cons rfl (.cons rfl (.one rfl))))))))))))
  | forReg isX up _ _ ha hz _ ih =>
    exact .cons rfl (.cons (by cases isX <;> rfl) (.cons rfl (.append (expr_bal ha) (.cons (by cases up <;> rfl)
      (.append (expr_bal hz) (.cons rfl (.append ih (.cons rfl (.cons (by cases isX <;> rfl) (.one rfl))))))))))
  | macroDef name l _ ih =>
    have := TokBal.block (t := .macro) (u := .endMacro) (b := [.eol l]) (fun _ => rfl) (TokBal.cons (t := .macsym name) rfl ih) (.one rfl)
    simpa using this
  | one _ ih => exact ih
  | more _ _ ih1 ih2 => exact .append ih1 ih2

theorem top_bal {file : Str} {t : Top} {ts : List Tok} (h : TopText file t ts) : TokBal ts := by
  cases h with
  | stmt h => exact stmt_bal h
  | labelled _ h => exact .cons rfl (stmt_bal h)

theorem lines_bal {file : Str} {l : List Top} {evs : List LexEv} (h : LinesText file l evs) (x : Nat × Nat × Nat) :
    depth evs x = x := by
  induction h with
  | nil => rfl
  | cpu _ _ ih => exact ih
  | illegal _ _ ih => exact ih
  | c64 _ ih => exact ih
  | top ht _ ih => rw [depth_append, top_bal ht, ih]

/-! ## Reading one statement -/

/-- The tokens of a statement are read up to its end. -/
theorem read_top {isMac : Str → Bool} {known : Str → Option Bool} {file : Str} {t : Top} {tt : List Tok} (hT : TopText file t tt) {st st' : LexSt}
    {s : Str} {evs : List LexEv} (h : LexRun isMac known st s evs st') :
    ∀ {toks acc : List Tok} {evs2 : List LexEv}, evs = toks.map .tok ++ evs2 → tt = acc ++ toks → toks ≠ [] →
    ∃ st1 s1, LexRun isMac known st1 s1 evs2 st' ∧ s1.length < s.length ∧
      ∀ defined, Agrees known defined → ∀ pend f, s.length < f → readTop isMac defined file f st s acc pend = .top pend t st1 s1 := by
  induction h with
  | nil st =>
    intro toks acc evs2 h _ hne
    cases toks with
    | nil => exact absurd rfl hne
    | cons => cases h
  | @skip st st' st2 u rest evs hne h hl _ ih =>
    intro toks acc evs2 he ha hn
    obtain ⟨st1, s1, h1, h2, h3⟩ := ih he ha hn
    refine ⟨st1, s1, h1, by omega, ?_⟩
    intro defined hag pend f hf
    obtain ⟨c, u, rfl⟩ := List.exists_cons_of_ne_nil hne
    cases f with
    | zero => omega
    | succ f =>
      simp only [readTop, h defined hag]
      exact h3 defined hag pend f (by omega)
  | @step st st' st2 u rest ev evs hne hev h hl hr ih =>
    intro toks acc evs2 he ha hn
    obtain ⟨tk, toks, rfl⟩ := List.exists_cons_of_ne_nil hn
    simp only [List.map_cons, List.cons_append, List.cons.injEq] at he
    obtain ⟨rfl, he⟩ := he
    obtain ⟨c, u, rfl⟩ := List.exists_cons_of_ne_nil hne
    cases toks with
    | nil =>
      simp only [List.map_nil, List.nil_append] at he
      subst he
      refine ⟨st', rest, hr, hl, ?_⟩
      intro defined hag pend f hf
      cases f with
      | zero => omega
      | succ f =>
        have hp : parseTop file (acc ++ [tk]) = some (t, []) := by
          have := top_parse hT []
          rwa [List.append_nil, ha] at this
        simp only [readTop, h defined hag, hp]
    | cons tk2 toks =>
      obtain ⟨st1, s1, h1, h2, h3⟩ := ih (toks := tk2 :: toks) (acc := acc ++ [tk]) he (by rw [ha]; simp) (by simp)
      refine ⟨st1, s1, h1, by omega, ?_⟩
      intro defined hag pend f hf
      cases f with
      | zero => omega
      | succ f =>
        have hp : ∀ top, parseTop file (acc ++ [tk]) ≠ some (top, []) := by
          intro top hp
          obtain ⟨mid, g1, g2⟩ := top_sound hp
          rw [List.append_nil] at g1
          have e1 := top_parse g2 (tk2 :: toks)
          have e2 := top_parse hT []
          rw [List.append_nil, ha] at e2
          rw [← g1] at e1
          rw [show acc ++ [tk] ++ tk2 :: toks = acc ++ tk :: tk2 :: toks by simp, e2] at e1
          cases e1
        cases hq : parseTop file (acc ++ [tk]) with
        | none =>
          simp only [readTop, h defined hag, hq]
          exact h3 defined hag pend f (by omega)
        | some r =>
          obtain ⟨top, r⟩ := r
          cases r with
          | nil => exact absurd hq (hp top)
          | cons a r =>
            simp only [readTop, h defined hag, hq]
            exact h3 defined hag pend f (by omega)

/-- The events that are no tokens. -/
def LexEv.setting : LexEv → Bool
  | .setCpu _ | .setIllegal _ | .setC64 => true
  | _ => false

/-- A setting is kept until the statement is complete. -/
theorem read_setting {isMac : Str → Bool} {known : Str → Option Bool} {ev : LexEv} (hev : ev.setting = true) {st st' : LexSt}
    {s : Str} {evs evs2 : List LexEv} (h : LexRun isMac known st s evs st') (he : evs = ev :: evs2) :
    ∃ st1 s1, LexRun isMac known st1 s1 evs2 st' ∧ s1.length < s.length ∧
      ∀ defined, Agrees known defined → ∀ file pend f, s.length < f → ∃ f', s1.length < f' ∧
        readTop isMac defined file f st s [] pend = readTop isMac defined file f' st1 s1 [] (pend ++ [ev]) := by
  induction h with
  | nil st => cases he
  | @skip st st' st2 u rest evs hne h hl _ ih =>
    obtain ⟨st1, s1, h1, h2, h3⟩ := ih he
    refine ⟨st1, s1, h1, by omega, ?_⟩
    intro defined hag file pend f hf
    obtain ⟨c, u, rfl⟩ := List.exists_cons_of_ne_nil hne
    cases f with
    | zero => omega
    | succ f =>
      obtain ⟨f', h4, h5⟩ := h3 defined hag file pend f (by omega)
      refine ⟨f', h4, ?_⟩
      simp only [readTop, h defined hag]
      exact h5
  | @step st st' st2 u rest ev' evs hne _ h hl hr ih =>
    cases he
    refine ⟨st', rest, hr, hl, ?_⟩
    intro defined hag file pend f hf
    obtain ⟨c, u, rfl⟩ := List.exists_cons_of_ne_nil hne
    cases f with
    | zero => omega
    | succ f =>
      refine ⟨f, by omega, ?_⟩
      simp only [readTop, h defined hag]
      cases ev <;> first | rfl | cases hev

/-- At the end of the file. -/
theorem read_eof {isMac : Str → Bool} {known : Str → Option Bool} {st st' : LexSt} {s : Str} {evs : List LexEv} (h : LexRun isMac known st s evs st')
    (he : evs = []) : ∀ defined, Agrees known defined → ∀ file pend f, s.length < f → readTop isMac defined file f st s [] pend = .eof pend st' := by
  induction h with
  | nil st =>
    intro defined hag file pend f hf
    cases f with
    | zero => omega
    | succ f => rfl
  | @skip st st' st2 u rest evs hne h hl _ ih =>
    intro defined hag file pend f hf
    obtain ⟨c, u, rfl⟩ := List.exists_cons_of_ne_nil hne
    cases f with
    | zero => omega
    | succ f =>
      simp only [readTop, h defined hag]
      exact ih he defined hag file pend f (by omega)
  | step => cases he

/-! ## Macro-free statements are never syntax errors -/

theorem built_some {m : M Ptr} {s s' : St} {r : Option Ptr} (h : built m s = (.ok r, s')) : r ≠ none := by
  obtain ⟨p, _, _, h2⟩ := bind_ok_inv (show (m >>= fun p => M.pure (some p)) s = _ from h)
  cases h2
  simp

theorem andThen_some {α : Type} {m : M (Option α)} {k : α → M (Option Ptr)} {s s' : St} {r : Option Ptr}
    (hm : ∀ s s' r, m s = (.ok r, s') → r ≠ none) (hk : ∀ a s s' r, k a s = (.ok r, s') → r ≠ none)
    (h : andThen m k s = (.ok r, s')) : r ≠ none := by
  obtain ⟨a, s1, h1, h2⟩ := bind_ok_inv (show (m >>= fun r => match r with
    | some a => k a
    | none => M.pure none) s = _ from h)
  cases a with
  | none => exact absurd rfl (hm _ _ _ h1)
  | some a => exact hk _ _ _ _ h2

theorem buildStmt_some {ex : Ptr → M Int} {hu : Ptr → M Bool} {st : Stmt} (hf : MacroFree st) :
    ∀ (m : Bool) (s s' : St) (r : Option Ptr), buildStmt ex hu m st s = (.ok r, s') → r ≠ none := by
  induction st with
  | op ins mode arg => intro m s s' r h; cases arg <;> exact built_some h
  | word first name args =>
    intro m s s' r h
    obtain ⟨rfl, rfl⟩ := hf
    simp only [buildStmt, getS_bind] at h
    split at h
    · exact built_some h
    · rw [if_neg (by simp)] at h
      exact built_some h
  | ifThen c t ih =>
    intro m s s' r h
    obtain ⟨_, _, _, h⟩ := bind_ok_inv h
    exact andThen_some (ih hf m) (fun _ _ _ _ => built_some) h
  | ifElse c t e ih ih' =>
    intro m s s' r h
    obtain ⟨_, _, _, h⟩ := bind_ok_inv h
    exact andThen_some (ih hf.1 m) (fun _ _ _ _ h => andThen_some (ih' hf.2 m) (fun _ _ _ _ => built_some) h) h
  | repeatLoop b c ih => intro m s s' r h; exact andThen_some (ih hf m) (fun _ _ _ _ => built_some) h
  | doLoop b c ih => intro m s s' r h; exact andThen_some (ih hf m) (fun _ _ _ _ => built_some) h
  | whileLoop c b ih =>
    intro m s s' r h
    obtain ⟨_, _, _, h⟩ := bind_ok_inv h
    exact andThen_some (ih hf m) (fun _ _ _ _ => built_some) h
  | forLoop nm s0 s1 s2 b nx ih =>
    intro m s s' r h
    obtain ⟨_, _, _, h⟩ := bind_ok_inv h
    obtain ⟨_, _, _, h⟩ := bind_ok_inv h
    obtain ⟨_, _, _, h⟩ := bind_ok_inv h
    obtain ⟨_, _, _, h⟩ := bind_ok_inv h
    obtain ⟨_, _, _, h⟩ := bind_ok_inv h
    exact andThen_some (ih hf m) (fun _ _ _ _ => built_some) h
  | forReg x s0 s1 up bd ih =>
    intro m s s' r h
    obtain ⟨_, _, _, h⟩ := bind_ok_inv h
    obtain ⟨_, _, _, h⟩ := bind_ok_inv h
    exact andThen_some (ih hf m) (fun _ _ _ _ => built_some) h
  | macroDef => cases hf
  | seq a b ih ih' =>
    intro m s s' r h
    exact andThen_some (ih hf.1 m) (fun _ _ _ _ h => andThen_some (ih' hf.2 m) (fun _ _ _ _ => built_some) h) h
  | «at» l st ih =>
    intro m s s' r h
    obtain ⟨_, _, _, h⟩ := bind_ok_inv h
    exact ih hf m _ _ _ h
  | _ => intro m s s' r h; exact built_some h

theorem runTop_good {ex : Ptr → M Int} {hu : Ptr → M Bool} {t : Top} (hf : MacroFreeTop t) {s s' : St} {g : Bool}
    (hs : NoMacro s) (h : runTop ex hu t s = (.ok g, s')) : g = true := by
  cases t with
  | setCpu | setIllegal | setC64 => cases h; rfl
  | stmt file line st =>
    have hst : ∀ nm args, st ≠ .word true nm args := by
      rintro nm args rfl
      cases hf.1
    have e : runTop ex hu (.stmt file line st) = (do
      modS fun s => { s with file := file, line := line }
      let r ← buildStmt ex hu false st
      match r with
      | none => M.pure false
      | some p => do
        let _ ← ex p
        M.pure true) := by
      unfold runTop
      split
      · rename_i nm args h1
        cases h1
        exact absurd rfl (hst _ _)
      · rename_i h1; cases h1; rfl
      all_goals (rename_i h1; cases h1)
    rw [e] at h
    obtain ⟨_, _, _, h⟩ := bind_ok_inv h
    obtain ⟨r, _, h1, h⟩ := bind_ok_inv h
    have := buildStmt_some hf _ _ _ _ h1
    cases r with
    | none => exact absurd rfl this
    | some p =>
      obtain ⟨_, _, _, h⟩ := bind_ok_inv h
      cases h; rfl
  | labelled file line l st =>
    obtain ⟨_, s1, h1, h⟩ := bind_ok_inv h
    cases h1
    have hw : isMacroWord { s with file := file, line := line } l = false := by
      rw [NoMacro.word (s := { s with file := file, line := line }) hs]
    simp only [getS_bind, hw] at h
    obtain ⟨r, _, h1, h⟩ := bind_ok_inv (show (buildStmt ex hu false st >>= _) _ = _ from h)
    have := buildStmt_some hf _ _ _ _ h1
    cases r with
    | none => exact absurd rfl this
    | some p =>
      obtain ⟨_, _, _, h⟩ := bind_ok_inv h
      obtain ⟨_, _, _, h⟩ := bind_ok_inv h
      obtain ⟨_, _, _, h⟩ := bind_ok_inv h
      cases h; rfl

/-! ## Running a text -/

/-- The effect of settings. -/
def settle : List LexEv → St → St
  | [], s => s
  | .setCpu c :: evs, s => settle evs { s with cpu := c }
  | .setIllegal on :: evs, s => settle evs { s with allowIllegal := on }
  | .setC64 :: evs, s => settle evs { s with format := .c64 }
  | _ :: evs, s => settle evs s

theorem run_settings {evs : List LexEv} (h : ∀ ev ∈ evs, ev.setting = true) (s : St) :
    forEachM runEvent evs s = (.ok (), settle evs s) := by
  induction evs generalizing s with
  | nil => rfl
  | cons ev evs ih =>
    have h1 := h ev (by simp)
    replace ih := ih (fun e he => h e (by simp [he]))
    cases ev <;> first | exact ih _ | cases h1

theorem settle_append (a b : List LexEv) (s : St) : settle (a ++ b) s = settle b (settle a s) := by
  fun_induction settle a s <;> simp_all [settle]

theorem settle_noMacro {s : St} (h : NoMacro s) (evs : List LexEv) : NoMacro (settle evs s) := by
  fun_induction settle evs s with
  | case1 => exact h
  | case2 _ _ _ ih => exact ih h
  | case3 _ _ _ ih => exact ih h
  | case4 _ _ ih => exact ih h
  | case5 _ _ _ _ _ _ ih => exact ih h

theorem settle_cond {b o : Bool} {s : St} (h : Cond noMacroT b o s) (evs : List LexEv) : Cond noMacroT b o (settle evs s) := by
  fun_induction settle evs s with
  | case1 => exact h
  | case2 _ _ _ ih => exact ih ⟨h.finalPass, h.outputOpen, h.totalBytes, h.org⟩
  | case3 _ _ _ ih => exact ih ⟨h.finalPass, h.outputOpen, h.totalBytes, h.org⟩
  | case4 _ _ ih => exact ih ⟨h.finalPass, h.outputOpen, h.totalBytes, h.org⟩
  | case5 _ _ _ _ _ _ ih => exact ih h

/-- What `runText` does with the result of reading. -/
def afterRead (ex : Ptr → M Int) (hu : Ptr → M Bool) (file : Str) (g : Nat) : ReadRes → M LexSt
  | .ub => ubM
  | .syntaxError lx' => do
    error .syntaxError
    M.pure lx'
  | .eof evs lx' => do
    forEachM runEvent evs
    M.pure { lx' with last := none, line := lx'.line + 1 }
  | .top evs t lx' rest => do
    forEachM runEvent evs
    let good ← runTop ex hu t
    if good then runText ex hu file g lx' rest
    else do
      error .syntaxError
      M.pure lx'

theorem runText_eq (ex : Ptr → M Int) (hu : Ptr → M Bool) (file : Str) (g : Nat) (lx : LexSt) (text : Str) (s : St) :
    runText ex hu file (g + 1) lx text s =
      afterRead ex hu file g (readTop (isMacroWord s) (isKnownWord s) file (text.length + 1) lx text [] []) s := by
  unfold runText
  rw [getS_bind]
  cases readTop (isMacroWord s) (isKnownWord s) file (text.length + 1) lx text [] [] <;> rfl

/-- The state of the scanner after the end of a file. -/
def atEof (lx : LexSt) : LexSt := { lx with last := none, line := lx.line + 1 }

/-- The names `D` are in the symbol table. -/
def Given (D : Str → Bool) (s : St) : Prop := ∀ n, D n = true → ∃ x ∈ s.syms, stricmp x.fullname n = 0

theorem Given.mono {D : Str → Bool} {s t : St} (h : Given D s)
    (hm : ∀ (i : Nat) (x : Sym), s.syms[i]? = some x → ∃ y : Sym, t.syms[i]? = some y ∧ y.fullname = x.fullname) : Given D t := by
  intro n hn
  obtain ⟨x, hx, he⟩ := h n hn
  obtain ⟨i, hi⟩ := List.getElem?_of_mem hx
  obtain ⟨y, hy, hf⟩ := hm i x hi
  exact ⟨y, List.mem_of_getElem? hy, by rw [hf]; exact he⟩

theorem Given.step {T : Opr → Bool} {D : Str → Bool} {s t : St} (h : Given D s) (hs : Step T s t) : Given D t := by
  have set : ∀ {i : Nat} {x x' : Sym}, s.syms[i]? = some x → x'.fullname = x.fullname →
      ∀ (j : Nat) (y : Sym), s.syms[j]? = some y → ∃ z : Sym, (s.syms.set i x')[j]? = some z ∧ z.fullname = y.fullname := by
    intro i x x' hx hf j y hy
    by_cases hij : i = j
    · subst hij
      rw [hx] at hy
      cases hy
      have hlt : i < s.syms.length := (List.getElem?_eq_some_iff.1 hx).1
      exact ⟨x', by rw [List.getElem?_set_self hlt], hf⟩
    · exact ⟨y, by rw [List.getElem?_set_ne hij]; exact hy, rfl⟩
  cases hs with
  | quiet q => exact h.mono fun i x hx => ⟨x, by rw [q.syms]; exact hx, rfl⟩
  | newSym x hx =>
    intro n hn
    obtain ⟨y, hy, he⟩ := h n hn
    exact ⟨y, List.mem_append_left _ hy, he⟩
  | symUpd i x x' hx hu hm => exact h.mono (set hx hu.fullname)
  | symSet i x v hx => exact h.mono (set hx rfl)
  | varReset i x v hx ht => exact h.mono (set hx rfl)
  | _ => exact h

theorem Given.tsteps {T : Opr → Bool} {D : Str → Bool} {s t : St} (h : Given D s) (hs : TSteps T s t) : Given D t := by
  induction hs with
  | refl => exact h
  | steps _ h2 ih =>
    clear h
    induction h2 with
    | refl => exact ih
    | tail _ h3 ih2 => exact ih2.step h3
  | cpu _ c ih => exact ih
  | illegal _ c ih => exact ih
  | c64 _ ih => exact ih

theorem Given.agrees {D : Str → Bool} {s : St} (h : Given D s) : Agrees (knownNames D) (isKnownWord s) := by
  intro n b hb
  unfold knownNames at hb
  split at hb
  · rename_i hn
    cases hb
    obtain ⟨x, hx, he⟩ := h n hn
    obtain ⟨i, hi⟩ := List.getElem?_of_mem hx
    obtain ⟨j, hj, _⟩ := symFindAux_of_mem (k := 0) hi he
    have hf : symFind s.syms n = some j := hj
    unfold isKnownWord lookUpSymbol
    split
    · split
      · rfl
      · rw [hf]; rfl
    · rw [hf]; rfl
  · cases hb

theorem settle_given {D : Str → Bool} {s : St} (h : Given D s) (evs : List LexEv) : Given D (settle evs s) := by
  induction evs generalizing s with
  | nil => exact h
  | cons ev evs ih => cases ev <;> exact ih h

theorem text_lines {D : Str → Bool} {b o : Bool} {n : Nat} {file : Str} {l : List Top} {evs : List LexEv} (h : LinesText file l evs) :
    (∀ t ∈ l, MacroFreeTop t) → ∀ {st st' : LexSt} {s : Str}, LexRun (fun _ => false) (knownNames D) st s evs st' →
    ∀ (g fr : Nat) (defined : Str → Bool) (_ : Agrees (knownNames D) defined) (pend : List LexEv) (S : St), s.length ≤ g → s.length < fr →
      (∀ ev ∈ pend, ev.setting = true) → NoMacro S → Given D S → Cond noMacroT b o S →
      afterRead (expandNode n) (hasUninit n) file g (readTop (fun _ => false) defined file fr st s [] pend) S =
        (runFile (expandNode n) (hasUninit n) l >>= fun _ => M.pure (atEof st')) (settle pend S) := by
  have hset : ∀ {ev : LexEv} {t : Top} {l : List Top} {evs : List LexEv}, ev.setting = true →
      (∀ s, runTop (expandNode n) (hasUninit n) t s = (.ok true, settle [ev] s)) →
      ((∀ t ∈ l, MacroFreeTop t) → ∀ {st st' : LexSt} {s : Str}, LexRun (fun _ => false) (knownNames D) st s evs st' →
        ∀ (g fr : Nat) (defined : Str → Bool) (_ : Agrees (knownNames D) defined) (pend : List LexEv) (S : St), s.length ≤ g → s.length < fr →
        (∀ ev ∈ pend, ev.setting = true) → NoMacro S → Given D S → Cond noMacroT b o S →
        afterRead (expandNode n) (hasUninit n) file g (readTop (fun _ => false) defined file fr st s [] pend) S =
          (runFile (expandNode n) (hasUninit n) l >>= fun _ => M.pure (atEof st')) (settle pend S)) →
      (∀ t' ∈ t :: l, MacroFreeTop t') → ∀ {st st' : LexSt} {s : Str}, LexRun (fun _ => false) (knownNames D) st s (ev :: evs) st' →
        ∀ (g fr : Nat) (defined : Str → Bool) (_ : Agrees (knownNames D) defined) (pend : List LexEv) (S : St), s.length ≤ g → s.length < fr →
        (∀ ev ∈ pend, ev.setting = true) → NoMacro S → Given D S → Cond noMacroT b o S →
        afterRead (expandNode n) (hasUninit n) file g (readTop (fun _ => false) defined file fr st s [] pend) S =
          (runFile (expandNode n) (hasUninit n) (t :: l) >>= fun _ => M.pure (atEof st')) (settle pend S) := by
    intro ev t l evs hev ht ih hm st st' s hr g fr defined hag pend S hg hfr hp hN hD hC
    obtain ⟨st1, s1, h1, h2, h3⟩ := read_setting hev hr rfl
    obtain ⟨f', h4, h5⟩ := h3 defined hag file pend fr hfr
    rw [h5, ih (fun t ht => hm t (by simp [ht])) h1 g f' defined hag (pend ++ [ev]) S (by omega) h4
      (fun e he => by rcases List.mem_append.1 he with he | he
                      · exact hp e he
                      · rw [List.mem_singleton.1 he]; exact hev) hN hD hC, settle_append]
    rw [run_bind, run_bind]
    have : runFile (expandNode n) (hasUninit n) (t :: l) (settle pend S) =
        runFile (expandNode n) (hasUninit n) l (settle [ev] (settle pend S)) := by
      show (runTop _ _ t >>= _) _ = _
      rw [bind_ok (ht _)]
      rfl
    rw [this]
  induction h with
  | nil =>
    intro _ st st' s hr g fr defined hag pend S hg hfr hp hN hD hC
    rw [read_eof hr rfl defined hag file pend fr hfr]
    show (forEachM runEvent pend >>= fun _ => M.pure (atEof st')) S = _
    rw [bind_ok (run_settings hp S)]
    rfl
  | cpu c _ ih => exact hset rfl (fun _ => rfl) ih
  | illegal on _ ih => exact hset rfl (fun _ => rfl) ih
  | c64 _ ih => exact hset rfl (fun _ => rfl) ih
  | @top t l tt evs ht _ ih =>
    intro hm st st' s hr g fr defined hag pend S hg hfr hp hN hD hC
    have hne : tt ≠ [] := List.length_pos_iff.1 (top_nonempty ht)
    obtain ⟨st1, s1, h1, h2, h3⟩ := read_top ht hr (acc := []) (evs2 := evs) rfl rfl hne
    rw [h3 defined hag pend fr hfr]
    show (forEachM runEvent pend >>= fun _ => runTop _ _ t >>= fun good => if good then runText _ _ file g st1 s1 else _) S = _
    rw [bind_ok (run_settings hp S), run_bind, run_bind]
    have hN1 := settle_noMacro hN pend
    have hC1 := settle_cond hC pend
    have hD1 := settle_given hD pend
    have hT : TSteps noMacroT _ _ := TPr.runTop (T := noMacroT) (b := b) (o := o) (expandNode_pr _ _ n) (Pr.hasUninit n) t
      (macroFreeTop_uses (hm t (by simp))) (settle pend S) hC1
    have e : runFile (expandNode n) (hasUninit n) (t :: l) (settle pend S) =
      (runTop (expandNode n) (hasUninit n) t >>= fun good => if good then runFile (expandNode n) (hasUninit n) l
        else error .syntaxError) (settle pend S) := rfl
    rw [e, run_bind]
    rcases hrt : runTop (expandNode n) (hasUninit n) t (settle pend S) with ⟨r, S1⟩
    rw [hrt] at hT
    cases r with
    | ok good =>
      have hg1 := runTop_good (hm t (by simp)) hN1 hrt
      subst hg1
      simp only [if_true]
      obtain ⟨g', rfl⟩ : ∃ g', g = g' + 1 := ⟨g - 1, by omega⟩
      have hN2 := hN1.tsteps hT
      have hD2 := hD1.tsteps hT
      rw [runText_eq, hN2.word, ih (fun t ht => hm t (by simp [ht])) h1 g' (s1.length + 1) (isKnownWord S1) hD2.agrees [] S1
        (by omega) (by omega) (by simp) hN2 hD2 (hC1.tsteps hT), run_bind]
      rfl
    | _ => rfl

theorem text_file {D : Str → Bool} {b o : Bool} {n : Nat} {file : Str} {l : List Top} {s : Str} (h : FileText D file l s)
    (hm : ∀ t ∈ l, MacroFreeTop t) {lx : LexSt} (hlx : AtPlace ⟨.fileStart, 0, 0, 0, 0, []⟩ lx) :
    ∃ lx', AtPlace ⟨.fileStart, 0, 0, 0, 0, []⟩ { lx' with line := 0 } ∧ ∀ S : St, NoMacro S → Given D S → Cond noMacroT b o S →
      runText (expandNode n) (hasUninit n) file (s.length + 1) lx s S =
        (runFile (expandNode n) (hasUninit n) l >>= fun _ => M.pure lx') S := by
  obtain ⟨evs, h1, h2⟩ := h
  obtain ⟨st', hr, C', ⟨hC', hend⟩, hd⟩ := run_source h1 lx hlx
  rw [lines_bal h2] at hd
  refine ⟨atEof st', ?_, ?_⟩
  · have e1 : C'.dos = 0 := (congrArg (·.1) hd).symm
    have e2 : C'.macros = 0 := (congrArg (·.2.1) hd).symm
    have e3 : C'.ifs = 0 := by
      have : C'.ifs + C'.conds.sum = 0 := (congrArg (·.2.2) hd).symm
      omega
    have d := hC'.dos
    have m := hC'.macros
    have i := hC'.ifs
    rw [e1] at d
    rw [e2] at m
    rw [e3, hend] at i
    exact ⟨hC'.cond, d, m, i, rfl, rfl⟩
  · intro S hN hD hC
    rw [runText_eq, hN.word, text_lines h2 hm hr s.length (s.length + 1) (isKnownWord S) hD.agrees [] S (Nat.le_refl _) (by omega)
      (by simp) hN hD hC]
    rfl

theorem text_files {D : Str → Bool} {b o : Bool} {n : Nat} : ∀ {files : List (Str × Str)} {prog : Program},
    FilesText D files prog →
    (∀ l ∈ prog, ∀ t ∈ l, MacroFreeTop t) → ∀ {lx : LexSt}, AtPlace ⟨.fileStart, 0, 0, 0, 0, []⟩ { lx with line := 0 } →
    ∃ lx', AtPlace ⟨.fileStart, 0, 0, 0, 0, []⟩ { lx' with line := 0 } ∧ ∀ S : St, NoMacro S → Given D S → Cond noMacroT b o S →
      runTexts n files lx S =
        (forEachM (runFile (expandNode n) (hasUninit n)) prog >>= fun _ => M.pure lx') S
  | [], [], _, _, lx, hlx => ⟨lx, hlx, fun _ _ _ _ => rfl⟩
  | (file, text) :: files, l :: prog, .cons h hs, hm, lx, hlx => by
    obtain ⟨lx1, h1, h2⟩ := text_file (D := D) (b := b) (o := o) (n := n) h (hm l (by simp)) hlx
    obtain ⟨lx2, h3, h4⟩ := text_files (D := D) (b := b) (o := o) (n := n) hs (fun l hl => hm l (by simp [hl])) h1
    refine ⟨lx2, h3, ?_⟩
    intro S hN hD hC
    show (runText (expandNode n) (hasUninit n) file (text.length + 1) { lx with line := 0 } text >>= fun lx' =>
      runTexts n files lx') S = ((runFile (expandNode n) (hasUninit n) l >>= fun _ =>
        forEachM (runFile (expandNode n) (hasUninit n)) prog) >>= fun _ => M.pure lx2) S
    have hT : TSteps noMacroT _ _ := TPr.runFile (T := noMacroT) (b := b) (o := o) (expandNode_pr _ _ n) (Pr.hasUninit n) l
      (by rw [List.all_eq_true]; exact fun t ht => macroFreeTop_uses (hm l (by simp) t ht)) S hC
    rw [run_bind, h2 S hN hD hC, bind_assoc', run_bind, run_bind]
    rcases hrt : runFile (expandNode n) (hasUninit n) l S with ⟨r, S1⟩
    rw [hrt] at hT
    cases r with
    | ok a =>
      have := h4 S1 (hN.tsteps hT) (hD.tsteps hT) (hC.tsteps hT)
      exact this
    | _ => rfl

end Verif
