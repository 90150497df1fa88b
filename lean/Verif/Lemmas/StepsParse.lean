import Verif.Lemmas.StepsExpand

/-! # The parser actions and passes are sequences of elementary effects, too -/

namespace Verif

set_option linter.unusedSectionVars false

variable {T : Opr → Bool} [TOk T] {b o : Bool}

theorem Pr.buildExpr : ∀ e : Expr, Pr T b o (buildExpr e)
  | .int v => Pr.constantNode _ _
  | .sym n => Pr.idNode _ _
  | .pc => Pr.constantNode _ _
  | .un op e => by
    have := Pr.buildExpr e
    unfold Verif.buildExpr; pr
  | .bin op e e' => by
    have := Pr.buildExpr e
    have := Pr.buildExpr e'
    unfold Verif.buildExpr; pr
macro_rules | `(tactic| pr_leaf) => `(tactic| with_reducible exact Pr.buildExpr _)

theorem Pr.buildItem (i : Item) : Pr T b o (buildItem i) := by
  unfold Verif.buildItem; pr
macro_rules | `(tactic| pr_leaf) => `(tactic| with_reducible exact Pr.buildItem _)

theorem Pr.buildItemsTl : ∀ (l : List Item) (p : Ptr), Pr T b o (buildItemsTl l p)
  | [], _ => Pr.pure _
  | x :: xs, p => by
    have := Pr.buildItemsTl xs
    unfold Verif.buildItemsTl; pr
macro_rules | `(tactic| pr_leaf) => `(tactic| with_reducible exact Pr.buildItemsTl _ _)

theorem Pr.buildItems (h : Item) (l : List Item) : Pr T b o (buildItems h l) := by
  unfold Verif.buildItems; pr
macro_rules | `(tactic| pr_leaf) => `(tactic| with_reducible exact Pr.buildItems _ _)

theorem Pr.buildItems? (l : Option (Item × List Item)) : Pr T b o (buildItems? l) := by
  unfold Verif.buildItems?; pr
macro_rules | `(tactic| pr_leaf) => `(tactic| with_reducible exact Pr.buildItems? _)

theorem Pr.buildVarsTl : ∀ (l : List (Str × Option Expr)) (p : Ptr), Pr T b o (buildVarsTl l p)
  | [], _ => Pr.pure _
  | (n, none) :: xs, p => by
    have := Pr.buildVarsTl xs
    unfold Verif.buildVarsTl; pr
  | (n, some e) :: xs, p => by
    have := Pr.buildVarsTl xs
    unfold Verif.buildVarsTl; pr
macro_rules | `(tactic| pr_leaf) => `(tactic| with_reducible exact Pr.buildVarsTl _ _)

theorem Pr.buildVars (h : Str × Option Expr) (l : List (Str × Option Expr)) : Pr T b o (buildVars h l) := by
  unfold Verif.buildVars; pr
macro_rules | `(tactic| pr_leaf) => `(tactic| with_reducible exact Pr.buildVars _ _)

theorem Pr.lexMacroName (hT : T .macroDef = true) (n : Str) : Pr T b o (lexMacroName n) := by
  unfold Verif.lexMacroName; pr
  intro s _
  rcases modSym_cases _ (fun x : Sym => { x with isMacroName := true }) s with e | ⟨x, hx, e⟩
  · rw [e]; exact .refl s
  · rw [e]; exact (Step.symUpd s _ x _ hx (by
      constructor <;> first | rfl | exact id | exact fun _ => rfl | (simp; done)) (.inr (.inl hT))).one
macro_rules | `(tactic| pr_leaf) => `(tactic| with_reducible exact Pr.lexMacroName (by assumption) _)

theorem Pr.buildLabel (n : Str) : Pr T b o (buildLabel n) := by
  unfold Verif.buildLabel; pr
macro_rules | `(tactic| pr_leaf) => `(tactic| with_reducible exact Pr.buildLabel _)

theorem Pr.andThen {α β : Type} {m : M (Option α)} {k : α → M (Option β)} (h : Pr T b o m)
    (hk : ∀ a, Pr T b o (k a)) : Pr T b o (andThen m k) := by
  unfold Verif.andThen; pr

theorem Pr.built {m : M Ptr} (h : Pr T b o m) : Pr T b o (built m) := by
  unfold Verif.built; pr

/-- Like `pr`, for builders. -/
macro "prb" : tactic => `(tactic| repeat' first
  | (with_reducible apply Pr.andThen)
  | (with_reducible apply Pr.built)
  | (pr; done)
  | (with_reducible refine Pr.getS ?_; intro s hs)
  | (with_reducible refine Pr.bind ?_ ?_)
  | (with_reducible refine Pr.ite ?_ ?_)
  | (with_reducible intro _))

/-- Does a statement only use directives allowed by `T`? -/
def Stmt.uses (T : Opr → Bool) : Stmt → Bool
  | .empty => true
  | .op _ _ _ => true
  | .org _ => T .org
  | .ds _ => T .ds
  | .data _ _ _ => true
  | .fill _ _ => T .fill
  | .print all _ => T (if all then .printAll else .print)
  | .printState _ => true
  | .sect _ => T .sect
  | .endSect => T .endSect
  | .endProg => T .endProg
  | .load _ => T .load
  | .inc _ => T .inc
  | .word _ _ _ => true
  | .assign _ _ => true
  | .pcAssign _ => T .pcAssign
  | .ifThen _ t => T .ifThen && t.uses T
  | .ifElse _ t e => T .ifThen && t.uses T && e.uses T
  | .repeatLoop b _ => T .repeatLoop && b.uses T
  | .doLoop b _ => T .doLoop && b.uses T
  | .whileLoop _ b => T .whileLoop && b.uses T
  | .forLoop _ _ _ _ b _ => T .forLoop && b.uses T
  | .forReg isX _ _ _ b => T (if isX then .regX else .regY) && b.uses T
  | .macroDef _ b => T .macroDef && b.uses T
  | .var _ _ => T .var
  | .seq a b => a.uses T && b.uses T
  | .at _ s => s.uses T

/-- The statement of a top-level element only uses directives allowed by `T`. -/
def Top.uses (T : Opr → Bool) : Top → Bool
  | .stmt _ _ s => s.uses T
  | .labelled _ _ _ s => s.uses T
  | _ => true

/-- All statements of a program only use directives allowed by `T`. -/
def Program.uses (T : Opr → Bool) (prog : Program) : Bool := prog.all fun ts => ts.all (Top.uses T)

theorem Stmt.uses_all (st : Stmt) : st.uses (fun _ => true) = true := by
  induction st <;> simp [Stmt.uses, *]

theorem Program.uses_all (prog : Program) : Program.uses (fun _ => true) prog = true := by
  simp only [Program.uses, List.all_eq_true]
  intro ts _ t _
  cases t <;> simp [Top.uses, Stmt.uses_all]

set_option maxHeartbeats 400000 in
theorem Pr.buildStmt {ex : Ptr → M Int} {hu : Ptr → M Bool} (hex : ∀ p, Pr T b o (ex p))
    (hhu : ∀ p, Pr T b o (hu p)) : ∀ (st : Stmt) (m : Bool), st.uses T = true → Pr T b o (buildStmt ex hu m st) := by
  intro st
  induction st with
  | op ins mode arg => intro m _; cases arg <;> (unfold Verif.buildStmt; prb)
  | ifThen c t ih =>
    intro m h
    simp only [Stmt.uses, Bool.and_eq_true] at h
    have := h.1
    replace ih := fun m => ih m h.2
    unfold Verif.buildStmt; prb
  | ifElse c t e ih ih' =>
    intro m h
    simp only [Stmt.uses, Bool.and_eq_true] at h
    have := h.1.1
    replace ih := fun m => ih m h.1.2
    replace ih' := fun m => ih' m h.2
    unfold Verif.buildStmt; prb
  | repeatLoop b c ih =>
    intro m h
    simp only [Stmt.uses, Bool.and_eq_true] at h
    have := h.1
    replace ih := fun m => ih m h.2
    unfold Verif.buildStmt; prb
  | doLoop b c ih =>
    intro m h
    simp only [Stmt.uses, Bool.and_eq_true] at h
    have := h.1
    replace ih := fun m => ih m h.2
    unfold Verif.buildStmt; prb
  | whileLoop c b ih =>
    intro m h
    simp only [Stmt.uses, Bool.and_eq_true] at h
    have := h.1
    replace ih := fun m => ih m h.2
    unfold Verif.buildStmt; prb
  | forLoop nm s0 s1 s2 b nx ih =>
    intro m h
    simp only [Stmt.uses, Bool.and_eq_true] at h
    have := h.1
    replace ih := fun m => ih m h.2
    unfold Verif.buildStmt; prb
  | forReg x s0 s1 up bd ih =>
    intro m h
    simp only [Stmt.uses, Bool.and_eq_true] at h
    have h1 := h.1
    replace ih := fun m => ih m h.2
    have hf := fun q => Pr.operatorNode (b := b) (o := o) _ q h1
    unfold Verif.buildStmt; prb
  | print x items =>
    intro m h
    simp only [Stmt.uses] at h
    have hf := fun q => Pr.operatorNode (b := b) (o := o) _ q h
    unfold Verif.buildStmt; prb
  | macroDef nm b ih =>
    intro m h
    simp only [Stmt.uses, Bool.and_eq_true] at h
    have := h.1
    replace ih := fun m => ih m h.2
    unfold Verif.buildStmt; prb
  | seq a b ih ih' =>
    intro m h
    simp only [Stmt.uses, Bool.and_eq_true] at h
    replace ih := fun m => ih m h.1
    replace ih' := fun m => ih' m h.2
    unfold Verif.buildStmt; prb
  | «at» l s ih =>
    intro m h
    replace ih := fun m => ih m h
    unfold Verif.buildStmt; prb
  | _ => intro m h; simp only [Stmt.uses] at h; unfold Verif.buildStmt; prb

/-- Effects of a whole pass: those of statements, and the switches set by the lexer. -/
inductive TSteps (T : Opr → Bool) : St → St → Prop
  | refl (s : St) : TSteps T s s
  | steps {s t u : St} (h : TSteps T s t) (h' : Steps T t u) : TSteps T s u
  | cpu {s t : St} (h : TSteps T s t) (c : Cpu) : TSteps T s { t with cpu := c }
  | illegal {s t : St} (h : TSteps T s t) (c : Bool) : TSteps T s { t with allowIllegal := c }
  | c64 {s t : St} (h : TSteps T s t) : TSteps T s { t with format := .c64 }

theorem TSteps.trans {s t u : St} (h : TSteps T s t) (h' : TSteps T t u) : TSteps T s u := by
  induction h' with
  | refl => exact h
  | steps _ h2 ih => exact .steps ih h2
  | cpu _ c ih => exact .cpu ih c
  | illegal _ c ih => exact .illegal ih c
  | c64 _ ih => exact .c64 ih

theorem Steps.tsteps {s t : St} (h : Steps T s t) : TSteps T s t := .steps (.refl s) h

theorem Cond.tsteps {s s' : St} (h : Cond T b o s) (hs : TSteps T s s') : Cond T b o s' := by
  induction hs with
  | refl => exact h
  | steps _ h2 ih => exact ih.steps h2
  | cpu _ c ih => exact ⟨ih.finalPass, ih.outputOpen, ih.totalBytes, ih.org⟩
  | illegal _ c ih => exact ⟨ih.finalPass, ih.outputOpen, ih.totalBytes, ih.org⟩
  | c64 _ ih => exact ⟨ih.finalPass, ih.outputOpen, ih.totalBytes, ih.org⟩

/-- All runs of `m` are such sequences. -/
def TPr (T : Opr → Bool) (b o : Bool) {α : Type} (m : M α) : Prop := ∀ s, Cond T b o s → TSteps T s (m s).2

theorem TPr.of {α : Type} {m : M α} (h : Pr T b o m) : TPr T b o m := fun s hc => (h s hc).tsteps

theorem TPr.bind {α β : Type} {m : M α} {f : α → M β} (hm : TPr T b o m) (hf : ∀ a, TPr T b o (f a)) :
    TPr T b o (m >>= f) := by
  intro s hc
  have h1 := hm s hc
  rw [run_bind]
  rcases hr : m s with ⟨r, s'⟩
  rw [hr] at h1
  cases r with
  | ok a => exact h1.trans (hf a s' (hc.tsteps h1))
  | _ => exact h1

theorem TPr.forEachM {α : Type} {body : α → M Unit} (h : ∀ x, TPr T b o (body x)) :
    ∀ (xs : List α), TPr T b o (forEachM body xs)
  | [] => TPr.of (Pr.pure _)
  | x :: xs => by
    unfold Verif.forEachM
    exact TPr.bind (h x) fun _ => TPr.forEachM h xs

theorem Pr.runLabelled {ex : Ptr → M Int} {hu : Ptr → M Bool} (hex : ∀ p, Pr T b o (ex p))
    (hhu : ∀ p, Pr T b o (hu p)) (l : Str) (st : Stmt) (h : st.uses T = true) :
    Pr T b o (runLabelled ex hu l st) := by
  have := fun m => Pr.buildStmt hex hhu st m h
  unfold Verif.runLabelled; pr
macro_rules
  | `(tactic| pr_leaf) => `(tactic| with_reducible exact Pr.runLabelled (by assumption) (by assumption) _ _ (by first | rfl | assumption))

theorem TPr.runTop {ex : Ptr → M Int} {hu : Ptr → M Bool} (hex : ∀ p, Pr T b o (ex p))
    (hhu : ∀ p, Pr T b o (hu p)) (t : Top) (h : t.uses T = true) : TPr T b o (runTop ex hu t) := by
  have hb := Pr.buildStmt (b := b) (o := o) hex hhu
  cases t with
  | setCpu c => exact fun s _ => .cpu (.refl s) c
  | setIllegal c => exact fun s _ => .illegal (.refl s) c
  | setC64 => exact fun s _ => .c64 (.refl s)
  | stmt file line st =>
    refine TPr.of ?_
    have h : st.uses T = true := h
    replace hb := fun m => hb st m h
    unfold Verif.runTop
    split
    · rename_i e
      cases e
      have hl := fun nm => Pr.runLabelled hex hhu nm .empty rfl
      pr
    · rename_i e
      cases e
      pr
    all_goals (rename_i e; cases e)
  | labelled file line l st =>
    refine TPr.of ?_
    have h : st.uses T = true := h
    unfold Verif.runTop
    pr

theorem TPr.runFile {ex : Ptr → M Int} {hu : Ptr → M Bool} (hex : ∀ p, Pr T b o (ex p))
    (hhu : ∀ p, Pr T b o (hu p)) : ∀ ts : List Top, ts.all (Top.uses T) = true → TPr T b o (runFile ex hu ts)
  | [], _ => TPr.of (Pr.pure _)
  | t :: ts, h => by
    simp only [List.all_cons, Bool.and_eq_true] at h
    unfold Verif.runFile
    refine TPr.bind (TPr.runTop hex hhu t h.1) fun g => ?_
    split
    · exact TPr.runFile hex hhu ts h.2
    · exact TPr.of (Pr.error _)

/-- The statements of a pass. -/
theorem passBody_tsteps (f : Nat) (prog : Program) (h : prog.uses T = true) (s : St)
    (ht : s.finalPass = true → 0 ≤ s.totalBytes) 
    (hd : T .org = false → OrgDone s := by exact fun h => absurd h (by decide)) :
    TSteps T s (forEachM (runFile (expandNode f) (hasUninit f)) prog s).2 := by
  have key : ∀ (prog : Program), prog.uses T = true →
      TPr T s.finalPass s.outputOpen (Verif.forEachM (Verif.runFile (expandNode f) (hasUninit f)) prog) := by
    intro prog h
    induction prog with
    | nil => exact TPr.of (Pr.pure _)
    | cons ts prog ih =>
      simp only [Program.uses, List.all_cons, Bool.and_eq_true] at h
      unfold Verif.forEachM
      exact TPr.bind (TPr.runFile (expandNode_pr _ _ f) (Pr.hasUninit f) ts h.1) fun _ => ih h.2
  exact key prog h s ⟨rfl, rfl, ht, hd⟩

/-- The state after `reset_lex`. -/
def resetSt (s : St) : St := { s with
    errorCount := 0
    lastLabel := none
    symValueChanged := 0
    pc := 0x1000
    endExpansion := false
    originSpecified := false
    orgOriginSpecified := false
    codeGenerated := 0
    macroDict := s.macroDict.map fun e => (e.1, 0) }

theorem resetLex_run (s : St) : resetLex s = (.ok (), resetSt s) := rfl

/-- A pass: reset, statements, cleanup (the latter only when the statements return normally). -/
theorem parsePass_cases (f : Nat) (prog : Program) (s : St) :
    (∃ t, forEachM (runFile (expandNode f) (hasUninit f)) prog (resetSt s) = (.ok (), t) ∧
      parsePass f prog s = (.ok (), { t with nodeBase := t.nodes.length, currentScope := none })) ∨
    (∃ r t, forEachM (runFile (expandNode f) (hasUninit f)) prog (resetSt s) = (r, t) ∧
      (∀ a, r ≠ .ok a) ∧ parsePass f prog s = (r, t)) := by
  unfold parsePass
  rw [run_bind, resetLex_run]
  simp only [run_bind]
  rcases h : forEachM (runFile (expandNode f) (hasUninit f)) prog (resetSt s) with ⟨r, t⟩
  cases r with
  | ok a => exact Or.inl ⟨t, rfl, rfl⟩
  | exit c => exact Or.inr ⟨_, t, rfl, by simp, rfl⟩
  | ub => exact Or.inr ⟨_, t, rfl, by simp, rfl⟩
  | timeout => exact Or.inr ⟨_, t, rfl, by simp, rfl⟩

end Verif
