import Verif.Lemmas.StepsParse

/-! # What runs after `.end` -/

namespace Verif

/-- A symbol without its macro flag. -/
def Sym.plain (x : Sym) : Sym := { x with isMacroName := false }

/-- The parts of the state that `.end` freezes. -/
structure Frozen (s t : St) : Prop where
  ended : t.endExpansion = true
  out : t.out = s.out
  totalBytes : t.totalBytes = s.totalBytes
  listing : t.listing = s.listing
  pc : t.pc = s.pc
  origin : t.origin = s.origin
  console : t.console = s.console
  minusTab : t.minusTab = s.minusTab
  plusTab : t.plusTab = s.plusTab
  syms : t.syms.map Sym.plain = s.syms.map Sym.plain

theorem Frozen.trans {s t u : St} (h : Frozen s t) (h' : Frozen t u) : Frozen s u :=
  ⟨h'.ended, h'.out.trans h.out, h'.totalBytes.trans h.totalBytes, h'.listing.trans h.listing,
    h'.pc.trans h.pc, h'.origin.trans h.origin, h'.console.trans h.console, h'.minusTab.trans h.minusTab,
    h'.plusTab.trans h.plusTab, h'.syms.trans h.syms⟩

theorem Frozen.refl {s : St} (h : s.endExpansion = true) : Frozen s s :=
  ⟨h, rfl, rfl, rfl, rfl, rfl, rfl, rfl, rfl, rfl⟩

/-- `m` changes none of it once `.end` was processed. -/
def Inert {α : Type} (m : M α) : Prop := ∀ s, s.endExpansion = true → Frozen s (m s).2

theorem Inert.bind {α β : Type} {m : M α} {f : α → M β} (hm : Inert m) (hf : ∀ a, Inert (f a)) :
    Inert (m >>= f) := by
  intro s hs
  have h1 := hm s hs
  rw [run_bind]
  rcases hr : m s with ⟨r, s'⟩
  rw [hr] at h1
  cases r with
  | ok a => exact h1.trans (hf a s' h1.ended)
  | _ => exact h1

/-- Functions that leave the state alone. -/
theorem Inert.same {α : Type} {m : M α} (h : ∀ s, (m s).2 = s) : Inert m := by
  intro s hs
  rw [h s]
  exact .refl hs

theorem Inert.pure {α : Type} (a : α) : Inert (M.pure a) := .same fun _ => rfl
theorem Inert.exit {α : Type} (c : Int) : Inert (exitM c : M α) := .same fun _ => rfl
theorem Inert.ub {α : Type} : Inert (ubM : M α) := .same fun _ => rfl
theorem Inert.timeout {α : Type} : Inert (timeoutM : M α) := .same fun _ => rfl
theorem Inert.liftO {α : Type} (x : Option α) : Inert (liftO x) := .same fun _ => by cases x <;> rfl
theorem Inert.getS : Inert getS := .same fun _ => rfl
theorem Inert.modS {f : St → St} (h : ∀ s, s.endExpansion = true → Frozen s (f s)) : Inert (modS f) := h
theorem Inert.opAt (n : Node) (i : Nat) : Inert (opAt n i) := Inert.liftO _
theorem Inert.node (p : Ptr) : Inert (node p) := .same fun s => by
  unfold Verif.node
  split
  · rfl
  · split <;> rfl
theorem Inert.sym (i : SymPtr) : Inert (sym i) := .same fun s => by
  unfold Verif.sym
  split <;> rfl
theorem Inert.setNode (p : Ptr) (n : Node) : Inert (setNode p n) := by
  intro s hs
  unfold Verif.setNode
  split
  · exact .refl hs
  · exact ⟨hs, rfl, rfl, rfl, rfl, rfl, rfl, rfl, rfl, rfl⟩
theorem Inert.allocNode (k : Kind) (ops : List Ptr) : Inert (allocNode k ops) :=
  fun _ hs => ⟨hs, rfl, rfl, rfl, rfl, rfl, rfl, rfl, rfl, rfl⟩
theorem Inert.operands (n : Node) : Inert (operands n) := by
  unfold Verif.operands
  split
  · exact Inert.pure _
  · exact Inert.ub
theorem Inert.error (e : Err) : Inert (error e) := fun _ hs => ⟨hs, rfl, rfl, rfl, rfl, rfl, rfl, rfl, rfl, rfl⟩
theorem Inert.ite {α : Type} {c : Prop} [Decidable c] {m m' : M α} (h : Inert m) (h' : Inert m') :
    Inert (if c then m else m') := by
  split <;> assumption
theorem Inert.eachM {α σ : Type} {body : σ → α → M (Option σ)} (h : ∀ a x, Inert (body a x)) :
    ∀ (xs : List α) (a : σ), Inert (eachM body xs a)
  | [], a => Inert.pure _
  | x :: xs, a => by
    unfold Verif.eachM
    refine Inert.bind (h a x) fun r => ?_
    cases r with
    | none => exact Inert.pure _
    | some a' => exact Inert.eachM h xs a'
theorem Inert.forEachM {α : Type} {body : α → M Unit} (h : ∀ x, Inert (body x)) :
    ∀ (xs : List α), Inert (forEachM body xs)
  | [] => Inert.pure _
  | x :: xs => by
    unfold Verif.forEachM
    exact Inert.bind (h x) fun _ => Inert.forEachM h xs

/-- The lexer's mark on macro names. -/
theorem Inert.lexMacroName (name : Str) : Inert (lexMacroName name) := by
  intro s hs
  unfold Verif.lexMacroName
  rw [getS_bind]
  rcases lookUpSymbol s.currentScope s.syms name with _ | i
  · exact .refl hs
  · show Frozen s (modSym i _ s).2
    unfold Verif.modSym
    split
    · refine ⟨hs, rfl, rfl, rfl, rfl, rfl, rfl, rfl, rfl, ?_⟩
      simp only
      apply List.ext_getElem?
      intro j
      simp only [List.getElem?_map, List.getElem?_modify]
      cases s.syms[j]? with
      | none => rfl
      | some x =>
        simp only [Option.map_some]
        split <;> rfl
    · exact .refl hs

/-- Leaf rules; extended below. -/
syntax "inert_leaf" : tactic
macro_rules | `(tactic| inert_leaf) => `(tactic| with_reducible exact Inert.pure _)
macro_rules | `(tactic| inert_leaf) => `(tactic| with_reducible exact Inert.ub)
macro_rules | `(tactic| inert_leaf) => `(tactic| with_reducible exact Inert.liftO _)
macro_rules | `(tactic| inert_leaf) => `(tactic| with_reducible exact Inert.getS)
macro_rules | `(tactic| inert_leaf) => `(tactic| with_reducible exact Inert.node _)
macro_rules | `(tactic| inert_leaf) => `(tactic| with_reducible exact Inert.opAt _ _)
macro_rules | `(tactic| inert_leaf) => `(tactic| with_reducible exact Inert.sym _)
macro_rules | `(tactic| inert_leaf) => `(tactic| with_reducible exact Inert.operands _)
macro_rules | `(tactic| inert_leaf) => `(tactic| with_reducible exact Inert.error _)
macro_rules | `(tactic| inert_leaf) => `(tactic| with_reducible exact Inert.setNode _ _)
macro_rules | `(tactic| inert_leaf) => `(tactic| with_reducible exact Inert.allocNode _ _)
macro_rules | `(tactic| inert_leaf) => `(tactic| with_reducible exact Inert.lexMacroName _)
macro_rules
  | `(tactic| inert_leaf) => `(tactic|
    ((with_reducible refine Inert.modS fun _ hs => ?_); exact ⟨hs, rfl, rfl, rfl, rfl, rfl, rfl, rfl, rfl, rfl⟩))

/-- Decompose a goal `Inert m`. -/
macro "inert" : tactic => `(tactic| repeat' first
  | assumption
  | (with_reducible intro _)
  | (with_reducible apply_assumption; done)
  | inert_leaf
  | (with_reducible apply Inert.forEachM)
  | (with_reducible apply Inert.eachM)
  | (with_reducible refine Inert.bind ?_ ?_)
  | (with_reducible refine Inert.ite ?_ ?_)
  | (dsimp only)
  | split)

theorem Inert.expandNode : ∀ (f : Nat) (p : Ptr), Inert (expandNode f p)
  | 0, _ => Inert.timeout
  | f + 1, p => by
    intro s hs
    have : Verif.expandNode (f + 1) p s = (.ok 0, s) := by
      unfold Verif.expandNode
      rw [getS_bind, if_pos hs]
      rfl
    rw [this]
    exact .refl hs

theorem Inert.isUninitSym (p : Ptr) : Inert (isUninitSym p) := by
  unfold Verif.isUninitSym; inert
macro_rules | `(tactic| inert_leaf) => `(tactic| with_reducible exact Inert.isUninitSym _)

theorem Inert.hasUninit : ∀ (f : Nat) (p : Ptr), Inert (hasUninit f p)
  | 0, _ => Inert.timeout
  | f + 1, p => by
    have := Inert.hasUninit f
    unfold Verif.hasUninit; inert

theorem Inert.constantNode (v : Int) (q : Bool) : Inert (constantNode v q) := by
  unfold Verif.constantNode; inert
macro_rules | `(tactic| inert_leaf) => `(tactic| with_reducible exact Inert.constantNode _ _)
theorem Inert.operatorNode (op : Opr) (l : List Ptr) : Inert (operatorNode op l) := Inert.allocNode _ _
macro_rules | `(tactic| inert_leaf) => `(tactic| with_reducible exact Inert.operatorNode _ _)
theorem Inert.idNode (k : IdKind) (n : Str) : Inert (idNode k n) := Inert.allocNode _ _
macro_rules | `(tactic| inert_leaf) => `(tactic| with_reducible exact Inert.idNode _ _)
theorem Inert.dataNode (k : Int) (n : Ptr) : Inert (dataNode k n) := Inert.allocNode _ _
macro_rules | `(tactic| inert_leaf) => `(tactic| with_reducible exact Inert.dataNode _ _)
theorem Inert.stringNode (r : Str) : Inert (stringNode r) := by
  unfold Verif.stringNode; inert
macro_rules | `(tactic| inert_leaf) => `(tactic| with_reducible exact Inert.stringNode _)
theorem Inert.labelNode (r : Str) : Inert (labelNode r) := by
  unfold Verif.labelNode; inert
macro_rules | `(tactic| inert_leaf) => `(tactic| with_reducible exact Inert.labelNode _)
theorem Inert.macroExpandNode (r : Str) (q : Option Ptr) : Inert (macroExpandNode r q) := by
  unfold Verif.macroExpandNode; inert
macro_rules | `(tactic| inert_leaf) => `(tactic| with_reducible exact Inert.macroExpandNode _ _)
theorem Inert.isAccOperand (m : Mode) (l : List Ptr) : Inert (isAccOperand m l) := by
  unfold Verif.isAccOperand; inert
macro_rules | `(tactic| inert_leaf) => `(tactic| with_reducible exact Inert.isAccOperand _ _)
theorem Inert.lastValue {ex : Ptr → M Int} (hex : ∀ p, Inert (ex p)) (l : List Ptr) : Inert (lastValue ex l) := by
  unfold Verif.lastValue; inert
theorem Inert.opcodeNode {ex : Ptr → M Int} {hu : Ptr → M Bool} (hex : ∀ p, Inert (ex p)) (hhu : ∀ p, Inert (hu p))
    (i : Int) (m : Mode) (l : List Ptr) : Inert (opcodeNode ex hu i m l) := by
  have := fun l => Inert.lastValue hex l
  unfold Verif.opcodeNode; inert

theorem Inert.buildExpr : ∀ e : Expr, Inert (buildExpr e)
  | .int v => Inert.constantNode _ _
  | .sym n => Inert.idNode _ _
  | .pc => Inert.constantNode _ _
  | .un op e => by
    have := Inert.buildExpr e
    unfold Verif.buildExpr; inert
  | .bin op e e' => by
    have := Inert.buildExpr e
    have := Inert.buildExpr e'
    unfold Verif.buildExpr; inert
macro_rules | `(tactic| inert_leaf) => `(tactic| with_reducible exact Inert.buildExpr _)

theorem Inert.buildItem (i : Item) : Inert (buildItem i) := by
  unfold Verif.buildItem; inert
macro_rules | `(tactic| inert_leaf) => `(tactic| with_reducible exact Inert.buildItem _)

theorem Inert.buildItemsTl : ∀ (l : List Item) (p : Ptr), Inert (buildItemsTl l p)
  | [], _ => Inert.pure _
  | x :: xs, p => by
    have := Inert.buildItemsTl xs
    unfold Verif.buildItemsTl; inert
macro_rules | `(tactic| inert_leaf) => `(tactic| with_reducible exact Inert.buildItemsTl _ _)

theorem Inert.buildItems (h : Item) (l : List Item) : Inert (buildItems h l) := by
  unfold Verif.buildItems; inert
macro_rules | `(tactic| inert_leaf) => `(tactic| with_reducible exact Inert.buildItems _ _)

theorem Inert.buildItems? (l : Option (Item × List Item)) : Inert (buildItems? l) := by
  unfold Verif.buildItems?; inert
macro_rules | `(tactic| inert_leaf) => `(tactic| with_reducible exact Inert.buildItems? _)

theorem Inert.buildVarsTl : ∀ (l : List (Str × Option Expr)) (p : Ptr), Inert (buildVarsTl l p)
  | [], _ => Inert.pure _
  | (n, none) :: xs, p => by
    have := Inert.buildVarsTl xs
    unfold Verif.buildVarsTl; inert
  | (n, some e) :: xs, p => by
    have := Inert.buildVarsTl xs
    unfold Verif.buildVarsTl; inert
macro_rules | `(tactic| inert_leaf) => `(tactic| with_reducible exact Inert.buildVarsTl _ _)

theorem Inert.buildVars (h : Str × Option Expr) (l : List (Str × Option Expr)) : Inert (buildVars h l) := by
  unfold Verif.buildVars; inert
macro_rules | `(tactic| inert_leaf) => `(tactic| with_reducible exact Inert.buildVars _ _)

theorem Inert.buildLabel (n : Str) : Inert (buildLabel n) := by
  unfold Verif.buildLabel; inert
macro_rules | `(tactic| inert_leaf) => `(tactic| with_reducible exact Inert.buildLabel _)

theorem Inert.andThen {α β : Type} {m : M (Option α)} {k : α → M (Option β)} (h : Inert m)
    (hk : ∀ a, Inert (k a)) : Inert (andThen m k) := by
  unfold Verif.andThen; inert

theorem Inert.built {m : M Ptr} (h : Inert m) : Inert (built m) := by
  unfold Verif.built; inert

/-- Like `inert`, for builders. -/
macro "inertb" : tactic => `(tactic| repeat' first
  | (with_reducible apply Inert.andThen)
  | (with_reducible apply Inert.built)
  | (inert; done)
  | (with_reducible refine Inert.bind ?_ ?_)
  | (with_reducible refine Inert.ite ?_ ?_)
  | (with_reducible intro _))

theorem Inert.buildStmt {ex : Ptr → M Int} {hu : Ptr → M Bool} (hex : ∀ p, Inert (ex p))
    (hhu : ∀ p, Inert (hu p)) (st : Stmt) : ∀ m : Bool, Inert (buildStmt ex hu m st) := by
  have hop := fun i m l => Inert.opcodeNode hex hhu i m l
  induction st with
  | op ins mode arg => intro m; cases arg <;> (unfold Verif.buildStmt; inertb)
  | _ => intro m; unfold Verif.buildStmt; inertb

theorem Inert.runLabelled {ex : Ptr → M Int} {hu : Ptr → M Bool} (hex : ∀ p, Inert (ex p))
    (hhu : ∀ p, Inert (hu p)) (l : Str) (st : Stmt) : Inert (runLabelled ex hu l st) := by
  have := Inert.buildStmt hex hhu st
  unfold Verif.runLabelled; inert

theorem Inert.runTop {ex : Ptr → M Int} {hu : Ptr → M Bool} (hex : ∀ p, Inert (ex p))
    (hhu : ∀ p, Inert (hu p)) (t : Top) : Inert (runTop ex hu t) := by
  have hb := Inert.buildStmt hex hhu
  have hl := Inert.runLabelled hex hhu
  unfold Verif.runTop; inert

theorem Inert.runFile {ex : Ptr → M Int} {hu : Ptr → M Bool} (hex : ∀ p, Inert (ex p))
    (hhu : ∀ p, Inert (hu p)) : ∀ ts : List Top, Inert (runFile ex hu ts)
  | [] => Inert.pure _
  | t :: ts => by
    have h1 := Inert.runTop hex hhu t
    have h2 := Inert.runFile hex hhu ts
    unfold Verif.runFile; inert

end Verif
