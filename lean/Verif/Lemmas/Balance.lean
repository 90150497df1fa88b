import Verif.Lemmas.Monad

/-! # The stack of macro parameters is balanced -/

namespace Verif

/-- The parameter stack is as before, unless an error was reported. -/
structure Even (s s' : St) : Prop where
  errors : s.errorCount ≤ s'.errorCount
  stack : s'.errorCount = s.errorCount → s'.paramStack = s.paramStack

theorem Even.refl (s : St) : Even s s := ⟨Nat.le_refl _, fun _ => rfl⟩

theorem Even.trans {s t u : St} (h : Even s t) (h' : Even t u) : Even s u := by
  refine ⟨Nat.le_trans h.errors h'.errors, fun e => ?_⟩
  have h1 := h.errors
  have h2 := h'.errors
  rw [h'.stack (by omega), h.stack (by omega)]

/-- `m` leaves the stack as it was when it returns normally without reporting an error. -/
def Bal {α : Type} (m : M α) : Prop := ∀ s a s', m s = (.ok a, s') → Even s s'

theorem Bal.bind {α β : Type} {m : M α} {f : α → M β} (hm : Bal m) (hf : ∀ a, Bal (f a)) : Bal (m >>= f) := by
  intro s b s' h
  obtain ⟨a, s1, h1, h2⟩ := bind_ok_inv h
  exact (hm s a s1 h1).trans (hf a s1 b s' h2)

theorem Bal.pure {α : Type} (a : α) : Bal (M.pure a) := by rintro s _ s' ⟨⟩; exact .refl s
theorem Bal.exit {α : Type} (c : Int) : Bal (exitM c : M α) := by rintro s _ s' ⟨⟩
theorem Bal.ub {α : Type} : Bal (ubM : M α) := by rintro s _ s' ⟨⟩
theorem Bal.timeout {α : Type} : Bal (timeoutM : M α) := by rintro s _ s' ⟨⟩
theorem Bal.liftO {α : Type} (x : Option α) : Bal (liftO x) := by
  cases x
  · exact Bal.ub
  · exact Bal.pure _
theorem Bal.getS : Bal Verif.getS := by rintro s _ s' ⟨⟩; exact .refl s
theorem Bal.error (e : Err) : Bal (error e) := by
  rintro s _ s' ⟨⟩
  exact ⟨Nat.le_succ _, fun h => absurd h (Nat.succ_ne_self _)⟩
theorem Bal.warn (e : Err) : Bal (warn e) := by rintro s _ s' ⟨⟩; exact ⟨Nat.le_refl _, fun _ => rfl⟩
theorem Bal.modS {g : St → St} (h : ∀ s, (g s).errorCount = s.errorCount ∧ (g s).paramStack = s.paramStack) : Bal (modS g) := by
  rintro s _ s' ⟨⟩
  exact ⟨Nat.le_of_eq (h s).1.symm, fun _ => (h s).2⟩
theorem Bal.opAt (n : Node) (i : Nat) : Bal (opAt n i) := Bal.liftO _
theorem Bal.node (p : Ptr) : Bal (node p) := by
  intro s a s' h
  unfold Verif.node at h
  split at h
  · cases h
  · split at h <;> cases h
    exact .refl s
theorem Bal.sym (i : SymPtr) : Bal (sym i) := by
  intro s a s' h
  unfold Verif.sym at h
  split at h <;> cases h
  exact .refl s
theorem Bal.setNode (p : Ptr) (n : Node) : Bal (setNode p n) := by
  intro s a s' h
  unfold Verif.setNode at h
  split at h <;> cases h
  exact ⟨Nat.le_refl _, fun _ => rfl⟩
theorem Bal.allocNode (k : Kind) (ops : List Ptr) : Bal (allocNode k ops) := by
  rintro s _ s' ⟨⟩
  exact ⟨Nat.le_refl _, fun _ => rfl⟩
theorem Bal.modSym (i : SymPtr) (f : Sym → Sym) : Bal (modSym i f) := by
  intro s a s' h
  unfold Verif.modSym at h
  split at h <;> cases h
  exact ⟨Nat.le_refl _, fun _ => rfl⟩
theorem Bal.insertSym (x : Sym) : Bal (insertSym x) := by
  rintro s _ s' ⟨⟩
  exact ⟨Nat.le_refl _, fun _ => rfl⟩
theorem Bal.operands (n : Node) : Bal (operands n) := by
  unfold Verif.operands
  split
  · exact Bal.pure _
  · exact Bal.ub
theorem Bal.ite {α : Type} {c : Prop} [Decidable c] {m m' : M α} (h : Bal m) (h' : Bal m') : Bal (if c then m else m') := by
  split <;> assumption
theorem Bal.loopM (f : Nat) {body : M Bool} (h : Bal body) : Bal (loopM f body) := by
  induction f with
  | zero => exact Bal.timeout
  | succ n ih =>
    unfold Verif.loopM
    exact Bal.bind h fun a => Bal.ite ih (Bal.pure _)
theorem Bal.eachM {α σ : Type} {body : σ → α → M (Option σ)} (h : ∀ a x, Bal (body a x)) :
    ∀ (xs : List α) (a : σ), Bal (eachM body xs a)
  | [], a => Bal.pure _
  | x :: xs, a => by
    unfold Verif.eachM
    refine Bal.bind (h a x) fun r => ?_
    cases r with
    | none => exact Bal.pure _
    | some a' => exact Bal.eachM h xs a'
theorem Bal.forEachM {α : Type} {body : α → M Unit} (h : ∀ x, Bal (body x)) :
    ∀ (xs : List α), Bal (forEachM body xs)
  | [] => Bal.pure _
  | x :: xs => by
    unfold Verif.forEachM
    exact Bal.bind (h x) fun _ => Bal.forEachM h xs

/-- Leaf rules; extended below. -/
syntax "bal_leaf" : tactic
macro_rules | `(tactic| bal_leaf) => `(tactic| with_reducible exact Bal.pure _)
macro_rules | `(tactic| bal_leaf) => `(tactic| with_reducible exact Bal.exit _)
macro_rules | `(tactic| bal_leaf) => `(tactic| with_reducible exact Bal.ub)
macro_rules | `(tactic| bal_leaf) => `(tactic| with_reducible exact Bal.timeout)
macro_rules | `(tactic| bal_leaf) => `(tactic| with_reducible exact Bal.liftO _)
macro_rules | `(tactic| bal_leaf) => `(tactic| with_reducible exact Bal.getS)
macro_rules | `(tactic| bal_leaf) => `(tactic| with_reducible exact Bal.error _)
macro_rules | `(tactic| bal_leaf) => `(tactic| with_reducible exact Bal.warn _)
macro_rules | `(tactic| bal_leaf) => `(tactic| with_reducible exact Bal.node _)
macro_rules | `(tactic| bal_leaf) => `(tactic| with_reducible exact Bal.opAt _ _)
macro_rules | `(tactic| bal_leaf) => `(tactic| with_reducible exact Bal.sym _)
macro_rules | `(tactic| bal_leaf) => `(tactic| with_reducible exact Bal.operands _)
macro_rules | `(tactic| bal_leaf) => `(tactic| with_reducible exact Bal.setNode _ _)
macro_rules | `(tactic| bal_leaf) => `(tactic| with_reducible exact Bal.allocNode _ _)
macro_rules | `(tactic| bal_leaf) => `(tactic| with_reducible exact Bal.modSym _ _)
macro_rules | `(tactic| bal_leaf) => `(tactic| with_reducible exact Bal.insertSym _)
macro_rules | `(tactic| bal_leaf) => `(tactic| with_reducible exact Bal.modS (fun _ => ⟨rfl, rfl⟩))
macro_rules
  | `(tactic| bal_leaf) => `(tactic| (with_reducible refine Bal.modS (fun _ => ?_); split <;> exact ⟨rfl, rfl⟩; done))

/-- Decompose a goal `Bal m`. -/
macro "bal" : tactic => `(tactic| repeat' first
  | assumption
  | (with_reducible intro _)
  | (with_reducible apply_assumption; done)
  | bal_leaf
  | (with_reducible apply Bal.loopM)
  | (with_reducible apply Bal.forEachM)
  | (with_reducible apply Bal.eachM)
  | (with_reducible refine Bal.bind ?_ ?_)
  | (with_reducible refine Bal.ite ?_ ?_)
  | (dsimp only)
  | split)

section
variable {ex : Ptr → M Int} {hu : Ptr → M Bool}

theorem Bal.addPlusMinusSym (name : Str) : Bal (addPlusMinusSym name) := by
  unfold Verif.addPlusMinusSym; bal
macro_rules | `(tactic| bal_leaf) => `(tactic| with_reducible exact Bal.addPlusMinusSym _)

theorem Bal.addSymbol (name : Str) : Bal (addSymbol name) := by
  unfold Verif.addSymbol; bal
macro_rules | `(tactic| bal_leaf) => `(tactic| with_reducible exact Bal.addSymbol _)

theorem Bal.setSymbolValue (i : SymPtr) (value : Int) : Bal (setSymbolValue i value) := by
  unfold Verif.setSymbolValue; bal
macro_rules | `(tactic| bal_leaf) => `(tactic| with_reducible exact Bal.setSymbolValue _ _)

theorem Bal.addMinus (value : Int) : Bal (addMinus value) := by
  unfold Verif.addMinus; bal
macro_rules | `(tactic| bal_leaf) => `(tactic| with_reducible exact Bal.addMinus _)

theorem Bal.addPlus (value : Int) : Bal (addPlus value) := by
  unfold Verif.addPlus; bal
macro_rules | `(tactic| bal_leaf) => `(tactic| with_reducible exact Bal.addPlus _)

theorem Bal.restoreParams : ∀ (vs : List Int) (k : Nat), Bal (restoreParams k vs)
  | [], _ => Bal.pure _
  | v :: vs, k => by
    have ih := Bal.restoreParams vs
    unfold Verif.restoreParams
    bal

theorem Bal.writeByte (v : Int) : Bal (writeByte v) := by
  unfold Verif.writeByte; bal
macro_rules | `(tactic| bal_leaf) => `(tactic| with_reducible exact Bal.writeByte _)

theorem Bal.writeWord (v : Int) : Bal (writeWord v) := by
  unfold Verif.writeWord; bal
macro_rules | `(tactic| bal_leaf) => `(tactic| with_reducible exact Bal.writeWord _)

theorem Bal.writeBytes (v : Str) : Bal (writeBytes v) := by
  unfold Verif.writeBytes; bal
macro_rules | `(tactic| bal_leaf) => `(tactic| with_reducible exact Bal.writeBytes _)

theorem Bal.writeData (v : Int) : Bal (writeData v) := by
  unfold Verif.writeData; bal
macro_rules | `(tactic| bal_leaf) => `(tactic| with_reducible exact Bal.writeData _)

theorem Bal.writeHeader : Bal Verif.writeHeader := by
  unfold Verif.writeHeader; bal
macro_rules | `(tactic| bal_leaf) => `(tactic| with_reducible exact Bal.writeHeader)

theorem Bal.writeStringNode (v : Str) : Bal (writeStringNode v) := by
  unfold Verif.writeStringNode; bal
macro_rules | `(tactic| bal_leaf) => `(tactic| with_reducible exact Bal.writeStringNode _)

theorem Bal.writeDataValue (op : Int) : Bal (writeDataValue op) := by
  unfold Verif.writeDataValue; bal
macro_rules | `(tactic| bal_leaf) => `(tactic| with_reducible exact Bal.writeDataValue _)

theorem Bal.writeDataNode (hex : ∀ p, Bal (ex p)) (p : Ptr) : Bal (writeDataNode ex p) := by
  unfold Verif.writeDataNode; bal
macro_rules | `(tactic| bal_leaf) => `(tactic| with_reducible exact Bal.writeDataNode (by assumption) _)

theorem Bal.writeOpcodeNode (hex : ∀ p, Bal (ex p)) (p : Ptr) : Bal (writeOpcodeNode ex p) := by
  unfold Verif.writeOpcodeNode; bal
macro_rules | `(tactic| bal_leaf) => `(tactic| with_reducible exact Bal.writeOpcodeNode (by assumption) _)

theorem Bal.payload (hex : ∀ p, Bal (ex p)) (p : Ptr) (n : Node) : Bal (payload ex p n) := by
  unfold Verif.payload; bal
macro_rules | `(tactic| bal_leaf) => `(tactic| with_reducible exact Bal.payload (by assumption) _ _)

theorem Bal.generateOutput (hex : ∀ p, Bal (ex p)) (p : Ptr) : Bal (generateOutput ex p) := by
  unfold Verif.generateOutput; bal
macro_rules | `(tactic| bal_leaf) => `(tactic| with_reducible exact Bal.generateOutput (by assumption) _)

theorem Bal.addList (t : Str) : Bal (addList t) := by
  unfold Verif.addList; bal
macro_rules | `(tactic| bal_leaf) => `(tactic| with_reducible exact Bal.addList _)

theorem Bal.listPrintState (st : Bool) : Bal (listPrintState st) := by
  unfold Verif.listPrintState Verif.addDirective; bal
macro_rules | `(tactic| bal_leaf) => `(tactic| with_reducible exact Bal.listPrintState _)

theorem Bal.listString (pad : Bool) : ∀ (n : Nat) (v : Str), v.length ≤ n → ∀ (pc : Int) (prev : Str × Nat),
    Bal (listString pad pc prev v) := by
  intro n
  induction n with
  | zero =>
    intro v hv pc prev
    have : v = [] := List.length_eq_zero_iff.mp (Nat.le_zero.mp hv)
    subst this
    unfold Verif.listString
    bal
  | succ n ih =>
    intro v hv pc prev
    unfold Verif.listString
    split
    · refine Bal.bind (Bal.addList _) fun _ => ih _ ?_ _ _
      simp only [List.length_cons] at hv
      omega
    all_goals bal
macro_rules | `(tactic| bal_leaf) => `(tactic| with_reducible exact Bal.listString _ _ _ (Nat.le_refl _) _ _)

theorem Bal.listData (hex : ∀ p, Bal (ex p)) (p : Ptr) : Bal (listData ex p) := by
  unfold Verif.listData; bal
macro_rules | `(tactic| bal_leaf) => `(tactic| with_reducible exact Bal.listData (by assumption) _)

theorem Bal.listOpcode (hex : ∀ p, Bal (ex p)) (n : Node) (ins code : Int) (mode : Mode) (pc : Int) : Bal (listOpcode ex n ins code mode pc) := by
  unfold Verif.listOpcode; bal
macro_rules | `(tactic| bal_leaf) => `(tactic| with_reducible exact Bal.listOpcode (by assumption) _ _ _ _ _)

theorem Bal.generateListNode (hex : ∀ p, Bal (ex p)) (p : Ptr) : Bal (generateListNode ex p) := by
  unfold Verif.generateListNode; bal
macro_rules | `(tactic| bal_leaf) => `(tactic| with_reducible exact Bal.generateListNode (by assumption) _)

theorem Bal.constantNode (value : Int) (isPc : Bool) : Bal (constantNode value isPc) := by
  unfold Verif.constantNode; bal
macro_rules | `(tactic| bal_leaf) => `(tactic| with_reducible exact Bal.constantNode _ _)

theorem Bal.stringNode (raw : Str) : Bal (stringNode raw) := by
  unfold Verif.stringNode; bal
macro_rules | `(tactic| bal_leaf) => `(tactic| with_reducible exact Bal.stringNode _)

theorem Bal.idNode (k : IdKind) (name : Str) : Bal (idNode k name) := by
  unfold Verif.idNode; bal
macro_rules | `(tactic| bal_leaf) => `(tactic| with_reducible exact Bal.idNode _ _)

theorem Bal.labelNode (name : Str) : Bal (labelNode name) := by
  unfold Verif.labelNode; bal
macro_rules | `(tactic| bal_leaf) => `(tactic| with_reducible exact Bal.labelNode _)

theorem Bal.macroExpandNode (name : Str) (params : Option Ptr) : Bal (macroExpandNode name params) := by
  unfold Verif.macroExpandNode; bal
macro_rules | `(tactic| bal_leaf) => `(tactic| with_reducible exact Bal.macroExpandNode _ _)

theorem Bal.dataNode (size : Int) (data : Ptr) : Bal (dataNode size data) := by
  unfold Verif.dataNode; bal
macro_rules | `(tactic| bal_leaf) => `(tactic| with_reducible exact Bal.dataNode _ _)

theorem Bal.operatorNode (op : Opr) (ops : List Ptr) : Bal (operatorNode op ops) := by
  unfold Verif.operatorNode; bal
macro_rules | `(tactic| bal_leaf) => `(tactic| with_reducible exact Bal.operatorNode _ _)

theorem Bal.isUninitSym (p : Ptr) : Bal (isUninitSym p) := by
  unfold Verif.isUninitSym; bal
macro_rules | `(tactic| bal_leaf) => `(tactic| with_reducible exact Bal.isUninitSym _)

theorem Bal.hasUninit : ∀ (f : Nat) (p : Ptr), Bal (hasUninit f p)
  | 0, _ => Bal.timeout
  | f + 1, p => by
    have := Bal.hasUninit f
    unfold Verif.hasUninit
    bal

theorem Bal.opCodeM (ins : Int) (mode : Mode) : Bal (opCodeM ins mode) := by
  unfold Verif.opCodeM; bal
macro_rules | `(tactic| bal_leaf) => `(tactic| with_reducible exact Bal.opCodeM _ _)

theorem Bal.lastValue (hex : ∀ p, Bal (ex p)) (ops : List Ptr) : Bal (lastValue ex ops) := by
  unfold Verif.lastValue; bal
macro_rules | `(tactic| bal_leaf) => `(tactic| with_reducible exact Bal.lastValue (by assumption) _)

theorem Bal.isAccOperand (mode : Mode) (ops : List Ptr) : Bal (isAccOperand mode ops) := by
  unfold Verif.isAccOperand; bal
macro_rules | `(tactic| bal_leaf) => `(tactic| with_reducible exact Bal.isAccOperand _ _)

theorem Bal.opcodeNode (hex : ∀ p, Bal (ex p)) (hhu : ∀ p, Bal (hu p)) (op : Int) (mode0 : Mode) (ops : List Ptr) : Bal (opcodeNode ex hu op mode0 ops) := by
  unfold Verif.opcodeNode; bal
macro_rules | `(tactic| bal_leaf) => `(tactic| with_reducible exact Bal.opcodeNode (by assumption) (by assumption) _ _ _)

theorem Bal.modOpcode (p : Ptr) (g : Int → Int → Mode → Int → Kind) : Bal (modOpcode p g) := by
  unfold Verif.modOpcode; bal
macro_rules | `(tactic| bal_leaf) => `(tactic| with_reducible exact Bal.modOpcode _ _)

theorem Bal.addPc (d : Int) : Bal (addPc d) := by
  unfold Verif.addPc; bal
macro_rules | `(tactic| bal_leaf) => `(tactic| with_reducible exact Bal.addPc _)

theorem Bal.resolveId (force : Bool) (p : Ptr) : Bal (resolveId force p) := by
  unfold Verif.resolveId; bal
macro_rules | `(tactic| bal_leaf) => `(tactic| with_reducible exact Bal.resolveId _ _)

theorem Bal.expandConstant (p : Ptr) (value : Int) (isPc : Bool) : Bal (expandConstant p value isPc) := by
  unfold Verif.expandConstant; bal
macro_rules | `(tactic| bal_leaf) => `(tactic| with_reducible exact Bal.expandConstant _ _ _)

theorem Bal.expandPlusMinus (p : Ptr) : Bal (expandPlusMinus p) := by
  unfold Verif.expandPlusMinus; bal
macro_rules | `(tactic| bal_leaf) => `(tactic| with_reducible exact Bal.expandPlusMinus _)

theorem Bal.symValue (i : SymPtr) : Bal (symValue i) := by
  unfold Verif.symValue; bal
macro_rules | `(tactic| bal_leaf) => `(tactic| with_reducible exact Bal.symValue _)

theorem Bal.expandId (p : Ptr) (name : Str) : Bal (expandId p name) := by
  unfold Verif.expandId; bal
macro_rules | `(tactic| bal_leaf) => `(tactic| with_reducible exact Bal.expandId _ _)

theorem Bal.expandLabel (p : Ptr) (name : Str) : Bal (expandLabel p name) := by
  unfold Verif.expandLabel; bal
macro_rules | `(tactic| bal_leaf) => `(tactic| with_reducible exact Bal.expandLabel _ _)

theorem Bal.expandData (hex : ∀ p, Bal (ex p)) (size : Int) (data : Ptr) : Bal (expandData ex size data) := by
  unfold Verif.expandData; bal
macro_rules | `(tactic| bal_leaf) => `(tactic| with_reducible exact Bal.expandData (by assumption) _ _)

theorem Bal.fillStep (hex : ∀ p, Bal (ex p)) (count : Int) (two one : Ptr) : Bal (fillStep ex count two one) := by
  unfold Verif.fillStep; bal
macro_rules | `(tactic| bal_leaf) => `(tactic| with_reducible exact Bal.fillStep (by assumption) _ _ _)

theorem Bal.fillLoop (hex : ∀ p, Bal (ex p)) (two one : Ptr) : ∀ (f : Nat) (c : Int), Bal (fillLoop ex two one f c)
  | 0, c => by unfold Verif.fillLoop; bal
  | f + 1, c => by
    have := Bal.fillLoop hex two one f
    unfold Verif.fillLoop
    bal
macro_rules | `(tactic| bal_leaf) => `(tactic| with_reducible exact Bal.fillLoop (by assumption) _ _ _ _)

theorem Bal.expandFill (hex : ∀ p, Bal (ex p)) (f : Nat) (n : Node) : Bal (expandFill ex f n) := by
  unfold Verif.expandFill; bal
macro_rules | `(tactic| bal_leaf) => `(tactic| with_reducible exact Bal.expandFill (by assumption) _ _)

theorem Bal.loadEmit (hex : ∀ p, Bal (ex p)) (size value : Int) : Bal (loadEmit ex size value) := by
  unfold Verif.loadEmit; bal
macro_rules | `(tactic| bal_leaf) => `(tactic| with_reducible exact Bal.loadEmit (by assumption) _ _)

theorem Bal.loadLoop (hex : ∀ p, Bal (ex p)) : ∀ (n : Nat) (bs : List Nat), bs.length ≤ n → Bal (loadLoop ex bs) := by
  intro n
  induction n with
  | zero =>
    intro bs h
    have : bs = [] := List.length_eq_zero_iff.mp (Nat.le_zero.mp h)
    subst this
    exact Bal.pure _
  | succ n ih =>
    intro bs h
    unfold Verif.loadLoop
    split
    · refine Bal.bind (Bal.loadEmit hex _ _) fun _ => ih _ ?_
      simp only [List.length_cons] at h
      omega
    · exact Bal.loadEmit hex _ _
    · exact Bal.pure _
macro_rules | `(tactic| bal_leaf) => `(tactic| with_reducible exact Bal.loadLoop (by assumption) _ _ (Nat.le_refl _))

theorem Bal.expandLoad (hex : ∀ p, Bal (ex p)) (n : Node) : Bal (expandLoad ex n) := by
  unfold Verif.expandLoad; bal
macro_rules | `(tactic| bal_leaf) => `(tactic| with_reducible exact Bal.expandLoad (by assumption) _)

theorem Bal.expandInclude (n : Node) : Bal (expandInclude n) := by
  unfold Verif.expandInclude; bal
macro_rules | `(tactic| bal_leaf) => `(tactic| with_reducible exact Bal.expandInclude _)

theorem Bal.expandSection (n : Node) : Bal (expandSection n) := by
  unfold Verif.expandSection; bal
macro_rules | `(tactic| bal_leaf) => `(tactic| with_reducible exact Bal.expandSection _)

theorem Bal.expandEndSection : Bal Verif.expandEndSection := by
  unfold Verif.expandEndSection; bal
macro_rules | `(tactic| bal_leaf) => `(tactic| with_reducible exact Bal.expandEndSection)

theorem Bal.opNodeBytes (p : Ptr) : Bal (opNodeBytes p) := by
  unfold Verif.opNodeBytes; bal
macro_rules | `(tactic| bal_leaf) => `(tactic| with_reducible exact Bal.opNodeBytes _)

theorem Bal.emitNode (hex : ∀ p, Bal (ex p)) (p : Ptr) : Bal (emitNode ex p) := by
  unfold Verif.emitNode; bal
macro_rules | `(tactic| bal_leaf) => `(tactic| with_reducible exact Bal.emitNode (by assumption) _)

theorem Bal.longBranch (hex : ∀ p, Bal (ex p)) (hhu : ∀ p, Bal (hu p)) (p t : Ptr) (c c2 : Int) (m : Mode) :
    Bal (longBranch ex hu p t c c2 m) := by
  unfold Verif.longBranch; bal
macro_rules | `(tactic| bal_leaf) => `(tactic| with_reducible exact Bal.longBranch (by assumption) (by assumption) _ _ _ _ _)

theorem Bal.zpOptimize (p : Ptr) (ins : Int) (large : Bool) (mode modeCheck : Mode) : Bal (zpOptimize p ins large mode modeCheck) := by
  unfold Verif.zpOptimize; bal
macro_rules | `(tactic| bal_leaf) => `(tactic| with_reducible exact Bal.zpOptimize _ _ _ _ _)

theorem Bal.widen (p : Ptr) (ins : Int) (mode modeCheck : Mode) : Bal (widen p ins mode modeCheck) := by
  unfold Verif.widen; bal
macro_rules | `(tactic| bal_leaf) => `(tactic| with_reducible exact Bal.widen _ _ _ _)

theorem Bal.operandPhase (hex : ∀ p, Bal (ex p)) (hhu : ∀ p, Bal (hu p)) (p : Ptr) (n : Node) (ins code : Int) (mode : Mode) (pc : Int) : Bal (operandPhase ex hu p n ins code mode pc) := by
  unfold Verif.operandPhase; bal
macro_rules | `(tactic| bal_leaf) => `(tactic| with_reducible exact Bal.operandPhase (by assumption) (by assumption) _ _ _ _ _ _)

theorem Bal.expandOpCode (hex : ∀ p, Bal (ex p)) (hhu : ∀ p, Bal (hu p)) (p : Ptr) : Bal (expandOpCode ex hu p) := by
  unfold Verif.expandOpCode; bal
macro_rules | `(tactic| bal_leaf) => `(tactic| with_reducible exact Bal.expandOpCode (by assumption) (by assumption) _)

theorem Bal.injectOp (hex : ∀ p, Bal (ex p)) (hhu : ∀ p, Bal (hu p)) (ins : Int) (mode : Mode) (arg : Option Int) : Bal (injectOp ex hu ins mode arg) := by
  unfold Verif.injectOp; bal
macro_rules | `(tactic| bal_leaf) => `(tactic| with_reducible exact Bal.injectOp (by assumption) (by assumption) _ _ _)

theorem Bal.addForCount (isX : Bool) (d : Int) : Bal (addForCount isX d) := by
  unfold Verif.addForCount; bal
macro_rules | `(tactic| bal_leaf) => `(tactic| with_reducible exact Bal.addForCount _ _)

theorem Bal.leaveForReg (isX : Bool) : Bal (leaveForReg isX) := by
  unfold Verif.leaveForReg; bal
macro_rules | `(tactic| bal_leaf) => `(tactic| with_reducible exact Bal.leaveForReg _)

theorem Bal.forRegTail (hex : ∀ p, Bal (ex p)) (hhu : ∀ p, Bal (hu p)) (isX : Bool) (endV inc startPc : Int) : Bal (forRegTail ex hu isX endV inc startPc) := by
  unfold Verif.forRegTail; bal
macro_rules | `(tactic| bal_leaf) => `(tactic| with_reducible exact Bal.forRegTail (by assumption) (by assumption) _ _ _ _)

theorem Bal.expandForReg (hex : ∀ p, Bal (ex p)) (hhu : ∀ p, Bal (hu p)) (isX : Bool) (n : Node) : Bal (expandForReg ex hu isX n) := by
  unfold Verif.expandForReg; bal
macro_rules | `(tactic| bal_leaf) => `(tactic| with_reducible exact Bal.expandForReg (by assumption) (by assumption) _ _)

theorem Bal.expandPcAssign (hex : ∀ p, Bal (ex p)) (n : Node) : Bal (expandPcAssign ex n) := by
  unfold Verif.expandPcAssign; bal
macro_rules | `(tactic| bal_leaf) => `(tactic| with_reducible exact Bal.expandPcAssign (by assumption) _)

theorem Bal.expandOrg (hex : ∀ p, Bal (ex p)) (n : Node) : Bal (expandOrg ex n) := by
  unfold Verif.expandOrg; bal
macro_rules | `(tactic| bal_leaf) => `(tactic| with_reducible exact Bal.expandOrg (by assumption) _)

theorem Bal.expandDs (hex : ∀ p, Bal (ex p)) (n : Node) : Bal (expandDs ex n) := by
  unfold Verif.expandDs; bal
macro_rules | `(tactic| bal_leaf) => `(tactic| with_reducible exact Bal.expandDs (by assumption) _)

theorem Bal.varName (label cached : Bool) (pp : Ptr) : Bal (varName label cached pp) := by
  unfold Verif.varName; bal
macro_rules | `(tactic| bal_leaf) => `(tactic| with_reducible exact Bal.varName _ _ _)

theorem Bal.varItem (hex : ∀ p, Bal (ex p)) (acc : Option SymPtr) (pp : Ptr) (n : Node) : Bal (varItem ex acc pp n) := by
  unfold Verif.varItem; bal
macro_rules | `(tactic| bal_leaf) => `(tactic| with_reducible exact Bal.varItem (by assumption) _ _ _)

theorem Bal.macroArg (hex : ∀ p, Bal (ex p)) (pp : Ptr) (n : Node) : Bal (macroArg ex pp n) := by
  unfold Verif.macroArg; bal
macro_rules | `(tactic| bal_leaf) => `(tactic| with_reducible exact Bal.macroArg (by assumption) _ _)

theorem Bal.dataBytesItem (hex : ∀ p, Bal (ex p)) (hhu : ∀ p, Bal (hu p)) (acc : Option SymPtr) (pp : Ptr) (n : Node) : Bal (dataBytesItem ex hu acc pp n) := by
  unfold Verif.dataBytesItem; bal
macro_rules | `(tactic| bal_leaf) => `(tactic| with_reducible exact Bal.dataBytesItem (by assumption) (by assumption) _ _ _)

theorem Bal.dataStringsItem (hex : ∀ p, Bal (ex p)) (acc : Option SymPtr) (pp : Ptr) (n : Node) : Bal (dataStringsItem ex acc pp n) := by
  unfold Verif.dataStringsItem; bal
macro_rules | `(tactic| bal_leaf) => `(tactic| with_reducible exact Bal.dataStringsItem (by assumption) _ _ _)

theorem Bal.printItem (hex : ∀ p, Bal (ex p)) (all : Bool) (acc : Option SymPtr) (pp : Ptr) (n : Node) : Bal (printItem ex all acc pp n) := by
  unfold Verif.printItem; bal
macro_rules | `(tactic| bal_leaf) => `(tactic| with_reducible exact Bal.printItem (by assumption) _ _ _ _)

theorem Bal.exprListItem (hex : ∀ p, Bal (ex p)) (hhu : ∀ p, Bal (hu p)) (acc : Option SymPtr) (pp : Ptr) : Bal (exprListItem ex hu acc pp) := by
  unfold Verif.exprListItem; bal
macro_rules | `(tactic| bal_leaf) => `(tactic| with_reducible exact Bal.exprListItem (by assumption) (by assumption) _ _)

theorem Bal.expandExprList (hex : ∀ p, Bal (ex p)) (hhu : ∀ p, Bal (hu p)) (n : Node) : Bal (expandExprList ex hu n) := by
  unfold Verif.expandExprList; bal
macro_rules | `(tactic| bal_leaf) => `(tactic| with_reducible exact Bal.expandExprList (by assumption) (by assumption) _)

theorem Bal.expandVariable (hex : ∀ p, Bal (ex p)) (n : Node) : Bal (expandVariable ex n) := by
  unfold Verif.expandVariable; bal
macro_rules | `(tactic| bal_leaf) => `(tactic| with_reducible exact Bal.expandVariable (by assumption) _)

theorem Bal.expandPrint (hex : ∀ p, Bal (ex p)) (all : Bool) (n : Node) : Bal (expandPrint ex all n) := by
  unfold Verif.expandPrint; bal
macro_rules | `(tactic| bal_leaf) => `(tactic| with_reducible exact Bal.expandPrint (by assumption) _ _)

theorem Bal.createMacroEntry (name : Str) : Bal (createMacroEntry name) := by
  unfold Verif.createMacroEntry; bal
macro_rules | `(tactic| bal_leaf) => `(tactic| with_reducible exact Bal.createMacroEntry _)

theorem Bal.entryCount (name : Str) (found : Bool) : Bal (entryCount name found) := by
  unfold Verif.entryCount; bal
macro_rules | `(tactic| bal_leaf) => `(tactic| with_reducible exact Bal.entryCount _ _)

theorem Bal.bumpMacro (name : Str) (found : Bool) : Bal (bumpMacro name found) := by
  unfold Verif.bumpMacro; bal
macro_rules | `(tactic| bal_leaf) => `(tactic| with_reducible exact Bal.bumpMacro _ _)

theorem Bal.expandMacroId (hex : ∀ p, Bal (ex p)) (p : Ptr) (name : Str) : Bal (expandMacroId ex p name) := by
  unfold Verif.expandMacroId; bal
macro_rules | `(tactic| bal_leaf) => `(tactic| with_reducible exact Bal.expandMacroId (by assumption) _ _)

/-- The part of a macro call between saving and restoring the parameters. -/
def macroMid (ex : Ptr → M Int) (name : Str) (body : Ptr) (params : Option Ptr) (found : Bool) : M Unit := do
  modS fun s => { s with expansionType := .macroParameter, macroParamIndex := 0 }
  (match params with
    | some q => do
      let _ ← ex q
      M.pure ()
    | none => M.pure ())
  let s ← getS
  let cnt ← entryCount name found
  modS fun s => { s with lastLabel := some (name ++ [58, 58] ++ hexStr 4 cnt) }
  let _ ← ex body
  bumpMacro name found
  modS fun s' => { s' with lastLabel := s.lastLabel }

theorem Bal.macroMid (hex : ∀ p, Bal (ex p)) (name : Str) (body : Ptr) (params : Option Ptr) (found : Bool) :
    Bal (macroMid ex name body params found) := by
  unfold Verif.macroMid; bal

theorem expandMacroEx_eq (name : Str) (body : Ptr) (params : Option Ptr) :
    expandMacroEx ex name body params = (do
      let found ← createMacroEntry name
      pushMacroParams
      macroMid ex name body params found
      popMacroParams
      M.pure 0) := by
  unfold Verif.expandMacroEx Verif.macroMid
  simp only [bind_assoc']
  cases params <;> rfl

theorem createMacroEntry_inv {s s' : St} {name : Str} {b : Bool} (h : createMacroEntry name s = (.ok b, s')) :
    ∃ d, s' = { s with macroDict := d } := by
  unfold createMacroEntry at h
  obtain ⟨_, _, ⟨⟩, h⟩ := bind_ok_inv h
  cases hc : macroCount s.macroDict name <;> simp only [hc] at h
  · obtain ⟨_, _, ⟨⟩, h⟩ := bind_ok_inv h
    cases h
    exact ⟨_, rfl⟩
  · cases h
    exact ⟨_, rfl⟩

/-- A macro call that reports no error saves the parameters, and the last thing it does is to write the saved values
back. -/
theorem macroEx_inv (hex : ∀ p, Bal (ex p)) {name : Str} {body : Ptr} {params : Option Ptr} {s s' : St} {v : Int}
    (h : expandMacroEx ex name body params s = (.ok v, s')) :
    s.errorCount ≤ s'.errorCount ∧ (s'.errorCount = s.errorCount →
      ∃ t vs, paramValues s.syms 1 s.maxMacroParam = some vs ∧ t.paramStack = s.paramStack ∧ t.errorCount = s.errorCount ∧
        restoreParams 1 vs t = (.ok (), s')) := by
  rw [expandMacroEx_eq] at h
  obtain ⟨found, s1, h1, h⟩ := bind_ok_inv h
  obtain ⟨d, rfl⟩ := createMacroEntry_inv h1
  obtain ⟨_, s2, h2, h⟩ := bind_ok_inv h
  obtain ⟨_, s3, h3, h⟩ := bind_ok_inv h
  obtain ⟨_, s4, h4, h⟩ := bind_ok_inv h
  cases h
  have e3 := Bal.macroMid hex _ _ _ _ _ _ _ h3
  unfold popMacroParams at h4
  obtain ⟨_, _, ⟨⟩, h4⟩ := bind_ok_inv h4
  rcases hst : s3.paramStack with _ | ⟨vs, rest⟩ <;> simp only [hst] at h4
  · obtain ⟨_, _, ⟨⟩, h4⟩ := bind_ok_inv h4
    cases h4
  · obtain ⟨_, _, ⟨⟩, h4⟩ := bind_ok_inv h4
    have e4 := Bal.restoreParams _ _ _ _ _ h4
    unfold pushMacroParams at h2
    obtain ⟨_, _, ⟨⟩, h2⟩ := bind_ok_inv h2
    rcases hw : paramValues s.syms 1 s.maxMacroParam with _ | ws <;> simp only [hw] at h2
    · cases h2
      have h3' : s.errorCount + 1 ≤ s3.errorCount := e3.errors
      have h4' : s3.errorCount ≤ s'.errorCount := e4.errors
      exact ⟨by omega, fun e => by omega⟩
    · cases h2
      refine ⟨Nat.le_trans e3.errors e4.errors, fun e => ?_⟩
      have e3' : s3.errorCount = s.errorCount :=
        Nat.le_antisymm (Nat.le_trans e4.errors (Nat.le_of_eq e)) e3.errors
      have := e3.stack e3'
      rw [hst] at this
      cases this
      exact ⟨{ s3 with paramStack := s.paramStack }, _, rfl, rfl, e3', h4⟩

theorem Bal.expandMacroEx (hex : ∀ p, Bal (ex p)) (name : Str) (body : Ptr) (params : Option Ptr) :
    Bal (expandMacroEx ex name body params) := by
  intro s v s' h
  obtain ⟨h1, h2⟩ := macroEx_inv hex h
  refine ⟨h1, fun e => ?_⟩
  obtain ⟨t, vs, _, h3, h4, h5⟩ := h2 e
  rw [(Bal.restoreParams _ _ _ _ _ h5).stack (by omega), h3]
macro_rules | `(tactic| bal_leaf) => `(tactic| with_reducible exact Bal.expandMacroEx (by assumption) _ _ _)

theorem Bal.expandMacroDef (n : Node) : Bal (expandMacroDef n) := by
  unfold Verif.expandMacroDef; bal
macro_rules | `(tactic| bal_leaf) => `(tactic| with_reducible exact Bal.expandMacroDef _)

theorem Bal.pcOverflow : Bal Verif.pcOverflow := by
  unfold Verif.pcOverflow; bal
macro_rules | `(tactic| bal_leaf) => `(tactic| with_reducible exact Bal.pcOverflow)

theorem Bal.expandWhile (hex : ∀ p, Bal (ex p)) (f : Nat) (n : Node) : Bal (expandWhile ex f n) := by
  unfold Verif.expandWhile; bal
macro_rules | `(tactic| bal_leaf) => `(tactic| with_reducible exact Bal.expandWhile (by assumption) _ _)

theorem Bal.expandRepeat (hex : ∀ p, Bal (ex p)) (f : Nat) (untl : Bool) (n : Node) : Bal (expandRepeat ex f untl n) := by
  unfold Verif.expandRepeat; bal
macro_rules | `(tactic| bal_leaf) => `(tactic| with_reducible exact Bal.expandRepeat (by assumption) _ _ _)

theorem Bal.forStep (hex : ∀ p, Bal (ex p)) (i : SymPtr) (stepV endV : Int) (body : Ptr) : Bal (forStep ex i stepV endV body) := by
  unfold Verif.forStep; bal
macro_rules | `(tactic| bal_leaf) => `(tactic| with_reducible exact Bal.forStep (by assumption) _ _ _ _)

theorem Bal.needSym (r : Option SymPtr) : Bal (needSym r) := by
  unfold Verif.needSym; bal
macro_rules | `(tactic| bal_leaf) => `(tactic| with_reducible exact Bal.needSym _)

theorem Bal.expandFor (hex : ∀ p, Bal (ex p)) (f : Nat) (n : Node) : Bal (expandFor ex f n) := by
  unfold Verif.expandFor; bal
macro_rules | `(tactic| bal_leaf) => `(tactic| with_reducible exact Bal.expandFor (by assumption) _ _)

theorem Bal.expandIf (hex : ∀ p, Bal (ex p)) (n : Node) : Bal (expandIf ex n) := by
  unfold Verif.expandIf; bal
macro_rules | `(tactic| bal_leaf) => `(tactic| with_reducible exact Bal.expandIf (by assumption) _)

theorem Bal.expandStatement (hex : ∀ p, Bal (ex p)) (n : Node) : Bal (expandStatement ex n) := by
  unfold Verif.expandStatement; bal
macro_rules | `(tactic| bal_leaf) => `(tactic| with_reducible exact Bal.expandStatement (by assumption) _)

theorem Bal.equMinus (op : Int) : Bal (equMinus op) := by
  unfold Verif.equMinus; bal
macro_rules | `(tactic| bal_leaf) => `(tactic| with_reducible exact Bal.equMinus _)

theorem Bal.equPlus (op : Int) : Bal (equPlus op) := by
  unfold Verif.equPlus; bal
macro_rules | `(tactic| bal_leaf) => `(tactic| with_reducible exact Bal.equPlus _)

theorem Bal.equTarget (i : SymPtr) (x : Sym) : Bal (equTarget i x) := by
  unfold Verif.equTarget; bal
macro_rules | `(tactic| bal_leaf) => `(tactic| with_reducible exact Bal.equTarget _ _)

theorem Bal.expandEqu (hex : ∀ p, Bal (ex p)) (n : Node) : Bal (expandEqu ex n) := by
  unfold Verif.expandEqu; bal
macro_rules | `(tactic| bal_leaf) => `(tactic| with_reducible exact Bal.expandEqu (by assumption) _)

theorem Bal.bin (hex : ∀ p, Bal (ex p)) (n : Node) (g : Int → Int → Option Int) : Bal (bin ex n g) := by
  unfold Verif.bin; bal
macro_rules | `(tactic| bal_leaf) => `(tactic| with_reducible exact Bal.bin (by assumption) _ _)

theorem Bal.una (hex : ∀ p, Bal (ex p)) (n : Node) (g : Int → Option Int) : Bal (una ex n g) := by
  unfold Verif.una; bal
macro_rules | `(tactic| bal_leaf) => `(tactic| with_reducible exact Bal.una (by assumption) _ _)

theorem Bal.expandDivide (hex : ∀ p, Bal (ex p)) (n : Node) : Bal (expandDivide ex n) := by
  unfold Verif.expandDivide; bal
macro_rules | `(tactic| bal_leaf) => `(tactic| with_reducible exact Bal.expandDivide (by assumption) _)

theorem Bal.shortCircuit (hex : ∀ p, Bal (ex p)) (n : Node) (stop : Bool) : Bal (shortCircuit ex n stop) := by
  unfold Verif.shortCircuit; bal
macro_rules | `(tactic| bal_leaf) => `(tactic| with_reducible exact Bal.shortCircuit (by assumption) _ _)

theorem Bal.expandOperator (hex : ∀ p, Bal (ex p)) (hhu : ∀ p, Bal (hu p)) (f : Nat) (op : Opr) (n : Node) :
    Bal (expandOperator ex hu f op n) := by
  cases op
  all_goals (unfold Verif.expandOperator; bal)
macro_rules | `(tactic| bal_leaf) => `(tactic| with_reducible exact Bal.expandOperator (by assumption) (by assumption) _ _ _)

theorem Bal.expandPrintState (hex : ∀ p, Bal (ex p)) (p : Ptr) : Bal (expandPrintState ex p) := by
  unfold Verif.expandPrintState; bal
macro_rules | `(tactic| bal_leaf) => `(tactic| with_reducible exact Bal.expandPrintState (by assumption) _)

theorem Bal.expandKind (hex : ∀ p, Bal (ex p)) (hhu : ∀ p, Bal (hu p)) (f : Nat) (p : Ptr) (n : Node) :
    Bal (expandKind ex hu f p n) := by
  unfold Verif.expandKind
  split <;> bal

end

/-- Every expansion leaves the parameter stack as it was. -/
theorem expandNode_bal : ∀ (f : Nat) (p : Ptr), Bal (expandNode f p)
  | 0, _ => Bal.timeout
  | f + 1, p => by
    have h1 := expandNode_bal f
    have h2 := Bal.hasUninit f
    have h3 := Bal.expandKind h1 h2 f
    unfold Verif.expandNode
    bal

end Verif
