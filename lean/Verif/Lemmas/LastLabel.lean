import Verif.Lemmas.Monad

/-! # The interpreter does not change the label of local names -/

namespace Verif

/-- Local names belong to the same label as before (an empty one counts as none). -/
structure SameLab (s s' : St) : Prop where
  label : s'.lastLabel.getD [] = s.lastLabel.getD []
  some : s.lastLabel.isSome = true → s'.lastLabel.isSome = true

theorem SameLab.of {s s' : St} (h : s'.lastLabel = s.lastLabel) : SameLab s s' := ⟨by rw [h], by rw [h]; exact id⟩

theorem SameLab.refl (s : St) : SameLab s s := .of rfl

theorem SameLab.trans {s t u : St} (h : SameLab s t) (h' : SameLab t u) : SameLab s u :=
  ⟨h'.label.trans h.label, fun e => h'.some (h.some e)⟩

/-- `m` does not change the label local names belong to. -/
def Lab {α : Type} (m : M α) : Prop := ∀ s a s', m s = (.ok a, s') → SameLab s s'

theorem Lab.bind {α β : Type} {m : M α} {f : α → M β} (hm : Lab m) (hf : ∀ a, Lab (f a)) : Lab (m >>= f) := by
  intro s b s' h
  obtain ⟨a, s1, h1, h2⟩ := bind_ok_inv h
  exact (hm s a s1 h1).trans (hf a s1 b s' h2)

theorem Lab.pure {α : Type} (a : α) : Lab (M.pure a) := by rintro s _ s' ⟨⟩; exact .refl s
theorem Lab.exit {α : Type} (c : Int) : Lab (exitM c : M α) := by rintro s _ s' ⟨⟩
theorem Lab.ub {α : Type} : Lab (ubM : M α) := by rintro s _ s' ⟨⟩
theorem Lab.timeout {α : Type} : Lab (timeoutM : M α) := by rintro s _ s' ⟨⟩
theorem Lab.liftO {α : Type} (x : Option α) : Lab (liftO x) := by
  cases x
  · exact Lab.ub
  · exact Lab.pure _
theorem Lab.getS : Lab Verif.getS := by rintro s _ s' ⟨⟩; exact .refl s
theorem Lab.error (e : Err) : Lab (error e) := by
  rintro s _ s' ⟨⟩
  exact .of rfl
theorem Lab.warn (e : Err) : Lab (warn e) := by rintro s _ s' ⟨⟩; exact .of rfl
theorem Lab.modS {g : St → St} (h : ∀ s, (g s).lastLabel = s.lastLabel) : Lab (modS g) := by
  rintro s _ s' ⟨⟩
  exact .of (h s)
theorem Lab.opAt (n : Node) (i : Nat) : Lab (opAt n i) := Lab.liftO _
theorem Lab.node (p : Ptr) : Lab (node p) := by
  intro s a s' h
  unfold Verif.node at h
  split at h
  · cases h
  · split at h <;> cases h
    exact .refl s
theorem Lab.sym (i : SymPtr) : Lab (sym i) := by
  intro s a s' h
  unfold Verif.sym at h
  split at h <;> cases h
  exact .refl s
theorem Lab.setNode (p : Ptr) (n : Node) : Lab (setNode p n) := by
  intro s a s' h
  unfold Verif.setNode at h
  split at h <;> cases h
  exact .of rfl
theorem Lab.allocNode (k : Kind) (ops : List Ptr) : Lab (allocNode k ops) := by
  rintro s _ s' ⟨⟩
  exact .of rfl
theorem Lab.modSym (i : SymPtr) (f : Sym → Sym) : Lab (modSym i f) := by
  intro s a s' h
  unfold Verif.modSym at h
  split at h <;> cases h
  exact .of rfl
theorem Lab.insertSym (x : Sym) : Lab (insertSym x) := by
  rintro s _ s' ⟨⟩
  exact .of rfl
theorem Lab.operands (n : Node) : Lab (operands n) := by
  unfold Verif.operands
  split
  · exact Lab.pure _
  · exact Lab.ub
theorem Lab.ite {α : Type} {c : Prop} [Decidable c] {m m' : M α} (h : Lab m) (h' : Lab m') : Lab (if c then m else m') := by
  split <;> assumption
theorem Lab.loopM (f : Nat) {body : M Bool} (h : Lab body) : Lab (loopM f body) := by
  induction f with
  | zero => exact Lab.timeout
  | succ n ih =>
    unfold Verif.loopM
    exact Lab.bind h fun a => Lab.ite ih (Lab.pure _)
theorem Lab.eachM {α σ : Type} {body : σ → α → M (Option σ)} (h : ∀ a x, Lab (body a x)) :
    ∀ (xs : List α) (a : σ), Lab (eachM body xs a)
  | [], a => Lab.pure _
  | x :: xs, a => by
    unfold Verif.eachM
    refine Lab.bind (h a x) fun r => ?_
    cases r with
    | none => exact Lab.pure _
    | some a' => exact Lab.eachM h xs a'
theorem Lab.forEachM {α : Type} {body : α → M Unit} (h : ∀ x, Lab (body x)) :
    ∀ (xs : List α), Lab (forEachM body xs)
  | [] => Lab.pure _
  | x :: xs => by
    unfold Verif.forEachM
    exact Lab.bind (h x) fun _ => Lab.forEachM h xs

/-- Leaf rules; extended below. -/
syntax "lab_leaf" : tactic
macro_rules | `(tactic| lab_leaf) => `(tactic| with_reducible exact Lab.pure _)
macro_rules | `(tactic| lab_leaf) => `(tactic| with_reducible exact Lab.exit _)
macro_rules | `(tactic| lab_leaf) => `(tactic| with_reducible exact Lab.ub)
macro_rules | `(tactic| lab_leaf) => `(tactic| with_reducible exact Lab.timeout)
macro_rules | `(tactic| lab_leaf) => `(tactic| with_reducible exact Lab.liftO _)
macro_rules | `(tactic| lab_leaf) => `(tactic| with_reducible exact Lab.getS)
macro_rules | `(tactic| lab_leaf) => `(tactic| with_reducible exact Lab.error _)
macro_rules | `(tactic| lab_leaf) => `(tactic| with_reducible exact Lab.warn _)
macro_rules | `(tactic| lab_leaf) => `(tactic| with_reducible exact Lab.node _)
macro_rules | `(tactic| lab_leaf) => `(tactic| with_reducible exact Lab.opAt _ _)
macro_rules | `(tactic| lab_leaf) => `(tactic| with_reducible exact Lab.sym _)
macro_rules | `(tactic| lab_leaf) => `(tactic| with_reducible exact Lab.operands _)
macro_rules | `(tactic| lab_leaf) => `(tactic| with_reducible exact Lab.setNode _ _)
macro_rules | `(tactic| lab_leaf) => `(tactic| with_reducible exact Lab.allocNode _ _)
macro_rules | `(tactic| lab_leaf) => `(tactic| with_reducible exact Lab.modSym _ _)
macro_rules | `(tactic| lab_leaf) => `(tactic| with_reducible exact Lab.insertSym _)
macro_rules | `(tactic| lab_leaf) => `(tactic| with_reducible exact Lab.modS (fun _ => rfl))
macro_rules
  | `(tactic| lab_leaf) => `(tactic| (with_reducible refine Lab.modS (fun _ => ?_); split <;> rfl; done))

/-- Decompose a goal `Lab m`. -/
macro "lab" : tactic => `(tactic| repeat' first
  | assumption
  | (with_reducible intro _)
  | (with_reducible apply_assumption; done)
  | lab_leaf
  | (with_reducible apply Lab.loopM)
  | (with_reducible apply Lab.forEachM)
  | (with_reducible apply Lab.eachM)
  | (with_reducible refine Lab.bind ?_ ?_)
  | (with_reducible refine Lab.ite ?_ ?_)
  | (dsimp only)
  | split)

section
variable {ex : Ptr → M Int} {hu : Ptr → M Bool}

theorem Lab.addPlusMinusSym (name : Str) : Lab (addPlusMinusSym name) := by
  unfold Verif.addPlusMinusSym
  refine Lab.bind ?_ fun _ => by lab
  rintro s _ s' ⟨⟩
  exact ⟨rfl, fun _ => rfl⟩
macro_rules | `(tactic| lab_leaf) => `(tactic| with_reducible exact Lab.addPlusMinusSym _)

theorem Lab.addSymbol (name : Str) : Lab (addSymbol name) := by
  unfold Verif.addSymbol; lab
macro_rules | `(tactic| lab_leaf) => `(tactic| with_reducible exact Lab.addSymbol _)

theorem Lab.setSymbolValue (i : SymPtr) (value : Int) : Lab (setSymbolValue i value) := by
  unfold Verif.setSymbolValue; lab
macro_rules | `(tactic| lab_leaf) => `(tactic| with_reducible exact Lab.setSymbolValue _ _)

theorem Lab.addMinus (value : Int) : Lab (addMinus value) := by
  unfold Verif.addMinus; lab
macro_rules | `(tactic| lab_leaf) => `(tactic| with_reducible exact Lab.addMinus _)

theorem Lab.addPlus (value : Int) : Lab (addPlus value) := by
  unfold Verif.addPlus; lab
macro_rules | `(tactic| lab_leaf) => `(tactic| with_reducible exact Lab.addPlus _)

theorem Lab.restoreParams : ∀ (vs : List Int) (k : Nat), Lab (restoreParams k vs)
  | [], _ => Lab.pure _
  | v :: vs, k => by
    have ih := Lab.restoreParams vs
    unfold Verif.restoreParams
    lab

theorem Lab.writeByte (v : Int) : Lab (writeByte v) := by
  unfold Verif.writeByte; lab
macro_rules | `(tactic| lab_leaf) => `(tactic| with_reducible exact Lab.writeByte _)

theorem Lab.writeWord (v : Int) : Lab (writeWord v) := by
  unfold Verif.writeWord; lab
macro_rules | `(tactic| lab_leaf) => `(tactic| with_reducible exact Lab.writeWord _)

theorem Lab.writeBytes (v : Str) : Lab (writeBytes v) := by
  unfold Verif.writeBytes; lab
macro_rules | `(tactic| lab_leaf) => `(tactic| with_reducible exact Lab.writeBytes _)

theorem Lab.writeData (v : Int) : Lab (writeData v) := by
  unfold Verif.writeData; lab
macro_rules | `(tactic| lab_leaf) => `(tactic| with_reducible exact Lab.writeData _)

theorem Lab.writeHeader : Lab Verif.writeHeader := by
  unfold Verif.writeHeader; lab
macro_rules | `(tactic| lab_leaf) => `(tactic| with_reducible exact Lab.writeHeader)

theorem Lab.writeStringNode (v : Str) : Lab (writeStringNode v) := by
  unfold Verif.writeStringNode; lab
macro_rules | `(tactic| lab_leaf) => `(tactic| with_reducible exact Lab.writeStringNode _)

theorem Lab.writeDataValue (op : Int) : Lab (writeDataValue op) := by
  unfold Verif.writeDataValue; lab
macro_rules | `(tactic| lab_leaf) => `(tactic| with_reducible exact Lab.writeDataValue _)

theorem Lab.writeDataNode (hex : ∀ p, Lab (ex p)) (p : Ptr) : Lab (writeDataNode ex p) := by
  unfold Verif.writeDataNode; lab
macro_rules | `(tactic| lab_leaf) => `(tactic| with_reducible exact Lab.writeDataNode (by assumption) _)

theorem Lab.writeOpcodeNode (hex : ∀ p, Lab (ex p)) (p : Ptr) : Lab (writeOpcodeNode ex p) := by
  unfold Verif.writeOpcodeNode; lab
macro_rules | `(tactic| lab_leaf) => `(tactic| with_reducible exact Lab.writeOpcodeNode (by assumption) _)

theorem Lab.payload (hex : ∀ p, Lab (ex p)) (p : Ptr) (n : Node) : Lab (payload ex p n) := by
  unfold Verif.payload; lab
macro_rules | `(tactic| lab_leaf) => `(tactic| with_reducible exact Lab.payload (by assumption) _ _)

theorem Lab.generateOutput (hex : ∀ p, Lab (ex p)) (p : Ptr) : Lab (generateOutput ex p) := by
  unfold Verif.generateOutput; lab
macro_rules | `(tactic| lab_leaf) => `(tactic| with_reducible exact Lab.generateOutput (by assumption) _)

theorem Lab.addList (t : Str) : Lab (addList t) := by
  unfold Verif.addList; lab
macro_rules | `(tactic| lab_leaf) => `(tactic| with_reducible exact Lab.addList _)

theorem Lab.listPrintState (st : Bool) : Lab (listPrintState st) := by
  unfold Verif.listPrintState Verif.addDirective; lab
macro_rules | `(tactic| lab_leaf) => `(tactic| with_reducible exact Lab.listPrintState _)

theorem Lab.listString (pad : Bool) : ∀ (n : Nat) (v : Str), v.length ≤ n → ∀ (pc : Int) (prev : Str × Nat),
    Lab (listString pad pc prev v) := by
  intro n
  induction n with
  | zero =>
    intro v hv pc prev
    have : v = [] := List.length_eq_zero_iff.mp (Nat.le_zero.mp hv)
    subst this
    unfold Verif.listString
    lab
  | succ n ih =>
    intro v hv pc prev
    unfold Verif.listString
    split
    · refine Lab.bind (Lab.addList _) fun _ => ih _ ?_ _ _
      simp only [List.length_cons] at hv
      omega
    all_goals lab
macro_rules | `(tactic| lab_leaf) => `(tactic| with_reducible exact Lab.listString _ _ _ (Nat.le_refl _) _ _)

theorem Lab.listData (hex : ∀ p, Lab (ex p)) (p : Ptr) : Lab (listData ex p) := by
  unfold Verif.listData; lab
macro_rules | `(tactic| lab_leaf) => `(tactic| with_reducible exact Lab.listData (by assumption) _)

theorem Lab.listOpcode (hex : ∀ p, Lab (ex p)) (n : Node) (ins code : Int) (mode : Mode) (pc : Int) : Lab (listOpcode ex n ins code mode pc) := by
  unfold Verif.listOpcode; lab
macro_rules | `(tactic| lab_leaf) => `(tactic| with_reducible exact Lab.listOpcode (by assumption) _ _ _ _ _)

theorem Lab.generateListNode (hex : ∀ p, Lab (ex p)) (p : Ptr) : Lab (generateListNode ex p) := by
  unfold Verif.generateListNode; lab
macro_rules | `(tactic| lab_leaf) => `(tactic| with_reducible exact Lab.generateListNode (by assumption) _)

theorem Lab.constantNode (value : Int) (isPc : Bool) : Lab (constantNode value isPc) := by
  unfold Verif.constantNode; lab
macro_rules | `(tactic| lab_leaf) => `(tactic| with_reducible exact Lab.constantNode _ _)

theorem Lab.stringNode (raw : Str) : Lab (stringNode raw) := by
  unfold Verif.stringNode; lab
macro_rules | `(tactic| lab_leaf) => `(tactic| with_reducible exact Lab.stringNode _)

theorem Lab.idNode (k : IdKind) (name : Str) : Lab (idNode k name) := by
  unfold Verif.idNode; lab
macro_rules | `(tactic| lab_leaf) => `(tactic| with_reducible exact Lab.idNode _ _)

theorem Lab.macroExpandNode (name : Str) (params : Option Ptr) : Lab (macroExpandNode name params) := by
  unfold Verif.macroExpandNode; lab
macro_rules | `(tactic| lab_leaf) => `(tactic| with_reducible exact Lab.macroExpandNode _ _)

theorem Lab.dataNode (size : Int) (data : Ptr) : Lab (dataNode size data) := by
  unfold Verif.dataNode; lab
macro_rules | `(tactic| lab_leaf) => `(tactic| with_reducible exact Lab.dataNode _ _)

theorem Lab.operatorNode (op : Opr) (ops : List Ptr) : Lab (operatorNode op ops) := by
  unfold Verif.operatorNode; lab
macro_rules | `(tactic| lab_leaf) => `(tactic| with_reducible exact Lab.operatorNode _ _)

theorem Lab.isUninitSym (p : Ptr) : Lab (isUninitSym p) := by
  unfold Verif.isUninitSym; lab
macro_rules | `(tactic| lab_leaf) => `(tactic| with_reducible exact Lab.isUninitSym _)

theorem Lab.hasUninit : ∀ (f : Nat) (p : Ptr), Lab (hasUninit f p)
  | 0, _ => Lab.timeout
  | f + 1, p => by
    have := Lab.hasUninit f
    unfold Verif.hasUninit
    lab

theorem Lab.opCodeM (ins : Int) (mode : Mode) : Lab (opCodeM ins mode) := by
  unfold Verif.opCodeM; lab
macro_rules | `(tactic| lab_leaf) => `(tactic| with_reducible exact Lab.opCodeM _ _)

theorem Lab.lastValue (hex : ∀ p, Lab (ex p)) (ops : List Ptr) : Lab (lastValue ex ops) := by
  unfold Verif.lastValue; lab
macro_rules | `(tactic| lab_leaf) => `(tactic| with_reducible exact Lab.lastValue (by assumption) _)

theorem Lab.isAccOperand (mode : Mode) (ops : List Ptr) : Lab (isAccOperand mode ops) := by
  unfold Verif.isAccOperand; lab
macro_rules | `(tactic| lab_leaf) => `(tactic| with_reducible exact Lab.isAccOperand _ _)

theorem Lab.opcodeNode (hex : ∀ p, Lab (ex p)) (hhu : ∀ p, Lab (hu p)) (op : Int) (mode0 : Mode) (ops : List Ptr) : Lab (opcodeNode ex hu op mode0 ops) := by
  unfold Verif.opcodeNode; lab
macro_rules | `(tactic| lab_leaf) => `(tactic| with_reducible exact Lab.opcodeNode (by assumption) (by assumption) _ _ _)

theorem Lab.modOpcode (p : Ptr) (g : Int → Int → Mode → Int → Kind) : Lab (modOpcode p g) := by
  unfold Verif.modOpcode; lab
macro_rules | `(tactic| lab_leaf) => `(tactic| with_reducible exact Lab.modOpcode _ _)

theorem Lab.addPc (d : Int) : Lab (addPc d) := by
  unfold Verif.addPc; lab
macro_rules | `(tactic| lab_leaf) => `(tactic| with_reducible exact Lab.addPc _)

theorem Lab.resolveId (force : Bool) (p : Ptr) : Lab (resolveId force p) := by
  unfold Verif.resolveId; lab
macro_rules | `(tactic| lab_leaf) => `(tactic| with_reducible exact Lab.resolveId _ _)

theorem Lab.expandConstant (p : Ptr) (value : Int) (isPc : Bool) : Lab (expandConstant p value isPc) := by
  unfold Verif.expandConstant; lab
macro_rules | `(tactic| lab_leaf) => `(tactic| with_reducible exact Lab.expandConstant _ _ _)

theorem Lab.expandPlusMinus (p : Ptr) : Lab (expandPlusMinus p) := by
  unfold Verif.expandPlusMinus; lab
macro_rules | `(tactic| lab_leaf) => `(tactic| with_reducible exact Lab.expandPlusMinus _)

theorem Lab.symValue (i : SymPtr) : Lab (symValue i) := by
  unfold Verif.symValue; lab
macro_rules | `(tactic| lab_leaf) => `(tactic| with_reducible exact Lab.symValue _)

theorem Lab.expandId (p : Ptr) (name : Str) : Lab (expandId p name) := by
  unfold Verif.expandId; lab
macro_rules | `(tactic| lab_leaf) => `(tactic| with_reducible exact Lab.expandId _ _)

theorem Lab.expandLabel (p : Ptr) (name : Str) : Lab (expandLabel p name) := by
  unfold Verif.expandLabel; lab
macro_rules | `(tactic| lab_leaf) => `(tactic| with_reducible exact Lab.expandLabel _ _)

theorem Lab.expandData (hex : ∀ p, Lab (ex p)) (size : Int) (data : Ptr) : Lab (expandData ex size data) := by
  unfold Verif.expandData; lab
macro_rules | `(tactic| lab_leaf) => `(tactic| with_reducible exact Lab.expandData (by assumption) _ _)

theorem Lab.fillStep (hex : ∀ p, Lab (ex p)) (count : Int) (two one : Ptr) : Lab (fillStep ex count two one) := by
  unfold Verif.fillStep; lab
macro_rules | `(tactic| lab_leaf) => `(tactic| with_reducible exact Lab.fillStep (by assumption) _ _ _)

theorem Lab.fillLoop (hex : ∀ p, Lab (ex p)) (two one : Ptr) : ∀ (f : Nat) (c : Int), Lab (fillLoop ex two one f c)
  | 0, c => by unfold Verif.fillLoop; lab
  | f + 1, c => by
    have := Lab.fillLoop hex two one f
    unfold Verif.fillLoop
    lab
macro_rules | `(tactic| lab_leaf) => `(tactic| with_reducible exact Lab.fillLoop (by assumption) _ _ _ _)

theorem Lab.expandFill (hex : ∀ p, Lab (ex p)) (f : Nat) (n : Node) : Lab (expandFill ex f n) := by
  unfold Verif.expandFill; lab
macro_rules | `(tactic| lab_leaf) => `(tactic| with_reducible exact Lab.expandFill (by assumption) _ _)

theorem Lab.loadEmit (hex : ∀ p, Lab (ex p)) (size value : Int) : Lab (loadEmit ex size value) := by
  unfold Verif.loadEmit; lab
macro_rules | `(tactic| lab_leaf) => `(tactic| with_reducible exact Lab.loadEmit (by assumption) _ _)

theorem Lab.loadLoop (hex : ∀ p, Lab (ex p)) : ∀ (n : Nat) (bs : List Nat), bs.length ≤ n → Lab (loadLoop ex bs) := by
  intro n
  induction n with
  | zero =>
    intro bs h
    have : bs = [] := List.length_eq_zero_iff.mp (Nat.le_zero.mp h)
    subst this
    exact Lab.pure _
  | succ n ih =>
    intro bs h
    unfold Verif.loadLoop
    split
    · refine Lab.bind (Lab.loadEmit hex _ _) fun _ => ih _ ?_
      simp only [List.length_cons] at h
      omega
    · exact Lab.loadEmit hex _ _
    · exact Lab.pure _
macro_rules | `(tactic| lab_leaf) => `(tactic| with_reducible exact Lab.loadLoop (by assumption) _ _ (Nat.le_refl _))

theorem Lab.expandLoad (hex : ∀ p, Lab (ex p)) (n : Node) : Lab (expandLoad ex n) := by
  unfold Verif.expandLoad; lab
macro_rules | `(tactic| lab_leaf) => `(tactic| with_reducible exact Lab.expandLoad (by assumption) _)

theorem Lab.expandInclude (n : Node) : Lab (expandInclude n) := by
  unfold Verif.expandInclude; lab
macro_rules | `(tactic| lab_leaf) => `(tactic| with_reducible exact Lab.expandInclude _)

theorem Lab.expandSection (n : Node) : Lab (expandSection n) := by
  unfold Verif.expandSection; lab
macro_rules | `(tactic| lab_leaf) => `(tactic| with_reducible exact Lab.expandSection _)

theorem Lab.expandEndSection : Lab Verif.expandEndSection := by
  unfold Verif.expandEndSection; lab
macro_rules | `(tactic| lab_leaf) => `(tactic| with_reducible exact Lab.expandEndSection)

theorem Lab.opNodeBytes (p : Ptr) : Lab (opNodeBytes p) := by
  unfold Verif.opNodeBytes; lab
macro_rules | `(tactic| lab_leaf) => `(tactic| with_reducible exact Lab.opNodeBytes _)

theorem Lab.emitNode (hex : ∀ p, Lab (ex p)) (p : Ptr) : Lab (emitNode ex p) := by
  unfold Verif.emitNode; lab
macro_rules | `(tactic| lab_leaf) => `(tactic| with_reducible exact Lab.emitNode (by assumption) _)

theorem Lab.longBranch (hex : ∀ p, Lab (ex p)) (hhu : ∀ p, Lab (hu p)) (p t : Ptr) (c c2 : Int) (m : Mode) :
    Lab (longBranch ex hu p t c c2 m) := by
  unfold Verif.longBranch; lab
macro_rules | `(tactic| lab_leaf) => `(tactic| with_reducible exact Lab.longBranch (by assumption) (by assumption) _ _ _ _ _)

theorem Lab.zpOptimize (p : Ptr) (ins : Int) (large : Bool) (mode modeCheck : Mode) : Lab (zpOptimize p ins large mode modeCheck) := by
  unfold Verif.zpOptimize; lab
macro_rules | `(tactic| lab_leaf) => `(tactic| with_reducible exact Lab.zpOptimize _ _ _ _ _)

theorem Lab.widen (p : Ptr) (ins : Int) (mode modeCheck : Mode) : Lab (widen p ins mode modeCheck) := by
  unfold Verif.widen; lab
macro_rules | `(tactic| lab_leaf) => `(tactic| with_reducible exact Lab.widen _ _ _ _)

theorem Lab.operandPhase (hex : ∀ p, Lab (ex p)) (hhu : ∀ p, Lab (hu p)) (p : Ptr) (n : Node) (ins code : Int) (mode : Mode) (pc : Int) : Lab (operandPhase ex hu p n ins code mode pc) := by
  unfold Verif.operandPhase; lab
macro_rules | `(tactic| lab_leaf) => `(tactic| with_reducible exact Lab.operandPhase (by assumption) (by assumption) _ _ _ _ _ _)

theorem Lab.expandOpCode (hex : ∀ p, Lab (ex p)) (hhu : ∀ p, Lab (hu p)) (p : Ptr) : Lab (expandOpCode ex hu p) := by
  unfold Verif.expandOpCode; lab
macro_rules | `(tactic| lab_leaf) => `(tactic| with_reducible exact Lab.expandOpCode (by assumption) (by assumption) _)

theorem Lab.injectOp (hex : ∀ p, Lab (ex p)) (hhu : ∀ p, Lab (hu p)) (ins : Int) (mode : Mode) (arg : Option Int) : Lab (injectOp ex hu ins mode arg) := by
  unfold Verif.injectOp; lab
macro_rules | `(tactic| lab_leaf) => `(tactic| with_reducible exact Lab.injectOp (by assumption) (by assumption) _ _ _)

theorem Lab.addForCount (isX : Bool) (d : Int) : Lab (addForCount isX d) := by
  unfold Verif.addForCount; lab
macro_rules | `(tactic| lab_leaf) => `(tactic| with_reducible exact Lab.addForCount _ _)

theorem Lab.leaveForReg (isX : Bool) : Lab (leaveForReg isX) := by
  unfold Verif.leaveForReg; lab
macro_rules | `(tactic| lab_leaf) => `(tactic| with_reducible exact Lab.leaveForReg _)

theorem Lab.forRegTail (hex : ∀ p, Lab (ex p)) (hhu : ∀ p, Lab (hu p)) (isX : Bool) (endV inc startPc : Int) : Lab (forRegTail ex hu isX endV inc startPc) := by
  unfold Verif.forRegTail; lab
macro_rules | `(tactic| lab_leaf) => `(tactic| with_reducible exact Lab.forRegTail (by assumption) (by assumption) _ _ _ _)

theorem Lab.expandForReg (hex : ∀ p, Lab (ex p)) (hhu : ∀ p, Lab (hu p)) (isX : Bool) (n : Node) : Lab (expandForReg ex hu isX n) := by
  unfold Verif.expandForReg; lab
macro_rules | `(tactic| lab_leaf) => `(tactic| with_reducible exact Lab.expandForReg (by assumption) (by assumption) _ _)

theorem Lab.expandPcAssign (hex : ∀ p, Lab (ex p)) (n : Node) : Lab (expandPcAssign ex n) := by
  unfold Verif.expandPcAssign; lab
macro_rules | `(tactic| lab_leaf) => `(tactic| with_reducible exact Lab.expandPcAssign (by assumption) _)

theorem Lab.expandOrg (hex : ∀ p, Lab (ex p)) (n : Node) : Lab (expandOrg ex n) := by
  unfold Verif.expandOrg; lab
macro_rules | `(tactic| lab_leaf) => `(tactic| with_reducible exact Lab.expandOrg (by assumption) _)

theorem Lab.expandDs (hex : ∀ p, Lab (ex p)) (n : Node) : Lab (expandDs ex n) := by
  unfold Verif.expandDs; lab
macro_rules | `(tactic| lab_leaf) => `(tactic| with_reducible exact Lab.expandDs (by assumption) _)

theorem Lab.varName (label cached : Bool) (pp : Ptr) : Lab (varName label cached pp) := by
  unfold Verif.varName; lab
macro_rules | `(tactic| lab_leaf) => `(tactic| with_reducible exact Lab.varName _ _ _)

theorem Lab.varItem (hex : ∀ p, Lab (ex p)) (acc : Option SymPtr) (pp : Ptr) (n : Node) : Lab (varItem ex acc pp n) := by
  unfold Verif.varItem; lab
macro_rules | `(tactic| lab_leaf) => `(tactic| with_reducible exact Lab.varItem (by assumption) _ _ _)

theorem Lab.macroArg (hex : ∀ p, Lab (ex p)) (pp : Ptr) (n : Node) : Lab (macroArg ex pp n) := by
  unfold Verif.macroArg; lab
macro_rules | `(tactic| lab_leaf) => `(tactic| with_reducible exact Lab.macroArg (by assumption) _ _)

theorem Lab.dataBytesItem (hex : ∀ p, Lab (ex p)) (hhu : ∀ p, Lab (hu p)) (acc : Option SymPtr) (pp : Ptr) (n : Node) : Lab (dataBytesItem ex hu acc pp n) := by
  unfold Verif.dataBytesItem; lab
macro_rules | `(tactic| lab_leaf) => `(tactic| with_reducible exact Lab.dataBytesItem (by assumption) (by assumption) _ _ _)

theorem Lab.dataStringsItem (hex : ∀ p, Lab (ex p)) (acc : Option SymPtr) (pp : Ptr) (n : Node) : Lab (dataStringsItem ex acc pp n) := by
  unfold Verif.dataStringsItem; lab
macro_rules | `(tactic| lab_leaf) => `(tactic| with_reducible exact Lab.dataStringsItem (by assumption) _ _ _)

theorem Lab.printItem (hex : ∀ p, Lab (ex p)) (all : Bool) (acc : Option SymPtr) (pp : Ptr) (n : Node) : Lab (printItem ex all acc pp n) := by
  unfold Verif.printItem; lab
macro_rules | `(tactic| lab_leaf) => `(tactic| with_reducible exact Lab.printItem (by assumption) _ _ _ _)

theorem Lab.exprListItem (hex : ∀ p, Lab (ex p)) (hhu : ∀ p, Lab (hu p)) (acc : Option SymPtr) (pp : Ptr) : Lab (exprListItem ex hu acc pp) := by
  unfold Verif.exprListItem; lab
macro_rules | `(tactic| lab_leaf) => `(tactic| with_reducible exact Lab.exprListItem (by assumption) (by assumption) _ _)

theorem Lab.expandExprList (hex : ∀ p, Lab (ex p)) (hhu : ∀ p, Lab (hu p)) (n : Node) : Lab (expandExprList ex hu n) := by
  unfold Verif.expandExprList; lab
macro_rules | `(tactic| lab_leaf) => `(tactic| with_reducible exact Lab.expandExprList (by assumption) (by assumption) _)

theorem Lab.expandVariable (hex : ∀ p, Lab (ex p)) (n : Node) : Lab (expandVariable ex n) := by
  unfold Verif.expandVariable; lab
macro_rules | `(tactic| lab_leaf) => `(tactic| with_reducible exact Lab.expandVariable (by assumption) _)

theorem Lab.expandPrint (hex : ∀ p, Lab (ex p)) (all : Bool) (n : Node) : Lab (expandPrint ex all n) := by
  unfold Verif.expandPrint; lab
macro_rules | `(tactic| lab_leaf) => `(tactic| with_reducible exact Lab.expandPrint (by assumption) _ _)

theorem Lab.createMacroEntry (name : Str) : Lab (createMacroEntry name) := by
  unfold Verif.createMacroEntry; lab
macro_rules | `(tactic| lab_leaf) => `(tactic| with_reducible exact Lab.createMacroEntry _)

theorem Lab.entryCount (name : Str) (found : Bool) : Lab (entryCount name found) := by
  unfold Verif.entryCount; lab
macro_rules | `(tactic| lab_leaf) => `(tactic| with_reducible exact Lab.entryCount _ _)

theorem Lab.bumpMacro (name : Str) (found : Bool) : Lab (bumpMacro name found) := by
  unfold Verif.bumpMacro; lab
macro_rules | `(tactic| lab_leaf) => `(tactic| with_reducible exact Lab.bumpMacro _ _)

theorem Lab.expandMacroId (hex : ∀ p, Lab (ex p)) (p : Ptr) (name : Str) : Lab (expandMacroId ex p name) := by
  intro s v s' h
  unfold Verif.expandMacroId at h
  obtain ⟨found, s1, h1, h⟩ := bind_ok_inv h
  obtain ⟨_, _, ⟨⟩, h⟩ := bind_ok_inv h
  obtain ⟨cnt, s3, h3, h⟩ := bind_ok_inv h
  obtain ⟨_, s4, h4, h⟩ := bind_ok_inv h
  obtain ⟨_, s5, h5, h⟩ := bind_ok_inv h
  obtain ⟨n, s6, h6, h⟩ := bind_ok_inv h
  refine (Lab.createMacroEntry _ _ _ _ h1).trans ?_
  generalize n.kind = k at h
  match k, h with
  | .id _ _ (some i), h =>
    obtain ⟨x, s7, h7, h⟩ := bind_ok_inv h
    generalize x.macroNode = mn at h
    cases mn with
    | none =>
      obtain ⟨_, s8, h8, h⟩ := bind_ok_inv h
      cases h8
      cases h
      exact .of rfl
    | some b =>
      obtain ⟨_, s8, h8, h⟩ := bind_ok_inv h
      obtain ⟨_, s9, h9, h⟩ := bind_ok_inv h
      obtain ⟨y, s10, h10, h⟩ := bind_ok_inv h
      cases h
      refine .trans ?_ (Lab.sym _ _ _ _ h10)
      cases h9
      exact .of rfl
  | .id _ _ none, h =>
    obtain ⟨_, s8, h8, h⟩ := bind_ok_inv h
    cases h8
    cases h
    exact .of rfl
macro_rules | `(tactic| lab_leaf) => `(tactic| with_reducible exact Lab.expandMacroId (by assumption) _ _)

theorem Lab.pushMacroParams : Lab pushMacroParams := by
  unfold Verif.pushMacroParams; lab

theorem Lab.popMacroParams : Lab popMacroParams := by
  unfold Verif.popMacroParams
  refine Lab.bind Lab.getS fun s => ?_
  split
  · lab
  · exact Lab.bind (Lab.modS fun _ => rfl) fun _ => Lab.restoreParams _ _

theorem Lab.expandMacroEx (hex : ∀ p, Lab (ex p)) (name : Str) (body : Ptr) (params : Option Ptr) :
    Lab (expandMacroEx ex name body params) := by
  intro s v s' h
  unfold Verif.expandMacroEx at h
  obtain ⟨found, s1, h1, h⟩ := bind_ok_inv h
  obtain ⟨_, s2, h2, h⟩ := bind_ok_inv h
  obtain ⟨_, s3, h3, h⟩ := bind_ok_inv h
  obtain ⟨_, s4, h4, h⟩ := bind_ok_inv h
  obtain ⟨_, _, ⟨⟩, h⟩ := bind_ok_inv h
  obtain ⟨cnt, s6, h6, h⟩ := bind_ok_inv h
  obtain ⟨_, s7, h7, h⟩ := bind_ok_inv h
  obtain ⟨_, s8, h8, h⟩ := bind_ok_inv h
  obtain ⟨_, s9, h9, h⟩ := bind_ok_inv h
  obtain ⟨_, s10, h10, h⟩ := bind_ok_inv h
  obtain ⟨_, s11, h11, h⟩ := bind_ok_inv h
  cases h
  have e4 : Lab (match params with
    | some q => do
      let _ ← ex q
      M.pure ()
    | none => M.pure ()) := by lab
  refine (Lab.createMacroEntry _ _ _ _ h1).trans ((Lab.pushMacroParams _ _ _ h2).trans (.trans ?_ ((e4 _ _ _ h4).trans
    (.trans ?_ (Lab.popMacroParams _ _ _ h11)))))
  · cases h3
    exact .of rfl
  · cases h10
    exact .of rfl
macro_rules | `(tactic| lab_leaf) => `(tactic| with_reducible exact Lab.expandMacroEx (by assumption) _ _ _)

theorem Lab.expandMacroDef (n : Node) : Lab (expandMacroDef n) := by
  unfold Verif.expandMacroDef; lab
macro_rules | `(tactic| lab_leaf) => `(tactic| with_reducible exact Lab.expandMacroDef _)

theorem Lab.pcOverflow : Lab Verif.pcOverflow := by
  unfold Verif.pcOverflow; lab
macro_rules | `(tactic| lab_leaf) => `(tactic| with_reducible exact Lab.pcOverflow)

theorem Lab.expandWhile (hex : ∀ p, Lab (ex p)) (f : Nat) (n : Node) : Lab (expandWhile ex f n) := by
  unfold Verif.expandWhile; lab
macro_rules | `(tactic| lab_leaf) => `(tactic| with_reducible exact Lab.expandWhile (by assumption) _ _)

theorem Lab.expandRepeat (hex : ∀ p, Lab (ex p)) (f : Nat) (untl : Bool) (n : Node) : Lab (expandRepeat ex f untl n) := by
  unfold Verif.expandRepeat; lab
macro_rules | `(tactic| lab_leaf) => `(tactic| with_reducible exact Lab.expandRepeat (by assumption) _ _ _)

theorem Lab.forStep (hex : ∀ p, Lab (ex p)) (i : SymPtr) (stepV endV : Int) (body : Ptr) : Lab (forStep ex i stepV endV body) := by
  unfold Verif.forStep; lab
macro_rules | `(tactic| lab_leaf) => `(tactic| with_reducible exact Lab.forStep (by assumption) _ _ _ _)

theorem Lab.needSym (r : Option SymPtr) : Lab (needSym r) := by
  unfold Verif.needSym; lab
macro_rules | `(tactic| lab_leaf) => `(tactic| with_reducible exact Lab.needSym _)

theorem Lab.expandFor (hex : ∀ p, Lab (ex p)) (f : Nat) (n : Node) : Lab (expandFor ex f n) := by
  unfold Verif.expandFor; lab
macro_rules | `(tactic| lab_leaf) => `(tactic| with_reducible exact Lab.expandFor (by assumption) _ _)

theorem Lab.expandIf (hex : ∀ p, Lab (ex p)) (n : Node) : Lab (expandIf ex n) := by
  unfold Verif.expandIf; lab
macro_rules | `(tactic| lab_leaf) => `(tactic| with_reducible exact Lab.expandIf (by assumption) _)

theorem Lab.expandStatement (hex : ∀ p, Lab (ex p)) (n : Node) : Lab (expandStatement ex n) := by
  unfold Verif.expandStatement; lab
macro_rules | `(tactic| lab_leaf) => `(tactic| with_reducible exact Lab.expandStatement (by assumption) _)

theorem Lab.equMinus (op : Int) : Lab (equMinus op) := by
  unfold Verif.equMinus; lab
macro_rules | `(tactic| lab_leaf) => `(tactic| with_reducible exact Lab.equMinus _)

theorem Lab.equPlus (op : Int) : Lab (equPlus op) := by
  unfold Verif.equPlus; lab
macro_rules | `(tactic| lab_leaf) => `(tactic| with_reducible exact Lab.equPlus _)

theorem Lab.equTarget (i : SymPtr) (x : Sym) : Lab (equTarget i x) := by
  unfold Verif.equTarget; lab
macro_rules | `(tactic| lab_leaf) => `(tactic| with_reducible exact Lab.equTarget _ _)

theorem Lab.expandEqu (hex : ∀ p, Lab (ex p)) (n : Node) : Lab (expandEqu ex n) := by
  unfold Verif.expandEqu; lab
macro_rules | `(tactic| lab_leaf) => `(tactic| with_reducible exact Lab.expandEqu (by assumption) _)

theorem Lab.bin (hex : ∀ p, Lab (ex p)) (n : Node) (g : Int → Int → Option Int) : Lab (bin ex n g) := by
  unfold Verif.bin; lab
macro_rules | `(tactic| lab_leaf) => `(tactic| with_reducible exact Lab.bin (by assumption) _ _)

theorem Lab.una (hex : ∀ p, Lab (ex p)) (n : Node) (g : Int → Option Int) : Lab (una ex n g) := by
  unfold Verif.una; lab
macro_rules | `(tactic| lab_leaf) => `(tactic| with_reducible exact Lab.una (by assumption) _ _)

theorem Lab.expandDivide (hex : ∀ p, Lab (ex p)) (n : Node) : Lab (expandDivide ex n) := by
  unfold Verif.expandDivide; lab
macro_rules | `(tactic| lab_leaf) => `(tactic| with_reducible exact Lab.expandDivide (by assumption) _)

theorem Lab.shortCircuit (hex : ∀ p, Lab (ex p)) (n : Node) (stop : Bool) : Lab (shortCircuit ex n stop) := by
  unfold Verif.shortCircuit; lab
macro_rules | `(tactic| lab_leaf) => `(tactic| with_reducible exact Lab.shortCircuit (by assumption) _ _)

theorem Lab.expandOperator (hex : ∀ p, Lab (ex p)) (hhu : ∀ p, Lab (hu p)) (f : Nat) (op : Opr) (n : Node) :
    Lab (expandOperator ex hu f op n) := by
  cases op
  all_goals (unfold Verif.expandOperator; lab)
macro_rules | `(tactic| lab_leaf) => `(tactic| with_reducible exact Lab.expandOperator (by assumption) (by assumption) _ _ _)

theorem Lab.expandPrintState (hex : ∀ p, Lab (ex p)) (p : Ptr) : Lab (expandPrintState ex p) := by
  unfold Verif.expandPrintState; lab
macro_rules | `(tactic| lab_leaf) => `(tactic| with_reducible exact Lab.expandPrintState (by assumption) _)

theorem Lab.expandKind (hex : ∀ p, Lab (ex p)) (hhu : ∀ p, Lab (hu p)) (f : Nat) (p : Ptr) (n : Node) :
    Lab (expandKind ex hu f p n) := by
  unfold Verif.expandKind
  split <;> lab

end

/-- No expansion changes it. -/
theorem expandNode_lab : ∀ (f : Nat) (p : Ptr), Lab (expandNode f p)
  | 0, _ => Lab.timeout
  | f + 1, p => by
    have h1 := expandNode_lab f
    have h2 := Lab.hasUninit f
    have h3 := Lab.expandKind h1 h2 f
    unfold Verif.expandNode
    lab

end Verif
