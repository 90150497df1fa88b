import Verif.Lemmas.Monad

/-! # Functions that keep a part of the state -/

namespace Verif

/-- `m` does not change the part `g` of the state. -/
def Keep {γ α : Type} (g : St → γ) (m : M α) : Prop := ∀ s, g (m s).2 = g s

variable {γ : Type} {g : St → γ}

theorem Keep.bind {α β : Type} {m : M α} {f : α → M β} (hm : Keep g m) (hf : ∀ a, Keep g (f a)) :
    Keep g (m >>= f) := by
  intro s
  have h1 := hm s
  rw [run_bind]
  rcases hr : m s with ⟨r, s'⟩
  rw [hr] at h1
  cases r with
  | ok a => exact (hf a s').trans h1
  | _ => exact h1

theorem Keep.run {α : Type} {m : M α} {s s' : St} {r : Res α} (hm : Keep g m) (h : m s = (r, s')) :
    g s' = g s := by have := hm s; rw [h] at this; exact this

theorem Keep.pure {α : Type} (a : α) : Keep g (M.pure a) := fun _ => rfl
theorem Keep.exit {α : Type} (c : Int) : Keep g (exitM c : M α) := fun _ => rfl
theorem Keep.ub {α : Type} : Keep g (ubM : M α) := fun _ => rfl
theorem Keep.timeout {α : Type} : Keep g (timeoutM : M α) := fun _ => rfl
theorem Keep.liftO {α : Type} (x : Option α) : Keep g (liftO x) := by cases x <;> exact fun _ => rfl
theorem Keep.getS : Keep g getS := fun _ => rfl
theorem Keep.modS {f : St → St} (h : ∀ s, g (f s) = g s) : Keep g (modS f) := h
theorem Keep.opAt (n : Node) (i : Nat) : Keep g (opAt n i) := Keep.liftO _
theorem Keep.node (p : Ptr) : Keep g (node p) := by
  intro s
  unfold Verif.node
  split
  · rfl
  · split <;> rfl
theorem Keep.sym (i : SymPtr) : Keep g (sym i) := by
  intro s
  unfold Verif.sym
  split <;> rfl
theorem Keep.setNode (p : Ptr) (n : Node) (h : ∀ s ns, g { s with nodes := ns } = g s) : Keep g (setNode p n) := by
  intro s
  unfold Verif.setNode
  split
  · rfl
  · exact h _ _
theorem Keep.allocNode (k : Kind) (ops : List Ptr) (h : ∀ s ns, g { s with nodes := ns } = g s) :
    Keep g (allocNode k ops) := fun _ => h _ _
theorem Keep.modSym (i : SymPtr) (f : Sym → Sym) (h : ∀ s ns, g { s with syms := ns } = g s) :
    Keep g (modSym i f) := by
  intro s
  unfold Verif.modSym
  split
  · exact h _ _
  · rfl
theorem Keep.insertSym (x : Sym) (h : ∀ s ns, g { s with syms := ns } = g s) : Keep g (insertSym x) :=
  fun _ => h _ _
theorem Keep.operands (n : Node) : Keep g (operands n) := by
  unfold Verif.operands
  split
  · exact Keep.pure _
  · exact Keep.ub
theorem Keep.ite {α : Type} {c : Prop} [Decidable c] {m m' : M α} (h : Keep g m) (h' : Keep g m') :
    Keep g (if c then m else m') := by
  split <;> assumption
theorem Keep.loopM (f : Nat) {body : M Bool} (h : Keep g body) : Keep g (loopM f body) := by
  induction f with
  | zero => exact Keep.timeout
  | succ n ih =>
    unfold Verif.loopM
    exact Keep.bind h fun a => Keep.ite ih (Keep.pure _)
theorem Keep.eachM {α σ : Type} {body : σ → α → M (Option σ)} (h : ∀ a x, Keep g (body a x)) :
    ∀ (xs : List α) (a : σ), Keep g (eachM body xs a)
  | [], a => Keep.pure _
  | x :: xs, a => by
    unfold Verif.eachM
    refine Keep.bind (h a x) fun r => ?_
    cases r with
    | none => exact Keep.pure _
    | some a' => exact Keep.eachM h xs a'
theorem Keep.forEachM {α : Type} {body : α → M Unit} (h : ∀ x, Keep g (body x)) :
    ∀ (xs : List α), Keep g (forEachM body xs)
  | [] => Keep.pure _
  | x :: xs => by
    unfold Verif.forEachM
    exact Keep.bind (h x) fun _ => Keep.forEachM h xs

/-- Leaf rules; extended elsewhere. -/
syntax "keep_leaf" : tactic
macro_rules | `(tactic| keep_leaf) => `(tactic| with_reducible exact Keep.pure _)
macro_rules | `(tactic| keep_leaf) => `(tactic| with_reducible exact Keep.exit _)
macro_rules | `(tactic| keep_leaf) => `(tactic| with_reducible exact Keep.ub)
macro_rules | `(tactic| keep_leaf) => `(tactic| with_reducible exact Keep.timeout)
macro_rules | `(tactic| keep_leaf) => `(tactic| with_reducible exact Keep.liftO _)
macro_rules | `(tactic| keep_leaf) => `(tactic| with_reducible exact Keep.getS)
macro_rules | `(tactic| keep_leaf) => `(tactic| with_reducible exact Keep.node _)
macro_rules | `(tactic| keep_leaf) => `(tactic| with_reducible exact Keep.opAt _ _)
macro_rules | `(tactic| keep_leaf) => `(tactic| with_reducible exact Keep.sym _)
macro_rules | `(tactic| keep_leaf) => `(tactic| with_reducible exact Keep.operands _)
macro_rules | `(tactic| keep_leaf) => `(tactic| with_reducible exact Keep.setNode _ _ (fun _ _ => rfl))
macro_rules | `(tactic| keep_leaf) => `(tactic| with_reducible exact Keep.allocNode _ _ (fun _ _ => rfl))
macro_rules | `(tactic| keep_leaf) => `(tactic| with_reducible exact Keep.modSym _ _ (fun _ _ => rfl))
macro_rules | `(tactic| keep_leaf) => `(tactic| with_reducible exact Keep.insertSym _ (fun _ _ => rfl))
macro_rules | `(tactic| keep_leaf) => `(tactic| with_reducible exact Keep.modS (fun _ => rfl))
macro_rules
  | `(tactic| keep_leaf) => `(tactic| (with_reducible refine Keep.modS (fun _ => ?_); split <;> with_reducible rfl; done))

/-- Decompose a goal `Keep g m`. -/
macro "keep" : tactic => `(tactic| repeat' first
  | assumption
  | (with_reducible intro _)
  | (with_reducible apply_assumption; done)
  | keep_leaf
  | (with_reducible apply Keep.loopM)
  | (with_reducible apply Keep.forEachM)
  | (with_reducible apply Keep.eachM)
  | (with_reducible refine Keep.bind ?_ ?_)
  | (with_reducible refine Keep.ite ?_ ?_)
  | (dsimp only)
  | split)

end Verif
