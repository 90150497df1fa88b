import Verif.Model.Stack

/-! # Property C21: stacks are last-in first-out -/

namespace Verif

namespace Spec

/-- Operations of a stack user. -/
inductive StackOp (α : Type) where
  | push (v : α)
  | pop
  | top
  | itemAt (i : Nat)
  | clear

/-- What the user of a stack observes. -/
inductive StackObs (α : Type) where
  | index (i : Int)
  | value (v : α)
  | unit
deriving DecidableEq

variable {α : Type}

/-- A stack is a list, bottom first; `none` marks an undefined use. -/
def lifoStep (l : List α) : StackOp α → Option (List α × StackObs α)
  | .push v => some (l ++ [v], .index l.length)
  | .pop => l.getLast?.map fun v => (l.dropLast, .value v)
  | .top => l.getLast?.map fun v => (l, .value v)
  | .itemAt i => l[i]?.map fun v => (l, .value v)
  | .clear => some ([], .unit)

/-- A sequence of operations with the observations made; stops at the first undefined use. -/
def lifoRun (l : List α) : List (StackOp α) → Option (List α × List (StackObs α))
  | [] => some (l, [])
  | op :: ops => (lifoStep l op).bind fun r => (lifoRun r.1 ops).map fun q => (q.1, r.2 :: q.2)

end Spec

namespace CStack

variable {α : Type}

/-- One operation on the model of stacks.cc. -/
def step (s : CStack α) : Spec.StackOp α → Option (CStack α × Spec.StackObs α)
  | .push v => (s.push v).map fun r => (r.1, .index r.2)
  | .pop => s.pop.map fun r => (r.1, .value r.2)
  | .top => s.top.map fun v => (s, .value v)
  | .itemAt i => (s.itemAt i).map fun v => (s, .value v)
  | .clear => s.clear.map fun s' => (s', .unit)

/-- A sequence of operations on the model. -/
def run (s : CStack α) : List (Spec.StackOp α) → Option (CStack α × List (Spec.StackObs α))
  | [] => some (s, [])
  | op :: ops => (step s op).bind fun r => (run r.1 ops).map fun q => (q.1, r.2 :: q.2)

/-- The array holds the list in its first `index + 1` cells. -/
private structure Repr (s : CStack α) (l : List α) : Prop where
  idx : s.index = (l.length : Int) - 1
  cap : l.length ≤ s.array.length
  cells : ∀ i (h : i < l.length), s.array[i]? = some (some l[i])

private theorem repr_itemAt {s : CStack α} {l : List α} (r : Repr s l) (i : Nat)
    (h : i < l.length) : s.itemAt i = some l[i] := by
  have := r.cap
  unfold itemAt
  rw [if_pos ⟨by omega, by omega⟩]
  simp [r.cells i h]

private theorem repr_top {s : CStack α} {l : List α} (r : Repr s l) (hl : l ≠ []) :
    s.itemAt s.index = l.getLast? := by
  have hpos := List.length_pos_iff.2 hl
  have h1 : s.index = ((l.length - 1 : Nat) : Int) := by rw [r.idx]; omega
  rw [h1, repr_itemAt r _ (by omega), List.getLast?_eq_getElem?, List.getElem?_eq_getElem (by omega)]

private theorem repr_push {s : CStack α} {l : List α} (r : Repr s l) (v : α) :
    ∃ s', s.push v = some (s', (l.length : Int)) ∧ Repr s' (l ++ [v]) := by
  have hi := r.idx
  have hc := r.cap
  unfold push
  rw [if_pos (by omega)]
  have hidx : s.index + 1 = (l.length : Int) := by omega
  simp only [hidx]
  generalize harr : (if (l.length : Int) ≥ (s.array.length : Int)
    then s.array ++ List.replicate clumpSize none else s.array) = arr
  have hcap : l.length < arr.length ∧ ∀ i, i < l.length → arr[i]? = s.array[i]? := by
    split at harr
    · subst harr
      refine ⟨by simp [clumpSize]; omega, fun i hi => ?_⟩
      rw [List.getElem?_append_left (by omega)]
    · subst harr
      exact ⟨by omega, fun i hi => rfl⟩
  rw [if_pos (by omega)]
  refine ⟨_, rfl, ⟨by simp, by simp; omega, ?_⟩⟩
  intro i h
  simp only [Int.toNat_natCast]
  rw [List.getElem?_set]
  by_cases hil : l.length = i
  · subst hil
    simp [hcap.1]
  · simp only [List.length_append, List.length_singleton] at h
    have hlt : i < l.length := by omega
    rw [if_neg hil, hcap.2 i hlt, r.cells i hlt, List.getElem_append_left hlt]

private theorem repr_pop {s : CStack α} {l : List α} (r : Repr s l) :
    (l = [] ∧ s.pop = none) ∨
      ∃ s' v, l.getLast? = some v ∧ s.pop = some (s', v) ∧ Repr s' l.dropLast ∧
        s'.index = s.index - 1 := by
  have hi := r.idx
  have hc := r.cap
  by_cases hl : l = []
  · left
    refine ⟨hl, ?_⟩
    subst hl
    unfold pop
    rw [if_neg]
    simp at hi
    omega
  · right
    have hpos := List.length_pos_iff.2 hl
    have htop := repr_top r hl
    obtain ⟨v, hv⟩ : ∃ v, l.getLast? = some v := by
      rw [← Option.isSome_iff_exists]; simp [hl]
    refine ⟨⟨s.index - 1, s.array⟩, v, hv, ?_, ⟨?_, ?_, ?_⟩, rfl⟩
    · unfold pop
      rw [if_pos (by omega), htop, hv]; rfl
    · simp; omega
    · simp; omega
    · intro i h
      simp only [List.length_dropLast] at h
      rw [r.cells i (by omega)]
      simp

private theorem repr_clear (n : Nat) : ∀ {s : CStack α} {l : List α}, Repr s l →
    l.length ≤ n → ∃ s', clearLoop n s = some s' ∧ Repr s' [] := by
  induction n with
  | zero =>
    intro s l r h
    have : l = [] := List.length_eq_zero_iff.1 (by omega)
    subst this
    have hi := r.idx
    simp at hi
    exact ⟨s, by simp [clearLoop, hi], r⟩
  | succ n ih =>
    intro s l r h
    have hi := r.idx
    unfold clearLoop
    rcases repr_pop r with ⟨hl, _⟩ | ⟨s', v, _, hp, hr, _⟩
    · subst hl
      simp at hi
      exact ⟨s, by simp [hi], r⟩
    · by_cases hneg : s.index ≥ 0
      · rw [if_pos hneg, hp]
        simp only [Option.bind_some]
        exact ih hr (by simp; omega)
      · have : l = [] := List.length_eq_zero_iff.1 (by omega)
        subst this
        rw [if_neg hneg]
        exact ⟨s, rfl, r⟩

private theorem repr_step {s : CStack α} {l : List α} (r : Repr s l) (op : Spec.StackOp α)
    {l' : List α} {o : Spec.StackObs α} (h : Spec.lifoStep l op = some (l', o)) :
    ∃ s', s.step op = some (s', o) ∧ Repr s' l' := by
  cases op with
  | push v =>
    simp only [Spec.lifoStep, Option.some.injEq, Prod.mk.injEq] at h
    obtain ⟨rfl, rfl⟩ := h
    obtain ⟨s', h1, h2⟩ := repr_push r v
    exact ⟨s', by simp [step, h1], h2⟩
  | pop =>
    simp only [Spec.lifoStep, Option.map_eq_some_iff, Prod.mk.injEq] at h
    obtain ⟨v, hv, rfl, rfl⟩ := h
    rcases repr_pop r with ⟨hl, _⟩ | ⟨s', v', hv', hp, hr, _⟩
    · subst hl; simp at hv
    · rw [hv] at hv'
      cases hv'
      exact ⟨s', by simp [step, hp], hr⟩
  | top =>
    simp only [Spec.lifoStep, Option.map_eq_some_iff, Prod.mk.injEq] at h
    obtain ⟨v, hv, rfl, rfl⟩ := h
    have hl : l ≠ [] := by rintro rfl; simp at hv
    exact ⟨s, by simp [step, top, repr_top r hl, hv], r⟩
  | itemAt i =>
    simp only [Spec.lifoStep, Option.map_eq_some_iff, Prod.mk.injEq] at h
    obtain ⟨v, hv, rfl, rfl⟩ := h
    obtain ⟨hlt, rfl⟩ := List.getElem?_eq_some_iff.1 hv
    exact ⟨s, by simp [step, repr_itemAt r i hlt], r⟩
  | clear =>
    simp only [Spec.lifoStep, Option.some.injEq, Prod.mk.injEq] at h
    obtain ⟨rfl, rfl⟩ := h
    have hi := r.idx
    obtain ⟨s', h1, h2⟩ := repr_clear (s.index + 1).toNat r (by omega)
    exact ⟨s', by simp [step, clear, h1], h2⟩

end CStack

/-- **C21.** For every sequence of operations that a LIFO list allows, the array stack makes the same
observations (no assertion fails), however often its capacity grows. -/
theorem C21_stack_is_lifo {α : Type} (ops : List (Spec.StackOp α)) (l : List α)
    (obs : List (Spec.StackObs α)) (h : Spec.lifoRun [] ops = some (l, obs)) :
    ∃ s, (CStack.create : CStack α).run ops = some (s, obs) ∧ s.index = (l.length : Int) - 1 := by
  have key : ∀ (ops : List (Spec.StackOp α)) (s : CStack α) (l0 l : List α)
      (obs : List (Spec.StackObs α)), CStack.Repr s l0 → Spec.lifoRun l0 ops = some (l, obs) →
      ∃ s', s.run ops = some (s', obs) ∧ CStack.Repr s' l := by
    intro ops
    induction ops with
    | nil =>
      intro s l0 l obs r h
      simp only [Spec.lifoRun, Option.some.injEq, Prod.mk.injEq] at h
      obtain ⟨rfl, rfl⟩ := h
      exact ⟨s, rfl, r⟩
    | cons op ops ih =>
      intro s l0 l obs r h
      simp only [Spec.lifoRun, Option.bind_eq_some_iff, Option.map_eq_some_iff] at h
      obtain ⟨⟨l1, o⟩, h1, ⟨l2, os⟩, h2, h3⟩ := h
      simp only [Prod.mk.injEq] at h3
      obtain ⟨rfl, rfl⟩ := h3
      obtain ⟨s1, hs1, r1⟩ := CStack.repr_step r op h1
      obtain ⟨s2, hs2, r2⟩ := ih s1 l1 l2 os r1 h2
      exact ⟨s2, by simp [CStack.run, hs1, hs2], r2⟩
  obtain ⟨s, h1, h2⟩ := key ops CStack.create [] l obs
    ⟨rfl, Nat.zero_le _, fun i h => absurd h (Nat.not_lt_zero i)⟩ h
  exact ⟨s, h1, h2.idx⟩

example : Spec.lifoRun [] [Spec.StackOp.push 7, .push 8, .top, .pop, .itemAt 0, .clear, .push 9] =
    some ([9], [.index 0, .index 1, .value 8, .value 8, .value 7, .unit, .index 0]) := by decide

/-- **C21**, the undefined uses: `pop` and `top` on an empty stack are the assertion failures. -/
theorem C21_empty_undefined {α : Type} :
    (CStack.create : CStack α).pop = none ∧ (CStack.create : CStack α).top = none := by
  constructor <;> rfl

/-- **C21**: the first 25 pushes share one block, the 26th reallocates (capacity in steps of
`clump_size`), and the contents survive. -/
example : ((CStack.create.run ((List.range 30).map Spec.StackOp.push ++ [.itemAt 3])).map
    fun r => (r.1.array.length, r.2.getLast?)) = some (50, some (Spec.StackObs.value 3)) := by
  decide +kernel

end Verif
