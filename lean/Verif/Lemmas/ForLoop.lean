import Verif.Lemmas.Program

/-! # Rounds of `.for` loops -/

namespace Verif

theorem set_other {slot : Str → Option Nat} {k : Spec.Cfg} {c c' : Nat} {v : Int} {name : Str} (h : slot name = some c)
    (hne : c' ≠ c) : (k.set slot c' v).env name = k.env name := by
  show (if slot name = some c' then some v else k.env name) = _
  rw [if_neg]
  rw [h]
  intro h'
  exact hne (Option.some.inj h').symm

theorem chain {α : Type} {K U : Nat → α} {F : α → Option Int} : ∀ (n : Nat), (∀ i, i < n → F (U i) = F (K i)) →
    (∀ i, i < n → F (K (i + 1)) = F (U i)) → F (K n) = F (K 0)
  | 0, _, _ => rfl
  | n + 1, h1, h2 => (h2 n (by omega)).trans ((h1 n (by omega)).trans
      (chain n (fun i hi => h1 i (by omega)) fun i hi => h2 i (by omega)))

/-- Statements that assign nothing to a variable leave its value. -/
theorem runs_untouched {C : Spec.Context} {slot : Str → Option Nat} {st : Stmt} {k k' : Spec.Cfg} {bs : List Nat}
    (h : Spec.Runs C slot st k k' bs) {name : Str} {c : Nat} (hc : slot name = some c) (hu : Spec.Untouched slot c st) :
    k'.env name = k.env name := by
  induction h with
  | plain _ => rfl
  | @assign nm e k v c' _ hc' =>
    refine set_other hc ?_
    rintro rfl
    exact hu hc'
  | @var hd tl k k' h =>
    have : ∀ (xs : List (Str × Option Expr)) (k k' : Spec.Cfg), (∀ x, x ∈ xs → slot x.1 ≠ some c) →
        Spec.Declare slot xs k k' → k'.env name = k.env name := by
      intro xs
      induction xs with
      | nil => intro k k' _ h; rw [show k' = k from h]
      | cons x xs ih =>
        intro k k' hx h
        have hne : ∀ c', slot x.1 = some c' → c' ≠ c := by
          rintro c' h rfl
          exact hx x (List.mem_cons_self ..) h
        obtain ⟨n, e⟩ := x
        cases e with
        | none =>
          obtain ⟨c', h1, h⟩ := h
          rw [ih (k.set slot c' 0) _ (fun x hx' => hx x (List.mem_cons_of_mem _ hx')) h, set_other hc (hne c' h1)]
        | some e =>
          obtain ⟨c', v, h1, _, _, h⟩ := h
          rw [ih ((k.set slot c' 0).set slot c' v) _ (fun x hx' => hx x (List.mem_cons_of_mem _ hx')) h,
            set_other hc (hne c' h1), set_other hc (hne c' h1)]
    exact this _ _ _ hu h
  | seq _ _ ih1 ih2 => rw [ih2 hu.2, ih1 hu.1]
  | «at» _ ih => exact ih hu
  | call _ _ _ _ _ => exact False.elim hu
  | ifTrue _ _ _ ih => exact ih hu
  | ifFalse _ => rfl
  | elseTrue _ _ _ ih => exact ih hu.1
  | elseFalse _ _ ih => exact ih hu.2
  | «while» n K B v _ _ _ _ _ ih =>
    exact chain (F := fun k : Spec.Cfg => k.env name) (U := fun i => K (i + 1)) n (fun i hi => ih i hi hu) fun _ _ => rfl
  | «repeat» n K B v _ _ _ _ _ ih =>
    exact chain (F := fun k : Spec.Cfg => k.env name) (U := fun i => K (i + 1)) (n + 1) (fun i hi => ih i (by omega) hu) fun _ _ => rfl
  | «do» n K B v _ _ _ _ _ ih =>
    exact chain (F := fun k : Spec.Cfg => k.env name) (U := fun i => K (i + 1)) (n + 1) (fun i hi => ih i (by omega) hu) fun _ _ => rfl
  | @«for» nm nx start stop step body k c' a b s n K U B x y h1 h2 _ _ hK _ _ _ _ _ _ _ _ hnext ih =>
    have hne : c' ≠ c := by
      rintro rfl
      exact hu.1 h1
    have := chain (K := K) (F := fun k : Spec.Cfg => k.env name) n (fun i hi => ih i hi hu.2) fun i hi => by
      rw [hnext i hi]
      exact set_other hc hne
    rw [this, hK]
    exact set_other hc hne

theorem rounds_past {a b s : Int} (h0 : s ≠ 0) : Spec.past s b (a + Spec.rounds a b s * s) ∧
    ∀ i : Nat, i < Spec.rounds a b s → ¬ Spec.past s b (a + i * s) := by
  unfold Spec.rounds Spec.past
  by_cases hs : s > 0
  · rw [if_pos hs]
    have e1 := Int.mul_ediv_add_emod (b - a) s
    have e2 := Int.emod_nonneg (b - a) h0
    have e3 := Int.emod_lt_of_pos (b - a) hs
    generalize (b - a) / s = q at e1 ⊢
    generalize (b - a) % s = r at e1 e2 e3
    refine ⟨Or.inl ⟨hs, ?_⟩, ?_⟩
    · have hq : q + 1 ≤ (((q + 1).toNat : Nat) : Int) := by omega
      have := Int.mul_le_mul_of_nonneg_right hq (Int.le_of_lt hs)
      rw [Int.add_mul, Int.one_mul, Int.mul_comm q s] at this
      omega
    · intro i hi hp
      rcases hp with ⟨_, hp⟩ | ⟨hp, _⟩
      · have hq : (i : Int) ≤ q := by omega
        have := Int.mul_le_mul_of_nonneg_right hq (Int.le_of_lt hs)
        rw [Int.mul_comm q s] at this
        omega
      · omega
  · rw [if_neg hs]
    have hs' : -s > 0 := by omega
    have e1 := Int.mul_ediv_add_emod (a - b) (-s)
    have e2 := Int.emod_nonneg (a - b) (show -s ≠ 0 by omega)
    have e3 := Int.emod_lt_of_pos (a - b) hs'
    generalize (a - b) / (-s) = q at e1 ⊢
    generalize (a - b) % (-s) = r at e1 e2 e3
    refine ⟨Or.inr ⟨by omega, ?_⟩, ?_⟩
    · have hq : q + 1 ≤ (((q + 1).toNat : Nat) : Int) := by omega
      have := Int.mul_le_mul_of_nonneg_right hq (Int.le_of_lt hs')
      rw [Int.add_mul, Int.one_mul, Int.mul_comm q (-s), Int.mul_neg] at this
      omega
    · intro i hi hp
      rcases hp with ⟨hp, _⟩ | ⟨_, hp⟩
      · omega
      · have hq : (i : Int) ≤ q := by omega
        have := Int.mul_le_mul_of_nonneg_right hq (Int.le_of_lt hs')
        rw [Int.mul_comm q (-s), Int.mul_neg] at this
        omega

/-- The meaning of a `.for` loop whose body leaves the variable alone. -/
theorem runs_for {C : Spec.Context} {slot : Str → Option Nat} {name next : Str} {start stop : Expr} {step : Option Expr}
    {body : Stmt} {k : Spec.Cfg} {c : Nat} {a b s : Int} (K U : Nat → Spec.Cfg) (B : Nat → List Nat)
    (hc : slot name = some c) (hc' : slot next = some c) (hs : Spec.stepOf k step s) (ha : k.value start a)
    (h0 : s ≠ 0) (hK : K 0 = k.set slot c a) (he : (K 0).value stop b) (hu : Spec.Untouched slot c body)
    (hin : ∀ i : Nat, i ≤ Spec.rounds a b s → -2147483648 ≤ a + i * s ∧ a + i * s < 2147483648)
    (hb : ∀ i, i < Spec.rounds a b s → Spec.Runs C slot body (K i) (U i) (B i))
    (hpc : ∀ i, i < Spec.rounds a b s → (U i).pc ≤ 65535)
    (hnext : ∀ i, i < Spec.rounds a b s → K (i + 1) = (U i).set slot c (a + (i + 1 : Nat) * s)) :
    Spec.Runs C slot (.forLoop name start stop step body next) k (K (Spec.rounds a b s))
      ((List.range (Spec.rounds a b s)).flatMap B) ∧
    ∀ i, i ≤ Spec.rounds a b s → (K i).env name = some (a + i * s) := by
  have hx : ∀ i, i ≤ Spec.rounds a b s → (K i).env name = some (a + i * s) := by
    intro i hi
    cases i with
    | zero =>
      rw [hK]
      show (if slot name = some c then some a else k.env name) = _
      rw [if_pos hc]
      congr 1
      omega
    | succ i =>
      rw [hnext i (by omega)]
      show (if slot name = some c then some _ else _) = _
      rw [if_pos hc]
  have hy : ∀ i, i < Spec.rounds a b s → (U i).env name = some (a + i * s) := fun i hi => by
    rw [runs_untouched (hb i hi) hc hu, hx i (by omega)]
  have hsucc : ∀ i : Nat, a + (i : Int) * s + s = a + ((i + 1 : Nat) : Int) * s := fun i => by
    rw [Int.natCast_add, Int.add_mul]
    omega
  obtain ⟨p1, p2⟩ := rounds_past (a := a) (b := b) h0
  refine ⟨.for (a := a) (b := b) (s := s) (Spec.rounds a b s) K U B (fun i => a + i * s) (fun i => a + i * s) hc hc' hs ha hK he hx p2 p1 hb hpc hy ?_ ?_, hx⟩
  · intro i hi
    rw [hsucc]
    exact hin (i + 1) hi
  · intro i hi
    rw [hsucc]
    exact hnext i hi

end Verif
