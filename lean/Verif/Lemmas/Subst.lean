import Verif.Spec.Subst

/-! # Numbers in place of names -/

namespace Verif

/-- The names of `σ` have these values in the first environment, all others the same in both. -/
def EnvAgree (σ : Str → Option Int) (env env' : Str → Option Int) : Prop :=
  (∀ n v, σ n = some v → env n = some v) ∧ ∀ n, σ n = none → env' n = env n

theorem eval_subst {σ env env' : Str → Option Int} (h : EnvAgree σ env env') (pc : Int) :
    ∀ e : Expr, Spec.eval env' pc (e.subst σ) = Spec.eval env pc e
  | .int v => rfl
  | .sym name => by
    unfold Expr.subst
    split
    · rename_i v hv
      show (Spec.rng v).map _ = _
      unfold Spec.eval
      rw [h.1 _ _ hv]
      rfl
    · rename_i hv
      unfold Spec.eval
      rw [h.2 _ hv]
  | .pc => rfl
  | .un op e => by
    unfold Expr.subst Spec.eval
    rw [eval_subst h pc e]
  | .bin op a b => by
    have ha := eval_subst h pc a
    have hb := eval_subst h pc b
    cases op <;> simp only [Expr.subst, Spec.eval, ha, hb]

theorem noSyms_subst {σ : Str → Option Int} : ∀ e : Expr, e.noSyms = true → (e.subst σ).noSyms = true
  | .int _, _ => rfl
  | .pc, _ => rfl
  | .un _ e, h => noSyms_subst e h
  | .bin _ a b, h => by
    have h := Bool.and_eq_true_iff.1 h
    exact Bool.and_eq_true_iff.2 ⟨noSyms_subst a h.1, noSyms_subst b h.2⟩

theorem complete_subst {σ env env' : Str → Option Int} (h : EnvAgree σ env env') (pc : Int) :
    ∀ e : Expr, e.complete env pc = true → (e.subst σ).complete env' pc = true
  | .int _, _ => rfl
  | .pc, _ => rfl
  | .sym name, _ => by
    unfold Expr.subst
    split <;> rfl
  | .un _ e, hc => complete_subst h pc e hc
  | .bin op a b, hc => by
    have ha := complete_subst h pc a
    have hb := complete_subst h pc b
    have na := noSyms_subst (σ := σ) a
    have nb := noSyms_subst (σ := σ) b
    cases op <;>
      simp only [Expr.subst, Expr.complete, eval_subst h, Bool.and_eq_true] at hc ⊢ <;>
      refine ⟨?_, ?_⟩ <;> first | exact ha hc.1 | exact hb hc.1 | exact hb hc.2 | exact ha hc.2 | (have h2 := hc.2; split at h2 <;> rename_i hz <;> first | (rw [if_pos hz]; first | exact ha h2 | exact hb h2 | exact na h2 | exact nb h2) | (rw [if_neg hz]; first | exact ha h2 | exact hb h2 | exact na h2 | exact nb h2))

theorem kids_subst {σ : Str → Option Int} (e : Expr) : Spec.kids (e.subst σ) = (Spec.kids e).map (Expr.subst σ) := by
  cases e with
  | sym n =>
    unfold Expr.subst
    split <;> rfl
  | _ => rfl

theorem itemValue_subst {σ env env' : Str → Option Int} (h : EnvAgree σ env env') {pc : Int} {e : Expr} {v : Int}
    (hv : Spec.itemValue env pc e = some v) : Spec.itemValue env' pc (e.subst σ) = some v := by
  unfold Spec.itemValue at hv ⊢
  split at hv
  · rename_i hk
    rw [if_pos, eval_subst h]
    · exact hv
    · rw [kids_subst]
      rw [List.all_eq_true] at hk ⊢
      intro x hx
      obtain ⟨y, hy, rfl⟩ := List.mem_map.1 hx
      have := Bool.and_eq_true_iff.1 (hk y hy)
      rw [eval_subst h]
      exact Bool.and_eq_true_iff.2 ⟨this.1, complete_subst h pc y this.2⟩
  · cases hv

theorem items_subst {σ env env' : Str → Option Int} (h : EnvAgree σ env env') {txt : Str → Option Str} {size : Int} :
    ∀ (xs : List Item) {pc : Int} {bs : List Nat}, Spec.items txt env size pc xs = some bs →
      Spec.items txt env' size pc (xs.map (Item.subst σ)) = some bs
  | [], _, _, hb => hb
  | x :: xs, pc, bs, hb => by
    have hx : ∀ b, Spec.item txt env size pc x = some b → Spec.item txt env' size pc (x.subst σ) = some b := by
      intro b hb
      cases x with
      | str raw => exact hb
      | expr e =>
        obtain ⟨v, h1, h2⟩ := Option.bind_eq_some_iff.1 hb
        show (Spec.itemValue env' pc (e.subst σ)).bind _ = _
        rw [itemValue_subst h h1]
        exact h2
    obtain ⟨b, h1, h2⟩ := Option.bind_eq_some_iff.1 hb
    obtain ⟨b', h3, h4⟩ := Option.map_eq_some_iff.1 h2
    show (Spec.item txt env' size pc (x.subst σ)).bind _ = _
    rw [hx b h1, Option.bind_some, items_subst h xs h3]
    exact congrArg some h4

theorem emits_subst {C : Spec.Context} {σ env env' : Str → Option Int} (h : EnvAgree σ env env') (hA : σ [65] = none ∧ σ [97] = none)
    {pc : Int} {fresh : Bool} {bs : List Nat} : ∀ {st : Stmt},
    st.leaves σ = true → Spec.Emits C env pc fresh bs st → Spec.Emits C env' pc fresh bs (st.subst σ)
  | .empty, _, he => he
  | .op _ _ none, _, he => he
  | .op ins mode (some e), _, he => by
    rcases he with ⟨h1, h2, h3⟩ | ⟨form, v, h1, h2, h3, h4⟩
    · refine Or.inl ⟨h1, ?_, h3⟩
      rcases h2 with rfl | rfl
      · exact Or.inl (by show (Expr.sym [65]).subst σ = _; unfold Expr.subst; rw [hA.1])
      · exact Or.inr (by show (Expr.sym [97]).subst σ = _; unfold Expr.subst; rw [hA.2])
    · exact Or.inr ⟨form, v, h1, by rw [eval_subst h]; exact h2, complete_subst h pc e h3, h4⟩
  | .data size hd tl, _, he => ⟨he.1, items_subst h (hd :: tl) he.2⟩
  | .fill v n, _, he => by
    obtain ⟨x, y, h1, h2, h3⟩ := he
    exact ⟨x, y, by rw [eval_subst h]; exact h1, by rw [eval_subst h]; exact h2, h3⟩
  | .load _, _, he => he
  | .assign n e, hn, he => by
    obtain ⟨v, h1, h2, h3⟩ := he
    exact ⟨v, by rw [eval_subst h]; exact h1, by rw [h.2 _ (Option.isNone_iff_eq_none.1 hn)]; exact h2, h3⟩

theorem EnvAgree.set {σ env env' : Str → Option Int} (h : EnvAgree σ env env') {slot : Str → Option Nat}
    (hs : ∀ n, σ n ≠ none → slot n = none) (c : Nat) (v : Int) :
    EnvAgree σ (fun n => if slot n = some c then some v else env n) (fun n => if slot n = some c then some v else env' n) := by
  refine ⟨fun n w hn => ?_, fun n hn => ?_⟩
  · show (if slot n = some c then some v else env n) = _
    rw [if_neg (by rw [hs n (by rw [hn]; simp)]; simp)]
    exact h.1 n w hn
  · show (if _ then _ else _) = if _ then _ else _
    rw [h.2 n hn]

/-- Two configurations that agree up to the names of `σ`. -/
structure Alike (σ : Str → Option Int) (k k' : Spec.Cfg) : Prop where
  env : EnvAgree σ k.env k'.env
  pc : k'.pc = k.pc
  fresh : k'.fresh = k.fresh

theorem Alike.value {σ : Str → Option Int} {k k' : Spec.Cfg} (h : Alike σ k k') {e : Expr} {v : Int} (hv : k.value e v) :
    k'.value (e.subst σ) v := by
  unfold Spec.Cfg.value
  rw [h.pc, eval_subst h.env]
  exact hv

theorem Alike.set {σ : Str → Option Int} {k k' : Spec.Cfg} (h : Alike σ k k') {slot : Str → Option Nat}
    (hs : ∀ n, σ n ≠ none → slot n = none) (c : Nat) (v : Int) : Alike σ (k.set slot c v) (k'.set slot c v) :=
  ⟨h.env.set hs c v, h.pc, h.fresh⟩

theorem declare_subst {σ : Str → Option Int} {slot : Str → Option Nat} (hs : ∀ n, σ n ≠ none → slot n = none) :
    ∀ (xs : List (Str × Option Expr)) {k k1 l : Spec.Cfg}, Spec.Declare slot xs k k1 → Alike σ k l →
      ∃ l1, Spec.Declare slot (xs.map fun x => (x.1, x.2.map (Expr.subst σ))) l l1 ∧ Alike σ k1 l1
  | [], k, k1, l, h, ha => ⟨l, rfl, by rw [show k1 = k from h]; exact ha⟩
  | (name, none) :: xs, k, k1, l, h, ha => by
    obtain ⟨c, h1, h2⟩ := h
    obtain ⟨l1, h3, h4⟩ := declare_subst hs xs h2 (ha.set hs c 0)
    exact ⟨l1, ⟨c, h1, h3⟩, h4⟩
  | (name, some e) :: xs, k, k1, l, h, ha => by
    obtain ⟨c, v, h1, h2, h3, h4⟩ := h
    obtain ⟨l1, h5, h6⟩ := declare_subst hs xs h4 ((ha.set hs c 0).set hs c v)
    refine ⟨l1, ⟨c, v, h1, fun n hn => ?_, ?_, h5⟩, h6⟩
    · cases e with
      | sym m => exact h2 m rfl
      | _ => cases hn
    · rw [ha.pc]
      exact itemValue_subst (ha.env.set hs c 0) h3

/-- The configurations at the start of the rounds of a loop over the changed body. -/
theorem rounds_subst {σ : Str → Option Int} {R : Spec.Cfg → Spec.Cfg → List Nat → Prop} {n : Nat} {K U : Nat → Spec.Cfg} {B : Nat → List Nat}
    {F : Nat → Spec.Cfg → Spec.Cfg} (hF : ∀ i k l, Alike σ k l → Alike σ (F i k) (F i l))
    (hK : ∀ i, i < n → K (i + 1) = F i (U i)) (hb : ∀ i, i < n → ∀ l, Alike σ (K i) l → ∃ l', R l l' (B i) ∧ Alike σ (U i) l')
    {l : Spec.Cfg} (hl : Alike σ (K 0) l) :
    ∃ L V : Nat → Spec.Cfg, L 0 = l ∧ (∀ i, i ≤ n → Alike σ (K i) (L i)) ∧ (∀ i, i < n → Alike σ (U i) (V i)) ∧
      (∀ i, i < n → R (L i) (V i) (B i)) ∧ ∀ i, i < n → L (i + 1) = F i (V i) := by
  induction n with
  | zero =>
    refine ⟨fun _ => l, fun _ => l, rfl, fun i hi => ?_, fun i hi => absurd hi (by omega), fun i hi => absurd hi (by omega),
      fun i hi => absurd hi (by omega)⟩
    rw [show i = 0 by omega]
    exact hl
  | succ n ih =>
    obtain ⟨L, V, h0, h1, h2, h3, h4⟩ := ih (fun i hi => hK i (by omega)) (fun i hi => hb i (by omega))
    obtain ⟨l', h5, h6⟩ := hb n (by omega) (L n) (h1 n (Nat.le_refl n))
    refine ⟨fun i => if i = n + 1 then F n l' else L i, fun i => if i = n then l' else V i, (if_neg (by omega)).trans h0,
      fun i hi => ?_, fun i hi => ?_, fun i hi => ?_, fun i hi => ?_⟩
    · show Alike σ (K i) (if i = n + 1 then _ else _)
      by_cases hn : i = n + 1
      · subst hn
        rw [if_pos rfl, hK n (by omega)]
        exact hF n _ _ h6
      · rw [if_neg hn]
        exact h1 i (by omega)
    · show Alike σ (U i) (if i = n then _ else _)
      by_cases hn : i = n
      · subst hn
        rw [if_pos rfl]
        exact h6
      · rw [if_neg hn]
        exact h2 i (by omega)
    · show R (if i = n + 1 then _ else _) (if i = n then _ else _) _
      rw [if_neg (by omega)]
      by_cases hn : i = n
      · subst hn
        rw [if_pos rfl]
        exact h5
      · rw [if_neg hn]
        exact h3 i (by omega)
    · show (if i + 1 = n + 1 then _ else _) = F i (if i = n then _ else _)
      by_cases hn : i = n
      · subst hn
        rw [if_pos rfl, if_pos rfl]
      · rw [if_neg (by omega), if_neg hn]
        exact h4 i (by omega)

/-- A statement without macro calls does the same with numbers in place of names that have these values. -/
theorem runs_subst {C : Spec.Context} {slot : Str → Option Nat} {σ : Str → Option Int} (hA : σ [65] = none ∧ σ [97] = none)
    (hs : ∀ n, σ n ≠ none → slot n = none) {st : Stmt} {k k1 : Spec.Cfg} {bs : List Nat} (h : Spec.Runs C slot st k k1 bs) :
    st.leaves σ = true → ∀ l, Alike σ k l → ∃ l1, Spec.Runs C slot (st.subst σ) l l1 bs ∧ Alike σ k1 l1 := by
  have hname : ∀ {n c}, slot n = some c → σ n = none := fun {n c} hn => by
    cases hz : σ n with
    | none => rfl
    | some v =>
      rw [hs n (by rw [hz]; simp)] at hn
      cases hn
  induction h with
  | @plain st k bs h =>
    intro hw l ha
    refine ⟨l.emit bs, .plain ?_, ⟨ha.env, ?_, ?_⟩⟩
    · rw [ha.pc, ha.fresh]
      exact emits_subst ha.env hA hw h
    · show l.pc + _ = k.pc + _
      rw [ha.pc]
    · show (l.fresh && _) = (k.fresh && _)
      rw [ha.fresh]
  | assign hv hc =>
    intro _ l ha
    exact ⟨_, .assign (ha.value hv) hc, ha.set hs _ _⟩
  | @var hd tl k k' h =>
    intro _ l ha
    obtain ⟨l1, h1, h2⟩ := declare_subst hs _ h ha
    exact ⟨l1, .var h1, h2⟩
  | seq _ _ ih1 ih2 =>
    intro hw l ha
    have hw := Bool.and_eq_true_iff.1 hw
    obtain ⟨l1, h1, a1⟩ := ih1 hw.1 l ha
    obtain ⟨l2, h2, a2⟩ := ih2 hw.2 l1 a1
    exact ⟨l2, .seq h1 h2, a2⟩
  | «at» _ ih =>
    intro hw l ha
    obtain ⟨l1, h1, a1⟩ := ih hw l ha
    exact ⟨l1, .at h1, a1⟩
  | ifTrue hc hv _ ih =>
    intro hw l ha
    obtain ⟨l1, h1, a1⟩ := ih hw l ha
    exact ⟨l1, .ifTrue (ha.value hc) hv h1, a1⟩
  | ifFalse hc =>
    intro _ l ha
    exact ⟨l, .ifFalse (ha.value hc), ha⟩
  | elseTrue hc hv _ ih =>
    intro hw l ha
    obtain ⟨l1, h1, a1⟩ := ih (Bool.and_eq_true_iff.1 hw).1 l ha
    exact ⟨l1, .elseTrue (ha.value hc) hv h1, a1⟩
  | elseFalse hc _ ih =>
    intro hw l ha
    obtain ⟨l1, h1, a1⟩ := ih (Bool.and_eq_true_iff.1 hw).2 l ha
    exact ⟨l1, .elseFalse (ha.value hc) h1, a1⟩
  | @«while» c body n K B v hc hv hend _ hpc ih =>
    intro hw l ha
    obtain ⟨L, V, h0, h1, h2, h3, h4⟩ := rounds_subst (R := Spec.Runs C slot (body.subst σ)) (U := fun i => K (i + 1)) (F := fun _ k => k)
      (fun _ _ _ h => h) (fun _ _ => rfl) (fun i hi => ih i hi hw) ha
    subst h0
    exact ⟨L n, .while n L B v (fun i hi => (h1 i hi).value (hc i hi)) hv hend (fun i hi => by rw [h4 i hi]; exact h3 i hi)
      (fun i hi => by rw [(h1 (i + 1) (by omega)).pc]; exact hpc i hi), h1 n (Nat.le_refl n)⟩
  | @«repeat» c body n K B v _ hpc hc hv hend ih =>
    intro hw l ha
    obtain ⟨L, V, h0, h1, h2, h3, h4⟩ := rounds_subst (n := n + 1) (R := Spec.Runs C slot (body.subst σ)) (U := fun i => K (i + 1)) (F := fun _ k => k)
      (fun _ _ _ h => h) (fun _ _ => rfl) (fun i hi => ih i (by omega) hw) ha
    subst h0
    exact ⟨L (n + 1), .repeat n L B v (fun i hi => by rw [h4 i (by omega)]; exact h3 i (by omega))
      (fun i hi => by rw [(h1 (i + 1) (by omega)).pc]; exact hpc i hi) (fun i hi => (h1 (i + 1) (by omega)).value (hc i hi)) hv hend,
      h1 (n + 1) (Nat.le_refl _)⟩
  | @«do» c body n K B v _ hpc hc hv hend ih =>
    intro hw l ha
    obtain ⟨L, V, h0, h1, h2, h3, h4⟩ := rounds_subst (n := n + 1) (R := Spec.Runs C slot (body.subst σ)) (U := fun i => K (i + 1)) (F := fun _ k => k)
      (fun _ _ _ h => h) (fun _ _ => rfl) (fun i hi => ih i (by omega) hw) ha
    subst h0
    exact ⟨L (n + 1), .do n L B v (fun i hi => by rw [h4 i (by omega)]; exact h3 i (by omega))
      (fun i hi => by rw [(h1 (i + 1) (by omega)).pc]; exact hpc i hi) (fun i hi => (h1 (i + 1) (by omega)).value (hc i hi)) hv hend,
      h1 (n + 1) (Nat.le_refl _)⟩
  | @«for» name next start stop step body k c a b s n K U B x y hc hc' hst hsa hK he hx hgo hend _ hpc hy hin hnext ih =>
    intro hw l ha
    have hl : Alike σ (K 0) (l.set slot c a) := by rw [hK]; exact ha.set hs c a
    obtain ⟨L, V, h0, h1, h2, h3, h4⟩ := rounds_subst (R := Spec.Runs C slot (body.subst σ)) (F := fun i k => k.set slot c (y i + s))
      (fun _ _ _ h => h.set hs _ _) hnext (fun i hi => ih i hi hw) hl
    refine ⟨L n, .for n L V B x y hc hc' ?_ (ha.value hsa) h0 (by rw [h0]; exact hl.value he) (fun i hi => ?_) hgo hend h3
      (fun i hi => by rw [(h2 i hi).pc]; exact hpc i hi) (fun i hi => ?_) hin h4, h1 n (Nat.le_refl n)⟩
    · cases step with
      | none => exact hst
      | some e => exact ha.value hst
    · rw [(h1 i hi).env.2 name (hname hc)]
      exact hx i hi
    · rw [(h2 i hi).env.2 name (hname hc)]
      exact hy i hi
  | call _ _ _ _ _ =>
    intro hw
    cases hw

end Verif
