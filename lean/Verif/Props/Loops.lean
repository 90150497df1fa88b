import Verif.Props.Block

/-! # Properties: number of rounds and termination of loops -/

namespace Verif

/-! ## C33: rounds of `.for` -/

/-- **C33**.  `.for v = a to b step s` with `s ≠ 0` and a body that does not assign `v` runs the body exactly
`max 0 ((b - a) / s + 1)` times, with `v = a, a + s, …`: the bytes written are those of the body for these values one
after the other.  For downward loops the step is negative.  For every body made of the statements of `Spec.Runs`, if the
values of the variable fit an `int` and the address does not pass `$FFFF`; the variable exists already. -/
theorem C33_for {C : Spec.Context} {slot : Str → Option Nat} {name next : Str} {start stop : Expr} {step : Option Expr}
    {body : Stmt} {g : Spec.Stage} {c : Nat} {a b s : Int} (file : Str) (line : Int) (K U : Nat → Spec.Cfg)
    (B : Nat → List Nat) (hp : Spec.Parses C g.cfg.env g.cfg.pc body)
    (hc : slot name = some c) (hc' : slot next = some c) (hs : Spec.stepOf g.cfg step s) (ha : g.cfg.value start a)
    (h0 : s ≠ 0) (hK : K 0 = g.cfg.set slot c a) (he : (K 0).value stop b) (hu : Spec.Untouched slot c body)
    (hin : ∀ i : Nat, i ≤ Spec.rounds a b s → -2147483648 ≤ a + i * s ∧ a + i * s < 2147483648)
    (hb : ∀ i, i < Spec.rounds a b s → Spec.Runs C slot body (K i) (U i) (B i))
    (hpc : ∀ i, i < Spec.rounds a b s → (U i).pc ≤ 65535)
    (hnext : ∀ i, i < Spec.rounds a b s → K (i + 1) = (U i).set slot c (a + (i + 1 : Nat) * s)) :
    (∀ i, i < Spec.rounds a b s → (K i).env name = some (a + i * s)) ∧
    ∃ f0, ∀ f, f0 ≤ f → ∀ st, At C slot st g → ∃ st',
      runTop (expandNode f) (hasUninit f) (.stmt file line (.forLoop name start stop step body next)) st = (.ok true, st') ∧
      Span st st' ((List.range (Spec.rounds a b s)).flatMap B) ∧
      envOf st' name = some (a + Spec.rounds a b s * s) := by
  obtain ⟨hr, hx⟩ := runs_for K U B hc hc' hs ha h0 hK he hu hin hb hpc hnext
  refine ⟨fun i hi => hx i (by omega), ?_⟩
  obtain ⟨f0, h⟩ := block_run file line (st := .forLoop name start stop step body next) hp hr
  refine ⟨f0, fun f hf st hA => ?_⟩
  obtain ⟨st', r, sp, hlog, hA'⟩ := h f hf st hA
  refine ⟨st', r, sp, ?_⟩
  rw [(hA'.ref (mb := false)).env.all]
  show (if (slot name).isSome then _ else _) = _
  rw [hc]
  exact hx _ (Nat.le_refl _)

theorem setSymbolValue_get {c : SymPtr} {v : Int} {s s' : St} {x : Sym} (hx : s.syms[c]? = some x)
    (hr : x.isVar = true ∨ (0 ≤ v ∧ v ≤ 0xFFFF)) (h : setSymbolValue c v s = (.ok (), s')) :
    ∃ y, s'.syms[c]? = some y ∧ y.value = v := by
  unfold setSymbolValue at h
  rw [bind_ok (sym_run hx)] at h
  split at h
  · have hno : ¬ (cand v (cnot 0xFFFF) ≠ 0 ∧ x.isVar = false) := by
      rintro ⟨h1, h2⟩
      rcases hr with h3 | h3
      · rw [h2] at h3
        cases h3
      · exact h1 ((cand_not_ffff ⟨by omega, by omega⟩).mpr ⟨h3.1, by omega⟩)
    rw [if_neg hno] at h
    replace h := bind_ok_inv h
    obtain ⟨_, s1, e1, h⟩ := h
    have hs1 : s1.syms[c]? = some { x with value := v } := by
      unfold modSym at e1
      split at e1
      · cases e1
        show (s.syms.modify c _)[c]? = _
        rw [List.getElem?_modify, hx]
        simp
      · cases e1
    refine ⟨{ x with value := v }, ?_, rfl⟩
    split at h <;> cases h <;> exact hs1
  · rename_i he
    cases h
    exact ⟨x, hx, by simpa using he⟩

/-- **C33** for any body: the loop in `expand_operator_for_node` with the bounds known.  `S i` is the state before and `T i`
the state after the body in round `i`.  The expansion of the body may be anything that leaves the value of the loop symbol
and stays below `$10000`; the symbol may be a variable, or an ordinary symbol if its values fit 16 bits. -/
theorem C33_loop {ex : Ptr → M Int} {c : SymPtr} {u : Ptr} {a b s : Int} (h0 : s ≠ 0) (S T : Nat → St) (X : Nat → Sym)
    (hin : ∀ i : Nat, i ≤ Spec.rounds a b s → -2147483648 ≤ a + i * s ∧ a + i * s < 2147483648)
    (hS : ∃ x, (S 0).syms[c]? = some x ∧ x.value = a)
    (hb : ∀ i, i < Spec.rounds a b s → ∃ w, ex u (S i) = (.ok w, T i))
    (hT : ∀ i, i < Spec.rounds a b s → (T i).syms[c]? = some (X i) ∧ (X i).value = a + i * s)
    (hX : ∀ i : Nat, i < Spec.rounds a b s →
      (X i).isVar = true ∨ (0 ≤ a + (i + 1 : Nat) * s ∧ a + (i + 1 : Nat) * s ≤ 0xFFFF))
    (hpc : ∀ i, i < Spec.rounds a b s → (T i).pc ≤ 65535)
    (hnext : ∀ i, i < Spec.rounds a b s → setSymbolValue c (a + (i + 1 : Nat) * s) (T i) = (.ok (), S (i + 1)))
    {f : Nat} (hf : Spec.rounds a b s < f) :
    loopM f (forStep ex c s b u) (S 0) = (.ok (), S (Spec.rounds a b s)) := by
  obtain ⟨p1, p2⟩ := rounds_past (a := a) (b := b) h0
  have hval : ∀ i, i ≤ Spec.rounds a b s → ∃ x, (S i).syms[c]? = some x ∧ x.value = a + i * s := by
    intro i hi
    cases i with
    | zero =>
      obtain ⟨x, h1, h2⟩ := hS
      exact ⟨x, h1, by omega⟩
    | succ i => exact setSymbolValue_get (hT i (by omega)).1 (hX i (by omega)) (hnext i (by omega))
  suffices ∀ j i f, i + j = Spec.rounds a b s → j < f →
      loopM f (forStep ex c s b u) (S i) = (.ok (), S (Spec.rounds a b s)) from this _ 0 f (by omega) hf
  intro j
  induction j with
  | zero =>
    intro i f hij hf
    obtain ⟨f, rfl⟩ : ∃ h, f = h + 1 := ⟨f - 1, by omega⟩
    obtain rfl : i = Spec.rounds a b s := by omega
    obtain ⟨x, hx, hv⟩ := hval _ (Nat.le_refl _)
    refine loopM_false ?_
    unfold forStep
    unfold Spec.past at p1
    rw [bind_ok (sym_run hx), hv, if_pos p1]
    rfl
  | succ j ih =>
    intro i f hij hf
    obtain ⟨f, rfl⟩ : ∃ h, f = h + 1 := ⟨f - 1, by omega⟩
    have hi : i < Spec.rounds a b s := by omega
    obtain ⟨x, hx, hv⟩ := hval i (by omega)
    obtain ⟨w, hw⟩ := hb i hi
    obtain ⟨t1, t2⟩ := hT i hi
    have hp := p2 i hi
    unfold Spec.past at hp
    have hsucc : a + (i : Int) * s + s = a + ((i + 1 : Nat) : Int) * s := by
      rw [Int.natCast_add, Int.add_mul]
      omega
    refine (loopM_true (s' := S (i + 1)) ?_).trans (ih (i + 1) f (by omega) (by omega))
    unfold forStep
    rw [bind_ok (sym_run hx), hv, if_neg hp, bind_ok hw, bind_ok (pcOverflow_run (hpc i hi)), if_neg Bool.false_ne_true,
      bind_ok (sym_run t1), t2, hsucc]
    have hck : liftO (cchk (a + (i + 1 : Nat) * s)) (T i) = (.ok (a + (i + 1 : Nat) * s), T i) := by
      unfold cchk
      rw [if_pos (show InInt (a + (i + 1 : Nat) * s) from hin (i + 1) hi)]
      rfl
    rw [bind_ok hck, bind_ok (hnext i hi)]
    rfl

/-! `.for i = 10 downto 4 step 3` with the body `.byte i`. -/

private def ni : Str := cstr! "i"

private def sl : St where
  originSpecified := true
  pc := 0
  origin := 0
  syms := [{ name := ni, fullname := ni, value := 77, isInit := true, isVar := true }]

private def gl : Spec.Stage := ⟨(ctxOf sl).env, none, 0, true⟩
private def Bl (i : Nat) : List Nat := [10 - 3 * i]
private def Kl : Nat → Spec.Cfg
  | 0 => gl.cfg.set (slotOf sl) 0 10
  | i + 1 => ((Kl i).emit (Bl i)).set (slotOf sl) 0 (10 + (i + 1 : Nat) * (-3))

example : Spec.rounds 10 4 (-3) = 3 ∧ (10 - 4) / 3 + 1 = 3 ∧ Spec.rounds 5 4 1 = 0 ∧ Spec.rounds 0 255 1 = 256 := by decide

example : At (ctxOf sl) (slotOf sl) sl gl ∧ slotOf sl ni = some 0 ∧ Spec.stepOf gl.cfg (some (.int (-3))) (-3) ∧
    gl.cfg.value (.int 10) 10 ∧ (Kl 0).value (.int 4) 4 ∧
    Spec.Parses (ctxOf sl) gl.cfg.env gl.cfg.pc (.data 1 (.expr (.sym ni)) []) ∧
    Spec.Untouched (slotOf sl) 0 (.data 1 (.expr (.sym ni)) []) ∧
    (∀ i, i < Spec.rounds 10 4 (-3) →
      Spec.Runs (ctxOf sl) (slotOf sl) (.data 1 (.expr (.sym ni)) []) (Kl i) ((Kl i).emit (Bl i)) (Bl i)) ∧
    (∀ i, i < Spec.rounds 10 4 (-3) → ((Kl i).emit (Bl i)).pc ≤ 65535) ∧
    (List.range (Spec.rounds 10 4 (-3))).flatMap Bl = [10, 7, 4] := by
  have hvar : ∀ x, x ∈ sl.syms → x.isVar = true → 64 ∉ x.fullname := by decide +kernel
  refine ⟨⟨rfl, fun _ _ => rfl, rfl, fun l h => (by cases h), rfl, ⟨rfl, by decide, rfl, by decide, fun _ => by decide,
    fun _ h => by cases h⟩, rfl, fun ll h => slotOf_label hvar rfl h fun l h => (by cases h)⟩, by decide +kernel, rfl, rfl, rfl,
    fun raw h => by simp at h, trivial, fun i hi => .plain ⟨Or.inr (Or.inl rfl), ?_⟩, fun i hi => ?_, by decide⟩
  · have : i < 3 := hi
    obtain rfl | rfl | rfl : i = 0 ∨ i = 1 ∨ i = 2 := by omega
    all_goals decide +kernel
  · have : i < 3 := hi
    obtain rfl | rfl | rfl : i = 0 ∨ i = 1 ∨ i = 2 := by omega
    all_goals decide +kernel

/-- A body that counts its rounds in the location counter. -/
private def tick : Ptr → M Int := fun _ => do
  modS fun s => { s with pc := s.pc + 1 }
  M.pure 0

example : let S : Nat → St := fun i => { sl with pc := i, syms := [{ name := ni, fullname := ni, value := 10 + i * (-3), isInit := true, isVar := true }] }
    loopM 4 (forStep tick 0 (-3) 4 0) (S 0) = (.ok (), S 3) := by
  intro S
  exact C33_loop (a := 10) (b := 4) (s := -3) (by decide) S (fun i => { S i with pc := i + 1 })
    (fun i => { name := ni, fullname := ni, value := 10 + i * (-3), isInit := true, isVar := true })
    (fun i hi => by have : i ≤ 3 := hi; omega) ⟨_, rfl, rfl⟩ (fun i _ => ⟨0, rfl⟩) (fun i _ => ⟨rfl, rfl⟩) (fun i _ => Or.inl rfl)
    (fun i hi => by have : i < 3 := hi; show (i : Int) + 1 ≤ 65535; omega)
    (fun i _ => setVar_run (x := { name := ni, fullname := ni, value := 10 + i * (-3), isInit := true, isVar := true }) rfl rfl _)
    (f := 4) (by decide)

/-! ## C34: loops that emit code stop -/

theorem bind_quiet {α β : Type} {m : M α} {k : α → M β} {s : St} (h1 : (m s).1 ≠ .timeout)
    (h2 : ∀ v s', m s = (.ok v, s') → (k v s').1 ≠ .timeout) : ((m >>= k) s).1 ≠ .timeout := by
  rw [run_bind]
  rcases hm : m s with ⟨r, s1⟩
  rw [hm] at h1
  cases r with
  | timeout => exact absurd rfl h1
  | exit c => simp
  | ub => simp
  | ok v => exact h2 v s1 hm

theorem opAt_quiet (n : Node) (i : Nat) (s : St) : (opAt n i s).1 ≠ .timeout := by
  unfold opAt
  cases n.ops[i]? <;> simp [liftO, ubM, M.pure]

theorem pcOverflow_quiet (s : St) : (pcOverflow s).1 ≠ .timeout := by
  unfold pcOverflow
  rw [getS_bind]
  split
  · show ((error .infiniteLoop >>= fun _ => M.pure true) s).1 ≠ _
    rw [show (error .infiniteLoop >>= fun _ => M.pure true) s = (.ok true, (error .infiniteLoop s).2) from rfl]
    simp
  · simp [M.pure]

theorem pcOverflow_inv {s s' : St} {v : Bool} (h : pcOverflow s = (.ok v, s')) :
    (v = false ∧ s' = s ∧ s.pc ≤ 65535) ∨ (v = true ∧ 65535 < s.pc ∧ s' = (error .infiniteLoop s).2) := by
  unfold pcOverflow at h
  rw [getS_bind] at h
  split at h
  · rename_i hp
    have h' : (.ok true, (error .infiniteLoop s).2) = ((.ok v, s') : Res Bool × St) := h
    cases h'
    exact Or.inr ⟨rfl, by omega, rfl⟩
  · cases h
    exact Or.inl ⟨rfl, rfl, by omega⟩

theorem opAt_inv {n : Node} {i : Nat} {s s' : St} {p q : Ptr} (hq : n.ops[i]? = some q) (h : opAt n i s = (.ok p, s')) :
    p = q ∧ s' = s := by
  rw [opAt_run hq] at h
  cases h
  exact ⟨rfl, rfl⟩

/-- A loop whose rounds advance the location counter and go on only up to `$FFFF`. -/
theorem loop_stops {m : M Bool} (I : St → Prop) (h : ∀ s, I s → (m s).1 ≠ .timeout ∧
    ∀ s', m s = (.ok true, s') → I s' ∧ s.pc < s'.pc ∧ s'.pc ≤ 65535) : ∀ (f : Nat) (s : St), I s →
    (65536 - s.pc).toNat < f → (loopM f m s).1 ≠ .timeout ∧
      ∀ s', loopM f m s = (.ok (), s') → ∃ s0, I s0 ∧ m s0 = (.ok false, s')
  | 0, _, _, hf => by omega
  | f + 1, s, hI, hf => by
    obtain ⟨h1, h2⟩ := h s hI
    rcases hm : m s with ⟨r, s1⟩
    rw [hm] at h1
    cases r with
    | timeout => exact absurd rfl h1
    | exit c =>
      have : loopM (f + 1) m s = (.exit c, s1) := by
        show (m >>= fun again => if again then loopM f m else M.pure ()) s = _
        rw [run_bind, hm]
      rw [this]
      exact ⟨by simp, fun s' h => by cases h⟩
    | ub =>
      have : loopM (f + 1) m s = (.ub, s1) := by
        show (m >>= fun again => if again then loopM f m else M.pure ()) s = _
        rw [run_bind, hm]
      rw [this]
      exact ⟨by simp, fun s' h => by cases h⟩
    | ok v =>
      cases v with
      | true =>
        obtain ⟨g1, g2, g3⟩ := h2 s1 hm
        rw [loopM_true hm]
        exact loop_stops I h f s1 g1 (by omega)
      | false =>
        rw [loopM_false hm]
        exact ⟨by simp, fun s' h => by cases h; exact ⟨s, hI, hm⟩⟩

/-- The expansion of the tree `p` always comes back from states in `I`, with the location counter at least `d` further. -/
def Advances (ex : Ptr → M Int) (I : St → Prop) (d : Int) (p : Ptr) : Prop :=
  ∀ s, I s → (ex p s).1 ≠ .timeout ∧ ∀ v s', ex p s = (.ok v, s') → I s' ∧ s.pc + d ≤ s'.pc

/-- **C34**, `.while`.  If condition and body come back and each round advances the location counter, the loop ends,
after at most `65536 - pc` rounds: because the condition is 0, or with an infinite loop error once the location counter is
past `$FFFF`.  For every condition and body, given by what their expansion does. -/
theorem C34_while {ex : Ptr → M Int} {n : Node} {o0 o1 : Ptr} (h0 : n.ops[0]? = some o0) (h1 : n.ops[1]? = some o1)
    (I : St → Prop) (hc : Advances ex I 0 o0) (hb : Advances ex I 1 o1) {f : Nat} {s : St} (hI : I s)
    (hf : (65536 - s.pc).toNat < f) :
    (expandWhile ex f n s).1 ≠ .timeout ∧ ∀ v s', expandWhile ex f n s = (.ok v, s') →
      (∃ s0, ex o0 s0 = (.ok 0, s')) ∨ ∃ s0, 65535 < s0.pc ∧ s' = (error .infiniteLoop s0).2 := by
  unfold expandWhile
  have key := loop_stops (m := do
    let o0 ← opAt n 0
    let c ← ex o0
    if c ≠ 0 then do
      let o1 ← opAt n 1
      let _ ← ex o1
      let stop ← pcOverflow
      M.pure (!stop)
    else M.pure false) I (fun s hI => by
      refine ⟨?_, fun s' h => ?_⟩
      · rw [bind_ok (opAt_run h0 s)]
        refine bind_quiet (hc s hI).1 fun v s1 hv => ?_
        split
        · rw [bind_ok (opAt_run h1 s1)]
          refine bind_quiet (hb s1 ((hc s hI).2 v s1 hv).1).1 fun w s2 _ => ?_
          exact bind_quiet (pcOverflow_quiet s2) fun _ _ _ => by simp [M.pure]
        · simp [M.pure]
      · rw [bind_ok (opAt_run h0 s)] at h
        replace h := bind_ok_inv h; obtain ⟨v, s1, e1, h⟩ := h
        obtain ⟨i1, p1⟩ := (hc s hI).2 v s1 e1
        split at h
        · rw [bind_ok (opAt_run h1 s1)] at h
          replace h := bind_ok_inv h; obtain ⟨w, s2, e2, h⟩ := h
          obtain ⟨i2, p2⟩ := (hb s1 i1).2 w s2 e2
          replace h := bind_ok_inv h; obtain ⟨b, s3, e3, h⟩ := h
          rcases pcOverflow_inv e3 with ⟨rfl, rfl, hp⟩ | ⟨rfl, _, _⟩
          · cases h
            exact ⟨i2, by omega, hp⟩
          · cases h
        · cases h) f s hI hf
  refine ⟨bind_quiet key.1 fun _ _ _ => by simp [M.pure], fun v s' h => ?_⟩
  replace h := bind_ok_inv h; obtain ⟨_, s1, e1, h⟩ := h
  cases h
  obtain ⟨s0, hI0, hm⟩ := key.2 _ e1
  rw [bind_ok (opAt_run h0 s0)] at hm
  replace hm := bind_ok_inv hm; obtain ⟨v, t1, e1, hm⟩ := hm
  split at hm
  · rw [bind_ok (opAt_run h1 t1)] at hm
    replace hm := bind_ok_inv hm; obtain ⟨w, t2, e2, hm⟩ := hm
    replace hm := bind_ok_inv hm; obtain ⟨b, t3, e3, hm⟩ := hm
    rcases pcOverflow_inv e3 with ⟨rfl, rfl, hp⟩ | ⟨rfl, hp, rfl⟩
    · cases hm
    · cases hm
      exact Or.inr ⟨t2, hp, rfl⟩
  · rename_i hz
    cases hm
    have : v = 0 := by simpa using hz
    subst this
    exact Or.inl ⟨s0, e1⟩

/-- **C34**, `.repeat … .until` and `.do … .while`. -/
theorem C34_repeat {ex : Ptr → M Int} {n : Node} {o0 o1 : Ptr} (untl : Bool) (h0 : n.ops[0]? = some o0)
    (h1 : n.ops[1]? = some o1) (I : St → Prop) (hb : Advances ex I 1 o0) (hc : ∀ s, I s → (ex o1 s).1 ≠ .timeout ∧
      ∀ v s', ex o1 s = (.ok v, s') → I s' ∧ s'.pc = s.pc) {f : Nat} {s : St} (hI : I s)
    (hf : (65536 - s.pc).toNat < f) :
    (expandRepeat ex f untl n s).1 ≠ .timeout ∧ ∀ v s', expandRepeat ex f untl n s = (.ok v, s') →
      (∃ s0 c, ex o1 s0 = (.ok c, s') ∧ (if untl then c ≠ 0 else c = 0)) ∨
      ∃ s0, 65535 < s0.pc ∧ s' = (error .infiniteLoop s0).2 := by
  unfold expandRepeat
  have key := loop_stops (m := do
    let o0 ← opAt n 0
    let _ ← ex o0
    let stop ← pcOverflow
    if stop then M.pure false
    else do
      let o1 ← opAt n 1
      let c ← ex o1
      M.pure (if untl then c == 0 else c != 0)) I (fun s hI => by
      refine ⟨?_, fun s' h => ?_⟩
      · rw [bind_ok (opAt_run h0 s)]
        refine bind_quiet (hb s hI).1 fun v s1 hv => ?_
        refine bind_quiet (pcOverflow_quiet s1) fun b s2 hb' => ?_
        split
        · simp [M.pure]
        · rw [bind_ok (opAt_run h1 s2)]
          have i1 := ((hb s hI).2 v s1 hv).1
          rcases pcOverflow_inv hb' with ⟨rfl, rfl, _⟩ | ⟨rfl, _, _⟩
          · exact bind_quiet (hc s2 i1).1 fun _ _ _ => by simp [M.pure]
          · simp_all
      · rw [bind_ok (opAt_run h0 s)] at h
        replace h := bind_ok_inv h; obtain ⟨v, s1, e1, h⟩ := h
        obtain ⟨i1, p1⟩ := (hb s hI).2 v s1 e1
        replace h := bind_ok_inv h; obtain ⟨b, s2, e2, h⟩ := h
        rcases pcOverflow_inv e2 with ⟨rfl, rfl, hp⟩ | ⟨rfl, _, _⟩
        · rw [if_neg Bool.false_ne_true, bind_ok (opAt_run h1 s2)] at h
          replace h := bind_ok_inv h; obtain ⟨c, s3, e3, h⟩ := h
          obtain ⟨i3, p3⟩ := (hc s2 i1).2 c s3 e3
          have hs : s3 = s' := congrArg Prod.snd h
          subst hs
          exact ⟨i3, by omega, by omega⟩
        · cases h) f s hI hf
  refine ⟨bind_quiet key.1 fun _ _ _ => by simp [M.pure], fun v s' h => ?_⟩
  replace h := bind_ok_inv h; obtain ⟨_, s1, e1, h⟩ := h
  cases h
  obtain ⟨s0, hI0, hm⟩ := key.2 _ e1
  rw [bind_ok (opAt_run h0 s0)] at hm
  replace hm := bind_ok_inv hm; obtain ⟨v, t1, e1, hm⟩ := hm
  replace hm := bind_ok_inv hm; obtain ⟨b, t2, e2, hm⟩ := hm
  rcases pcOverflow_inv e2 with ⟨rfl, rfl, hp⟩ | ⟨rfl, hp, rfl⟩
  · rw [if_neg Bool.false_ne_true, bind_ok (opAt_run h1 t2)] at hm
    replace hm := bind_ok_inv hm; obtain ⟨c, t3, e3, hm⟩ := hm
    have hs : t3 = _ := congrArg Prod.snd hm
    subst hs
    refine Or.inl ⟨t2, c, e3, ?_⟩
    have hv : (if untl then c == 0 else c != 0) = false := by
      have := congrArg Prod.fst hm
      simpa [M.pure] using this
    cases untl <;> simpa using hv
  · cases hm
    exact Or.inr ⟨t1, hp, rfl⟩

theorem setSymbolValue_pc {c : SymPtr} {v : Int} {s s' : St} (h : setSymbolValue c v s = (.ok (), s')) : s'.pc = s.pc := by
  unfold setSymbolValue at h
  replace h := bind_ok_inv h; obtain ⟨x, s1, e1, h⟩ := h
  have : s1 = s := by
    unfold sym at e1
    split at e1 <;> cases e1
    rfl
  subst this
  split at h
  · split at h
    · cases h
      rfl
    · replace h := bind_ok_inv h; obtain ⟨_, s2, e2, h⟩ := h
      have : s2.pc = s1.pc := by
        unfold modSym at e2
        split at e2 <;> cases e2
        rfl
      rw [← this]
      split at h <;> cases h <;> rfl
  · cases h
    rfl

theorem setSymbolValue_quiet (c : SymPtr) (v : Int) (s : St) : (setSymbolValue c v s).1 ≠ .timeout := by
  unfold setSymbolValue
  refine bind_quiet (by unfold sym; split <;> simp) fun x s1 _ => ?_
  split
  · split
    · simp [error, modS]
    · refine bind_quiet (by unfold modSym; split <;> simp) fun _ s2 _ => ?_
      split <;> simp [modS, M.pure]
  · simp [M.pure]

/-- **C34**, `.for`: the loop itself, after start, end and step have been evaluated. -/
theorem C34_for {ex : Ptr → M Int} {c : SymPtr} {u : Ptr} {step stop : Int} (I : St → Prop) (hb : Advances ex I 1 u)
    (hset : ∀ s v s', I s → setSymbolValue c v s = (.ok (), s') → I s') {f : Nat} {s : St} (hI : I s)
    (hf : (65536 - s.pc).toNat < f) :
    (loopM f (forStep ex c step stop u) s).1 ≠ .timeout ∧ ∀ s', loopM f (forStep ex c step stop u) s = (.ok (), s') →
      (∃ x, s'.syms[c]? = some x ∧ Spec.past step stop x.value) ∨ ∃ s0, 65535 < s0.pc ∧ s' = (error .infiniteLoop s0).2 := by
  have key := loop_stops (m := forStep ex c step stop u) I (fun s hI => by
      unfold forStep
      have hsym : ∀ t : St, (sym c t).1 ≠ .timeout := fun t => by unfold sym; split <;> simp
      have hsym' : ∀ (t t' : St) x, sym c t = (.ok x, t') → t' = t := fun t t' x h => by
        unfold sym at h
        split at h <;> cases h
        rfl
      refine ⟨?_, fun s' h => ?_⟩
      · refine bind_quiet (hsym s) fun x s1 hx => ?_
        cases hsym' _ _ _ hx
        split
        · simp [M.pure]
        · refine bind_quiet (hb s hI).1 fun v s1 hv => ?_
          refine bind_quiet (pcOverflow_quiet s1) fun b s2 _ => ?_
          split
          · simp [M.pure]
          · refine bind_quiet (hsym s2) fun y s3 _ => ?_
            refine bind_quiet (by cases cchk (y.value + step) <;> simp [liftO, ubM, M.pure]) fun w s4 _ => ?_
            exact bind_quiet (setSymbolValue_quiet c w s4) fun _ _ _ => by simp [M.pure]
      · replace h := bind_ok_inv h; obtain ⟨x, s1, hx, h⟩ := h
        cases hsym' _ _ _ hx
        split at h
        · cases h
        · replace h := bind_ok_inv h; obtain ⟨v, s1, e1, h⟩ := h
          obtain ⟨i1, p1⟩ := (hb s hI).2 v s1 e1
          replace h := bind_ok_inv h; obtain ⟨b, s2, e2, h⟩ := h
          rcases pcOverflow_inv e2 with ⟨rfl, rfl, hp⟩ | ⟨rfl, _, _⟩
          · rw [if_neg Bool.false_ne_true] at h
            replace h := bind_ok_inv h; obtain ⟨y, s3, hy, h⟩ := h
            cases hsym' _ _ _ hy
            replace h := bind_ok_inv h; obtain ⟨w, s4, hw, h⟩ := h
            have h4 : s4 = s2 := by
              cases hk : cchk (y.value + step) with
              | none => rw [hk] at hw; cases hw
              | some z => rw [hk] at hw; cases hw; rfl
            subst h4
            replace h := bind_ok_inv h; obtain ⟨_, s5, e5, h⟩ := h
            cases h
            have := setSymbolValue_pc e5
            exact ⟨hset _ w _ i1 e5, by omega, by omega⟩
          · cases h) f s hI hf
  refine ⟨key.1, fun s' h => ?_⟩
  obtain ⟨s0, hI0, hm⟩ := key.2 s' h
  unfold forStep at hm
  replace hm := bind_ok_inv hm; obtain ⟨x, t1, hx, hm⟩ := hm
  have hx' : s0.syms[c]? = some x ∧ t1 = s0 := by
    unfold sym at hx
    split at hx
    · rename_i y hy
      cases hx
      exact ⟨hy, rfl⟩
    · cases hx
  obtain ⟨hx', rfl⟩ := hx'
  split at hm
  · rename_i hp
    cases hm
    exact Or.inl ⟨x, hx', hp⟩
  · replace hm := bind_ok_inv hm; obtain ⟨v, t2, e2, hm⟩ := hm
    replace hm := bind_ok_inv hm; obtain ⟨b, t3, e3, hm⟩ := hm
    rcases pcOverflow_inv e3 with ⟨rfl, rfl, hp⟩ | ⟨rfl, hp, rfl⟩
    · rw [if_neg Bool.false_ne_true] at hm
      replace hm := bind_ok_inv hm; obtain ⟨y, t4, _, hm⟩ := hm
      replace hm := bind_ok_inv hm; obtain ⟨w, t5, _, hm⟩ := hm
      replace hm := bind_ok_inv hm; obtain ⟨_, t6, _, hm⟩ := hm
      cases hm
    · cases hm
      exact Or.inr ⟨t2, hp, rfl⟩

/-! The same for whole statements. -/

/-- The first rounds of a loop. -/
theorem loop_prefix {C : Spec.Context} {slot : Str → Option Nat} {m : M Bool} {n : Nat} {K : Nat → Spec.Cfg}
    {B : Nat → List Nat} (I : St → Prop) (hkeep : ∀ s s' : St, Keeps false s s' → I s → I s')
    (hgo : ∀ i, i < n → ∀ s, Fits false C slot s → Ref false s (K i) → I s →
      ∃ s', m s = (.ok true, s') ∧ Eff false s s' (B i) ∧ Ref false s' (K (i + 1))) :
    ∀ (j i g : Nat) (s : St), i + j = n → Fits false C slot s → Ref false s (K i) → I s →
      ∃ s', loopM (g + j) m s = loopM g m s' ∧ Eff false s s' ((List.range' i j).flatMap B) ∧ Ref false s' (K n)
  | 0, i, g, s, hij, _, hr, _ => by
    obtain rfl : i = n := by omega
    exact ⟨s, rfl, Eff.refl s, hr⟩
  | j + 1, i, g, s, hij, hf, hr, hI => by
    obtain ⟨s1, r1, e1, hr1⟩ := hgo i (by omega) s hf hr hI
    obtain ⟨s2, r2, e2, hr2⟩ := loop_prefix I hkeep hgo j (i + 1) g s1 (by omega) (e1.fits hf) hr1 (hkeep _ _ e1.keeps hI)
    refine ⟨s2, (loopM_true r1).trans r2, ?_, hr2⟩
    rw [List.range'_succ, List.flatMap_cons]
    exact e1.comp hr.flat.count e2

/-- One round of `.while` with a true condition. -/
theorem while_round {C : Spec.Context} {slot : Str → Option Nat} {c : Expr} {body : Stmt} {k k' : Spec.Cfg} {v : Int}
    {bs : List Nat} {f : Nat} {N : Node} {q r : Ptr} (h0 : N.ops[0]? = some q) (h1 : N.ops[1]? = some r) (hd : c.depth < f)
    (hc : k.value c v) (hv : v ≠ 0) (hb : Expands false C slot body k k' bs f) {s : St} (hf : Fits false C slot s) (hr : Ref false s k)
    (hI : ExAt false s c q ∧ StmtAt false s body r) : ∃ s', (do
      let o0 ← opAt N 0
      let c ← expandNode f o0
      if c ≠ 0 then do
        let o1 ← opAt N 1
        let _ ← expandNode f o1
        let stop ← pcOverflow
        M.pure (!stop)
      else M.pure false : M Bool) s = (pcOverflow >>= fun stop => M.pure (!stop)) s' ∧ Eff false s s' bs ∧ Ref false s' k' := by
  obtain ⟨s1, r1, e1, hr1⟩ := cond_run hd hr hI.1 hc
  obtain ⟨w, s2, r2, e2, hr2⟩ := hb s1 r (e1.fits hf) hr1 (hI.2.keep e1.keeps)
  refine ⟨s2, ?_, by simpa using e1.comp hr.flat.count e2, hr2⟩
  rw [bind_ok (opAt_run h0 s), bind_ok r1, if_pos hv, bind_ok (opAt_run h1 s1), bind_ok r2]

theorem pcOverflow_stop {s : St} (h : 65535 < s.pc) :
    (pcOverflow >>= fun stop => M.pure (!stop)) s = (.ok false, (error .infiniteLoop s).2) := by
  have : pcOverflow s = (.ok true, (error .infiniteLoop s).2) := by
    unfold pcOverflow
    rw [getS_bind, if_pos (by omega)]
    rfl
  rw [bind_ok this]
  rfl

theorem exists_least {Q : Nat → Prop} (N : Nat) (h : Q N) : ∃ n, n ≤ N ∧ Q n ∧ ∀ i, i < n → ¬ Q i := by
  induction N using Nat.strongRecOn with
  | ind N ih =>
    by_cases hq : ∃ i, i < N ∧ Q i
    · obtain ⟨i, hi, hQ⟩ := hq
      obtain ⟨n, h1, h2⟩ := ih i hi hQ
      exact ⟨n, by omega, h2⟩
    · exact ⟨N, Nat.le_refl N, h, fun i hi hQ => hq ⟨i, hi, hQ⟩⟩

/-- The first round in which the condition fails or the address is past `$FFFF`. -/
theorem first_stop {P : Nat → Prop} {pc : Nat → Int} (h : ∀ i, ¬ P i → pc i < pc (i + 1)) :
    ∃ n : Nat, (n : Int) ≤ max 1 (65536 - pc 0) ∧ (P n ∨ (0 < n ∧ 65535 < pc n)) ∧
      ∀ i, i < n → ¬ P i ∧ (0 < i → pc i ≤ 65535) := by
  have hq : ∃ N : Nat, (N : Int) ≤ max 1 (65536 - pc 0) ∧ (P N ∨ (0 < N ∧ 65535 < pc N)) := by
    by_cases hP : ∃ i : Nat, (i : Int) ≤ max 1 (65536 - pc 0) ∧ P i
    · obtain ⟨i, hi, hp⟩ := hP
      exact ⟨i, hi, Or.inl hp⟩
    · have hup : ∀ j : Nat, (j : Int) ≤ max 1 (65536 - pc 0) → pc 0 + j ≤ pc j := by
        intro j
        induction j with
        | zero => intro _; simp
        | succ j ih =>
          intro hj
          have h1 := ih (by omega)
          have h2 := h j fun hp => hP ⟨j, by omega, hp⟩
          omega
      have := hup (max 1 (65536 - pc 0)).toNat (by omega)
      exact ⟨(max 1 (65536 - pc 0)).toNat, by omega, Or.inr ⟨by omega, by omega⟩⟩
  obtain ⟨N, hN, hQ⟩ := hq
  obtain ⟨n, h1, h2, h3⟩ := exists_least (Q := fun n => P n ∨ (0 < n ∧ 65535 < pc n)) N hQ
  refine ⟨n, by omega, h2, fun i hi => ⟨fun hp => h3 i hi (Or.inl hp), fun h0 => ?_⟩⟩
  rcases Int.lt_or_le 65535 (pc i) with hh | hh
  · exact absurd (Or.inr ⟨h0, hh⟩) (h3 i hi)
  · exact hh

/-- **C34** for a whole `.while` statement whose body writes something in each round in which the condition holds.  After
at most `max 1 (65536 - pc)` rounds the loop ends normally, or with an infinite loop error and the bytes written so far. -/
theorem C34_while_stmt {C : Spec.Context} {slot : Str → Option Nat} {c : Expr} {body : Stmt} (K : Nat → Spec.Cfg)
    (B : Nat → List Nat) (v : Nat → Int) (hc : ∀ i, (K i).value c (v i))
    (hb : ∀ i, v i ≠ 0 → Spec.Runs C slot body (K i) (K (i + 1)) (B i) ∧ B i ≠ []) :
    ∃ n : Nat, (n : Int) ≤ max 1 (65536 - (K 0).pc) ∧ ∃ f0, ∀ f, f0 ≤ f → ∀ s p, Fits false C slot s → Ref false s (K 0) →
      StmtAt false s (.whileLoop c body) p → ∃ s1, Eff false s s1 ((List.range n).flatMap B) ∧ Ref false s1 (K n) ∧
        ((v n = 0 ∧ expandNode f p s = (.ok 0, s1)) ∨
          (65535 < (K n).pc ∧ expandNode f p s = (.ok 0, (error .infiniteLoop s1).2))) := by
  obtain ⟨n, hn, hQ, hlt⟩ := first_stop (P := fun i => v i = 0) (pc := fun i => (K i).pc) fun i hi => by
    obtain ⟨h1, h2⟩ := hb i hi
    have := (runs_pc h1).1
    have : 0 < (B i).length := List.length_pos_iff.mpr h2
    show (K i).pc < (K (i + 1)).pc
    omega
  refine ⟨n, hn, ?_⟩
  have hexp : ∃ f1, ∀ f, f1 ≤ f → ∀ i, i < n → Expands false C slot body (K i) (K (i + 1)) (B i) f :=
    bounds n fun i hi => runs_expand (hb i (hlt i hi).1).1
  obtain ⟨f1, hexp⟩ := hexp
  refine ⟨max f1 (max (c.depth + 1) (n + 1)) + 1, fun f hf s p hfit href hat => ?_⟩
  obtain ⟨f, rfl⟩ : ∃ g, f = g + 1 := ⟨f - 1, by omega⟩
  obtain ⟨q, r, hl, tc, tb⟩ := hat
  let N : Node := ⟨.opr .whileLoop, 2, [q, r]⟩
  have e0 : expandNode (f + 1) p s = expandWhile (expandNode f) f N s := expandNode_run href.flat.running hl
  have hround : ∀ i, i < n → ∀ s, Fits false C slot s → Ref false s (K i) → (ExAt false s c q ∧ StmtAt false s body r) → _ := fun i hi s hf' hr hI =>
    while_round (N := N) (q := q) (r := r) rfl rfl (by omega) (hc i) (hlt i hi).1 (hexp f (by omega) i hi) hf' hr hI
  -- a normal end
  by_cases hz : v n = 0 ∧ (n = 0 ∨ (K n).pc ≤ 65535)
  · obtain ⟨hz, hpc⟩ := hz
    have := expands_while (C := C) (slot := slot) (c := c) (body := body) n K B v (fun i _ => hc i) (fun i hi => (hlt i hi).1) hz
      (fun i hi => by
        rcases Nat.lt_or_ge (i + 1) n with h | h
        · exact (hlt (i + 1) h).2 (by omega)
        · rw [show i + 1 = n by omega]
          rcases hpc with h | h
          · omega
          · exact h) (f := f) (by omega) (by omega) (hexp f (by omega))
    obtain ⟨w, s1, r1, e1, hr1⟩ := this s p hfit href ⟨q, r, hl, tc, tb⟩
    refine ⟨s1, e1, hr1, Or.inl ⟨hz, ?_⟩⟩
    have hw : w = 0 := by
      rw [e0] at r1
      obtain ⟨_, t, _, h⟩ := bind_ok_inv r1
      have := congrArg Prod.fst h
      exact (Res.ok.inj this).symm
    rw [r1, hw]
  · have hpos : 0 < n ∧ 65535 < (K n).pc := by
      rcases hQ with h | h
      · rcases Nat.eq_zero_or_pos n with h0 | h0
        · exact absurd ⟨h, Or.inl h0⟩ hz
        · refine ⟨h0, ?_⟩
          rcases Int.lt_or_le 65535 (K n).pc with h' | h'
          · exact h'
          · exact absurd ⟨h, Or.inr h'⟩ hz
      · exact h
    obtain ⟨m, rfl⟩ : ∃ m, n = m + 1 := ⟨n - 1, by omega⟩
    obtain ⟨g, rfl⟩ : ∃ g, f = g + 1 + m := ⟨f - 1 - m, by omega⟩
    obtain ⟨t, r1, e1, hr1⟩ := loop_prefix (n := m) (K := K) (B := B) (fun s => ExAt false s c q ∧ StmtAt false s body r)
      (fun s s' hk hI => ⟨hI.1.keep hk, hI.2.keep hk⟩)
      (fun i hi s hf' hr hI => by
        obtain ⟨s', a1, a2, a3⟩ := hround i (by omega) s hf' hr hI
        exact ⟨s', a1.trans (bind_ok (pcOverflow_run (by rw [a3.pc]; exact (hlt (i + 1) (by omega)).2 (by omega)))), a2, a3⟩) m 0 (g + 1) s (by omega) hfit href ⟨tc, tb⟩
    obtain ⟨s1, a1, a2, a3⟩ := hround m (by omega) t (e1.fits hfit) hr1 ⟨tc.keep e1.keeps, tb.keep e1.keeps⟩
    rw [pcOverflow_stop (by rw [a3.pc]; exact hpos.2)] at a1
    refine ⟨s1, ?_, a3, Or.inr ⟨hpos.2, ?_⟩⟩
    · rw [List.range_succ, List.flatMap_append, List.range_eq_range']
      simpa using e1.comp href.flat.count a2
    · rw [e0]
      show (loopM (g + 1 + m) _ >>= fun _ => M.pure 0) s = _
      rw [bind_ok (r1.trans (loopM_false a1))]
      rfl

/-- **C34**, the other half: a loop whose condition holds and whose body changes nothing never ends. -/
theorem C34_diverges {C : Spec.Context} {slot : Str → Option Nat} {c : Expr} {body : Stmt} {k : Spec.Cfg} {v : Int}
    (hc : k.value c v) (hv : v ≠ 0) (hb : Spec.Runs C slot body k k []) (hpc : k.pc ≤ 65535) :
    ∃ f0, ∀ f, f0 ≤ f → ∀ s p, Fits false C slot s → Ref false s k → StmtAt false s (.whileLoop c body) p →
      (expandNode f p s).1 = .timeout := by
  obtain ⟨f1, hexp⟩ := runs_expand hb
  refine ⟨max f1 (c.depth + 1) + 1, fun f hf s p hfit href hat => ?_⟩
  obtain ⟨f, rfl⟩ : ∃ g, f = g + 1 := ⟨f - 1, by omega⟩
  obtain ⟨q, r, hl, tc, tb⟩ := hat
  let N : Node := ⟨.opr .whileLoop, 2, [q, r]⟩
  have e0 : expandNode (f + 1) p s = expandWhile (expandNode f) f N s := expandNode_run href.flat.running hl
  obtain ⟨t, r1, _⟩ := loop_prefix (C := C) (slot := slot) (n := f) (K := fun _ => k) (B := fun _ => [])
    (fun s => ExAt false s c q ∧ StmtAt false s body r) (fun s s' hk hI => ⟨hI.1.keep hk, hI.2.keep hk⟩)
    (fun i hi s hf' hr hI => by
      obtain ⟨s', a1, a2, a3⟩ := while_round (N := N) (q := q) (r := r) rfl rfl (by omega) hc hv (hexp f (by omega)) hf' hr hI
      exact ⟨s', a1.trans (bind_ok (pcOverflow_run (by rw [a3.pc]; exact hpc))), a2, a3⟩) f 0 0 s (by omega) hfit href ⟨tc, tb⟩
  rw [e0]
  rw [Nat.zero_add] at r1
  show ((loopM f _ >>= fun _ => M.pure 0) s).1 = _
  rw [run_bind, r1]
  rfl

/-! `.while 1` with the body `.byte 0`, and with an empty body. -/

private def Kw : Nat → Spec.Cfg
  | 0 => gl.cfg
  | i + 1 => (Kw i).emit [0]

example : (∀ i, (Kw i).value (.int 1) 1) ∧
    ∀ i, Spec.Runs (ctxOf sl) (slotOf sl) (.data 1 (.expr (.int 0)) []) (Kw i) (Kw (i + 1)) [0] ∧ ([0] : List Nat) ≠ [] :=
  ⟨fun _ => rfl, fun _ => ⟨.plain ⟨Or.inr (Or.inl rfl), rfl⟩, by simp⟩⟩

example : Fits false (ctxOf sl) (slotOf sl) sl ∧ Ref false sl gl.cfg :=
  ⟨⟨rfl, rfl, rfl, rfl, rfl, Or.inl fun _ => rfl⟩, ⟨EnvEq.of rfl, rfl, ⟨rfl, by decide, rfl, by decide, fun _ => by decide, fun _ h => by cases h⟩⟩⟩

/-- Near the end of memory, in the interpreter. -/
example : let t : Top := .stmt [97] 1 (.whileLoop (.int 1) (.data 1 (.expr (.int 0)) []))
    let r := runTop (expandNode 20) (hasUninit 20) t { sl with pc := 0xFFFD }
    r.1 = .ok true ∧ r.2.pc = 0x10000 ∧ r.2.log = [.infiniteLoop] := by decide +kernel

example : gl.cfg.value (.int 1) 1 ∧ Spec.Runs (ctxOf sl) (slotOf sl) .empty gl.cfg gl.cfg [] ∧ gl.cfg.pc ≤ 65535 :=
  ⟨rfl, .plain (st := .empty) (k := gl.cfg) (bs := []) rfl, by decide⟩

/-- Hypotheses of `C34_while`, `C34_repeat` and `C34_for`, for a body that only advances. -/
example : Advances tick (fun _ => True) 1 0 ∧
    (∀ s v s', True → setSymbolValue 0 v s = (.ok (), s') → True) ∧
    Advances (fun p => if p = 0 then tick p else M.pure 1) (fun _ => True) 0 1 := by
  refine ⟨fun s _ => ⟨by simp [tick, modS_bind, M.pure], fun v s' h => ?_⟩, fun _ _ _ _ _ => trivial,
    fun s _ => ⟨by simp [M.pure], fun v s' h => ?_⟩⟩
  · cases h
    exact ⟨trivial, Int.le_refl _⟩
  · cases h
    exact ⟨trivial, by simp⟩

end Verif
