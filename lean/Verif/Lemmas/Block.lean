import Verif.Lemmas.BlockVar
import Verif.Lemmas.MacroCall

/-! # Expanding blocks -/

namespace Verif

variable {mb : Bool}

/-- Values are the same in the state and in the configuration. -/
theorem Ref.eval {s : St} {k : Spec.Cfg} {e : Expr} {p : Ptr} {v : Int} (h : Ref mb s k) (hat : ExAt mb s e p) (hv : k.value e v) :
    Spec.eval (envOf s) s.pc e = some (v, false) := by
  rw [eval_congr fun n hn => h.env n fun hm => hat.glob hm n hn, h.pc]
  exact hv

/-- The bytes are the same in the state and in the configuration. -/
theorem emits_ref {C : Spec.Context} {s : St} {k : Spec.Cfg} {p : Ptr} {st : Stmt} {bs : List Nat} (href : Ref mb s k)
    (hat : StmtAt mb s st p) (h : Spec.Emits C k.env k.pc k.fresh bs st) : Spec.Emits C (envOf s) s.pc k.fresh bs st := by
  rw [← href.pc] at h
  cases st with
  | op ins mode e =>
    cases e with
    | none => exact h
    | some e =>
      rcases h with h | ⟨form, v, h1, h2, h3, h4⟩
      · exact Or.inl h
      · have hn : ∀ n ∈ e.names, envOf s n = k.env n := by
          intro n hn
          refine href.env n fun hm => ?_
          rcases hat with ⟨_, he | he, _⟩ | ⟨_, a, q, v0, _, t, _⟩
          · subst he
            rw [List.mem_singleton.mp hn]
            decide
          · subst he
            rw [List.mem_singleton.mp hn]
            decide
          · exact t.glob hm n hn
        exact Or.inr ⟨form, v, h1, by rw [eval_congr hn]; exact h2, by rw [complete_congr hn]; exact h3, h4⟩
  | data size hd tl =>
    obtain ⟨q, _, _, hg⟩ := hat
    refine ⟨h.1, ?_⟩
    rw [items_congr fun x hx n hn => href.env n fun hm => hg hm x hx n hn]
    exact h.2
  | fill ve ne =>
    obtain ⟨q, r, _, t1, t2⟩ := hat
    obtain ⟨v, n, h1, h2, h3⟩ := h
    refine ⟨v, n, ?_, ?_, h3⟩
    · rw [eval_congr fun n hn => href.env n fun hm => t1.glob hm n hn]; exact h1
    · rw [eval_congr fun n hn => href.env n fun hm => t2.glob hm n hn]; exact h2
  | assign name e =>
    obtain ⟨i, q, _, hi, t1⟩ := hat
    obtain ⟨v, h1, h2, h3⟩ := h
    refine ⟨v, ?_, (href.env name hi.2).trans h2, h3⟩
    rw [eval_congr fun n hn => href.env n fun hm => t1.glob hm n hn]; exact h1
  | _ => exact h

theorem emits_leaf {C : Spec.Context} {slot : Str → Option Nat} {f : Nat} {s : St} {k : Spec.Cfg} {p : Ptr} {st : Stmt}
    {bs : List Nat} (hf : st.fuel + bs.length + 4 ≤ f) (hfit : Fits mb C slot s) (href : Ref mb s k) (hat : StmtAt mb s st p)
    (h : Spec.Emits C k.env k.pc k.fresh bs st) : LeafRun mb f s p bs := by
  have hs := href.flat
  replace h := emits_ref href hat h
  cases st with
  | empty =>
    cases (show bs = [] from h)
    exact emptyNode_run hs.running hat
  | op ins mode e =>
    cases e with
    | none =>
      obtain ⟨hmode, h'⟩ := (show mode = .i ∧ Spec.OneByte C.cpu ins .implied bs from h)
      rw [← hfit.cpu] at h'
      obtain ⟨m, hm, hr, hg, rfl⟩ := oneByte_get (ill := s.allowIllegal) h' (Or.inl rfl)
      have : m = .i := by cases m <;> cases hm; rfl
      subst this
      obtain ⟨_, a, hl⟩ := hat
      exact opNode_run (v := 0) (m := .i) (c := getOf s ins .i) hs.running hs.origin hs.room hl
        (fun h => absurd h (Int.lt_irrefl 0)) (by unfold effective; exact if_pos rfl)
    | some e =>
      rcases h with ⟨rfl, he, h⟩ | ⟨form, v, rfl, hv, hc, h⟩
      · rw [← hfit.cpu] at h
        obtain ⟨m, hm, hr, hg, rfl⟩ := oneByte_get (ill := s.allowIllegal) h (Or.inr rfl)
        have : m = .A := by cases m <;> cases hm; rfl
        subst this
        rcases hat with ⟨_, _, a, q, hl⟩ | ⟨h1, _⟩
        · exact opNode_run (v := 0) (m := .A) (c := getOf s ins .A) hs.running hs.origin hs.room hl
            (fun h => absurd h (Int.lt_irrefl 0)) (by unfold effective; exact if_pos rfl)
        · rcases he with rfl | rfl
          · exact absurd rfl h1.1
          · exact absurd rfl h1.2
      · rw [← hfit.cpu] at h
        have h' := h
        obtain ⟨h0, h1, h2, h3, h4, h5, _⟩ := h
        obtain ⟨m, c, hen, rfl⟩ := shortest_encode (ill := s.allowIllegal) h'
        have hd : e.depth + 1 < f := by simp only [Stmt.fuel] at hf; omega
        rcases hat with ⟨_, he, _⟩ | ⟨_, a, q, v0, hl, t1, t2⟩
        · have : envOf s [65] = none ∧ envOf s [97] = none := by
            constructor <;> (unfold envOf; rw [if_neg (by decide)])
          rcases he with rfl | rfl <;> simp [Spec.eval, this] at hv
        · refine opNode_run (v := v) hs.running hs.origin hs.room hl
            (fun _ => ⟨q, e, rfl, rfl, hd, t1.tree, t2, hv⟩) ?_
          exact effective_any (fun m => (getOpCode_range s.cpu s.allowIllegal ins m).imp id fun h => h.1)
            (indexed_indirect s.cpu s.allowIllegal ins h0 h1) form h4 h5 hen
  | data size hd tl =>
    obtain ⟨hsz, h⟩ := (show _ ∧ Spec.items C.text (envOf s) size s.pc (hd :: tl) = some bs from h)
    rw [hfit.text] at h
    obtain ⟨q, hl, hlist, _⟩ := hat
    refine dataNode_run (xs := hd :: tl) hsz ?_ hs.running hs.count hs.origin hs.room hl hlist h
    intro x hx
    have := mem_le_sum (List.mem_map_of_mem (f := Item.depth) hx)
    simp only [Stmt.fuel] at hf
    omega
  | fill ve ne =>
    obtain ⟨v, n, hv, hn, hv1, hn1, hfr, rfl⟩ := h
    simp only [Stmt.fuel, List.length_replicate] at hf
    obtain ⟨q, r, hl, t1, t2⟩ := hat
    have := fillNode_run (f := f) (s := s) (ve := ve) (ne := ne) (v := v) (n := n) (by omega) (by omega) (by omega) (by omega)
      hs.running hs.heap hs.count hl t1 t2 hv hn (by omega) (fun _ => hn1) hs.origin hs.room (by
        intro he
        cases hk : k.fresh with
        | true =>
          have h1 := hfr hk
          rw [hfit.raw] at h1
          exact Or.inl (by simpa using h1)
        | false => rw [hk] at hs; exact Or.inr (hs.started he rfl))
    simpa using this
  | load raw =>
    obtain ⟨name, nm, bytes, h1, h2, rfl⟩ := h
    obtain ⟨t, q, hl, hq, ht⟩ := hat
    rw [hfit.text, ht] at h1
    cases h1
    rw [← hfit.files] at h2
    exact loadNode_run (by simp only [Stmt.fuel] at hf; omega) hs.running hs.heap hs.count hl hq h2 hs.origin hs.room
  | assign name e =>
    obtain ⟨v, h1, h2, rfl⟩ := h
    obtain ⟨i, q, hl, hi, hq⟩ := hat
    exact equNode_run hs.running hl hi hq (by simp only [Stmt.fuel] at hf; omega) h1 h2
  | _ => exact False.elim h

theorem envOf_eff {s s' : St} {bs : List Nat} (h : Eff mb s s' bs) (hs : s'.syms = s.syms) : envOf s' = envOf s := by
  funext n
  unfold envOf
  rw [h.look, hs]

theorem Ref.emit {s s' : St} {k : Spec.Cfg} {bs : List Nat} (h : Ref mb s k) (he : Eff mb s s' bs) (hs : EnvEq mb (envOf s') k.env) :
    Ref mb s' (k.emit bs) := by
  obtain ⟨h1, h2⟩ := he.flat h.flat
  exact ⟨hs, by rw [h2, h.pc]; rfl, h1⟩

theorem Ref.quiet {s s' : St} {k k' : Spec.Cfg} (h : Ref mb s k) (he : Eff mb s s' []) (hs : EnvEq mb (envOf s') k'.env)
    (hp : k'.pc = k.pc) (hf : k'.fresh = k.fresh) : Ref mb s' k' := by
  obtain ⟨h1, h2⟩ := he.flat h.flat
  refine ⟨hs, by rw [h2, h.pc, hp]; simp, ?_⟩
  rw [hf]
  simpa using h1

/-- What is proved about a statement: its tree can be expanded with this fuel, as specified. -/
def Expands (mb : Bool) (C : Spec.Context) (slot : Str → Option Nat) (st : Stmt) (k k' : Spec.Cfg) (bs : List Nat) (f : Nat) : Prop :=
  ∀ s p, Fits mb C slot s → Ref mb s k → StmtAt mb s st p →
    ∃ v s', expandNode f p s = (.ok v, s') ∧ Eff mb s s' bs ∧ Ref mb s' k'

/-- Evaluation of a condition. -/
theorem cond_run {s : St} {k : Spec.Cfg} {e : Expr} {p : Ptr} {v : Int} {f : Nat} (hd : e.depth < f) (href : Ref mb s k)
    (hat : ExAt mb s e p) (hv : k.value e v) :
    ∃ s', expandNode f p s = (.ok v, s') ∧ Eff mb s s' [] ∧ Ref mb s' k := by
  have hv' : Spec.eval (envOf s) s.pc e = some (v, false) := href.eval hat hv
  obtain ⟨ns, r, sim, _⟩ := expand_ok hd href.flat.running hat.tree hv'
  have he : Eff mb _ _ [] := Eff.heap sim.mono
  exact ⟨_, r, he, href.quiet he href.env rfl rfl⟩

theorem bounds {P : Nat → Nat → Prop} : ∀ (n : Nat), (∀ i, i < n → ∃ f0, ∀ f, f0 ≤ f → P i f) →
    ∃ f0, ∀ f, f0 ≤ f → ∀ i, i < n → P i f
  | 0, _ => ⟨0, fun _ _ i hi => absurd hi (Nat.not_lt_zero i)⟩
  | n + 1, h => by
    obtain ⟨f1, h1⟩ := bounds n fun i hi => h i (Nat.lt_succ_of_lt hi)
    obtain ⟨f2, h2⟩ := h n (Nat.lt_succ_self n)
    refine ⟨max f1 f2, fun f hf i hi => ?_⟩
    rcases Nat.lt_or_ge i n with hlt | hge
    · exact h1 f (by omega) i hlt
    · obtain rfl : i = n := by omega
      exact h2 f (by omega)

theorem pcOverflow_run {s : St} (h : s.pc ≤ 65535) : pcOverflow s = (.ok false, s) := by
  unfold pcOverflow
  rw [getS_bind, if_neg (by omega)]
  rfl

theorem loopM_true {n : Nat} {m : M Bool} {s s' : St} (h : m s = (.ok true, s')) : loopM (n + 1) m s = loopM n m s' := by
  show (m >>= fun again => if again then loopM n m else M.pure ()) s = _
  rw [bind_ok h]
  rfl

theorem loopM_false {n : Nat} {m : M Bool} {s s' : St} (h : m s = (.ok false, s')) : loopM (n + 1) m s = (.ok (), s') := by
  show (m >>= fun again => if again then loopM n m else M.pure ()) s = _
  rw [bind_ok h]
  rfl

/-- A loop given by what its rounds do: rounds `i`, …, `n - 1` go on, round `n` (if any) stops. -/
theorem loop_rounds {C : Spec.Context} {slot : Str → Option Nat} {m : M Bool} {n : Nat} {K : Nat → Spec.Cfg}
    {B : Nat → List Nat} (I : St → Prop) (hkeep : ∀ s s' : St, Keeps mb s s' → I s → I s')
    (hgo : ∀ i, i < n → ∀ s, Fits mb C slot s → Ref mb s (K i) → I s →
      ∃ s', m s = (.ok true, s') ∧ Eff mb s s' (B i) ∧ Ref mb s' (K (i + 1)))
    {k' : Spec.Cfg} {b' : List Nat}
    (hstop : ∀ s, Fits mb C slot s → Ref mb s (K n) → I s → ∃ s', m s = (.ok false, s') ∧ Eff mb s s' b' ∧ Ref mb s' k') :
    ∀ (j i g : Nat) (s : St), i + j = n → j < g → Fits mb C slot s → Ref mb s (K i) → I s →
      ∃ s', loopM g m s = (.ok (), s') ∧ Eff mb s s' ((List.range' i j).flatMap B ++ b') ∧ Ref mb s' k'
  | 0, i, g, s, hij, hg, hf, hr, hI => by
    obtain ⟨g, rfl⟩ : ∃ h, g = h + 1 := ⟨g - 1, by omega⟩
    obtain rfl : i = n := by omega
    obtain ⟨s', r, e, hr'⟩ := hstop s hf hr hI
    exact ⟨s', loopM_false r, by simpa using e, hr'⟩
  | j + 1, i, g, s, hij, hg, hf, hr, hI => by
    obtain ⟨g, rfl⟩ : ∃ h, g = h + 1 := ⟨g - 1, by omega⟩
    obtain ⟨s1, r1, e1, hr1⟩ := hgo i (by omega) s hf hr hI
    obtain ⟨s2, r2, e2, hr2⟩ := loop_rounds I hkeep hgo hstop j (i + 1) g s1 (by omega) (by omega) (e1.fits hf) hr1
      (hkeep _ _ e1.keeps hI)
    refine ⟨s2, (loopM_true r1).trans r2, ?_, hr2⟩
    rw [List.range'_succ, List.flatMap_cons, List.append_assoc]
    exact e1.comp hr.flat.count e2

theorem expands_while {C : Spec.Context} {slot : Str → Option Nat} {c : Expr} {body : Stmt} (n : Nat) (K : Nat → Spec.Cfg)
    (B : Nat → List Nat) (v : Nat → Int) (hc : ∀ i, i ≤ n → (K i).value c (v i)) (hv : ∀ i, i < n → v i ≠ 0)
    (hend : v n = 0) (hpc : ∀ i, i < n → (K (i + 1)).pc ≤ 65535)
    {f : Nat} (hd : c.depth < f) (hn : n < f) (hb : ∀ i, i < n → Expands mb C slot body (K i) (K (i + 1)) (B i) f) :
    Expands mb C slot (.whileLoop c body) (K 0) (K n) ((List.range n).flatMap B) (f + 1) := by
  intro s p hfit href hat
  obtain ⟨q, r, hl, tc, tb⟩ := hat
  have hround : ∀ i, i < n → ∀ s, Fits mb C slot s → Ref mb s (K i) → (ExAt mb s c q ∧ StmtAt mb s body r) → ∃ s', (do
      let o0 ← opAt ⟨.opr .whileLoop, 2, [q, r]⟩ 0
      let c ← expandNode f o0
      if c ≠ 0 then do
        let o1 ← opAt ⟨.opr .whileLoop, 2, [q, r]⟩ 1
        let _ ← expandNode f o1
        let stop ← pcOverflow
        M.pure (!stop)
      else M.pure false : M Bool) s = (.ok true, s') ∧ Eff mb s s' (B i) ∧ Ref mb s' (K (i + 1)) := by
    intro i hi s hf hr ⟨h1, h2⟩
    obtain ⟨s1, r1, e1, hr1⟩ := cond_run hd hr h1 (hc i (by omega))
    obtain ⟨w, s2, r2, e2, hr2⟩ := hb i hi s1 r (e1.fits hf) hr1 (h2.keep e1.keeps)
    refine ⟨s2, ?_, by simpa using e1.comp hr.flat.count e2, hr2⟩
    rw [bind_ok (opAt_run (show [q, r][0]? = some q from rfl) s), bind_ok r1, if_pos (hv i hi),
      bind_ok (opAt_run (show [q, r][1]? = some r from rfl) s1), bind_ok r2,
      bind_ok (pcOverflow_run (by rw [hr2.pc]; exact hpc i hi))]
    rfl
  have hstop : ∀ s, Fits mb C slot s → Ref mb s (K n) → (ExAt mb s c q ∧ StmtAt mb s body r) → ∃ s', (do
      let o0 ← opAt ⟨.opr .whileLoop, 2, [q, r]⟩ 0
      let c ← expandNode f o0
      if c ≠ 0 then do
        let o1 ← opAt ⟨.opr .whileLoop, 2, [q, r]⟩ 1
        let _ ← expandNode f o1
        let stop ← pcOverflow
        M.pure (!stop)
      else M.pure false : M Bool) s = (.ok false, s') ∧ Eff mb s s' [] ∧ Ref mb s' (K n) := by
    intro s hf hr ⟨h1, h2⟩
    obtain ⟨s1, r1, e1, hr1⟩ := cond_run hd hr h1 (hc n (Nat.le_refl n))
    refine ⟨s1, ?_, e1, hr1⟩
    rw [bind_ok (opAt_run (show [q, r][0]? = some q from rfl) s), bind_ok r1, if_neg (by simp [hend])]
    rfl
  obtain ⟨s', r', e', hr'⟩ := loop_rounds (n := n) (fun s => ExAt mb s c q ∧ StmtAt mb s body r)
    (fun s s' hk hI => ⟨hI.1.keep hk, hI.2.keep hk⟩) hround hstop n 0 f s (by omega) hn hfit href ⟨tc, tb⟩
  refine ⟨0, s', ?_, ?_, hr'⟩
  · rw [expandNode_run href.flat.running hl]
    show (loopM f _ >>= fun _ => M.pure 0) s = _
    rw [bind_ok r']
    rfl
  · rw [List.range_eq_range']
    simpa using e'

theorem expands_repeat {C : Spec.Context} {slot : Str → Option Nat} {c : Expr} {body : Stmt} (untl : Bool) (n : Nat)
    (K : Nat → Spec.Cfg) (B : Nat → List Nat) (v : Nat → Int) (hpc : ∀ i, i ≤ n → (K (i + 1)).pc ≤ 65535)
    (hc : ∀ i, i ≤ n → (K (i + 1)).value c (v i))
    (hv : ∀ i, i < n → (if untl then v i == 0 else v i != 0) = true) (hend : (if untl then v n == 0 else v n != 0) = false)
    {f : Nat} (hd : c.depth < f) (hn : n < f) (hb : ∀ i, i < n + 1 → Expands mb C slot body (K i) (K (i + 1)) (B i) f)
    {s : St} {p q r : Ptr} (hfit : Fits mb C slot s) (href : Ref mb s (K 0))
    (hl : Live s p ⟨.opr (if untl then .repeatLoop else .doLoop), 2, [r, q]⟩) (tc : ExAt mb s c q) (tb : StmtAt mb s body r) :
    ∃ v s', expandNode (f + 1) p s = (.ok v, s') ∧ Eff mb s s' ((List.range (n + 1)).flatMap B) ∧ Ref mb s' (K (n + 1)) := by
  let N : Node := ⟨.opr (if untl then .repeatLoop else .doLoop), 2, [r, q]⟩
  have hround : ∀ i, i < n + 1 → ∀ s, Fits mb C slot s → Ref mb s (K i) → (ExAt mb s c q ∧ StmtAt mb s body r) → ∃ s', (do
      let o0 ← opAt N 0
      let _ ← expandNode f o0
      let stop ← pcOverflow
      if stop then M.pure false
      else do
        let o1 ← opAt N 1
        let c ← expandNode f o1
        M.pure (if untl then c == 0 else c != 0) : M Bool) s = (.ok (if untl then v i == 0 else v i != 0), s') ∧
      Eff mb s s' (B i) ∧ Ref mb s' (K (i + 1)) := by
    intro i hi s hf hr ⟨h1, h2⟩
    obtain ⟨w, s1, r1, e1, hr1⟩ := hb i hi s r hf hr h2
    obtain ⟨s2, r2, e2, hr2⟩ := cond_run hd hr1 (h1.keep e1.keeps) (hc i (by omega))
    refine ⟨s2, ?_, by simpa using e1.comp hr.flat.count e2, hr2⟩
    rw [bind_ok (opAt_run (show N.ops[0]? = some r from rfl) s), bind_ok r1,
      bind_ok (pcOverflow_run (by rw [hr1.pc]; exact hpc i (by omega))), if_neg Bool.false_ne_true,
      bind_ok (opAt_run (show N.ops[1]? = some q from rfl) s1), bind_ok r2]
    rfl
  obtain ⟨s', r', e', hr'⟩ := loop_rounds (n := n) (K := K) (B := B) (b' := B n) (k' := K (n + 1))
    (fun s => ExAt mb s c q ∧ StmtAt mb s body r)
    (fun s s' hk hI => ⟨hI.1.keep hk, hI.2.keep hk⟩)
    (fun i hi s hf hr hI => by
      obtain ⟨s', a, b, d⟩ := hround i (by omega) s hf hr hI
      rw [hv i hi] at a
      exact ⟨s', a, b, d⟩)
    (fun s hf hr hI => by
      obtain ⟨s', a, b, d⟩ := hround n (by omega) s hf hr hI
      rw [hend] at a
      exact ⟨s', a, b, d⟩) n 0 f s (by omega) hn hfit href ⟨tc, tb⟩
  refine ⟨0, s', ?_, ?_, hr'⟩
  · rw [expandNode_run href.flat.running hl]
    cases untl <;>
    · show (loopM f _ >>= fun _ => M.pure 0) s = _
      rw [bind_ok r']
      rfl
  · rw [List.range_succ, List.flatMap_append]
    rw [List.range_eq_range']
    simpa using e'

theorem Ref.setVar {s : St} {k : Spec.Cfg} {slot : Str → Option Nat} {i : Nat} {v : Int} {ys : List Sym} {ns : List Node}
    (h : Ref mb s k) (hy : SameVars s.syms ys) (hn : HeapSim true (look s) s.nodes ns)
    (he : envOf { s with syms := ys, nodes := ns } = fun n => if slot n = some i then some v else envOf s n) :
    Ref mb { s with syms := ys, nodes := ns } (k.set slot i v) := by
  refine h.quiet (Eff.vars (mb := mb) hy hn) ?_ rfl rfl
  rw [he]
  intro n hn
  show (if slot n = some i then some v else envOf s n) = if slot n = some i then some v else k.env n
  rw [h.env n hn]

theorem expands_for {C : Spec.Context} {slot : Str → Option Nat} {name next : Str} {start stop : Expr} {step : Option Expr}
    {body : Stmt} {k : Spec.Cfg} {c : Nat} {a b sv : Int}
    (n : Nat) (K U : Nat → Spec.Cfg) (B : Nat → List Nat) (x y : Nat → Int)
    (hc : slot name = some c) (hc' : slot next = some c) (hs : Spec.stepOf k step sv) (ha : k.value start a)
    (hK : K 0 = k.set slot c a) (hstopV : (K 0).value stop b)
    (hx : ∀ i, i ≤ n → (K i).env name = some (x i)) (hgo : ∀ i, i < n → ¬ Spec.past sv b (x i))
    (hend : Spec.past sv b (x n))
    (hpc : ∀ i, i < n → (U i).pc ≤ 65535)
    (hy : ∀ i, i < n → (U i).env name = some (y i)) (hin : ∀ i, i < n → -2147483648 ≤ y i + sv ∧ y i + sv < 2147483648)
    (hnext : ∀ i, i < n → K (i + 1) = (U i).set slot c (y i + sv))
    {f : Nat} (hd1 : start.depth + 1 < f) (hd2 : stop.depth < f) (hd3 : ∀ e, step = some e → e.depth < f) (hn : n < f)
    (hb : ∀ i, i < n → Expands mb C slot body (K i) (U i) (B i) f) :
    Expands mb C slot (.forLoop name start stop step body next) k (K n) ((List.range n).flatMap B) (f + 1) := by
  intro s p hfit href hat
  -- the tree
  obtain ⟨N, asn, i, q, r, u, nx, hl, hops, hasn, hi, hr, hq, hu, hnx, hst⟩ : ∃ N asn i q r u nx, Live s p N ∧
      (N.kind = .opr .forLoop ∧ N.ops[0]? = some asn ∧ N.ops[1]? = some q ∧ N.ops[2]? = some u ∧ N.ops[3]? = some nx) ∧
      Live s asn ⟨.opr .equ, 2, [i, r]⟩ ∧ IdAt mb s name i ∧ ExAt mb s start r ∧ ExAt mb s stop q ∧ StmtAt mb s body u ∧
      IdAt mb s next nx ∧ ((N.numOps ≠ 5 ∧ step = none) ∨ ∃ w e, N.numOps = 5 ∧ N.ops[4]? = some w ∧ step = some e ∧ ExAt mb s e w) := by
    cases step with
    | none =>
      obtain ⟨asn, i, q, r, u, nx, h1, h2, h3, h4, h5, h6, h7⟩ := hat
      exact ⟨_, asn, i, q, r, u, nx, h1, ⟨rfl, rfl, rfl, rfl, rfl⟩, h2, h3, h4, h5, h6, h7, Or.inl ⟨by simp, rfl⟩⟩
    | some e =>
      obtain ⟨asn, i, q, r, u, nx, w, h1, h0, h2, h3, h4, h5, h6, h7⟩ := hat
      exact ⟨_, asn, i, q, r, u, nx, h1, ⟨rfl, rfl, rfl, rfl, rfl⟩, h2, h3, h4, h5, h6, h7, Or.inr ⟨w, e, rfl, rfl, rfl, h0⟩⟩
  obtain ⟨hkind, o0, o1, o2, o3⟩ := hops
  -- step
  have hstep : ∃ s1, (if N.numOps = 5 then do
        let o4 ← opAt N 4
        expandNode f o4
      else M.pure 1 : M Int) s = (.ok sv, s1) ∧ Eff mb s s1 [] ∧ Ref mb s1 k := by
    rcases hst with ⟨h5, rfl⟩ | ⟨w, e, h5, o4, rfl, hw⟩
    · cases (show sv = 1 from hs)
      exact ⟨s, by rw [if_neg h5]; rfl, Eff.refl s, href⟩
    · obtain ⟨s1, r1, e1, hr1⟩ := cond_run (hd3 e rfl) href hw hs
      exact ⟨s1, by rw [if_pos h5, bind_ok (opAt_run o4 s), r1], e1, hr1⟩
  obtain ⟨s1, r1, e1, hr1⟩ := hstep
  have k1 := e1.keeps
  have hfit1 := e1.fits hfit
  -- the variable
  have hslot : ∀ {s' : St}, Fits mb C slot s' → ∀ nm, slot nm = some c → plainName nm = true ∧ look s' nm = some c := by
    intro s' hf nm hnm
    have : slotOf s' nm = some c := by rw [hf.slots]; exact hnm
    obtain ⟨h1, h2, _⟩ := slotOf_some this
    exact ⟨h1, h2⟩
  obtain ⟨n2, r2, sim2⟩ := resolveId_run false (hi.keep k1) (hslot hfit1 name hc).1 (hslot hfit1 name hc).2
  have e2 : Eff mb _ _ [] := Eff.heap sim2
  let s2 : St := { s1 with nodes := n2 }
  have k2 : Keeps mb s s2 := k1.trans e2.keeps
  have hr2 : Ref mb s2 k := hr1.quiet e2 hr1.env rfl rfl
  have hfit2 : Fits mb C slot s2 := e2.fits hfit1
  obtain ⟨g, rfl⟩ : ∃ g, f = g + 1 := ⟨f - 1, by omega⟩
  obtain ⟨y3, n3, r3, sv3, sim3, env3⟩ := equVar_run (f := g) hfit2 hr2.flat.running (k2.opr hasn) (hi.keep k2) (hr.keep k2)
    (by omega) (v := a) (hr2.eval (hr.keep k2) ha) hc
  have e3 : Eff mb _ _ [] := Eff.vars sv3 sim3
  let s3 : St := { s2 with syms := y3, nodes := n3 }
  have k3 : Keeps mb s s3 := k2.trans e3.keeps
  have hr3 : Ref mb s3 (K 0) := by rw [hK]; exact hr2.setVar sv3 sim3 env3
  have hfit3 : Fits mb C slot s3 := e3.fits hfit2
  obtain ⟨n4, r4, sim4⟩ := resolveId_run false (hnx.keep k3) (hslot hfit3 next hc').1 (hslot hfit3 next hc').2
  have e4 : Eff mb _ _ [] := Eff.heap sim4
  let s4 : St := { s3 with nodes := n4 }
  have k4 : Keeps mb s s4 := k3.trans e4.keeps
  have hr4 : Ref mb s4 (K 0) := hr3.quiet e4 hr3.env rfl rfl
  have hfit4 : Fits mb C slot s4 := e4.fits hfit3
  obtain ⟨s5, r5, e5, hr5⟩ := cond_run hd2 hr4 (hq.keep k4) hstopV
  have hfit5 : Fits mb C slot s5 := e5.fits hfit4
  have k5 : Keeps mb s s5 := k4.trans e5.keeps
  -- value of the variable in the table
  have hval : ∀ {s' : St} {w : Int}, Fits mb C slot s' → envOf s' name = some w →
      ∃ X, s'.syms[c]? = some X ∧ X.value = w ∧ X.isVar = true ∧ X.isInit = true := by
    intro s' w hf hw
    have : slotOf s' name = some c := by rw [hf.slots]; exact hc
    obtain ⟨_, h2, X, hX, hXv, hXi, _⟩ := slotOf_some this
    obtain ⟨_, i', x', h3, h4, h5, h6⟩ := envOf_some hw
    rw [h2] at h3
    cases h3
    rw [hX] at h4
    cases h4
    exact ⟨X, hX, h6, hXv, hXi⟩
  have hround : ∀ i, i < n → ∀ s, Fits mb C slot s → Ref mb s (K i) → StmtAt mb s body u →
      ∃ s', forStep (expandNode (g + 1)) c sv b u s = (.ok true, s') ∧ Eff mb s s' (B i) ∧ Ref mb s' (K (i + 1)) := by
    intro j hj s hf hr hI
    obtain ⟨X, hX, hXx, _⟩ := hval hf ((hr.env name hi.2).trans (hx j (by omega)))
    obtain ⟨w, t1, q1, f1, g1⟩ := hb j hj s u hf hr hI
    have ft1 := f1.fits hf
    obtain ⟨Y, hY, hYy, hYv, hYi⟩ := hval ft1 ((g1.env name hi.2).trans (hy j hj))
    have hset := SameVars.set hY hYv (y j + sv)
    have henv := envOf_set (y j + sv) ft1 hc hY hYv hYi t1.nodes
    have f2 : Eff mb t1 { t1 with syms := t1.syms.set c { Y with value := y j + sv }, nodes := t1.nodes } [] :=
      Eff.vars hset (HeapSim.refl _ _ _)
    refine ⟨{ t1 with syms := t1.syms.set c { Y with value := y j + sv }, nodes := t1.nodes }, ?_, by
      simpa using f1.comp hr.flat.count f2, ?_⟩
    · unfold forStep
      have hnp := hgo j hj
      unfold Spec.past at hnp
      rw [bind_ok (sym_run hX), hXx, if_neg hnp, bind_ok q1, bind_ok (pcOverflow_run (by rw [g1.pc]; exact hpc j hj)),
        if_neg Bool.false_ne_true, bind_ok (sym_run hY), hYy]
      have hck : liftO (cchk (y j + sv)) t1 = (.ok (y j + sv), t1) := by
        unfold cchk
        rw [if_pos (show InInt (y j + sv) from hin j hj)]
        rfl
      rw [bind_ok hck, bind_ok (setVar_run hY hYv _)]
      rfl
    · rw [hnext j hj]
      exact g1.setVar hset (HeapSim.refl _ _ _) henv
  have hstop' : ∀ s, Fits mb C slot s → Ref mb s (K n) → StmtAt mb s body u →
      ∃ s', forStep (expandNode (g + 1)) c sv b u s = (.ok false, s') ∧ Eff mb s s' [] ∧ Ref mb s' (K n) := by
    intro s hf hr hI
    obtain ⟨X, hX, hXx, _⟩ := hval hf ((hr.env name hi.2).trans (hx n (Nat.le_refl n)))
    refine ⟨s, ?_, Eff.refl s, hr⟩
    unfold forStep
    unfold Spec.past at hend
    rw [bind_ok (sym_run hX), hXx, if_pos hend]
    rfl
  obtain ⟨s6, r6, e6, hr6⟩ := loop_rounds (n := n) (fun s => StmtAt mb s body u) (fun s s' hk hI => hI.keep hk)
    hround hstop' n 0 (g + 1) s5 (by omega) hn hfit5 hr5 (hu.keep k5)
  refine ⟨0, s6, ?_, ?_, hr6⟩
  · rw [expandNode_run href.flat.running hl]
    have e0 : expandKind (expandNode (g + 1)) (hasUninit (g + 1)) (g + 1) p N = expandFor (expandNode (g + 1)) (g + 1) N := by
      unfold expandKind
      rw [hkind]
      rfl
    rw [e0]
    unfold expandFor
    obtain ⟨⟨cc, hi1, hcc⟩, _⟩ := hi.keep k1
    rw [bind_ok r1, bind_ok (opAt_run o0 s1), bind_ok (k1.opr hasn).run,
      bind_ok (opAt_run (show [i, r][0]? = some i from rfl) s1), bind_ok hi1.run]
    have hst' : (resolveId false i >>= fun r => needSym r >>= fun i => M.pure (some i)) s1 = (.ok (some c), s2) := by
      rw [bind_ok r2]
      rfl
    show ((resolveId false i >>= fun r => needSym r >>= fun i => M.pure (some i)) >>= _) s1 = _
    rw [bind_ok hst', bind_ok r3, bind_ok (opAt_run o3 _), bind_ok r4]
    show (needSym (some c) >>= _) s4 = _
    rw [show needSym (some c) = M.pure c from rfl, pure_bind', bind_ok (opAt_run o1 _), bind_ok r5, if_neg (by simp),
      bind_ok (opAt_run o2 _), bind_ok r6]
    rfl
  · rw [List.range_eq_range']
    have h12 : Eff mb s s5 [] := by
      have h0 := href.flat.count
      have a1 := e1.comp h0 e2
      have a2 := a1.comp h0 e3
      have a3 := a2.comp h0 e4
      have a4 := a3.comp h0 e5
      simpa using a4
    simpa using h12.comp href.flat.count e6

/-- What the specification says about a statement happens when its tree is expanded, with any sufficient fuel. -/
theorem runs_expand {C : Spec.Context} {slot : Str → Option Nat} {st : Stmt} {k k' : Spec.Cfg} {bs : List Nat}
    (h : Spec.Runs C slot st k k' bs) : ∃ f0, ∀ f, f0 ≤ f → Expands mb C slot st k k' bs f := by
  induction h with
  | @plain st k bs h =>
    refine ⟨st.fuel + bs.length + 5, fun f hf s p hfit href hat => ?_⟩
    obtain ⟨f, rfl⟩ : ∃ g, f = g + 1 := ⟨f - 1, by omega⟩
    obtain ⟨v, s', r, e, hs⟩ := emits_leaf (f := f) (by omega) hfit href hat h
    exact ⟨v, s', r, e, href.emit e (by rw [envOf_eff e hs]; exact href.env)⟩
  | @assign name e k v c hv hc =>
    refine ⟨e.depth + 2, fun f hf s p hfit href hat => ?_⟩
    obtain ⟨f, rfl⟩ : ∃ g, f = g + 1 := ⟨f - 1, by omega⟩
    obtain ⟨i, q, hl, hi, hq⟩ := hat
    obtain ⟨ys, ns, r, sv, sim, env⟩ := equVar_run (f := f) hfit href.flat.running hl hi hq (by omega) (v := v)
      (href.eval hq hv) hc
    exact ⟨v, _, r, Eff.vars sv sim, href.setVar sv sim env⟩
  | @var hd tl k k' h =>
    refine ⟨((hd :: tl).map varFuel).sum + (hd :: tl).length + 2, fun f hf s p hfit href hat => ?_⟩
    obtain ⟨f, rfl⟩ : ∃ g, f = g + 1 := ⟨f - 1, by omega⟩
    obtain ⟨s', r, e, h1, h2, h3⟩ := varNode_run (f := f) hfit href.flat.running href.env href.pc hat (fun x hx => by
      have := mem_le_sum (List.mem_map_of_mem (f := varFuel) hx)
      omega) h
    exact ⟨0, s', r, e, href.quiet e h1 h2 h3⟩
  | @seq a b k k1 k2 b1 b2 _ _ ih1 ih2 =>
    obtain ⟨f1, h1⟩ := ih1
    obtain ⟨f2, h2⟩ := ih2
    refine ⟨max f1 f2 + 1, fun f hf s p hfit href hat => ?_⟩
    obtain ⟨f, rfl⟩ : ∃ g, f = g + 1 := ⟨f - 1, by omega⟩
    obtain ⟨q, r, hl, ha, hb⟩ := hat
    obtain ⟨v1, s1, r1, e1, hr1⟩ := h1 f (by omega) s q hfit href ha
    obtain ⟨v2, s2, r2, e2, hr2⟩ := h2 f (by omega) s1 r (e1.fits hfit) hr1 (hb.keep e1.keeps)
    refine ⟨0, s2, ?_, e1.comp href.flat.count e2, hr2⟩
    rw [expandNode_run href.flat.running hl]
    show expandStatement (expandNode f) ⟨.opr .statement, 2, [q, r]⟩ s = _
    unfold expandStatement
    rw [bind_ok (operands_run (n := ⟨.opr .statement, 2, [q, r]⟩) (Nat.le_refl 2) s)]
    have r3 : forEachM (fun o => do
        let _ ← expandNode f o
        M.pure ()) [q, r] s = (.ok (), s2) := by
      show ((expandNode f q >>= fun _ => M.pure ()) >>= fun _ =>
        (expandNode f r >>= fun _ => M.pure ()) >>= fun _ => M.pure ()) s = _
      rw [bind_assoc', bind_ok r1, pure_bind', bind_assoc', bind_ok r2, pure_bind']
      rfl
    exact (bind_ok r3).trans rfl
  | @«at» line st k k' bs _ ih =>
    obtain ⟨f0, h⟩ := ih
    exact ⟨f0, fun f hf s p hfit href hat => h f hf s p hfit href hat⟩
  | @call first name args body env k k1 bs hm hn ha _ ih =>
    obtain ⟨f0, h⟩ := ih
    refine ⟨f0 + ((Spec.argList args).map Item.depth).sum + (Spec.argList args).length + 2, fun f hf s p hfit href hat => ?_⟩
    obtain ⟨f, rfl⟩ : ∃ g, f = g + 2 := ⟨f - 2, by omega⟩
    have hmb : mb = true := by
      rcases hfit.macros with h | h
      · rw [h] at hm; cases hm
      · exact h.1
    subst hmb
    exact call_run hfit href hat hm hn ha (fun x hx => by
      have := mem_le_sum (List.mem_map_of_mem (f := Item.depth) hx)
      omega) (h f (by omega))
  | @ifTrue c t k k' bs v hc hv _ ih =>
    obtain ⟨f0, h⟩ := ih
    refine ⟨max f0 (c.depth + 1) + 1, fun f hf s p hfit href hat => ?_⟩
    obtain ⟨f, rfl⟩ : ∃ g, f = g + 1 := ⟨f - 1, by omega⟩
    obtain ⟨q, r, hl, tc, tb⟩ := hat
    obtain ⟨s1, r1, e1, hr1⟩ := cond_run (f := f) (by omega) href tc hc
    obtain ⟨w, s2, r2, e2, hr2⟩ := h f (by omega) s1 r (e1.fits hfit) hr1 (tb.keep e1.keeps)
    refine ⟨0, s2, ?_, by simpa using e1.comp href.flat.count e2, hr2⟩
    rw [expandNode_run href.flat.running hl]
    show expandIf (expandNode f) ⟨.opr .ifThen, 2, [q, r]⟩ s = _
    unfold expandIf
    rw [bind_ok (opAt_run (show [q, r][0]? = some q from rfl) s), bind_ok r1, if_pos hv,
      bind_ok (opAt_run (show [q, r][1]? = some r from rfl) s1), bind_ok r2]
    rfl
  | @ifFalse c t k hc =>
    refine ⟨c.depth + 2, fun f hf s p hfit href hat => ?_⟩
    obtain ⟨f, rfl⟩ : ∃ g, f = g + 1 := ⟨f - 1, by omega⟩
    obtain ⟨q, r, hl, tc, tb⟩ := hat
    obtain ⟨s1, r1, e1, hr1⟩ := cond_run (f := f) (by omega) href tc hc
    refine ⟨0, s1, ?_, e1, hr1⟩
    rw [expandNode_run href.flat.running hl]
    show expandIf (expandNode f) ⟨.opr .ifThen, 2, [q, r]⟩ s = _
    unfold expandIf
    rw [bind_ok (opAt_run (show [q, r][0]? = some q from rfl) s), bind_ok r1, if_neg (by simp)]
    rfl
  | @elseTrue c t e k k' bs v hc hv _ ih =>
    obtain ⟨f0, h⟩ := ih
    refine ⟨max f0 (c.depth + 1) + 1, fun f hf s p hfit href hat => ?_⟩
    obtain ⟨f, rfl⟩ : ∃ g, f = g + 1 := ⟨f - 1, by omega⟩
    obtain ⟨q, r, u, hl, tc, tb, te⟩ := hat
    obtain ⟨s1, r1, e1, hr1⟩ := cond_run (f := f) (by omega) href tc hc
    obtain ⟨w, s2, r2, e2, hr2⟩ := h f (by omega) s1 r (e1.fits hfit) hr1 (tb.keep e1.keeps)
    refine ⟨0, s2, ?_, by simpa using e1.comp href.flat.count e2, hr2⟩
    rw [expandNode_run href.flat.running hl]
    show expandIf (expandNode f) ⟨.opr .ifThen, 3, [q, r, u]⟩ s = _
    unfold expandIf
    rw [bind_ok (opAt_run (show [q, r, u][0]? = some q from rfl) s), bind_ok r1, if_pos hv,
      bind_ok (opAt_run (show [q, r, u][1]? = some r from rfl) s1), bind_ok r2]
    rfl
  | @elseFalse c t e k k' bs hc _ ih =>
    obtain ⟨f0, h⟩ := ih
    refine ⟨max f0 (c.depth + 1) + 1, fun f hf s p hfit href hat => ?_⟩
    obtain ⟨f, rfl⟩ : ∃ g, f = g + 1 := ⟨f - 1, by omega⟩
    obtain ⟨q, r, u, hl, tc, tb, te⟩ := hat
    obtain ⟨s1, r1, e1, hr1⟩ := cond_run (f := f) (by omega) href tc hc
    obtain ⟨w, s2, r2, e2, hr2⟩ := h f (by omega) s1 u (e1.fits hfit) hr1 (te.keep e1.keeps)
    refine ⟨0, s2, ?_, by simpa using e1.comp href.flat.count e2, hr2⟩
    rw [expandNode_run href.flat.running hl]
    show expandIf (expandNode f) ⟨.opr .ifThen, 3, [q, r, u]⟩ s = _
    unfold expandIf
    rw [bind_ok (opAt_run (show [q, r, u][0]? = some q from rfl) s), bind_ok r1, if_neg (by simp), if_pos (show 3 > 2 by decide),
      bind_ok (opAt_run (show [q, r, u][2]? = some u from rfl) s1), bind_ok r2]
    rfl
  | @«while» c body n K B v hc hv hend _ hpc ih =>
    obtain ⟨f0, h⟩ := bounds n ih
    refine ⟨max f0 (max c.depth n + 1) + 1, fun f hf => ?_⟩
    obtain ⟨f, rfl⟩ : ∃ g, f = g + 1 := ⟨f - 1, by omega⟩
    exact expands_while n K B v hc hv hend hpc (by omega) (by omega) fun i hi => h f (by omega) i hi
  | @«repeat» c body n K B v _ hpc hc hv hend ih =>
    obtain ⟨f0, h⟩ := bounds (n + 1) fun i hi => ih i (by omega)
    refine ⟨max f0 (max c.depth n + 1) + 1, fun f hf s p hfit href hat => ?_⟩
    obtain ⟨f, rfl⟩ : ∃ g, f = g + 1 := ⟨f - 1, by omega⟩
    obtain ⟨q, r, hl, tc, tb⟩ := hat
    exact expands_repeat true n K B v hpc hc (fun i hi => by simp [hv i hi]) (by simp [hend]) (by omega) (by omega)
      (fun i hi => h f (by omega) i hi) hfit href hl tc tb
  | @«do» c body n K B v _ hpc hc hv hend ih =>
    obtain ⟨f0, h⟩ := bounds (n + 1) fun i hi => ih i (by omega)
    refine ⟨max f0 (max c.depth n + 1) + 1, fun f hf s p hfit href hat => ?_⟩
    obtain ⟨f, rfl⟩ : ∃ g, f = g + 1 := ⟨f - 1, by omega⟩
    obtain ⟨q, r, hl, tc, tb⟩ := hat
    exact expands_repeat false n K B v hpc hc (fun i hi => by simp [hv i hi]) (by simp [hend]) (by omega) (by omega)
      (fun i hi => h f (by omega) i hi) hfit href hl tc tb
  | @«for» name next start stop step body k c a b sv n K U B x y hc hc' hs ha hK he hx hgo hend _ hpc hy hin hnext ih =>
    obtain ⟨f0, h⟩ := bounds n ih
    have hst : ∃ d, ∀ e, step = some e → e.depth < d := by
      cases step with
      | none => exact ⟨0, fun _ h => by cases h⟩
      | some e => exact ⟨e.depth + 1, fun _ h => by cases h; omega⟩
    obtain ⟨d, hd⟩ := hst
    refine ⟨max (max f0 d) (max (max start.depth stop.depth) n + 2) + 1, fun f hf => ?_⟩
    obtain ⟨f, rfl⟩ : ∃ g, f = g + 1 := ⟨f - 1, by omega⟩
    exact expands_for n K U B x y hc hc' hs ha hK he hx hgo hend hpc hy hin hnext (by omega) (by omega)
      (fun e hE => by have := hd e hE; omega) (by omega) fun i hi => h f (by omega) i hi

end Verif
