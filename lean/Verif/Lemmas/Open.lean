import Verif.Lemmas.Partly

/-! # Expressions with names that have no value yet -/

namespace Verif

open Spec (Simple)

open Classical in
/-- The symbol of an ordinary global name. -/
noncomputable def seen (s : St) (n : Str) : Option SymPtr := if Simple n then look s n else none

theorem seen_eq {s : St} {n : Str} (hn : Simple n) : seen s n = look s n := if_pos hn

theorem seen_some {s : St} {n : Str} {i : SymPtr} (h : seen s n = some i) : Simple n ∧ look s n = some i := by
  unfold seen at h
  split at h
  · exact ⟨by assumption, h⟩
  · cases h

/-- More names are known. -/
def Wider (lk lk' : Str → Option SymPtr) : Prop := ∀ n i, lk n = some i → lk' n = some i

theorem HeapSim.wider {o : Bool} {lk lk' : Str → Option SymPtr} (hw : Wider lk lk') {ns ns' : List Node} (h : HeapSim o lk ns ns') :
    HeapSim o lk' ns ns' := by
  refine ⟨h.1, fun p n hn => ?_⟩
  obtain ⟨n', h1, h2, h3, h4⟩ := h.2 p n hn
  refine ⟨n', h1, h2, h3, ?_⟩
  rcases h4 with h4 | h4 | ⟨k, nm, c, h4, h5, h6⟩ | h4
  · exact Or.inl h4
  · exact Or.inr (Or.inl h4)
  · obtain ⟨i, hi⟩ := Option.isSome_iff_exists.1 h6
    rw [hi] at h5
    exact Or.inr (Or.inr (Or.inl ⟨k, nm, c, h4, by rw [hw nm i hi]; exact h5, by rw [hw nm i hi]; rfl⟩))
  · exact Or.inr (Or.inr (Or.inr h4))

theorem ExprAt.wider {lk lk' : Str → Option SymPtr} (hw : Wider lk lk') {base : Nat} {ns : List Node} :
    ∀ {e : Expr} {p : Ptr}, ExprAt lk base ns e p → ExprAt lk' base ns e p
  | .int _, _, h => h
  | .pc, _, h => h
  | .sym n, _, ⟨hb, c, hc, h⟩ => ⟨hb, c, hc, by
      rcases h with h | h | h
      · exact Or.inl h
      · cases c with
        | none => exact Or.inl rfl
        | some i => exact Or.inr (Or.inl (hw n i h.symm).symm)
      · exact Or.inr (Or.inr h)⟩
  | .un _ _, _, ⟨hb, q, hq, h⟩ => ⟨hb, q, hq, h.wider hw⟩
  | .bin _ _ _, _, ⟨hb, q, r, hq, h1, h2⟩ => ⟨hb, q, r, hq, h1.wider hw, h2.wider hw⟩

/-- All references of the tree are filled in. -/
def Filled (lk : Str → Option SymPtr) (ns : List Node) : Expr → Ptr → Prop
  | .int _, _ | .pc, _ => True
  | .sym name, p => ∃ i, ns[p]? = some ⟨.id .id name (some i), 0, []⟩ ∧ lk name = some i
  | .un op e, p => ∃ q, ns[p]? = some ⟨.opr op.opr, 1, [q]⟩ ∧ Filled lk ns e q
  | .bin op a b, p => ∃ q r, ns[p]? = some ⟨.opr op.opr, 2, [q, r]⟩ ∧ Filled lk ns a q ∧ Filled lk ns b r

theorem Filled.wider {lk lk' : Str → Option SymPtr} (hw : Wider lk lk') {ns : List Node} :
    ∀ {e : Expr} {p : Ptr}, Filled lk ns e p → Filled lk' ns e p
  | .int _, _, _ => trivial
  | .pc, _, _ => trivial
  | .sym n, _, ⟨i, h1, h2⟩ => ⟨i, h1, hw n i h2⟩
  | .un _ _, _, ⟨q, hq, h⟩ => ⟨q, hq, h.wider hw⟩
  | .bin _ _ _, _, ⟨q, r, hq, h1, h2⟩ => ⟨q, r, hq, h1.wider hw, h2.wider hw⟩

theorem Filled.keep {lk : Str → Option SymPtr} {ns ns' : List Node}
    (hk : ∀ (p : Nat) (nm : Str) (i : SymPtr), ns[p]? = some ⟨.id .id nm (some i), 0, []⟩ → lk nm = some i → ns'[p]? = some ⟨.id .id nm (some i), 0, []⟩)
    (ho : ∀ (p : Nat) (o : Opr) (k : Nat) (l : List Ptr), ns[p]? = some ⟨.opr o, k, l⟩ → ns'[p]? = some ⟨.opr o, k, l⟩) :
    ∀ {e : Expr} {p : Ptr}, Filled lk ns e p → Filled lk ns' e p
  | .int _, _, _ => trivial
  | .pc, _, _ => trivial
  | .sym n, _, ⟨i, h1, h2⟩ => ⟨i, hk _ _ _ h1 h2, h2⟩
  | .un _ _, _, ⟨q, hq, h⟩ => ⟨q, ho _ _ _ _ hq, h.keep hk ho⟩
  | .bin _ _ _, _, ⟨q, r, hq, h1, h2⟩ => ⟨q, r, ho _ _ _ _ hq, h1.keep hk ho, h2.keep hk ho⟩

theorem Filled.sim {o : Bool} {lk : Str → Option SymPtr} {ns ns' : List Node} (h : HeapSim o lk ns ns') {e : Expr} {p : Ptr}
    (hf : Filled lk ns e p) : Filled lk ns' e p := by
  refine hf.keep (fun p nm i h1 h2 => ?_) (fun p o k l h1 => h.opr h1 (by intro _ c; cases c) (by intro _ _ _ c; cases c)
    (by intro _ _ _ _ _ c; cases c))
  obtain ⟨n', g1, g2, g3, g4⟩ := h.2 p _ h1
  cases n'
  simp only at g2 g3 g4
  rcases g4 with g4 | ⟨_, _, g4, _⟩ | ⟨k, nm', c, g4, g5, _⟩ | ⟨_, _, _, _, _, _, g4, _⟩
  · rw [g1, g2, g3, g4]
  · cases g4
  · cases g4
    rw [g1, g2, g3, g5, h2]
  · cases g4

theorem Filled.setOp {lk : Str → Option SymPtr} {ns : List Node} {p : Nat} {n m : Node}
    (hn : ns[p]? = some n) (hk : ∃ i c m a, n.kind = .opcode i c m a) {e : Expr} {x : Ptr} (hf : Filled lk ns e x) :
    Filled lk (ns.set p m) e x := by
  have key : ∀ {x : Nat} {n' : Node}, ns[x]? = some n' → (∀ i c m a, n'.kind ≠ .opcode i c m a) →
      (ns.set p m)[x]? = some n' := by
    intro x n' hx hn'
    rw [List.getElem?_set]
    split
    · rename_i hpx
      subst hpx
      rw [hn] at hx
      cases hx
      obtain ⟨i, c, m, a, h⟩ := hk
      exact absurd h (hn' _ _ _ _)
    · exact hx
  exact hf.keep (fun p nm i h1 _ => key h1 (by intro _ _ _ _ c; cases c)) (fun p o k l h1 => key h1 (by intro _ _ _ _ c; cases c))

/-- A state after an evaluation in the first pass: references are filled in and symbols may be new. -/
structure Reach (envF env : Str → Option Int) (s s' : St) : Prop where
  eq : ∃ ns sy, s' = { s with nodes := ns, syms := sy }
  partly : Partly s' envF env
  wider : Wider (seen s) (seen s')
  heap : HeapSim false (seen s') s.nodes s'.nodes

theorem Reach.trans {envF env : Str → Option Int} {s t u : St} (h : Reach envF env s t) (h' : Reach envF env t u) : Reach envF env s u := by
  obtain ⟨n1, y1, rfl⟩ := h.eq
  obtain ⟨n2, y2, rfl⟩ := h'.eq
  exact ⟨⟨_, _, rfl⟩, h'.partly, fun n i hi => h'.wider n i (h.wider n i hi), (h.heap.wider h'.wider).trans h'.heap⟩

/-- The operands the theorem is about. -/
def Later (envF : Str → Option Int) (e : Expr) : Prop := Spec.Strict e ∧ ∀ n ∈ e.names, Simple n ∧ (envF n).isSome = true

/-- The operands have values. -/
theorem strict_bin {env : Str → Option Int} {pc : Int} {op : BinOp} {a b : Expr} (hs : Spec.Strict (.bin op a b)) {v : Int} {z : Bool}
    (h : Spec.eval env pc (.bin op a b) = some (v, z)) :
    ∃ x za y zb, Spec.eval env pc a = some (x, za) ∧ Spec.eval env pc b = some (y, zb) ∧ Spec.binop op x y = some v := by
  obtain ⟨h1, h2, h3, _, _⟩ := hs
  by_cases hd : op = .div
  · obtain ⟨k, hk, rfl⟩ := h1 hd
    subst hd
    rw [Spec.eval] at h
    cases hy : Spec.eval env pc (.int k) with
    | none => rw [hy] at h; cases h
    | some yz =>
      obtain ⟨y, zb⟩ := yz
      rw [hy] at h
      simp only [Spec.eval, Option.map_eq_some_iff, Prod.mk.injEq] at hy
      obtain ⟨w, g1, g2, _⟩ := hy
      obtain ⟨g3, _⟩ := rng_some g1
      simp only at h
      rw [if_neg (by omega)] at h
      cases hx : Spec.eval env pc a with
      | none => rw [hx] at h; cases h
      | some xz =>
        rw [hx] at h
        simp only [Option.map_eq_some_iff, Prod.mk.injEq] at h
        obtain ⟨w, g2, g3, g4⟩ := h
        subst g3
        exact ⟨xz.1, xz.2, y, zb, rfl, rfl, g2⟩
  · obtain ⟨x, za, y, zb, hx, hy, hw, _⟩ := eval_bin hd h2 h3 h
    exact ⟨x, za, y, zb, hx, hy, hw⟩

/-- Evaluation in the first pass: names without a value count as 0. -/
theorem open_eval {envF env : Str → Option Int} (ht : NameTable env) : ∀ {e : Expr} {f : Nat} {p : Ptr} {s : St} {v : Int} {z : Bool}, e.depth < f →
    s.endExpansion = false → Partly s envF env → Later envF e → ExprAt (seen s) s.nodeBase s.nodes e p →
    Spec.eval (Spec.soFar env) s.pc e = some (v, z) →
    ∃ s', expandNode f p s = (.ok v, s') ∧ Reach envF env s s' ∧ Filled (seen s') s'.nodes e p := by
  intro e
  induction e with
  | int w =>
    intro f p s v z hf he hh hl hx hv
    obtain ⟨f, rfl⟩ : ∃ g, f = g + 1 := ⟨f - 1, by omega⟩
    simp only [Spec.eval, Option.map_eq_some_iff, Prod.mk.injEq] at hv
    obtain ⟨x, h1, h2, h3⟩ := hv
    obtain ⟨h4, _⟩ := rng_some h1
    subst h2; subst h4
    refine ⟨s, ?_, ⟨⟨_, _, rfl⟩, hh, fun _ _ h => h, HeapSim.refl _ _ _⟩, trivial⟩
    rw [expandNode_run he hx]
    rfl
  | pc =>
    intro f p s v z hf he hh hl hx hv
    obtain ⟨f, rfl⟩ : ∃ g, f = g + 1 := ⟨f - 1, by omega⟩
    simp only [Spec.eval, Option.map_eq_some_iff, Prod.mk.injEq] at hv
    obtain ⟨x, h1, h2, h3⟩ := hv
    obtain ⟨h4, _⟩ := rng_some h1
    subst h2; subst h4
    obtain ⟨hb, c, hc⟩ := hx
    have hl : Live s p _ := ⟨hb, hc⟩
    refine ⟨{ s with nodes := s.nodes.set p ⟨.con s.pc true, 0, []⟩ }, ?_, ⟨⟨_, _, rfl⟩, hh.of rfl rfl, fun _ _ h => h,
      HeapSim.set hc ⟨rfl, rfl, Or.inr (Or.inl ⟨_, s.pc, rfl, rfl⟩)⟩⟩, trivial⟩
    rw [expandNode_run he hl]
    show (getS >>= _) s = _
    rw [getS_bind, bind_ok hl.run, bind_ok (hl.set _)]
    rfl
  | sym name =>
    intro f p s v z hf he hh hl hx hv
    obtain ⟨f, rfl⟩ : ∃ g, f = g + 1 := ⟨f - 1, by omega⟩
    obtain ⟨hn, hF⟩ := hl.2 name (List.mem_singleton.2 rfl)
    obtain ⟨hb, c, hc, hok⟩ := hx
    rw [seen_eq hn] at hok
    simp only [Spec.eval, Spec.soFar, Option.map_eq_some_iff, Prod.mk.injEq, Option.bind_eq_some_iff, Option.some.injEq] at hv
    obtain ⟨x, ⟨y, h0, h1⟩, h2, h3⟩ := hv
    obtain ⟨h4, _⟩ := rng_some h1
    subst h2; subst h4
    have hlt : p < s.nodes.length := Live.lt ⟨hb, hc⟩
    cases hv : env name with
    | some w =>
      rw [hv] at h0
      simp only [Option.getD_some] at h0
      subst h0
      obtain ⟨i, sy, g1, g2, g3, g4, g5⟩ := expandId_run ⟨hb, hc⟩ hok (hh.agree name hn ▸ hv)
      rw [evalSt_k0] at g5
      refine ⟨_, (expandNode_run he ⟨hb, hc⟩).trans g5, ⟨⟨_, _, rfl⟩, hh.of rfl rfl, fun _ _ h => h,
        HeapSim.set hc ⟨rfl, rfl, Or.inr (Or.inr (Or.inl ⟨_, _, _, rfl, ?_, ?_⟩))⟩⟩, i, ?_, ?_⟩
      · show _ = Kind.id .id name (seen s name)
        rw [seen_eq hn, g1]
      · show (seen s name).isSome = true
        rw [seen_eq hn, g1]
        rfl
      · show (s.nodes.set p _)[p]? = _
        rw [List.getElem?_set_self hlt]
      · show seen s name = _
        rw [seen_eq hn, g1]
    | none =>
      rw [hv] at h0
      simp only [Option.getD_none] at h0
      subst h0
      have hu := hh.undefined hn hv
      have h64 : isLocalName name = false := by
        unfold isLocalName
        rw [beq_eq_false_iff_ne]
        exact fun hc => (hn.chars (hn.head hc)).2.1 rfl
      cases c with
      | some i =>
        have hi : look s name = some i := by
          rcases hok with h | h | h
          · cases h
          · exact h.symm
          · rw [h64] at h; cases h
        obtain ⟨y, hy⟩ := hu i hi
        exact ⟨s, again_run he hn hy ⟨hb, hc⟩, ⟨⟨_, _, rfl⟩, hh, fun _ _ h => h, HeapSim.refl _ _ _⟩, i, hc, by rw [seen_eq hn, hi]⟩
      | none =>
        let s' : St := { s with syms := useSyms s name, nodes := s.nodes.set p ⟨.id .id name (some (slot s name)), 0, []⟩ }
        have hfind : ∀ m, Simple m → look s' m = if Spec.foldCase m = Spec.foldCase name then some (slot s name) else look s m := by
          intro m hm
          rw [hm.look (s := s') hh.scope, hm.look hh.scope]
          exact find_use hh hn hm.cstr
        have hsn : seen s' name = some (slot s name) := by rw [seen_eq hn, hfind name hn, if_pos rfl]
        refine ⟨s', use_run he hh.scope hn hu ⟨hb, hc⟩, ⟨⟨_, _, rfl⟩, (hh.use ht hn hv hF).of rfl rfl, fun m i hi => ?_,
          HeapSim.set hc ⟨rfl, rfl, Or.inr (Or.inr (Or.inl ⟨_, _, _, rfl, by rw [hsn], by rw [hsn]; rfl⟩))⟩⟩, slot s name, ?_, hsn⟩
        · obtain ⟨hm, hi⟩ := seen_some hi
          rw [seen_eq hm, hfind m hm]
          split
          · rename_i hfold
            rw [hm.look hh.scope, symFind_fold hm.cstr hn.cstr hfold hh.named] at hi
            unfold slot
            rw [hn.look hh.scope, hi]
          · exact hi
        · show (s.nodes.set p _)[p]? = _
          rw [List.getElem?_set_self hlt]
  | un op e ih =>
    intro f p s v z hf he hh hl hx hv
    obtain ⟨f, rfl⟩ : ∃ g, f = g + 1 := ⟨f - 1, by omega⟩
    obtain ⟨hb, q, hq, h1⟩ := hx
    simp only [Spec.eval] at hv
    cases hx : Spec.eval (Spec.soFar env) s.pc e with
    | none => rw [hx] at hv; cases hv
    | some xz =>
      obtain ⟨x, zx⟩ := xz
      rw [hx] at hv
      simp only [Option.map_eq_some_iff, Prod.mk.injEq] at hv
      obtain ⟨w, h2, h3, h4⟩ := hv
      subst h3; subst h4
      obtain ⟨s1, r1, R1, F1⟩ := ih (f := f) (by simp only [Expr.depth] at hf; omega) he hh hl h1 hx
      refine ⟨s1, ?_, R1, q, R1.heap.opr hq (by intro _ c; cases c) (by intro _ _ _ c; cases c)
        (by intro _ _ _ _ _ c; cases c), F1⟩
      rw [expandNode_run he ⟨hb, hq⟩]
      obtain ⟨g, e1, e2⟩ := unop_run (expandNode f) (hasUninit f) f ⟨.opr op.opr, 1, [q]⟩ op
      show expandOperator _ _ _ _ _ s = _
      rw [e1]
      unfold una
      rw [bind_ok (opAt_run (by rfl) s), bind_ok r1, e2 _ _ (eval_inInt hx) h2]
      rfl
  | bin op a b iha ihb =>
    intro f p s v z hf he hh hl hx hv
    obtain ⟨f, rfl⟩ : ∃ g, f = g + 1 := ⟨f - 1, by omega⟩
    obtain ⟨hb, q, r, hq, h1, h2⟩ := hx
    have hst := hl.1
    obtain ⟨⟨hdv, ho, hn, hsa, hsb⟩, hnames⟩ := hl
    have hfa : a.depth < f := by simp only [Expr.depth] at hf; omega
    have hfb : b.depth < f := by simp only [Expr.depth] at hf; omega
    have step : expandNode (f + 1) p s = expandOperator (expandNode f) (hasUninit f) f op.opr
        ⟨.opr op.opr, 2, [q, r]⟩ s := expandNode_run he ⟨hb, hq⟩
    obtain ⟨x, za, y, zb, hx, hy, hw⟩ := strict_bin hst hv
    obtain ⟨s1, r1, R1, F1⟩ := iha hfa he hh ⟨hsa, fun n hm => hnames n (List.mem_append_left _ hm)⟩ h1 hx
    obtain ⟨n1, y1, e1⟩ := R1.eq
    obtain ⟨s2, r2, R2, F2⟩ := ihb (s := s1) hfb (by rw [e1]; exact he) R1.partly ⟨hsb, fun n hm => hnames n (List.mem_append_right _ hm)⟩
      (by have := (h2.wider R1.wider).sim R1.heap
          rw [show s1.nodeBase = s.nodeBase by rw [e1]]
          exact this) (by rw [show s1.pc = s.pc by rw [e1]]; exact hy)
    refine ⟨s2, ?_, R1.trans R2, q, r, (R1.trans R2).heap.opr hq (by intro _ c; cases c) (by intro _ _ _ c; cases c)
        (by intro _ _ _ _ _ c; cases c), (F1.wider R2.wider).sim R2.heap, F2⟩
    rw [step]
    by_cases hd : op = .div
    · obtain ⟨k, hk, rfl⟩ := hdv hd
      subst hd
      obtain ⟨f, rfl⟩ : ∃ g, f = g + 1 := ⟨f - 1, by simp only [Expr.depth] at hf; omega⟩
      have num : ∀ t : St, t.endExpansion = false → ExprAt (seen t) t.nodeBase t.nodes (.int k) r → expandNode (f + 1) r t = (.ok k, t) := by
        intro t he hx
        rw [expandNode_run he hx]
        rfl
      simp only [Spec.eval, Option.map_eq_some_iff, Prod.mk.injEq] at hy
      obtain ⟨w, k1, k2, _⟩ := hy
      obtain ⟨k3, _⟩ := rng_some k1
      subst k2; subst k3
      show (opAt _ 1 >>= _) s = _
      rw [bind_ok (opAt_run (by rfl) s), bind_ok (num s he h2), if_neg hk]
      unfold bin
      rw [bind_ok (opAt_run (by rfl) _), bind_ok r1, bind_ok (opAt_run (by rfl) _), bind_ok r2]
      have : cdiv x k = some v := by
        unfold cdiv
        rw [if_neg hk]
        exact hw
      rw [this]
      rfl
    obtain ⟨g, g1, g2⟩ := binop_run (expandNode f) (hasUninit f) f ⟨.opr op.opr, 2, [q, r]⟩ op hd ho hn
    rw [g1]
    unfold bin
    rw [bind_ok (opAt_run (by rfl) s), bind_ok r1, bind_ok (opAt_run (by rfl) _), bind_ok r2, g2 _ _ _ hw]
    rfl

/-- A name without a value is found in the tree. -/
theorem open_uninit {envF env : Str → Option Int} {s : St} (hh : Partly s envF env) : ∀ {e : Expr} {f : Nat} {p : Ptr}, e.depth < f →
    ExprAt (seen s) s.nodeBase s.nodes e p → Filled (seen s) s.nodes e p →
    ∃ b c, hasUninit f p s = (.ok b, s) ∧ isUninitSym p s = (.ok c, s) ∧ ((∃ n ∈ e.names, env n = none) → b = true ∨ c = true) := by
  intro e
  induction e with
  | int v =>
    intro f p hf ht hd
    obtain ⟨f, rfl⟩ : ∃ g, f = g + 1 := ⟨f - 1, by omega⟩
    refine ⟨false, false, ?_, ?_, by rintro ⟨n, hn, _⟩; cases hn⟩
    · show (node p >>= _) s = _
      rw [bind_ok (Live.run ht)]; rfl
    · unfold isUninitSym; rw [bind_ok (Live.run ht)]; rfl
  | pc =>
    intro f p hf ht hd
    obtain ⟨f, rfl⟩ : ∃ g, f = g + 1 := ⟨f - 1, by omega⟩
    obtain ⟨hb, v, hv⟩ := ht
    refine ⟨false, false, ?_, ?_, by rintro ⟨n, hn, _⟩; cases hn⟩
    · show (node p >>= _) s = _
      rw [bind_ok (Live.run ⟨hb, hv⟩)]; rfl
    · unfold isUninitSym; rw [bind_ok (Live.run ⟨hb, hv⟩)]; rfl
  | sym name =>
    intro f p hf ht hd
    obtain ⟨f, rfl⟩ : ∃ g, f = g + 1 := ⟨f - 1, by omega⟩
    obtain ⟨hb, _⟩ := ht
    obtain ⟨i, h1, h2⟩ := hd
    obtain ⟨hn, hi⟩ := seen_some h2
    have hx : s.syms[i]? = some (s.syms[i]'(look_lt hi)) := List.getElem?_eq_getElem (look_lt hi)
    generalize s.syms[i]'(look_lt hi) = x at hx
    refine ⟨false, (!x.isMacroParam && !x.isMacroName && !x.isInit), ?_, ?_, ?_⟩
    · show (node p >>= _) s = _
      rw [bind_ok (Live.run ⟨hb, h1⟩)]; rfl
    · unfold isUninitSym
      rw [bind_ok (Live.run ⟨hb, h1⟩)]
      show (sym i >>= _) s = _
      rw [bind_ok (sym_run hx)]
      rfl
    · rintro ⟨m, hm, hv⟩
      cases List.mem_singleton.1 hm
      obtain ⟨y, hy⟩ := hh.undefined hn hv i hi
      cases hx.symm.trans hy
      exact Or.inr rfl
  | un op e ih =>
    intro f p hf ht hd
    obtain ⟨f, rfl⟩ : ∃ g, f = g + 1 := ⟨f - 1, by omega⟩
    obtain ⟨hb, q, hq, h1⟩ := ht
    obtain ⟨q', hq', h2⟩ := hd
    rw [hq] at hq'
    cases hq'
    obtain ⟨b, c, r1, r2, hbc⟩ := ih (f := f) (by simp only [Expr.depth] at hf; omega) h1 h2
    refine ⟨b || c, false, ?_, ?_, fun hn => by rcases hbc hn with h | h <;> simp [h]⟩
    · show (node p >>= _) s = _
      rw [bind_ok (Live.run ⟨hb, hq⟩), bind_ok (operands_run (by simp) s)]
      simp only [List.take, eachM]
      rw [run_bind, run_bind, run_bind, r1]
      cases b with
      | true => rfl
      | false =>
        simp only [if_neg Bool.false_ne_true]
        rw [run_bind, r2]
        cases c <;> rfl
    · unfold isUninitSym; rw [bind_ok (Live.run ⟨hb, hq⟩)]; rfl
  | bin op a b iha ihb =>
    intro f p hf ht hd
    obtain ⟨f, rfl⟩ : ∃ g, f = g + 1 := ⟨f - 1, by omega⟩
    obtain ⟨hb, q, r, hq, h1, h1'⟩ := ht
    obtain ⟨q', r', hq', h2, h2'⟩ := hd
    rw [hq] at hq'
    cases hq'
    obtain ⟨b1, c1, r1, r2, hbc⟩ := iha (f := f) (by simp only [Expr.depth] at hf; omega) h1 h2
    obtain ⟨b2, c2, r3, r4, hbc'⟩ := ihb (f := f) (by simp only [Expr.depth] at hf; omega) h1' h2'
    refine ⟨b1 || c1 || b2 || c2, false, ?_, ?_, ?_⟩
    · show (node p >>= _) s = _
      rw [bind_ok (Live.run ⟨hb, hq⟩), bind_ok (operands_run (by simp) s)]
      simp only [List.take, eachM]
      rw [run_bind, run_bind, run_bind, r1]
      cases b1 with
      | true => rfl
      | false =>
        simp only [if_neg Bool.false_ne_true]
        rw [run_bind, r2]
        cases c1 with
        | true => rfl
        | false =>
          simp only [if_neg Bool.false_ne_true, run_pure]
          rw [run_bind, run_bind, r3]
          cases b2 with
          | true => rfl
          | false =>
            simp only [if_neg Bool.false_ne_true]
            rw [run_bind, r4]
            cases c2 <;> rfl
    · unfold isUninitSym; rw [bind_ok (Live.run ⟨hb, hq⟩)]; rfl
    · rintro ⟨n, hn, hv⟩
      rcases List.mem_append.1 hn with hn | hn
      · rcases hbc ⟨n, hn, hv⟩ with h | h <;> simp [h]
      · rcases hbc' ⟨n, hn, hv⟩ with h | h <;> simp [h]

theorem open_uninit_op {envF env : Str → Option Int} {f : Nat} {s : St} {p q : Ptr} {e : Expr} {k : Kind} (hh : Partly s envF env)
    (hp : Live s p ⟨k, 1, [q]⟩) (hd : e.depth + 1 < f) (ht : ExprAt (seen s) s.nodeBase s.nodes e q)
    (hfl : Filled (seen s) s.nodes e q) (hn : ∃ n ∈ e.names, env n = none) : hasUninit f p s = (.ok true, s) := by
  obtain ⟨f, rfl⟩ : ∃ g, f = g + 1 := ⟨f - 1, by omega⟩
  obtain ⟨b, c, r1, r2, hbc⟩ := open_uninit hh (f := f) (by omega) ht hfl
  have hbc := hbc hn
  show (node p >>= _) s = _
  rw [bind_ok hp.run, bind_ok (operands_run (by simp) s)]
  simp only [List.take, eachM]
  rw [run_bind, run_bind, run_bind, r1]
  cases b with
  | true => rfl
  | false =>
    simp only [if_neg Bool.false_ne_true]
    rw [run_bind, r2]
    rcases hbc with h | h
    · cases h
    · rw [h]
      rfl

theorem open_notAcc {e : Expr} {q : Ptr} {s : St} {envF : Str → Option Int} (mode : Mode) (hl : Later envF e)
    (ht : ExprAt (seen s) s.nodeBase s.nodes e q) : isAccOperand mode [q] s = (.ok false, s) := by
  have key : ∃ n, Live s q n ∧ isAccNode n = false := by
    cases e with
    | int v => exact ⟨_, ht, rfl⟩
    | pc => obtain ⟨hb, v, hv⟩ := ht; exact ⟨_, ⟨hb, hv⟩, rfl⟩
    | un op e => obtain ⟨hb, v, hv, _⟩ := ht; exact ⟨_, ⟨hb, hv⟩, rfl⟩
    | bin op a b => obtain ⟨hb, v, w, hv, _⟩ := ht; exact ⟨_, ⟨hb, hv⟩, rfl⟩
    | sym name =>
      obtain ⟨hb, c, hc, _⟩ := ht
      refine ⟨_, ⟨hb, hc⟩, ?_⟩
      have := (hl.2 name (List.mem_singleton.2 rfl)).1.plain
      unfold plainName at this
      simp only [Bool.and_eq_true, bne_iff_ne, ne_eq] at this
      show (stricmp name [65] == 0) = false
      simpa using this.1.1.2
  obtain ⟨n, h1, h2⟩ := key
  unfold isAccOperand
  cases mode
  case a =>
    show ((node q >>= fun on => M.pure (isAccNode on)) : M Bool) s = _
    rw [bind_ok h1.run, h2]
    rfl
  all_goals rfl

/-- An instruction that was built from an operand without a value. -/
structure OpenOp (s s' : St) (e : Expr) (ins : Int) (mode : Mode) (p q : Ptr) : Prop where
  eq : ∃ ns sy, s' = { s with nodes := ns, syms := sy }
  grows : s.nodes.length ≤ s'.nodes.length
  tree : ExprAt (seen s') s'.nodeBase s'.nodes e q
  filled : Filled (seen s') s'.nodes e q
  node : Live s' p ⟨.opcode ins (openMode (getOpCode s.cpu s.allowIllegal ins) mode).2
    (openMode (getOpCode s.cpu s.allowIllegal ins) mode).1 0, 1, [q]⟩

/-- Building it. -/
theorem buildOp_open {envF env : Str → Option Int} {f : Nat} {s : St} {ins : Int} {mode : Mode} {e : Expr} {v : Int} {z : Bool}
    (he : s.endExpansion = false) (hb : s.nodeBase ≤ s.nodes.length) (hh : Partly s envF env) (ht : NameTable env) (hl : Later envF e)
    (hd : e.depth + 1 < f) (hv : Spec.eval (Spec.soFar env) s.pc e = some (v, z)) (hn : ∃ n ∈ e.names, env n = none)
    (hcode : 0 ≤ (openMode (getOpCode s.cpu s.allowIllegal ins) mode).2) (im : Bool) :
    ∃ p q s', buildStmt (expandNode f) (hasUninit f) im (.op ins mode (some e)) s = (.ok (some p), s') ∧
      Partly s' envF env ∧ OpenOp s s' e ins mode p q := by
  have hdf : e.depth < f := by omega
  obtain ⟨l, q, r0, ht0⟩ := buildExpr_run (lk := seen s) e s hb
  let sm := srcMode (getOpCode s.cpu s.allowIllegal ins) mode
  let N0 : Node := ⟨.opcode ins 0 sm 0, 1, [q]⟩
  let N1 : Node := ⟨.opcode ins (openMode (getOpCode s.cpu s.allowIllegal ins) mode).2 (openMode (getOpCode s.cpu s.allowIllegal ins) mode).1 0, 1, [q]⟩
  let p := (s.nodes ++ l).length
  let s1 : St := { s with nodes := s.nodes ++ l }
  let s2 : St := { s with nodes := s.nodes ++ l ++ [N0] }
  have ht2 : ExprAt (seen s2) s2.nodeBase s2.nodes e q := ht0.append [N0]
  obtain ⟨s3, r3, R3, F3⟩ := open_eval ht (s := s2) hdf he (hh.of rfl rfl) hl ht2 hv
  have hN2 : s2.nodes[p]? = some N0 := by simp [s2, p]
  obtain ⟨n3, y3, e3⟩ := R3.eq
  have hbp : s.nodeBase ≤ p := by simp only [p, List.length_append]; omega
  have hp3 : Live s3 p N0 := ⟨by rw [e3]; exact hbp, R3.heap.opcode hN2⟩
  have ht3 : ExprAt (seen s3) s3.nodeBase s3.nodes e q := by
    rw [show s3.nodeBase = s2.nodeBase by rw [e3]]
    exact (ht2.wider R3.wider).sim R3.heap
  let s4 : St := { s3 with nodes := s3.nodes.set p N1 }
  have ht4 : ExprAt (seen s4) s4.nodeBase s4.nodes e q := ht3.setOp hp3.2 ⟨_, _, _, _, rfl⟩
  obtain ⟨s5, r5, R5, F5⟩ := open_eval ht (s := s4) hdf (by show s3.endExpansion = false; rw [e3]; exact he) (R3.partly.of rfl rfl) hl ht4
    (by show Spec.eval _ s3.pc e = _; rw [e3]; exact hv)
  obtain ⟨n5, y5, e5⟩ := R5.eq
  have hp4 : s4.nodes[p]? = some N1 := by
    show (s3.nodes.set p N1)[p]? = _
    rw [List.getElem?_set_self hp3.lt]
  have hlast : lastValue (expandNode f) [q] s2 = (.ok v, s3) := by
    unfold lastValue
    simp only [eachM]
    rw [run_bind, run_bind, run_bind, r3]
    rfl
  refine ⟨p, q, s5, ?_, R5.partly, ⟨⟨n5, y5, by rw [e5]; simp only [s4]; rw [e3]⟩, ?_, ?_, F5, ?_, R5.heap.opcode hp4⟩⟩
  · refine built_run ?_
    show (buildExpr e >>= fun p => opcodeNode (expandNode f) (hasUninit f) ins mode [p]) s = _
    rw [bind_ok r0]
    unfold opcodeNode
    rw [getS_bind, bind_ok (alloc_run _ _ s1)]
    show (lastValue (expandNode f) [q] >>= _) s2 = _
    rw [bind_ok hlast, bind_ok (open_uninit_op R3.partly hp3 hd ht3 F3 hn), bind_ok (open_notAcc (s := s3) _ hl ht3), getS_bind,
      Bool.not_true, Bool.and_false, if_neg Bool.false_ne_true]
    have hch : chooseMode (getOpCode s3.cpu s3.allowIllegal ins) sm false = openMode (getOpCode s.cpu s.allowIllegal ins) mode := by
      rw [e3]
      rfl
    have hm : (if getOpCode s1.cpu s1.allowIllegal ins .r ≠ -1 then Mode.r else mode) = sm := rfl
    rw [hm, hch]
    show (setNode p N1 >>= _) s3 = _
    rw [bind_ok (hp3.set N1)]
    have hfe : forEachM (fun o => expandNode f o >>= fun _ => M.pure ()) [q] s4 = (.ok (), s5) := by
      simp only [forEachM]
      rw [run_bind, run_bind, r5]
      rfl
    show (forEachM _ [q] >>= _) s4 = _
    rw [bind_ok hfe]
    show ((if (openMode (getOpCode s.cpu s.allowIllegal ins) mode).2 < 0 then error .invalidOpcodeOrMode else M.pure ()) >>= fun _ => M.pure p) s5 = _
    rw [if_neg (Int.not_lt.2 hcode)]
    rfl
  · have a1 := R3.heap.1
    have a2 := R5.heap.1
    simp only [s2, s4, List.length_set, List.length_append, List.length_cons, List.length_nil] at a1 a2
    omega
  · rw [show s5.nodeBase = s4.nodeBase by rw [e5]]
    exact (ht4.wider R5.wider).sim R5.heap
  · rw [e5]
    show s3.nodeBase ≤ p
    rw [e3]
    exact hbp

/-- Assembling it before the final pass. -/
theorem expandOp_open {envF env : Str → Option Int} {f : Nat} {s : St} {p q : Ptr} {ins code : Int} {m : Mode} {e : Expr}
    (he : s.endExpansion = false) (ho : s.originSpecified = true) (hfin : s.finalPass = false) (hh : Partly s envF env)
    (hd : e.depth + 1 < f) (ht : ExprAt (seen s) s.nodeBase s.nodes e q) (hfl : Filled (seen s) s.nodes e q)
    (hn : ∃ n ∈ e.names, env n = none) (hp : Live s p ⟨.opcode ins code m 0, 1, [q]⟩) :
    ∃ ns cg, expandNode (f + 1) p s = (.ok 0, { s with nodes := ns, codeGenerated := cg, pc := s.pc + (opByteCount m + 1) }) ∧
      s.nodes.length = ns.length := by
  rw [expandNode_run he hp]
  show ∃ ns cg, expandOpCode (expandNode f) (hasUninit f) p s = _ ∧ _
  let N : Node := ⟨.opcode ins code m s.pc, 1, [q]⟩
  let t : St := { s with nodes := s.nodes.set p N }
  have hlt : p < s.nodes.length := hp.lt
  have hpt : Live t p N := ⟨hp.1, by simp only [t]; rw [List.getElem?_set_self hlt]⟩
  let t2 : St := { t with pc := s.pc + (opByteCount m + 1), codeGenerated := s.codeGenerated + opByteCount m + 1 }
  have hpt2 : Live t2 p N := hpt
  refine ⟨(s.nodes.set p N).set p N, s.codeGenerated + opByteCount m + 1, ?_, by simp⟩
  unfold expandOpCode
  rw [bind_ok hp.run]
  have e0 : (if s.pcAssigned > 0 then { s with originSpecified := true } else s) = s := by
    split
    · rw [← ho]
    · rfl
  show ((modS fun s => if s.pcAssigned > 0 then { s with originSpecified := true } else s) >>= _) s = _
  rw [modS_bind, e0, getS_bind, bind_ok (hp.set N)]
  have hphase : (if (opShape m).1 > 0 then (hasUninit f p >>= fun u =>
        if u then M.pure false else operandPhase (expandNode f) (hasUninit f) p ⟨.opcode ins code m 0, 1, [q]⟩ ins
          code m s.pc) else M.pure false) t = (.ok false, t) := by
    split
    · rw [bind_ok (open_uninit_op (s := t) (hh.of rfl rfl) hpt hd (ht.setOp hp.2 ⟨_, _, _, _, rfl⟩) (hfl.setOp hp.2 ⟨_, _, _, _, rfl⟩) hn)]
      rfl
    · rfl
  rw [bind_ok hphase, if_neg Bool.false_ne_true, getS_bind, if_neg (by rw [show t.finalPass = false from hfin]; decide), pure_bind',
    bind_ok (opNodeBytes_run hpt)]
  show (modOpcode p _ >>= _) t2 = _
  rw [bind_ok (modOpcode_run hpt2 _)]
  rfl

/-- The symbols of the operand have values by now. -/
theorem Filled.done {envF env : Str → Option Int} {s : St} (hh : Partly s envF env) : ∀ {e : Expr} {p : Ptr},
    Filled (seen s) s.nodes e p → (∀ n ∈ e.names, (env n).isSome = true) → Done (look s) s.syms s.nodes e p
  | .int _, _, _, _ => trivial
  | .pc, _, _, _ => trivial
  | .sym n, _, ⟨i, h1, h2⟩, hn => by
    obtain ⟨hs, hi⟩ := seen_some h2
    have hi' := hi
    rw [hs.look hh.scope] at hi'
    obtain ⟨x, hx, _⟩ := symFind_name hi'
    refine ⟨i, x, h1, hi, hx, ?_⟩
    have := hn n (by simp [Expr.names])
    rw [hh.env hs hi' hx] at this
    cases h : x.isInit with
    | true => rfl
    | false => rw [h] at this; cases this
  | .un _ _, _, ⟨q, hq, h⟩, hn => ⟨q, hq, h.done hh hn⟩
  | .bin _ _ _, _, ⟨q, r, hq, h1, h2⟩, hn => ⟨q, r, hq, h1.done hh fun n h => hn n (List.mem_append_left _ h),
      h2.done hh fun n h => hn n (List.mem_append_right _ h)⟩

theorem seen_look (s : St) : Wider (seen s) (look s) := fun _ _ h => (seen_some h).2

end Verif
