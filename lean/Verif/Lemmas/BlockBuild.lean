import Verif.Lemmas.Block

/-! # Building blocks -/

namespace Verif

variable {mb : Bool}

/-- Nodes have been added, and the line may have advanced. -/
def Grow (s s' : St) : Prop :=
  ∃ ns ln, s' = { s with nodes := ns, line := ln } ∧ HeapSim true (look s) s.nodes ns

theorem Grow.refl (s : St) : Grow s s := ⟨s.nodes, s.line, rfl, HeapSim.refl _ _ _⟩

theorem Grow.trans {s s' s'' : St} (h : Grow s s') (h' : Grow s' s'') : Grow s s'' := by
  obtain ⟨ns, ln, rfl, h1⟩ := h
  obtain ⟨ns', ln', rfl, h2⟩ := h'
  exact ⟨ns', ln', rfl, h1.trans h2⟩

theorem Grow.keeps {s s' : St} (h : Grow s s') : Keeps mb s s' := by
  obtain ⟨ns, ln, rfl, h1⟩ := h
  exact ⟨rfl, rfl, rfl, fun _ _ => rfl, fun _ x hx hi => ⟨x, hx, hi⟩, h1.weak mb⟩

theorem Grow.base {s s' : St} (h : Grow s s') (hb : s.nodeBase ≤ s.nodes.length) : s'.nodeBase ≤ s'.nodes.length := by
  obtain ⟨ns, ln, rfl, h1⟩ := h
  exact Nat.le_trans hb h1.1

theorem Grow.alloc (s : St) (N : Node) : Grow s { s with nodes := s.nodes ++ [N] } :=
  ⟨_, s.line, rfl, HeapSim.append true _ _ _⟩

theorem buildExpr_grow (e : Expr) {s : St} (hb : s.nodeBase ≤ s.nodes.length) :
    ∃ p s', buildExpr e s = (.ok p, s') ∧ Grow s s' ∧ ExAt false s' e p := by
  obtain ⟨l, p, h1, h2⟩ := buildExpr_run (lk := look s) e s hb
  exact ⟨p, _, h1, ⟨_, s.line, rfl, HeapSim.append true _ _ _⟩, h2, (by intro h; cases h)⟩

theorem idNode_grow (name : Str) {s : St} (hb : s.nodeBase ≤ s.nodes.length) :
    ∃ p s', idNode .id name s = (.ok p, s') ∧ Grow s s' ∧ IdAt false s' name p :=
  ⟨_, _, alloc_run _ _ s, Grow.alloc s _, ⟨none, Live.alloc hb _, Or.inl rfl⟩, (by intro h; cases h)⟩

theorem operatorNode_grow (o : Opr) (ops : List Ptr) {s : St} (hb : s.nodeBase ≤ s.nodes.length) :
    ∃ p s', operatorNode o ops s = (.ok p, s') ∧ Grow s s' ∧ Live s' p ⟨.opr o, ops.length, ops⟩ :=
  ⟨_, _, alloc_run _ _ s, Grow.alloc s _, Live.alloc hb _⟩

/-- One more name. -/
theorem buildVarsTl_grow : ∀ (xs acc : List (Str × Option Expr)) {s : St} {p : Ptr}, s.nodeBase ≤ s.nodes.length →
    VarsAt false s acc p → ∃ q s', buildVarsTl xs p s = (.ok q, s') ∧ Grow s s' ∧ VarsAt false s' (xs.reverse ++ acc) q
  | [], acc, s, p, hb, h => ⟨p, s, rfl, Grow.refl s, h⟩
  | (name, none) :: xs, acc, s, p, hb, h => by
    obtain ⟨i, s1, r1, g1, l1⟩ := idNode_grow name hb
    have hb1 := g1.base hb
    obtain ⟨r, s2, r2, g2, l2⟩ := operatorNode_grow .exprList [p, i] hb1
    have hv : VarsAt false s2 ((name, none) :: acc) r := by
      cases acc with
      | nil => exact h.elim
      | cons y ys => exact ⟨p, [i], l2, h.keep (g1.trans g2).keeps, i, rfl, l1.keep g2.keeps⟩
    obtain ⟨q, s3, r3, g3, l3⟩ := buildVarsTl_grow xs ((name, none) :: acc) (g2.base hb1) hv
    refine ⟨q, s3, (bind_ok r1).trans ((bind_ok r2).trans r3), (g1.trans g2).trans g3, ?_⟩
    rw [List.reverse_cons, List.append_assoc]
    exact l3
  | (name, some e) :: xs, acc, s, p, hb, h => by
    obtain ⟨j, s0, r0, g0, l0⟩ := buildExpr_grow e hb
    have hb0 := g0.base hb
    obtain ⟨i, s1, r1, g1, l1⟩ := idNode_grow name hb0
    have hb1 := g1.base hb0
    obtain ⟨r, s2, r2, g2, l2⟩ := operatorNode_grow .exprList [p, i, j] hb1
    have hv : VarsAt false s2 ((name, some e) :: acc) r := by
      cases acc with
      | nil => exact h.elim
      | cons y ys =>
        exact ⟨p, [i, j], l2, h.keep ((g0.trans g1).trans g2).keeps, i, j, rfl, l1.keep g2.keeps, l0.keep (g1.trans g2).keeps⟩
    obtain ⟨q, s3, r3, g3, l3⟩ := buildVarsTl_grow xs ((name, some e) :: acc) (g2.base hb1) hv
    refine ⟨q, s3, (bind_ok r0).trans ((bind_ok r1).trans ((bind_ok r2).trans r3)), ((g0.trans g1).trans g2).trans g3, ?_⟩
    rw [List.reverse_cons, List.append_assoc]
    exact l3

theorem buildVars_grow (hd : Str × Option Expr) (tl : List (Str × Option Expr)) {s : St} (hb : s.nodeBase ≤ s.nodes.length) :
    ∃ q s', buildVars hd tl s = (.ok q, s') ∧ Grow s s' ∧ VarsAt false s' ((hd :: tl).reverse) q := by
  obtain ⟨name, e⟩ := hd
  cases e with
  | none =>
    obtain ⟨i, s1, r1, g1, l1⟩ := idNode_grow name hb
    have hb1 := g1.base hb
    obtain ⟨r, s2, r2, g2, l2⟩ := operatorNode_grow .exprList [i] hb1
    obtain ⟨q, s3, r3, g3, l3⟩ := buildVarsTl_grow tl [(name, none)] (g2.base hb1) ⟨[i], l2, i, rfl, l1.keep g2.keeps⟩
    refine ⟨q, s3, ?_, (g1.trans g2).trans g3, by rw [List.reverse_cons]; exact l3⟩
    exact (bind_ok ((bind_ok r1).trans r2)).trans r3
  | some e =>
    obtain ⟨j, s0, r0, g0, l0⟩ := buildExpr_grow e hb
    have hb0 := g0.base hb
    obtain ⟨i, s1, r1, g1, l1⟩ := idNode_grow name hb0
    have hb1 := g1.base hb0
    obtain ⟨r, s2, r2, g2, l2⟩ := operatorNode_grow .exprList [i, j] hb1
    obtain ⟨q, s3, r3, g3, l3⟩ := buildVarsTl_grow tl [(name, some e)] (g2.base hb1)
      ⟨[i, j], l2, i, j, rfl, l1.keep g2.keeps, l0.keep (g1.trans g2).keeps⟩
    refine ⟨q, s3, ?_, ((g0.trans g1).trans g2).trans g3, by rw [List.reverse_cons]; exact l3⟩
    exact (bind_ok ((bind_ok r0).trans ((bind_ok r1).trans r2))).trans r3

theorem andThen_run {α β : Type} {m : M (Option α)} {k : α → M (Option β)} {s s' : St} {a : α}
    (h : m s = (.ok (some a), s')) : andThen m k s = k a s' := by
  unfold andThen
  rw [bind_ok h]

/-- What is proved about building. -/
def Builds (C : Spec.Context) (st : Stmt) (f : Nat) : Prop :=
  ∀ (im : Bool) (s : St), s.cpu = C.cpu ∧ isMacroWord s = C.isMacro → C.text = textOf → s.endExpansion = false → s.nodeBase ≤ s.nodes.length →
    Spec.Parses C (envOf s) s.pc st →
    ∃ p s', buildStmt (expandNode f) (hasUninit f) im st s = (.ok (some p), s') ∧ Grow s s' ∧ StmtAt false s' st p

/-- Conditions of `Builds` in the grown state. -/
theorem Grow.conds {C : Spec.Context} {s s' : St} {st : Stmt} (h : Grow s s') (h1 : s.cpu = C.cpu ∧ isMacroWord s = C.isMacro)
    (h3 : s.endExpansion = false) (h4 : s.nodeBase ≤ s.nodes.length) (h5 : Spec.Parses C (envOf s) s.pc st) :
    (s'.cpu = C.cpu ∧ isMacroWord s' = C.isMacro) ∧ s'.endExpansion = false ∧ s'.nodeBase ≤ s'.nodes.length ∧ Spec.Parses C (envOf s') s'.pc st := by
  have hb := h.base h4
  obtain ⟨ns, ln, rfl, _⟩ := h
  exact ⟨h1, h3, hb, h5⟩

theorem parses_build (C : Spec.Context) (st : Stmt) : ∃ f0, ∀ f, f0 ≤ f → Builds C st f := by
  induction st with
  | empty =>
    refine ⟨0, fun f _ im s _ _ _ hb _ => ?_⟩
    obtain ⟨p, s1, r1, g1, l1⟩ := operatorNode_grow .statement [] hb
    exact ⟨p, s1, built_run r1, g1, l1⟩
  | op ins mode e =>
    cases e with
    | none =>
      refine ⟨1, fun f hf im s hcpu _ _ hb hp => ?_⟩
      obtain ⟨f, rfl⟩ : ∃ g, f = g + 1 := ⟨f - 1, by omega⟩
      obtain ⟨rfl, bs, h⟩ := hp
      rw [← hcpu.1] at h
      obtain ⟨m, hm, hr, hg, rfl⟩ := oneByte_get (ill := s.allowIllegal) h (Or.inl rfl)
      have : m = .i := by cases m <;> cases hm; rfl
      subst this
      exact ⟨_, _, buildImplied_run hb hr hg im, Grow.alloc s _, rfl, 0, Live.alloc hb _⟩
    | some e =>
      refine ⟨e.depth + 2, fun f hf im s hcpu _ he hb hp => ?_⟩
      rcases hp with ⟨rfl, hA, bs, h⟩ | ⟨form, v, rfl, hv, hc, pc', bs, h⟩
      · rw [← hcpu.1] at h
        obtain ⟨m, hm, hr, hg, rfl⟩ := oneByte_get (ill := s.allowIllegal) h (Or.inr rfl)
        have : m = .A := by cases m <;> cases hm; rfl
        subst this
        obtain ⟨f, rfl⟩ : ∃ g, f = g + 2 := ⟨f - 2, by omega⟩
        obtain ⟨nm, rfl, hnm⟩ : ∃ nm, e = .sym nm ∧ isA nm := by
          rcases hA with rfl | rfl
          · exact ⟨_, rfl, Or.inl rfl⟩
          · exact ⟨_, rfl, Or.inr rfl⟩
        obtain ⟨l, q, p, r, hp1, hp2⟩ := buildAcc_run (f := f) hnm hb he hr hg im
        exact ⟨p, _, r, ⟨_, s.line, rfl, HeapSim.append true _ _ _⟩, Or.inl ⟨rfl, hA, 0, q, hp1, hp2⟩⟩
      · rw [← hcpu.1] at h
        obtain ⟨m, c, hen, _⟩ := shortest_encode (ill := s.allowIllegal) h
        unfold encode at hen
        split at hen
        · cases hen
        · rename_i hcode
          obtain ⟨ns, p, q, h1, h2, h3, h4, h5, h6⟩ := buildOp_run (s := s) (ins := ins) (mode0 := Form.mode form) (f := f)
            (by omega) he hb hv hc (Int.not_lt.1 hcode) im
          refine ⟨p, _, h1, ⟨_, s.line, rfl, h2.mono⟩, Or.inr ⟨?_, 0, q, v, ⟨Nat.le_trans hb h3, h4⟩, ⟨h5, (by intro h; cases h)⟩, h6⟩⟩
          have : envOf s [65] = none ∧ envOf s [97] = none := by
            constructor <;> (unfold envOf; rw [if_neg (by decide)])
          constructor <;> (rintro rfl; simp [Spec.eval, this] at hv)
  | data size hd tl =>
    refine ⟨0, fun f _ im s _ ht _ hb hp => ?_⟩
    obtain ⟨l, q, r, hq⟩ := buildItems_run (lk := look s) hd tl s hb (by
      intro raw hraw
      have h := hp raw hraw
      rw [ht] at h
      exact h)
    let s1 : St := { s with nodes := s.nodes ++ l }
    have hb1 : s1.nodeBase ≤ s1.nodes.length := by simp only [s1, List.length_append]; omega
    refine ⟨_, _, built_run ((bind_ok r).trans (alloc_run (.data size q) [] s1)),
      ⟨_, s.line, rfl, (HeapSim.append true _ _ l).trans (HeapSim.append true _ _ _)⟩, q, Live.alloc hb1 _, ?_, (by intro h; cases h)⟩
    exact ListAt.sim (HeapSim.append true (look s) s1.nodes _) hq
  | fill v n =>
    refine ⟨0, fun f _ im s _ _ _ hb _ => ?_⟩
    obtain ⟨p, s1, r1, g1, l1⟩ := buildExpr_grow v hb
    have hb1 := g1.base hb
    obtain ⟨q, s2, r2, g2, l2⟩ := buildExpr_grow n hb1
    have hb2 := g2.base hb1
    obtain ⟨r, s3, r3, g3, l3⟩ := operatorNode_grow .fill [p, q] hb2
    exact ⟨r, s3, built_run ((bind_ok r1).trans ((bind_ok r2).trans r3)), (g1.trans g2).trans g3,
      p, q, l3, l1.keep (g2.trans g3).keeps, l2.keep g3.keeps⟩
  | load raw =>
    refine ⟨0, fun f _ im s _ ht _ hb hp => ?_⟩
    obtain ⟨t, h⟩ := hp
    rw [ht] at h
    let s1 : St := { s with nodes := s.nodes ++ [⟨.str t, 0, []⟩] }
    have hb1 : s1.nodeBase ≤ s1.nodes.length := by simp only [s1, List.length_append]; omega
    have l1 : Live s1 s.nodes.length ⟨.str t, 0, []⟩ := Live.alloc hb _
    obtain ⟨r, s3, r3, g3, l3⟩ := operatorNode_grow .load [s.nodes.length] hb1
    exact ⟨r, s3, built_run ((bind_ok (stringNode_run s h)).trans r3), (Grow.alloc s _).trans g3,
      t, _, l3, (g3.keeps (mb := false)).live l1 (by intro _ c; cases c) (by intro _ _ _ c; cases c) (by intro _ _ _ _ c; cases c), h⟩
  | assign name e =>
    refine ⟨0, fun f _ im s _ _ _ hb _ => ?_⟩
    obtain ⟨p, s1, r1, g1, l1⟩ := buildExpr_grow e hb
    have hb1 := g1.base hb
    obtain ⟨q, s2, r2, g2, l2⟩ := idNode_grow name hb1
    have hb2 := g2.base hb1
    obtain ⟨r, s3, r3, g3, l3⟩ := operatorNode_grow .equ [q, p] hb2
    exact ⟨r, s3, built_run ((bind_ok r1).trans ((bind_ok r2).trans r3)), (g1.trans g2).trans g3,
      q, p, l3, l2.keep g3.keeps, l1.keep (g2.trans g3).keeps⟩
  | var hd tl =>
    refine ⟨0, fun f _ im s _ _ _ hb _ => ?_⟩
    obtain ⟨q, s1, r1, g1, l1⟩ := buildVars_grow hd tl hb
    obtain ⟨r, s2, r2, g2, l2⟩ := operatorNode_grow .var [q] (g1.base hb)
    exact ⟨r, s2, built_run ((bind_ok r1).trans r2), g1.trans g2, q, l2, l1.keep g2.keeps⟩
  | ifThen c t ih =>
    obtain ⟨f0, ih⟩ := ih
    refine ⟨f0, fun f hf im s hcpu ht he hb hp => ?_⟩
    obtain ⟨p, s1, r1, g1, l1⟩ := buildExpr_grow c hb
    obtain ⟨hcpu1, he1, hb1, hp1⟩ := g1.conds hcpu he hb (show Spec.Parses C (envOf s) s.pc t from hp)
    obtain ⟨q, s2, r2, g2, l2⟩ := ih f hf im s1 hcpu1 ht he1 hb1 hp1
    have hb2 := g2.base hb1
    obtain ⟨r, s3, r3, g3, l3⟩ := operatorNode_grow .ifThen [p, q] hb2
    exact ⟨r, s3, (bind_ok r1).trans ((andThen_run r2).trans (built_run r3)), (g1.trans g2).trans g3,
      p, q, l3, l1.keep (g2.trans g3).keeps, l2.keep g3.keeps⟩
  | ifElse c t e ih1 ih2 =>
    obtain ⟨f1, ih1⟩ := ih1
    obtain ⟨f2, ih2⟩ := ih2
    refine ⟨max f1 f2, fun f hf im s hcpu ht he hb hp => ?_⟩
    obtain ⟨p, s1, r1, g1, l1⟩ := buildExpr_grow c hb
    obtain ⟨hcpu1, he1, hb1, hp1⟩ := g1.conds hcpu he hb (show Spec.Parses C (envOf s) s.pc t from hp.1)
    obtain ⟨q, s2, r2, g2, l2⟩ := ih1 f (by omega) im s1 hcpu1 ht he1 hb1 hp1
    obtain ⟨hcpu2, he2, hb2, hp2⟩ := (g1.trans g2).conds hcpu he hb (show Spec.Parses C (envOf s) s.pc e from hp.2)
    obtain ⟨u, s3, r3, g3, l3⟩ := ih2 f (by omega) im s2 hcpu2 ht he2 hb2 hp2
    have hb3 := g3.base hb2
    obtain ⟨r, s4, r4, g4, l4⟩ := operatorNode_grow .ifThen [p, q, u] hb3
    exact ⟨r, s4, (bind_ok r1).trans ((andThen_run r2).trans ((andThen_run r3).trans (built_run r4))),
      ((g1.trans g2).trans g3).trans g4, p, q, u, l4, l1.keep ((g2.trans g3).trans g4).keeps,
      l2.keep (g3.trans g4).keeps, l3.keep g4.keeps⟩
  | repeatLoop b c ih =>
    obtain ⟨f0, ih⟩ := ih
    refine ⟨f0, fun f hf im s hcpu ht he hb hp => ?_⟩
    obtain ⟨q, s2, r2, g2, l2⟩ := ih f hf im s hcpu ht he hb hp
    have hb2 := g2.base hb
    obtain ⟨p, s1, r1, g1, l1⟩ := buildExpr_grow c hb2
    have hb1 := g1.base hb2
    obtain ⟨r, s3, r3, g3, l3⟩ := operatorNode_grow .repeatLoop [q, p] hb1
    exact ⟨r, s3, (andThen_run r2).trans (built_run ((bind_ok r1).trans r3)), (g2.trans g1).trans g3,
      p, q, l3, l1.keep g3.keeps, l2.keep (g1.trans g3).keeps⟩
  | doLoop b c ih =>
    obtain ⟨f0, ih⟩ := ih
    refine ⟨f0, fun f hf im s hcpu ht he hb hp => ?_⟩
    obtain ⟨q, s2, r2, g2, l2⟩ := ih f hf im s hcpu ht he hb hp
    have hb2 := g2.base hb
    obtain ⟨p, s1, r1, g1, l1⟩ := buildExpr_grow c hb2
    have hb1 := g1.base hb2
    obtain ⟨r, s3, r3, g3, l3⟩ := operatorNode_grow .doLoop [q, p] hb1
    exact ⟨r, s3, (andThen_run r2).trans (built_run ((bind_ok r1).trans r3)), (g2.trans g1).trans g3,
      p, q, l3, l1.keep g3.keeps, l2.keep (g1.trans g3).keeps⟩
  | whileLoop c b ih =>
    obtain ⟨f0, ih⟩ := ih
    refine ⟨f0, fun f hf im s hcpu ht he hb hp => ?_⟩
    obtain ⟨p, s1, r1, g1, l1⟩ := buildExpr_grow c hb
    obtain ⟨hcpu1, he1, hb1, hp1⟩ := g1.conds hcpu he hb (show Spec.Parses C (envOf s) s.pc b from hp)
    obtain ⟨q, s2, r2, g2, l2⟩ := ih f hf im s1 hcpu1 ht he1 hb1 hp1
    have hb2 := g2.base hb1
    obtain ⟨r, s3, r3, g3, l3⟩ := operatorNode_grow .whileLoop [p, q] hb2
    exact ⟨r, s3, (bind_ok r1).trans ((andThen_run r2).trans (built_run r3)), (g1.trans g2).trans g3,
      p, q, l3, l1.keep (g2.trans g3).keeps, l2.keep g3.keeps⟩
  | forLoop name start stop step b next ih =>
    obtain ⟨f0, ih⟩ := ih
    refine ⟨f0, fun f hf im s hcpu ht he hb hp => ?_⟩
    obtain ⟨ps, s1, r1, g1, l1⟩ := buildExpr_grow start hb
    have hb1 := g1.base hb
    obtain ⟨i, s2, r2, g2, l2⟩ := idNode_grow name hb1
    have hb2 := g2.base hb1
    obtain ⟨asn, s3, r3, g3, l3⟩ := operatorNode_grow .equ [i, ps] hb2
    have hb3 := g3.base hb2
    obtain ⟨pe, s4, r4, g4, l4⟩ := buildExpr_grow stop hb3
    have hb4 := g4.base hb3
    have g14 := ((g1.trans g2).trans g3).trans g4
    cases step with
    | none =>
      obtain ⟨hcpu5, he5, hb5, hp5⟩ := g14.conds hcpu he hb (show Spec.Parses C (envOf s) s.pc b from hp)
      obtain ⟨u, s6, r6, g6, l6⟩ := ih f hf im s4 hcpu5 ht he5 hb5 hp5
      have hb6 := g6.base hb5
      obtain ⟨nx, s7, r7, g7, l7⟩ := idNode_grow next hb6
      have hb7 := g7.base hb6
      obtain ⟨r, s8, r8, g8, l8⟩ := operatorNode_grow .forLoop [asn, pe, u, nx] hb7
      refine ⟨r, s8, ?_, ((g14.trans g6).trans g7).trans g8, asn, i, pe, ps, u, nx, l8, ?_, ?_, ?_, ?_, ?_, l7.keep g8.keeps⟩
      · exact (bind_ok r1).trans ((bind_ok r2).trans ((bind_ok r3).trans ((bind_ok r4).trans ((bind_ok rfl).trans
          ((andThen_run r6).trans (built_run ((bind_ok r7).trans r8)))))))
      · exact ((((g4.trans g6).trans g7).trans g8).keeps (mb := false)).opr l3
      · exact l2.keep ((((g3.trans g4).trans g6).trans g7).trans g8).keeps
      · exact l1.keep (((((g2.trans g3).trans g4).trans g6).trans g7).trans g8).keeps
      · exact l4.keep ((g6.trans g7).trans g8).keeps
      · exact l6.keep (g7.trans g8).keeps
    | some w =>
      obtain ⟨pw, s5, r5, g5, l5⟩ := buildExpr_grow w hb4
      obtain ⟨hcpu5, he5, hb5, hp5⟩ := (g14.trans g5).conds hcpu he hb (show Spec.Parses C (envOf s) s.pc b from hp)
      obtain ⟨u, s6, r6, g6, l6⟩ := ih f hf im s5 hcpu5 ht he5 hb5 hp5
      have hb6 := g6.base hb5
      obtain ⟨nx, s7, r7, g7, l7⟩ := idNode_grow next hb6
      have hb7 := g7.base hb6
      obtain ⟨r, s8, r8, g8, l8⟩ := operatorNode_grow .forLoop [asn, pe, u, nx, pw] hb7
      refine ⟨r, s8, ?_, (((g14.trans g5).trans g6).trans g7).trans g8, asn, i, pe, ps, u, nx, pw, l8, ?_, ?_, ?_, ?_, ?_, ?_,
        l7.keep g8.keeps⟩
      · exact (bind_ok r1).trans ((bind_ok r2).trans ((bind_ok r3).trans ((bind_ok r4).trans
          ((bind_ok ((bind_ok r5).trans rfl)).trans
          ((andThen_run r6).trans (built_run ((bind_ok r7).trans r8)))))))
      · exact l5.keep ((g6.trans g7).trans g8).keeps
      · exact (((((g4.trans g5).trans g6).trans g7).trans g8).keeps (mb := false)).opr l3
      · exact l2.keep (((((g3.trans g4).trans g5).trans g6).trans g7).trans g8).keeps
      · exact l1.keep ((((((g2.trans g3).trans g4).trans g5).trans g6).trans g7).trans g8).keeps
      · exact l4.keep (((g5.trans g6).trans g7).trans g8).keeps
      · exact l6.keep (g7.trans g8).keeps
  | seq a b ih1 ih2 =>
    obtain ⟨f1, ih1⟩ := ih1
    obtain ⟨f2, ih2⟩ := ih2
    refine ⟨max f1 f2, fun f hf im s hcpu ht he hb hp => ?_⟩
    obtain ⟨q, s2, r2, g2, l2⟩ := ih1 f (by omega) im s hcpu ht he hb hp.1
    obtain ⟨hcpu2, he2, hb2, hp2⟩ := g2.conds hcpu he hb hp.2
    obtain ⟨u, s3, r3, g3, l3⟩ := ih2 f (by omega) im s2 hcpu2 ht he2 hb2 hp2
    have hb3 := g3.base hb2
    obtain ⟨r, s4, r4, g4, l4⟩ := operatorNode_grow .statement [q, u] hb3
    exact ⟨r, s4, (andThen_run r2).trans ((andThen_run r3).trans (built_run r4)), (g2.trans g3).trans g4,
      q, u, l4, l2.keep (g3.trans g4).keeps, l3.keep g4.keeps⟩
  | «at» line st ih =>
    obtain ⟨f0, ih⟩ := ih
    refine ⟨f0, fun f hf im s hcpu ht he hb hp => ?_⟩
    obtain ⟨p, s1, r1, g1, l1⟩ := ih f hf im { s with line := line } hcpu ht he hb hp
    refine ⟨p, s1, (modS_bind _ _ s).trans r1, ?_, l1⟩
    exact Grow.trans ⟨s.nodes, line, rfl, HeapSim.refl _ _ _⟩ g1
  | word first name args =>
    refine ⟨0, fun f _ im s hcpu ht _ hb hp => ?_⟩
    obtain ⟨hm, htx⟩ := hp
    have hw : isMacroWord s name = true := by rw [hcpu.2]; exact hm
    obtain ⟨q, s1, r1, g1, l1⟩ : ∃ q s1, buildItems? args s = (.ok q, s1) ∧ Grow s s1 ∧ ArgsAt false s1 args q := by
      cases args with
      | none => exact ⟨none, s, rfl, Grow.refl s, rfl⟩
      | some a =>
        obtain ⟨hd, tl⟩ := a
        obtain ⟨l, q, r, hq⟩ := buildItems_run (lk := look s) hd tl s hb (by
          intro raw hraw
          have h := htx raw hraw
          rw [ht] at h
          exact h)
        exact ⟨some q, _, (bind_ok r).trans rfl, ⟨_, s.line, rfl, HeapSim.append true _ _ l⟩, q, rfl, hq, (by intro h; cases h)⟩
    have hb1 := g1.base hb
    let s2 : St := { s1 with nodes := s1.nodes ++ [⟨.id .macroId name none, 0, []⟩] }
    have hb2 : s2.nodeBase ≤ s2.nodes.length := (Grow.alloc s1 _).base hb1
    have g2 : Grow s1 s2 := Grow.alloc s1 _
    have l2 : Live s2 s1.nodes.length ⟨.id .macroId name none, 0, []⟩ := Live.alloc hb1 _
    let s3 : St := { s2 with nodes := s2.nodes ++ [⟨.macroEx name s1.nodes.length q, 0, []⟩] }
    have g3 : Grow s2 s3 := Grow.alloc s2 _
    obtain ⟨c', hl', hc'⟩ := (g3.keeps (mb := false)).id l2 (by intro h; cases h)
    refine ⟨s2.nodes.length, s3, ?_, (g1.trans g2).trans g3, s1.nodes.length, c', q, Live.alloc hb2 _, hl', ?_, (by intro h; cases h),
      l1.keep (g2.trans g3).keeps⟩
    · show buildStmt _ _ im (.word first name args) s = _
      unfold buildStmt
      rw [getS_bind, if_pos hw]
      exact built_run ((bind_ok r1).trans ((bind_ok (alloc_run _ _ s1)).trans (alloc_run _ _ s2)))
    · rcases hc' with h | ⟨h, _⟩
      · exact Or.inl h
      · refine Or.inr (h.trans ?_)
        exact ((g3.keeps (mb := false)).look name (by intro h; cases h)).symm
  | _ => exact ⟨0, fun f _ im s _ _ _ _ hp => hp.elim⟩

end Verif
