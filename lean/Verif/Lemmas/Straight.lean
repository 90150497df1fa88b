import Verif.Lemmas.OpenData

/-! # Programs read from the top to the bottom -/

namespace Verif

open Spec (Simple Usable AllUsable Direct1 Straight)

theorem Spec.Usable.global {env : Str → Option Int} {n : Str} (h : Usable env n) : Spec.global n = true := by
  rcases h with ⟨h, _⟩ | rfl | rfl
  · exact h.global
  · rfl
  · rfl

theorem usable_global {env : Str → Option Int} {st : Stmt} (h : AllUsable env st) : Spec.noLocals st = true := by
  cases st with
  | op ins mode e =>
    cases e with
    | none => rfl
    | some e => exact List.all_eq_true.2 fun n hn => (h n hn).global
  | data size hd tl => exact List.all_eq_true.2 fun x hx => List.all_eq_true.2 fun n hn => (h x hx n hn).global
  | fill v n =>
    show (_ && _) = true
    rw [Bool.and_eq_true]
    exact ⟨List.all_eq_true.2 fun n hn => (h.1 n hn).global, List.all_eq_true.2 fun n hn => (h.2 n hn).global⟩
  | assign x e => exact h.elim
  | _ => rfl

/-- A new name does not change what the others mean. -/
theorem usable_agree {s : St} {envF env : Str → Option Int} (h : Partly s envF env) (ht : NameTable env) {x : Str} (hx : Simple x)
    (hn : env x = none) (v : Int) (ns : List Node) (ll : Option Str) {n : Str} (hu : Usable env n) :
    let t : St := { defined s x v with nodes := ns, lastLabel := ll }
    look s n = look t n ∧ envOf s n = envOf t n ∧ ∀ i, look s n = some i → s.syms[i]? = t.syms[i]? := by
  intro t
  have hcs : CStr n := by
    rcases hu with ⟨h1, _⟩ | rfl | rfl
    · exact h1.cstr
    · intro c hc; simp at hc; omega
    · intro c hc; simp at hc; omega
  have hdiff : ¬ Spec.foldCase n = Spec.foldCase x := by
    intro hc
    rcases hu with ⟨h1, h2⟩ | rfl | rfl
    · rw [ht.fold n x hc, hn] at h2
      cases h2
    · exact hx.2.2 hc.symm
    · exact hx.2.2 hc.symm
  have l1 : look s n = symFind s.syms n ∧ look t n = symFind (defSyms s x v) n := by
    rcases hu with ⟨h1, _⟩ | h1
    · exact ⟨h1.look h.scope, h1.look (s := t) h.scope⟩
    · have key : ∀ u : St, u.currentScope = none → look u n = symFind u.syms n := by
        intro u hs
        unfold look
        rcases h1 with rfl | rfl
        · rw [show addSymbolKey u [65] = (u.currentScope, [65]) from rfl, hs]
          rfl
        · rw [show addSymbolKey u [97] = (u.currentScope, [97]) from rfl, hs]
          rfl
      exact ⟨key s h.scope, key t h.scope⟩
  have l2 : look s n = look t n := by
    rw [l1.1, l1.2, find_defSyms h.scope hx h.named hcs, if_neg hdiff]
  have l3 : ∀ i, look s n = some i → s.syms[i]? = t.syms[i]? := by
    intro i hi
    show s.syms[i]? = (defSyms s x v)[i]?
    rw [get_other (find_ne h.scope hx h.named hcs (by rw [← l1.1]; exact hi) hdiff) (look_lt hi)]
  refine ⟨l2, ?_, l3⟩
  unfold envOf
  rw [← l2]
  cases hi : look s n with
  | none => rfl
  | some i =>
    simp only
    rw [l3 i hi]

theorem all_agree {s : St} {envF env : Str → Option Int} (h : Partly s envF env) (ht : NameTable env) {x : Str} (hx : Simple x) (hn : env x = none)
    (v : Int) (ns : List Node) (ll : Option Str) {st : Stmt} (hu : AllUsable env st) :
    StmtSame s { defined s x v with nodes := ns, lastLabel := ll } st := by
  cases st with
  | op ins mode e =>
    cases e with
    | none => trivial
    | some e => exact fun n hm => usable_agree h ht hx hn v ns ll (hu n hm)
  | data size hd tl => exact fun y hy n hm => usable_agree h ht hx hn v ns ll (hu y hy n hm)
  | fill a b => exact ⟨fun n hm => usable_agree h ht hx hn v ns ll (hu.1 n hm), fun n hm => usable_agree h ht hx hn v ns ll (hu.2 n hm)⟩
  | assign y e => exact hu.elim
  | _ => trivial

theorem line_stmt {C : Spec.Context} {ll : Option Str} {pc : Int} {fresh : Bool} {file : Str} {line : Int} {st : Stmt} {bs : List Nat}
    (hw : ∀ x, st = .word true x none → False) (h : Spec.Placed C (C.env ll) pc fresh bs st) :
    Spec.Line C ll pc fresh (.stmt file line st) ll bs := by
  cases st with
  | word b n a =>
    cases b with
    | false => exact ⟨rfl, h⟩
    | true =>
      cases a with
      | some a => exact ⟨rfl, h⟩
      | none => exact (hw n rfl).elim
  | _ => exact ⟨rfl, h⟩

theorem strict_complete {env : Str → Option Int} {pc : Int} : ∀ {e : Expr}, Spec.Strict e → e.complete env pc = true
  | .int _, _ => rfl
  | .pc, _ => rfl
  | .sym _, _ => rfl
  | .un _ e, h => strict_complete (e := e) h
  | .bin op a b, ⟨h1, h2, h3, h4, h5⟩ => by
    by_cases hd : op = .div
    · obtain ⟨k, hk, rfl⟩ := h1 hd
      subst hd
      have : ¬ (Spec.eval env pc (.int k)).map (·.1) = some 0 := by
        intro h
        simp only [Spec.eval, Option.map_map, Option.map_eq_some_iff] at h
        obtain ⟨x, h, h'⟩ := h
        have h' : x = 0 := h'
        obtain ⟨h'', _⟩ := rng_some h
        omega
      simp only [Expr.complete, if_neg this, Bool.true_and]
      exact strict_complete h4
    · rw [complete_bin hd h2 h3, strict_complete h4, strict_complete h5]
      rfl

/-- When the names have their values, the instruction is as any other. -/
theorem forward_emits {C C' : Spec.Context} (hC : SameCtx C C') {envF env env1 env' : Str → Option Int} {pc : Int} {fresh : Bool} {bs : List Nat}
    {st : Stmt} (he : ∀ n, Simple n → env' n = envF n) (h : Spec.Forward C envF env env1 pc bs st) :
    Spec.Emits C' env' pc fresh bs st ∧ Spec.noLocals st = true := by
  unfold Spec.Forward at h
  split at h
  · rename_i ins mode e
    obtain ⟨h0, h1, _, _, form, v, h3, h4, h5, _⟩ := h
    refine ⟨Or.inr ⟨form, v, h3, ?_, strict_complete h0, by rw [hC.cpu]; exact h5⟩, List.all_eq_true.2 fun m hm => (h1 m hm).1.global⟩
    rw [eval_congr fun n hn => he n (h1 n hn).1]
    exact h4
  · rename_i size hd tl
    obtain ⟨h1, h2, h3⟩ := h
    have hs : ∀ x ∈ hd :: tl, ∀ n ∈ x.names, Simple n := fun x hx n hn => by
      cases x with
      | expr e => exact ((h2 e hx).2.1 n hn).1
      | str raw => cases hn
    refine ⟨⟨by omega, ?_⟩, List.all_eq_true.2 fun x hx => List.all_eq_true.2 fun m hm => (hs x hx m hm).global⟩
    rw [hC.text, items_congr fun x hx n hn => he n (hs x hx n hn)]
    exact h3
  · exact h.elim

/-- When all symbols have their values, reading from the top to the bottom is the layout of the program. -/
theorem straight_layout {C : Spec.Context} {s : St} {envF : Str → Option Int} (hh : Holds s envF) (hF : NameTable envF)
    (hC : SameCtx C (ctxOf s)) : ∀ {prog : List Top} {env : Str → Option Int} {pc : Int} {fresh : Bool} {bs : List Nat} (ll : Option Str),
    NameTable env → Straight C env pc fresh prog envF bs → ∃ ll', Spec.Layout (ctxOf s) ll pc fresh prog ll' bs
  | [], _, _, _, _, ll, _, hd => ⟨ll, rfl, hd.2⟩
  | t :: ts, env, pc, fresh, bs, ll, he, hd => by
    obtain ⟨env1, b1, b2, h1, h2, rfl⟩ := hd
    obtain ⟨g1, g2⟩ := direct_table he h1
    have g3 : ∀ n w, env1 n = some w → envF n = some w := (straight_table g1 h2).2
    have hg : ∀ n w, env n = some w → envF n = some w := fun n w hn => g3 n w (g2 n w hn)
    have hu : ∀ n, Usable env n → envOf { s with lastLabel := ll } n = env n := fun n hn => (hh.label ll).usable hF hg he hn
    have lab : ∀ x, Simple x → (∀ n w, Spec.define env x pc n = some w → envF n = some w) →
        Spec.Defines (ctxOf s) ll pc x (some x) := by
      intro x hx g3
      refine ⟨hh.settled.macro x, fun hc => (hx.chars (hx.head hc)).2.2.1 rfl, fun hc => (hx.chars (hx.head hc)).2.2.2.1 rfl, ?_,
        Or.inl ⟨fun hc => (hx.chars (hx.head hc)).2.1 rfl, rfl⟩⟩
      show envOf { s with lastLabel := some x } x = some pc
      rw [(hh.label (some x)).agree x hx]
      exact g3 x pc (by unfold Spec.define; rw [if_pos rfl])
    have key : ∃ ll1, Spec.Line (ctxOf s) ll pc fresh t ll1 b1 := by
      unfold Direct1 at h1
      split at h1
      · rename_i x
        obtain ⟨hx, _, _, _, rfl, rfl⟩ := h1
        exact ⟨some x, lab x hx g3, rfl⟩
      · rename_i x
        obtain ⟨hx, _, _, _, rfl, ⟨hU, hp | hp⟩ | hw⟩ := h1
        · exact ⟨some _, lab _ hx g3, Or.inl (emits_same hC hu hU hp), Or.inr (usable_global hU)⟩
        · exact ⟨some _, lab _ hx g3, Or.inr (Or.inl (far_same hC hu hU hp)), Or.inr (usable_global hU)⟩
        · obtain ⟨k1, k2⟩ := forward_emits (fresh := fresh) hC (fun n hn => (hh.label ll).agree n hn) hw
          exact ⟨some _, lab _ hx g3, Or.inl k1, Or.inr k2⟩
      · rename_i x e
        obtain ⟨hx, _, hn, v, hv, _, _, rfl, rfl⟩ := h1
        refine ⟨ll, rfl, Or.inl ⟨v, ?_, ?_, rfl⟩⟩
        · show Spec.eval (envOf { s with lastLabel := ll }) pc e = _
          rw [eval_congr fun m hm => hu m (hn m hm)]
          exact hv
        · show envOf { s with lastLabel := ll } x = some v
          rw [(hh.label ll).agree x hx]
          exact g3 x v (by unfold Spec.define; rw [if_pos rfl])
      · rename_i st w1 w2
        obtain ⟨rfl, ⟨hU, hp⟩ | hw⟩ := h1
        · exact ⟨ll, line_stmt w1 (placed_same hC hu hU hp)⟩
        · exact ⟨ll, line_stmt w1 (Or.inl (forward_emits (fresh := fresh) hC (fun n hn => (hh.label ll).agree n hn) hw).1)⟩
      · exact h1.elim
    obtain ⟨ll1, hl⟩ := key
    obtain ⟨ll', h'⟩ := straight_layout hh hF hC ll1 g1 h2
    exact ⟨ll', ll1, b1, b2, hl, h', rfl⟩

/-- What the first pass leaves as it was. -/
structure Ahead (s s' : St) : Prop where
  heap : s.nodes.length ≤ s'.nodes.length
  base : s'.nodeBase = s.nodeBase
  cpu : s'.cpu = s.cpu
  ill : s'.allowIllegal = s.allowIllegal
  format : s'.format = s.format
  files : s'.files = s.files
  errors : s'.errorCount = s.errorCount
  total : s'.totalBytes = s.totalBytes
  out : s'.out = s.out
  final : s'.finalPass = s.finalPass

theorem Ahead.trans {s t u : St} (h : Ahead s t) (h' : Ahead t u) : Ahead s u :=
  ⟨Nat.le_trans h.heap h'.heap, h'.base.trans h.base, h'.cpu.trans h.cpu, h'.ill.trans h.ill, h'.format.trans h.format,
    h'.files.trans h.files, h'.errors.trans h.errors, h'.total.trans h.total, h'.out.trans h.out, h'.final.trans h.final⟩

theorem emitting_draft {s : St} (h : s.finalPass = false) : emitting s = false := by
  unfold emitting
  rw [h]
  rfl

theorem DefLine.next {s s' : St} {x : Str} {v : Int} {fresh : Bool} {envF env : Str → Option Int} (hd : DefLine s s' x v) (hs : Flat s fresh)
    (hf : s.finalPass = false) (hx : Simple x) (hh : Partly s envF env) :
    Flat s' fresh ∧ s'.pc = s.pc ∧ Partly s' envF (Spec.define env x v) ∧ Ahead s s' := by
  obtain ⟨ns, fl, ln, ll, hn, rfl⟩ := hd
  have hem := emitting_draft hf
  refine ⟨⟨hs.running, Nat.le_trans hs.heap hn, hs.origin, hs.count, fun h => ?_, fun h => ?_⟩, rfl, (hh.define hx v).of rfl rfl,
    ⟨hn, rfl, rfl, rfl, rfl, rfl, rfl, rfl, rfl, rfl⟩⟩
  · exact absurd (hem.symm.trans h) (by decide)
  · exact absurd (hem.symm.trans h) (by decide)

theorem Laid.ahead {s s' : St} {ll : Option Str} {bs : List Nat} {envF env : Str → Option Int} (h : Laid s s' ll bs) (hf : s.finalPass = false)
    (hh : Partly s envF env) : Partly s' envF env ∧ Ahead s s' := by
  obtain ⟨ns, cg, ds, bd, et, fl, ln, hd, ls, w, ic, g1, g2, rfl⟩ := h
  have hem := emitting_draft hf
  refine ⟨hh.of rfl rfl, ⟨g1.1, rfl, rfl, rfl, rfl, rfl, rfl, ?_, ?_, rfl⟩⟩
  · simp [hem]
  · simp [hem]

theorem data_fuel {size : Int} {hd : Item} {tl : List Item} {x : Item} (h : x ∈ hd :: tl) :
    x.depth + (hd :: tl).length + 1 ≤ (Stmt.data size hd tl).fuel := by
  have := mem_le_sum (List.mem_map_of_mem (f := Item.depth) h)
  simp only [Stmt.fuel]
  omega

/-- A statement whose operand has no value yet. -/
theorem forward_run {C : Spec.Context} {f : Nat} {s : St} {file : Str} {line : Int} {st : Stmt} {envF env : Str → Option Int} {fresh : Bool}
    {bs : List Nat} (hs : Flat s fresh) (hp : s.finalPass = false) (hh : Partly s envF env) (he : NameTable env) (hC : SameCtx C (ctxOf s))
    (hf : st.fuel + 3 ≤ f) (hw : Spec.Forward C envF env env s.pc bs st) :
    ∃ s', runTop (expandNode f) (hasUninit f) (.stmt file line st) s = (.ok true, s') ∧ Flat s' (fresh && bs.isEmpty) ∧
      s'.pc = s.pc + bs.length ∧ Partly s' envF env ∧ Ahead s s' := by
  obtain ⟨f, rfl⟩ : ∃ g, f = g + 1 := ⟨f - 1, by omega⟩
  have hem := emitting_draft hp
  unfold Spec.Forward at hw
  split at hw
  · rename_i ins mode e
    obtain ⟨h0, h1, h2, h3, form, v, rfl, h4, h5, h6⟩ := hw
    simp only [Stmt.fuel] at hf
    have hcpu : s.cpu = C.cpu := hC.cpu
    rw [← hcpu] at h5 h6
    obtain ⟨k1, k2⟩ := open_size (ill := s.allowIllegal) h5 h6
    obtain ⟨⟨w, z⟩, hw⟩ := Option.isSome_iff_exists.1 h3
    let u : St := atLine s file line
    obtain ⟨p, q, t, r1, ht, O⟩ := buildOp_open (f := f + 1) (s := u) hs.running hs.heap (hh.of rfl rfl) he ⟨h0, h1⟩ (by omega) hw h2 k1 false
    obtain ⟨n1, y1, rfl⟩ := O.eq
    let t : St := { u with nodes := n1, syms := y1 }
    have ht : Partly t envF env := ht
    have O : OpenOp u t e ins (Form.mode form) p q := O
    obtain ⟨ns, cg, r2, hn⟩ := expandOp_open (f := f) (s := t) (p := p) (q := q) (e := e) hs.running hs.origin hp ht (by omega) O.tree O.filled h2 O.node
    have hn' : s.nodes.length ≤ ns.length := by
      rw [← hn]
      exact O.grows
    refine ⟨_, runTop_stmt (v := 0) (by intros; simp) r1 r2, ⟨hs.running, Nat.le_trans hs.heap hn', hs.origin, hs.count, fun h => ?_, fun h => ?_⟩, ?_,
      ht.of rfl rfl, ⟨hn', rfl, rfl, rfl, rfl, rfl, rfl, rfl, rfl, rfl⟩⟩
    · exact absurd (hem.symm.trans h) (by decide)
    · exact absurd (hem.symm.trans h) (by decide)
    · show s.pc + _ = _
      rw [← k2]
      rfl
  · rename_i size hd tl
    obtain ⟨h1, h2, h3⟩ := hw
    rw [← hC.text] at h3
    have h3 : Spec.items textOf envF size s.pc (hd :: tl) = some bs := h3
    let u : St := atLine s file line
    obtain ⟨l, q, r1, hl⟩ := buildItems_run (lk := seen u) hd tl u hs.heap (items_text h3)
    let N : Node := ⟨.data size q, 0, []⟩
    let t : St := { u with nodes := u.nodes ++ l ++ [N] }
    have hb : s.nodeBase ≤ (u.nodes ++ l).length := by
      have := hs.heap
      show _ ≤ (s.nodes ++ l).length
      rw [List.length_append]
      omega
    have r2 : buildStmt (expandNode (f + 1)) (hasUninit (f + 1)) false (.data size hd tl) u = (.ok (some (u.nodes ++ l).length), t) := by
      refine built_run ?_
      show (buildItems hd tl >>= fun p => dataNode size p) u = _
      rw [bind_ok r1]
      exact alloc_run _ _ _
    obtain ⟨ns, sy, et, r, hP, hn⟩ := dataNode_open he (f := f) (s := t) (p := (u.nodes ++ l).length) (q := q) (xs := hd :: tl) (bs := bs) h1
      (fun x hx => by have := data_fuel (size := size) hx; omega) hs.running hp (hh.of rfl rfl)
      (fun e hx => ⟨⟨(h2 e hx).1, (h2 e hx).2.1⟩, (h2 e hx).2.2⟩) ⟨hb, by simp [t, N]⟩ (hl.sim (HeapSim.append false _ _ [N])) h3
    have hn' : s.nodes.length ≤ ns.length := by
      refine Nat.le_trans ?_ hn
      show s.nodes.length ≤ (s.nodes ++ l ++ [N]).length
      simp only [List.length_append]
      omega
    refine ⟨_, runTop_stmt (v := 0) (by intros; simp) r2 r, ⟨hs.running, Nat.le_trans hs.heap hn', rfl, hs.count, fun h => ?_, fun h => ?_⟩, rfl,
      hP.of rfl rfl, ⟨hn', rfl, rfl, rfl, rfl, rfl, rfl, rfl, rfl, rfl⟩⟩
    · exact absurd h (by rw [emitting_draft (by exact hp)]; decide)
    · exact absurd h (by rw [emitting_draft (by exact hp)]; decide)
  · exact hw.elim

/-- A label takes no name away. -/
theorem label_wider {t : St} {envF env : Str → Option Int} (ht : Partly t envF env) {x : Str} (hx : Simple x) (ns : List Node) :
    Wider (seen t) (seen { defined t x t.pc with nodes := ns, lastLabel := some x }) := by
  intro n i hi
  obtain ⟨hn, hi⟩ := seen_some hi
  rw [seen_eq hn, hn.look (s := { defined t x t.pc with nodes := ns, lastLabel := some x }) ht.scope]
  show symFind (defSyms t x t.pc) n = _
  rw [find_defSyms ht.scope hx ht.named hn.cstr]
  rw [hn.look ht.scope] at hi
  split
  · rename_i hfold
    rw [symFind_fold hn.cstr hx.cstr hfold ht.named] at hi
    unfold slot
    rw [hx.look ht.scope, hi]
  · exact hi

/-- The same beside a label. -/
theorem forward_labelled {C : Spec.Context} {f : Nat} {s : St} {file : Str} {line : Int} {x : Str} {st : Stmt} {envF env : Str → Option Int}
    {fresh : Bool} {bs : List Nat} (hs : Flat s fresh) (hp : s.finalPass = false) (hh : Partly s envF env) (he : NameTable env)
    (hC : SameCtx C (ctxOf s)) (hf : st.fuel + 3 ≤ f) (hx : Simple x) (hx0 : env x = none) (p0 : 0 ≤ s.pc) (p1 : s.pc < 65536)
    (hg : ∀ n w, Spec.define env x s.pc n = some w → envF n = some w)
    (hw : Spec.Forward C envF env (Spec.define env x s.pc) s.pc bs st) :
    ∃ s', runLabelled (expandNode f) (hasUninit f) x st (atLine s file line) = (.ok true, s') ∧ Flat s' (fresh && bs.isEmpty) ∧
      s'.pc = s.pc + bs.length ∧ Partly s' envF (Spec.define env x s.pc) ∧ Ahead s s' := by
  obtain ⟨f, rfl⟩ : ∃ g, f = g + 1 := ⟨f - 1, by omega⟩
  have hem := emitting_draft hp
  unfold Spec.Forward at hw
  split at hw
  · rename_i ins mode e
    obtain ⟨h0, h1, h2, h3, form, v, rfl, h4, h5, h6⟩ := hw
    simp only [Stmt.fuel] at hf
    have hcpu : s.cpu = C.cpu := hC.cpu
    rw [← hcpu] at h5 h6
    obtain ⟨k1, k2⟩ := open_size (ill := s.allowIllegal) h5 h6
    obtain ⟨⟨w, z⟩, hw⟩ := Option.isSome_iff_exists.1 h3
    let u : St := atLine s file line
    obtain ⟨p, q, t, r1, ht, O⟩ := buildOp_open (f := f + 1) (s := u) hs.running hs.heap (hh.of rfl rfl) he ⟨h0, h1⟩ (by omega) hw h2 k1 false
    obtain ⟨n1, y1, rfl⟩ := O.eq
    let t : St := { u with nodes := n1, syms := y1 }
    have ht : Partly t envF env := ht
    have O : OpenOp u t e ins (Form.mode form) p q := O
    have r1 : buildStmt (expandNode (f + 1)) (hasUninit (f + 1)) false (.op ins (Form.mode form) (some e)) u = (.ok (some p), t) := r1
    obtain ⟨g, rfl⟩ : ∃ g, f = g + 2 := ⟨f - 2, by omega⟩
    have hgr : s.nodes.length ≤ t.nodes.length := O.grows
    obtain ⟨l, lq, t', c1, c2⟩ := label_def (f := g + 1) (t := t) hs.running
      (Nat.le_trans hs.heap hgr) ht.scope hx (ht.undefined hx hx0) p0 p1
    let t4 : St := { defined t x t.pc with nodes := t.nodes ++ l, lastLabel := some x }
    have c2' : expandNode (g + 3) lq t' = (.ok t.pc, t4) := c2
    have hwide : Wider (seen t) (seen t4) := label_wider ht hx (t.nodes ++ l)
    have hP4 : Partly t4 envF (Spec.define env x t.pc) := (ht.define hx t.pc).of (s := defined t x t.pc) rfl rfl
    have htree : ExprAt (seen t4) t4.nodeBase t4.nodes e q := (O.tree.append l).wider hwide
    have hfil : Filled (seen t4) t4.nodes e q := (O.filled.sim (HeapSim.append false (seen t) t.nodes l)).wider hwide
    have hnode := O.node
    have hlp : p < t.nodes.length := hnode.lt
    have hlive : Live t4 p ⟨.opcode ins (openMode (getOpCode s.cpu s.allowIllegal ins) (Form.mode form)).2
        (openMode (getOpCode s.cpu s.allowIllegal ins) (Form.mode form)).1 0, 1, [q]⟩ :=
      ⟨hnode.1, by show (t.nodes ++ l)[p]? = _; rw [List.getElem?_append_left hlp]; exact hnode.2⟩
    have run : ∀ {t5 : St}, expandNode (g + 3) p t4 = (.ok 0, t5) →
        runLabelled (expandNode (g + 3)) (hasUninit (g + 3)) x (.op ins (Form.mode form) (some e)) u = (.ok true, t5) := by
      intro t5 r2'
      unfold runLabelled
      rw [bind_ok r1]
      show (buildLabel x >>= _) t = _
      rw [bind_ok c1, bind_ok c2']
      show (expandNode (g + 3) p >>= _) t4 = _
      rw [bind_ok r2']
      rfl
    by_cases h2' : ∃ n ∈ e.names, Spec.define env x t.pc n = none
    · obtain ⟨ns, cg, r2, hn⟩ := expandOp_open (f := g + 2) (s := t4) (p := p) (q := q) (e := e) hs.running hs.origin hp hP4
        (by omega) htree hfil h2' hlive
      have hn' : s.nodes.length ≤ ns.length := by
        rw [← hn]
        simp only [t4, List.length_append]
        omega
      let t5 : St := { t4 with
        nodes := ns
        codeGenerated := cg
        pc := t.pc + (opByteCount (openMode (getOpCode s.cpu s.allowIllegal ins) (Form.mode form)).1 + 1) }
      have r2' : expandNode (g + 3) p t4 = (.ok 0, t5) := r2
      refine ⟨t5, run r2', ⟨hs.running, Nat.le_trans hs.heap hn', hs.origin, hs.count, fun h => ?_, fun h => ?_⟩, ?_,
        hP4.of rfl rfl, ⟨hn', rfl, rfl, rfl, rfl, rfl, rfl, rfl, rfl, rfl⟩⟩
      · exact absurd (hem.symm.trans h) (by decide)
      · exact absurd (hem.symm.trans h) (by decide)
      · show s.pc + _ = _
        rw [← k2]
    · have hall : ∀ n ∈ e.names, (Spec.define env x t.pc n).isSome = true := by
        intro n hn
        cases hc : Spec.define env x t.pc n with
        | none => exact absurd ⟨n, hn, hc⟩ h2'
        | some w => rfl
      obtain ⟨m, c, hef, k3⟩ := open_effective (ill := s.allowIllegal) h5 h6
      have hval : Spec.eval (envOf t4) t4.pc e = some (v, false) := by
        rw [eval_congr (env' := envF) fun n hn => ?_]
        · exact h4
        · rw [hP4.agree n (h1 n hn).1]
          obtain ⟨w, hw⟩ := Option.isSome_iff_exists.1 (hall n hn)
          rw [hw]
          exact (hg n w hw).symm
      have hd4 : emitting (orig t4) = false := emitting_draft (by rw [orig_eq]; exact hp)
      obtain ⟨t5, r2, a⟩ := expandOp_run (f := g + 2) (s := t4) (k := 1) (ops := [q]) (v := v) (m := m) (c := c) hs.running hlive
        (fun _ => ⟨q, e, rfl, rfl, by omega, htree.wider (seen_look t4), hfil.done hP4 hall, hval⟩) hef
        (fun h => absurd (hd4.symm.trans h) (by decide))
      have r2' : expandNode (g + 3) p t4 = (.ok 0, t5) := by
        rw [expandNode_run (s := t4) hs.running hlive]
        exact r2
      obtain ⟨ns, cg, ds, bd, et, hsim, rfl⟩ := a
      have horig : orig t4 = t4 := by
        unfold orig
        split
        · show ({ t4 with originSpecified := true } : St) = t4
          rw [← show t4.originSpecified = true from hs.origin]
        · rfl
      rw [horig] at hsim r2' hd4
      simp only [if_neg (show ¬ emitting t4 = true by rw [hd4]; decide), Int.add_zero, List.append_nil] at r2'
      have hn' : s.nodes.length ≤ ns.length := by
        refine Nat.le_trans ?_ hsim.1
        show _ ≤ (t.nodes ++ l).length
        rw [List.length_append]
        omega
      refine ⟨_, run r2', ⟨hs.running, Nat.le_trans hs.heap hn', hs.origin, hs.count, fun h => ?_, fun h => ?_⟩, ?_,
        hP4.of rfl rfl, ⟨hn', rfl, rfl, rfl, rfl, rfl, rfl, rfl, rfl, rfl⟩⟩
      · exact absurd h (by rw [emitting_draft (by exact hp)]; decide)
      · exact absurd h (by rw [emitting_draft (by exact hp)]; decide)
      · show s.pc + _ = _
        rw [← k3]
  · rename_i size hd tl
    obtain ⟨h1, h2, h3⟩ := hw
    rw [← hC.text] at h3
    have h3 : Spec.items textOf envF size s.pc (hd :: tl) = some bs := h3
    let u : St := atLine s file line
    obtain ⟨l0, q, r1, hl⟩ := buildItems_run (lk := seen u) hd tl u hs.heap (items_text h3)
    let N : Node := ⟨.data size q, 0, []⟩
    let t : St := { u with nodes := u.nodes ++ l0 ++ [N] }
    have hb : s.nodeBase ≤ (u.nodes ++ l0).length := by
      have := hs.heap
      show _ ≤ (s.nodes ++ l0).length
      rw [List.length_append]
      omega
    have r2 : buildStmt (expandNode (f + 1)) (hasUninit (f + 1)) false (.data size hd tl) u = (.ok (some (u.nodes ++ l0).length), t) := by
      refine built_run ?_
      show (buildItems hd tl >>= fun p => dataNode size p) u = _
      rw [bind_ok r1]
      exact alloc_run _ _ _
    have ht : Partly t envF env := hh.of rfl rfl
    have hgr : s.nodes.length ≤ t.nodes.length := by
      show s.nodes.length ≤ (s.nodes ++ l0 ++ [N]).length
      simp only [List.length_append]
      omega
    obtain ⟨g, rfl⟩ : ∃ g, f = g + 2 := ⟨f - 2, by omega⟩
    obtain ⟨l, lq, t', c1, c2⟩ := label_def (f := g + 1) (t := t) hs.running
      (Nat.le_trans hs.heap hgr) ht.scope hx (ht.undefined hx hx0) p0 p1
    let t4 : St := { defined t x t.pc with nodes := t.nodes ++ l, lastLabel := some x }
    have c2' : expandNode (g + 3) lq t' = (.ok t.pc, t4) := c2
    have hwide : Wider (seen t) (seen t4) := label_wider ht hx (t.nodes ++ l)
    have hP4 : Partly t4 envF (Spec.define env x t.pc) := (ht.define hx t.pc).of (s := defined t x t.pc) rfl rfl
    have hlist : ListAt (seen t4) t4.nodeBase t4.nodes (hd :: tl).reverse q :=
      ((hl.sim (HeapSim.append false _ _ [N])).sim (HeapSim.append false _ _ l)).wider hwide
    have hlen : (u.nodes ++ l0).length < t.nodes.length := by simp [t]
    obtain ⟨ns, sy, et, r, hP, hn⟩ := dataNode_open (he.define hx t.pc) (f := g + 2) (s := t4) (p := (u.nodes ++ l0).length) (q := q) (xs := hd :: tl)
      (bs := bs) h1 (fun y hy => by have := data_fuel (size := size) hy; omega) hs.running hp hP4
      (fun e hx => ⟨⟨(h2 e hx).1, (h2 e hx).2.1⟩, (h2 e hx).2.2⟩)
      ⟨hb, by show (t.nodes ++ l)[_]? = _; rw [List.getElem?_append_left hlen]; simp [t, N]⟩ hlist h3
    have hn' : s.nodes.length ≤ ns.length := by
      refine Nat.le_trans ?_ hn
      show _ ≤ (t.nodes ++ l).length
      rw [List.length_append]
      omega
    let t5 : St := { t4 with
      nodes := ns, syms := sy, expansionType := et, dataSize := size, originSpecified := true, pc := t.pc + bs.length }
    have r' : expandNode (g + 3) (u.nodes ++ l0).length t4 = (.ok 0, t5) := r
    refine ⟨t5, ?_, ⟨hs.running, Nat.le_trans hs.heap hn', rfl, hs.count, fun h => ?_, fun h => ?_⟩, rfl,
      hP.of rfl rfl, ⟨hn', rfl, rfl, rfl, rfl, rfl, rfl, rfl, rfl, rfl⟩⟩
    · unfold runLabelled
      rw [bind_ok r2]
      show (buildLabel x >>= _) t = _
      rw [bind_ok c1, bind_ok c2']
      show (expandNode (g + 3) (u.nodes ++ l0).length >>= _) t4 = _
      rw [bind_ok r']
      rfl
    · exact absurd h (by rw [emitting_draft (by exact hp)]; decide)
    · exact absurd h (by rw [emitting_draft (by exact hp)]; decide)
  · exact hw.elim

theorem direct_run {C : Spec.Context} {f : Nat} {s : St} {t : Top} {envF env env' : Str → Option Int} {fresh : Bool} {bs : List Nat}
    (hs : Flat s fresh) (hp : s.finalPass = false) (hh : Partly s envF env) (he : NameTable env) (hC : SameCtx C (ctxOf s))
    (hf : t.fuel + bs.length + 8 ≤ f) (hg : ∀ n w, env' n = some w → envF n = some w) (hd : Direct1 C envF env s.pc fresh t env' bs) :
    ∃ s', runTop (expandNode (f + 1)) (hasUninit (f + 1)) t s = (.ok true, s') ∧ Flat s' (fresh && bs.isEmpty) ∧ s'.pc = s.pc + bs.length ∧
      Partly s' envF env' ∧ Ahead s s' := by
  have hu : ∀ n, Usable env n → envOf s n = env n := fun n hn => hh.usable he hn
  have beside : ∀ file line x st, Simple x → env x = none → 0 ≤ s.pc → s.pc < 65536 → AllUsable env st →
      Spec.Emits C env s.pc fresh bs st → st.fuel + bs.length + 4 ≤ f →
      ∃ s', runLabelled (expandNode (f + 1)) (hasUninit (f + 1)) x st (atLine s file line) = (.ok true, s') ∧
        Flat s' (fresh && bs.isEmpty) ∧ s'.pc = s.pc + bs.length ∧ Partly s' envF (Spec.define env x s.pc) ∧ Ahead s s' := by
    intro file line x st hx h1 h2 h3 hU hE hfu
    have hu' : Partly (atLine s file line) envF env := hh.of rfl rfl
    have hE' : Spec.Emits (ctxOf s) (envOf s) s.pc fresh bs st := emits_same hC hu hU hE
    have hb : Built f (atLine s file line) st bs fun _ => True :=
      emits_built (s := atLine s file line) ⟨hs.running, hs.heap, hs.origin, hs.count, hs.5, hs.6⟩ hfu hE'
    obtain ⟨mid, s', r, d, a⟩ := labelled_new (f := f) (file := file) (line := line) (by omega) hs.running hs.heap hh.scope hx
      (hh.undefined hx h1) h2 h3 hb (fun ns => all_agree hu' he hx h1 s.pc ns (some x) hU)
    obtain ⟨g1, g2, g3, g4⟩ := d.next hs hp hx hh
    obtain ⟨k1, _, _, k2⟩ := a.flat g1
    obtain ⟨k3, k4⟩ := a.ahead (g4.final.trans hp) g3
    exact ⟨s', r, k1, by rw [k2, g2], k3, g4.trans k4⟩
  unfold Direct1 at hd
  split at hd
  · rename_i file line x
    obtain ⟨hx, h1, h2, h3, rfl, rfl⟩ := hd
    obtain ⟨s', r, g⟩ := beside file line x .empty hx h1 h2 h3 trivial rfl (by simp only [Stmt.fuel]; omega)
    exact ⟨s', word_top (hh.macro x) r, g⟩
  · rename_i file line x st
    obtain ⟨hx, h1, h2, h3, rfl, ⟨hU, hE | hE⟩ | hw⟩ := hd
    · obtain ⟨s', r, g⟩ := beside file line x st hx h1 h2 h3 hU hE (by simp only [Top.fuel] at hf; omega)
      exact ⟨s', labelled_top (hh.macro x) r, g⟩
    · obtain ⟨mid, s', r, d, a⟩ := far_new (f := f) (file := file) (line := line) hs (by simp only [Top.fuel] at hf; omega) hh.scope hx
        (hh.undefined hx h1) h2 h3 (far_same hC hu hU hE) (fun ns => all_agree (s := atLine s file line) (hh.of rfl rfl) he hx h1 s.pc ns (some x) hU)
      obtain ⟨g1, g2, g3, g4⟩ := d.next hs hp hx hh
      obtain ⟨k1, _, _, k2⟩ := a.flat g1
      obtain ⟨k3, k4⟩ := a.ahead (g4.final.trans hp) g3
      exact ⟨s', labelled_top (hh.macro x) r, k1, by rw [k2, g2], k3, g4.trans k4⟩
    · obtain ⟨s', r, g⟩ := forward_labelled (f := f + 1) (file := file) (line := line) hs hp hh he hC (by simp only [Top.fuel] at hf; omega) hx h1 h2 h3 hg hw
      exact ⟨s', labelled_top (hh.macro x) r, g⟩
  · rename_i file line x e
    obtain ⟨hx, h1, hn, v, hv, h2, h3, rfl, rfl⟩ := hd
    obtain ⟨s', r, d⟩ := assign_new (f := f) (file := file) (line := line) (e := e) (by simp only [Top.fuel, Stmt.fuel] at hf; omega) hs.running hs.heap
      hh.scope hx (hh.undefined hx h1) (by rw [eval_congr fun m hm => hu m (hn m hm)]; exact hv) h2 h3
    obtain ⟨g1, g2, g3, g4⟩ := d.next hs hp hx hh
    exact ⟨s', r, by simpa using g1, by simpa using g2, g3, g4⟩
  · rename_i file line st w1 w2
    obtain ⟨rfl, ⟨hU, hpl⟩ | hw⟩ := hd
    · have hpl := placed_same hC hu hU hpl
      have hline : Spec.Line (ctxOf s) s.lastLabel s.pc fresh (.stmt file line st) s.lastLabel bs := line_stmt w1 hpl
      obtain ⟨s', r, a⟩ := line_run (f := f) hs hf hline
      obtain ⟨g1, _, _, g2⟩ := a.flat hs
      obtain ⟨g3, g4⟩ := a.ahead hp hh
      exact ⟨s', r, g1, g2, g3, g4⟩
    · exact forward_run (f := f + 1) hs hp hh he hC (by simp only [Top.fuel] at hf; omega) hw
  · exact hd.elim

/-- The first pass. -/
theorem straight_run {C : Spec.Context} {f : Nat} : ∀ {prog : List Top} {s : St} {env env' : Str → Option Int} {fresh : Bool} {bs : List Nat},
    Flat s fresh → s.finalPass = false → Partly s env' env → NameTable env → SameCtx C (ctxOf s) → progFuel prog bs ≤ f →
    Straight C env s.pc fresh prog env' bs →
    ∃ s', runFile (expandNode (f + 1)) (hasUninit (f + 1)) prog s = (.ok (), s') ∧ Holds s' env' ∧ Ahead s s'
  | [], s, env, env', fresh, bs, _, _, hh, _, _, _, hd => by
    obtain ⟨rfl, _⟩ := hd
    exact ⟨s, rfl, hh.holds, ⟨Nat.le_refl _, rfl, rfl, rfl, rfl, rfl, rfl, rfl, rfl, rfl⟩⟩
  | t :: ts, s, env, env', fresh, bs, hs, hp, hh, he, hC, hf, hd => by
    obtain ⟨env1, b1, b2, h1, h2, rfl⟩ := hd
    simp only [progFuel, List.map_cons, List.sum_cons, List.length_append] at hf
    obtain ⟨s1, r1, g1, g2, g3, g4⟩ := direct_run (f := f) hs hp hh he hC (by omega) (straight_table (direct_table he h1).1 h2).2 h1
    rw [← g2] at h2
    have hC1 : SameCtx C (ctxOf s1) := ⟨g4.cpu.trans hC.cpu, by
      show decide (s1.format = .bin) = _
      rw [g4.format]
      exact hC.raw, g4.files.trans hC.files, hC.text⟩
    obtain ⟨s2, r2, g5, g6⟩ := straight_run (f := f) g1 (g4.final.trans hp) g3 (direct_table he h1).1 hC1 (by simp only [progFuel]; omega) h2
    exact ⟨s2, (runFile_cons r1).trans r2, g5, g4.trans g6⟩

end Verif
