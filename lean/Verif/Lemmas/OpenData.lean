import Verif.Lemmas.Open

/-! # Data with names that have no value yet -/

namespace Verif

open Spec (Simple)

theorem Reach.refl {envF env : Str → Option Int} {s : St} (hh : Partly s envF env) : Reach envF env s s :=
  ⟨⟨_, _, rfl⟩, hh, fun _ _ h => h, HeapSim.refl _ _ _⟩

theorem Reach.atPc {envF env : Str → Option Int} {s t : St} (h : Reach envF env s t) (a : Int) :
    Reach envF env { s with pc := a } { t with pc := a } := by
  obtain ⟨ns, sy, e⟩ := h.eq
  exact ⟨⟨ns, sy, by rw [e]⟩, h.partly.of rfl rfl, h.wider, h.heap⟩

theorem ItemAt.wider {lk lk' : Str → Option SymPtr} (hw : Wider lk lk') {base : Nat} {ns : List Node} {x : Item} {p : Ptr}
    (h : ItemAt lk base ns x p) : ItemAt lk' base ns x p := by
  cases x with
  | expr e => exact ExprAt.wider (e := e) hw h
  | str raw => exact h

theorem ListAt.wider {lk lk' : Str → Option SymPtr} (hw : Wider lk lk') {base : Nat} {ns : List Node} :
    ∀ {xs : List Item} {p : Ptr}, ListAt lk base ns xs p → ListAt lk' base ns xs p
  | [], _, h => h
  | [_], _, ⟨hb, q, hn, hq⟩ => ⟨hb, q, hn, hq.wider hw⟩
  | _ :: _ :: _, _, ⟨hb, r, q, hn, hr, hq⟩ => ⟨hb, r, q, hn, ListAt.wider hw hr, hq.wider hw⟩

/-- The direct subexpressions of an item, and whether they have values. -/
theorem kids_open {envF env : Str → Option Int} (ht : NameTable env) {f : Nat} {s : St} {p : Ptr} {e : Expr} {n : Node} (hd : e.depth < f)
    (he : s.endExpansion = false) (hh : Partly s envF env) (hl : Later envF e) (hx : ExprAt (seen s) s.nodeBase s.nodes e p)
    (hn : s.nodes[p]? = some n) (hv : (Spec.eval (Spec.soFar env) s.pc e).isSome = true) :
    ∃ s' b, forEachM (fun o => do let _ ← expandNode f o; M.pure ()) (n.ops.take n.numOps) s = (.ok (), s') ∧ Reach envF env s s' ∧
      hasUninit f p s' = (.ok b, s') := by
  obtain ⟨⟨v, z⟩, hv⟩ := Option.isSome_iff_exists.1 hv
  cases e with
  | int w =>
    have h2 : some n = some _ := hn.symm.trans hx.2
    cases h2
    obtain ⟨b, _, r, _⟩ := open_uninit hh (f := f) hd hx trivial
    exact ⟨s, b, rfl, .refl hh, r⟩
  | pc =>
    obtain ⟨hb, w, hw⟩ := hx
    cases hn.symm.trans hw
    obtain ⟨b, _, r, _⟩ := open_uninit hh (e := .pc) (f := f) hd ⟨hb, w, hw⟩ trivial
    exact ⟨s, b, rfl, .refl hh, r⟩
  | sym name =>
    obtain ⟨hb, c, hw, _⟩ := hx
    cases hn.symm.trans hw
    refine ⟨s, false, rfl, .refl hh, ?_⟩
    obtain ⟨f, rfl⟩ : ∃ g, f = g + 1 := ⟨f - 1, by omega⟩
    show (node p >>= _) s = _
    rw [bind_ok (Live.run ⟨hb, hw⟩)]
    rfl
  | un op e =>
    have hx0 := hx
    obtain ⟨hb, q, hw, hq⟩ := hx
    cases hn.symm.trans hw
    have : ∃ w z, Spec.eval (Spec.soFar env) s.pc e = some (w, z) := by
      simp only [Spec.eval] at hv
      cases h : Spec.eval (Spec.soFar env) s.pc e with
      | none => rw [h] at hv; cases hv
      | some x => exact ⟨x.1, x.2, rfl⟩
    obtain ⟨w, z, hw'⟩ := this
    obtain ⟨s1, r1, R1, F1⟩ := open_eval ht (e := e) (f := f) (by simp only [Expr.depth] at hd; omega) he hh hl hq hw'
    obtain ⟨n1, y1, e1⟩ := R1.eq
    have hx1 : ExprAt (seen s1) s1.nodeBase s1.nodes (.un op e) p := by
      rw [show s1.nodeBase = s.nodeBase by rw [e1]]
      exact (hx0.wider R1.wider).sim R1.heap
    obtain ⟨b, _, r, _⟩ := open_uninit R1.partly (e := .un op e) (f := f) hd hx1
      ⟨q, R1.heap.opr hw (by intro _ c; cases c) (by intro _ _ _ c; cases c) (by intro _ _ _ _ _ c; cases c), F1⟩
    refine ⟨s1, b, ?_, R1, r⟩
    simp only [List.take, forEachM]
    rw [run_bind, run_bind, r1]
    rfl
  | bin op a b =>
    have hx0 := hx
    obtain ⟨hb, q, r, hw, hqa, hqb⟩ := hx
    cases hn.symm.trans hw
    obtain ⟨x, za, y, zb, hxv, hyv, _⟩ := strict_bin hl.1 hv
    obtain ⟨⟨_, _, _, hsa, hsb⟩, hnames⟩ := hl
    obtain ⟨s1, r1, R1, F1⟩ := open_eval ht (f := f) (by simp only [Expr.depth] at hd; omega) he hh
      ⟨hsa, fun n hm => hnames n (List.mem_append_left _ hm)⟩ hqa hxv
    obtain ⟨n1, y1, e1⟩ := R1.eq
    obtain ⟨s2, r2, R2, F2⟩ := open_eval ht (f := f) (s := s1) (by simp only [Expr.depth] at hd; omega) (by rw [e1]; exact he) R1.partly
      ⟨hsb, fun n hm => hnames n (List.mem_append_right _ hm)⟩ (by
        rw [show s1.nodeBase = s.nodeBase by rw [e1]]
        exact (hqb.wider R1.wider).sim R1.heap) (by rw [show s1.pc = s.pc by rw [e1]]; exact hyv)
    have R := R1.trans R2
    obtain ⟨n2, y2, e2⟩ := R.eq
    have hx2 : ExprAt (seen s2) s2.nodeBase s2.nodes (.bin op a b) p := by
      rw [show s2.nodeBase = s.nodeBase by rw [e2]]
      exact (hx0.wider R.wider).sim R.heap
    obtain ⟨c, _, ru, _⟩ := open_uninit R.partly (e := .bin op a b) (f := f) hd hx2
      ⟨q, r, R.heap.opr hw (by intro _ c; cases c) (by intro _ _ _ c; cases c) (by intro _ _ _ _ _ c; cases c),
        (F1.wider R2.wider).sim R2.heap, F2⟩
    refine ⟨s2, c, ?_, R, ru⟩
    simp only [List.take, forEachM]
    rw [run_bind, run_bind, r1]
    simp only [run_pure]
    rw [run_bind, run_bind, r2]
    rfl

/-- The directive in the first pass. -/
structure DraftData (s : St) : Prop where
  running : s.endExpansion = false
  final : s.finalPass = false
  type : s.expansionType = .dataBytes
  size : s.dataSize = 1 ∨ s.dataSize = 2

/-- An item of which only the size is needed. -/
theorem dataItem_open {envF env : Str → Option Int} (ht : NameTable env) {f : Nat} {s : St} {p : Ptr} {x : Item} {bs : List Nat}
    (hd : x.depth < f) (hs : DraftData s) (hh : Partly s envF env) (hx : ItemAt (seen s) s.nodeBase s.nodes x p)
    (hl : ∀ e, x = .expr e → Later envF e ∧ (Spec.eval (Spec.soFar env) s.pc e).isSome = true)
    (hv : Spec.item textOf envF s.dataSize s.pc x = some bs) (acc : Option SymPtr) :
    ∃ s', exprListItem (expandNode f) (hasUninit f) acc p s = (.ok (some acc), { s' with pc := s.pc + bs.length }) ∧ Reach envF env s s' := by
  cases x with
  | expr e =>
    obtain ⟨hle, hev⟩ := hl e rfl
    simp only [Spec.item, Option.bind_eq_some_iff] at hv
    obtain ⟨v, _, hnum⟩ := hv
    have hlen := number_length hnum (Or.inr hs.size)
    obtain ⟨n, hb, hnode, hk, hkl, hops⟩ := ExprAt.kind (e := e) hx
    obtain ⟨s1, u, r1, R1, ru⟩ := kids_open ht (e := e) (f := f) hd hs.running hh hle hx hnode hev
    obtain ⟨n1, y1, e1⟩ := R1.eq
    have hx1 : ExprAt (seen s1) s1.nodeBase s1.nodes e p := by
      rw [show s1.nodeBase = s.nodeBase by rw [e1]]
      exact (ExprAt.wider (e := e) R1.wider hx).sim R1.heap
    obtain ⟨n', hb', hnode', hk', _, _⟩ := hx1.kind
    refine ⟨s1, ?_, R1⟩
    have hp1 : s.pc = s1.pc := by rw [e1]
    rw [hp1]
    generalize hX : ({ s1 with pc := s1.pc + bs.length } : St) = X
    unfold exprListItem
    rw [bind_ok (Live.run ⟨hb, hnode⟩), if_neg hkl, bind_ok (operands_run hops s), bind_ok r1,
      bind_ok (Live.run (s := s1) ⟨hb', hnode'⟩), getS_bind, show s1.expansionType = .dataBytes by rw [e1]; exact hs.type]
    show dataBytesItem (expandNode f) (hasUninit f) acc p n' s1 = _
    have hf1 : ¬ s1.finalPass = true := by rw [e1]; show ¬ s.finalPass = true; rw [hs.final]; decide
    unfold dataBytesItem
    rw [bind_ok ru, getS_bind, if_neg (fun h => hf1 h.2.1), if_neg (fun h => hf1 h.2), pure_bind', getS_bind]
    have hpc : s1.dataSize = (bs.length : Int) := by
      rw [e1, hlen]
      show s.dataSize = _
      rcases hs.size with h | h <;> simp [h]
    cases hkk : n'.kind <;> rw [hkk] at hk' <;> first | cases hk' | skip
    all_goals
      exact Eq.trans (congrArg (fun z => (addPc z >>= fun _ => M.pure (some acc)) s1) hpc) (hX ▸ rfl)
  | str raw =>
    obtain ⟨hb, v, hraw, hnode⟩ := hx
    have hbs : bs = Spec.text s.dataSize v := by
      simp only [Spec.item, hraw, Option.map_some, Option.some.injEq] at hv
      exact hv.symm
    subst hbs
    have hlive : Live s p ⟨.str v, 0, []⟩ := ⟨hb, hnode⟩
    refine ⟨s, ?_, .refl hh⟩
    generalize hX : ({ s with pc := s.pc + (Spec.text s.dataSize v).length } : St) = X
    have hu : hasUninit f p s = (.ok false, s) := by
      obtain ⟨f, rfl⟩ : ∃ g, f = g + 1 := ⟨f - 1, by omega⟩
      show (node p >>= _) s = _
      rw [bind_ok hlive.run]
      rfl
    have hf1 : ¬ s.finalPass = true := by rw [hs.final]; decide
    unfold exprListItem
    rw [bind_ok hlive.run, if_neg (by simp), bind_ok (operands_run (by simp) s)]
    show (node p >>= _) s = _
    rw [bind_ok hlive.run, getS_bind, hs.type]
    show dataBytesItem (expandNode f) (hasUninit f) acc p ⟨.str v, 0, []⟩ s = _
    unfold dataBytesItem
    rw [bind_ok hu, getS_bind, if_neg (fun h => hf1 h.2.1), if_neg (fun h => hf1 h.2), pure_bind', getS_bind]
    have hpc : (if v.length % 2 = 1 ∧ s.dataSize = 2 then (v.length : Int) + 1 else v.length) =
        ((Spec.text s.dataSize v).length : Int) := by
      unfold Spec.text
      by_cases hc : v.length % 2 = 1 ∧ s.dataSize = 2
      · rw [if_pos hc, if_pos hc.symm]; simp
      · rw [if_neg hc, if_neg (fun h => hc h.symm)]; simp
    show (addPc (if v.length % 2 = 1 ∧ s.dataSize = 2 then (v.length : Int) + 1 else v.length) >>=
      fun _ => M.pure (some acc)) s = _
    rw [hpc, ← hX]
    rfl

/-- The items of a directive (last item first). -/
theorem dataList_open {envF env : Str → Option Int} (ht : NameTable env) {lo hi : Int} : ∀ (xs : List Item) {f : Nat} {s : St} {p : Ptr} {bs : List Nat},
    (∀ x ∈ xs, x.depth + xs.length < f) → DraftData s → Partly s envF env →
    (∀ e, .expr e ∈ xs → Later envF e ∧ ∀ a, lo ≤ a → a ≤ hi → (Spec.eval (Spec.soFar env) a e).isSome = true) → lo ≤ s.pc → s.pc + bs.length ≤ hi →
    ListAt (seen s) s.nodeBase s.nodes xs p → Spec.items textOf envF s.dataSize s.pc xs.reverse = some bs →
    ∃ s', expandNode f p s = (.ok 0, { s' with pc := s.pc + bs.length }) ∧ Reach envF env s s'
  | [], _, _, _, _, _, _, _, _, _, _, hx, _ => hx.elim
  | [x], f, s, p, bs, hd, hs, hh, hl, h1, h2, hx, hv => by
    obtain ⟨g, rfl⟩ : ∃ g, f = g + 1 := ⟨f - 1, by have := hd x (by simp); simp at this; omega⟩
    obtain ⟨hb, q, hn, hq⟩ := hx
    have hv' : Spec.item textOf envF s.dataSize s.pc x = some bs := by
      simp only [List.reverse_cons, List.reverse_nil, List.nil_append, Spec.items, Option.bind_eq_some_iff,
        Option.map_eq_some_iff] at hv
      obtain ⟨b, hb, c, hc, rfl⟩ := hv
      cases hc
      simpa using hb
    obtain ⟨s', r, R⟩ := dataItem_open ht (f := g) (by have := hd x (by simp); simp at this; omega) hs hh hq
      (fun e he => ⟨(hl e (by simp [he])).1, (hl e (by simp [he])).2 _ h1 (by omega)⟩) hv' none
    refine ⟨s', ?_, R⟩
    rw [expandNode_run hs.running ⟨hb, hn⟩]
    show (operands ⟨.opr .exprList, 1, [q]⟩ >>= _) s = _
    rw [bind_ok (operands_run (by simp) s)]
    have : eachM (exprListItem (expandNode g) (hasUninit g)) [q] none s = (.ok (some none), { s' with pc := s.pc + bs.length }) := by
      show (exprListItem (expandNode g) (hasUninit g) none q >>= _) s = _
      rw [bind_ok r]
      rfl
    show (eachM (exprListItem (expandNode g) (hasUninit g)) [q] none >>= _) s = _
    rw [bind_ok this]
    rfl
  | x :: y :: ys, f, s, p, bs, hd, hs, hh, hl, h1, h2, hx, hv => by
    obtain ⟨g, rfl⟩ : ∃ g, f = g + 1 := ⟨f - 1, by have := hd x (by simp); simp at this; omega⟩
    obtain ⟨hb, r, q, hn, hr, hq⟩ := hx
    rw [List.reverse_cons] at hv
    obtain ⟨b1, b2, hv1, hv2, rfl⟩ := items_snoc hv
    rw [List.length_append, Int.natCast_add] at h2 ⊢
    obtain ⟨s1, r1, R1⟩ := dataList_open ht (y :: ys) (f := g) (fun z hz => by
      have := hd z (List.mem_cons_of_mem _ hz); simp only [List.length_cons] at this ⊢; omega) hs hh
      (fun e he => hl e (List.mem_cons_of_mem _ he)) h1 (by omega) hr hv1
    obtain ⟨n1, y1, rfl⟩ := R1.eq
    let t : St := { s with nodes := n1, syms := y1, pc := s.pc + b1.length }
    have hst : DraftData t := ⟨hs.running, hs.final, hs.type, hs.size⟩
    have hqt : ItemAt (seen t) t.nodeBase t.nodes x q := (hq.wider R1.wider).sim R1.heap
    obtain ⟨s2, r2, R2⟩ := dataItem_open ht (f := g) (x := x) (bs := b2) (s := t)
      (by have := hd x (by simp); simp at this; omega) hst (R1.partly.of rfl rfl) hqt
      (fun e he => ⟨(hl e (by simp [he])).1, (hl e (by simp [he])).2 _ (by show lo ≤ s.pc + b1.length; omega) (by show s.pc + b1.length ≤ hi; omega)⟩)
      hv2 none
    have R2' := R1.trans (R2.atPc s.pc)
    refine ⟨{ s2 with pc := s.pc }, ?_, R2'⟩
    rw [expandNode_run hs.running ⟨hb, hn⟩]
    show (operands ⟨.opr .exprList, 2, [r, q]⟩ >>= _) s = _
    rw [bind_ok (operands_run (by simp) s)]
    have hrk : ∃ n, Live s r n ∧ n.kind = .opr .exprList := by
      cases ys with
      | nil => obtain ⟨hb', q', hn', _⟩ := hr; exact ⟨_, ⟨hb', hn'⟩, rfl⟩
      | cons z zs => obtain ⟨hb', r', q', hn', _⟩ := hr; exact ⟨_, ⟨hb', hn'⟩, rfl⟩
    obtain ⟨n, hln, hk⟩ := hrk
    have e1 : exprListItem (expandNode g) (hasUninit g) none r s = (.ok (some none), t) := by
      unfold exprListItem
      rw [bind_ok hln.run, if_pos hk, bind_ok r1]
      rfl
    have : eachM (exprListItem (expandNode g) (hasUninit g)) [r, q] none s = (.ok (some none), { s2 with pc := s.pc + (b1.length + b2.length) }) := by
      show (exprListItem (expandNode g) (hasUninit g) none r >>= _) s = _
      rw [bind_ok e1]
      show (exprListItem (expandNode g) (hasUninit g) none q >>= _) _ = _
      rw [bind_ok r2]
      show (Res.ok (some none), ({ s2 with pc := s.pc + b1.length + b2.length } : St)) = _
      rw [Int.add_assoc]
    show (eachM (exprListItem (expandNode g) (hasUninit g)) [r, q] none >>= _) s = _
    rw [bind_ok this]
    rfl

/-- The directive in the first pass: it takes its place. -/
theorem dataNode_open {envF env : Str → Option Int} (ht : NameTable env) {f : Nat} {s : St} {p q : Ptr} {size : Int} {xs : List Item} {bs : List Nat}
    (hsize : size = 1 ∨ size = 2) (hd : ∀ x ∈ xs, x.depth + xs.length < f) (he : s.endExpansion = false) (hf : s.finalPass = false)
    (hh : Partly s envF env)
    (hl : ∀ e, .expr e ∈ xs → Later envF e ∧ ∀ a, s.pc ≤ a → a ≤ s.pc + bs.length → (Spec.eval (Spec.soFar env) a e).isSome = true)
    (hn : Live s p ⟨.data size q, 0, []⟩) (hx : ListAt (seen s) s.nodeBase s.nodes xs.reverse q)
    (hv : Spec.items textOf envF size s.pc xs = some bs) :
    ∃ ns sy et, expandNode (f + 1) p s = (.ok 0, { s with
        nodes := ns, syms := sy, expansionType := et, dataSize := size, originSpecified := true, pc := s.pc + bs.length }) ∧
      Partly { s with syms := sy } envF env ∧ s.nodes.length ≤ ns.length := by
  have hs : DraftData (dataSt s size) := ⟨he, hf, by
    show (if size = 0 then ExpType.dataStrings else .dataBytes) = _
    rw [if_neg (by omega)], hsize⟩
  obtain ⟨s', r, R⟩ := dataList_open ht (lo := s.pc) (hi := s.pc + bs.length) xs.reverse (f := f) (s := dataSt s size) (p := q) (bs := bs)
    (fun x h => by rw [List.length_reverse]; exact hd x (List.mem_reverse.1 h)) hs (hh.of rfl rfl) (fun e h => hl e (List.mem_reverse.1 h))
    (Int.le_refl _) (Int.le_refl _) hx (by rw [List.reverse_reverse]; exact hv)
  obtain ⟨ns, sy, rfl⟩ := R.eq
  refine ⟨ns, sy, if size = 0 then .dataStrings else .dataBytes, ?_, R.partly.of rfl rfl, R.heap.1⟩
  rw [expandNode_run he hn]
  exact r

end Verif
