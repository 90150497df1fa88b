import Verif.Lemmas.ListRow
import Verif.Lemmas.Data
import Verif.Spec.Print

/-! # `.print` and `.printall` -/

namespace Verif

/-- What an item adds to the console. -/
theorem shown_number (v : Int) :
    (if cand v 0xFF00 / 256 ≠ 0 then [32, 36] ++ hexStr 2 (cand v 0xFF00 / 256).toNat else []) ++ [32, 36] ++
      hexStr 2 (cand v 0xFF).toNat = Spec.shownNumber v := by
  have h1 : cand v 0xFF00 / 256 = v / 256 % 256 := by rw [cand_ff00]; omega
  rw [h1, cand_ff]
  unfold Spec.shownNumber
  rw [List.append_assoc, show [32, 36] ++ hexStr 2 (v % 256).toNat = _ from hexStr_byte (by omega)]
  by_cases h : v / 256 % 256 = 0
  · rw [if_neg (fun hh => hh h), if_pos h]
  · rw [if_pos h, if_neg h, show [32, 36] ++ hexStr 2 (v / 256 % 256).toNat = _ from hexStr_byte (by omega)]

/-- The state after showing `t`: the heap of nodes and the console may differ. -/
def Showed (all : Bool) (s s' : St) (t : Str) : Prop :=
  ∃ ns, HeapSim false (look s) s.nodes ns ∧
    s' = { s with nodes := ns, console := s.console ++ if s.finalPass || all then t else [] }

theorem Showed.comp {all : Bool} {s s' s'' : St} {t t' : Str} (h : Showed all s s' t) (h' : Showed all s' s'' t') :
    Showed all s s'' (t ++ t') := by
  obtain ⟨ns, h1, rfl⟩ := h
  obtain ⟨ns', h1', rfl⟩ := h'
  refine ⟨ns', h1.trans h1', ?_⟩
  by_cases hc : (s.finalPass || all) = true
  · simp [hc, List.append_assoc]
  · simp [hc]

theorem Showed.end {all : Bool} {s : St} {ns : List Node} {t : Str} (h : HeapSim false (look s) s.nodes ns) :
    ∃ s', modS (fun s => if s.finalPass || all then { s with console := s.console ++ t } else s) { s with nodes := ns } =
      (.ok (), s') ∧ Showed all s s' t := by
  refine ⟨_, rfl, ns, h, ?_⟩
  by_cases hc : (s.finalPass || all) = true
  · simp [hc]
  · simp [hc]

/-- Evaluating the operands of an item. -/
theorem kids_eval {f : Nat} {s : St} {p : Ptr} {e : Expr} {n : Node} (hd : e.depth ≤ f) (he : s.endExpansion = false)
    (ht : ExprAt (look s) s.nodeBase s.nodes e p) (hn : s.nodes[p]? = some n)
    (hk : ∀ k ∈ Spec.kids e, ∃ w, Spec.eval (envOf s) s.pc k = some (w, false)) :
    ∃ ns, HeapSim false (look s) s.nodes ns ∧
      forEachM (fun o => do let _ ← expandNode f o; M.pure ()) (n.ops.take n.numOps) s = (.ok (), { s with nodes := ns }) := by
  cases e with
  | int v => rw [ht.2] at hn; cases hn; exact ⟨s.nodes, HeapSim.refl _ _ _, rfl⟩
  | pc => obtain ⟨_, v, hv⟩ := ht; rw [hv] at hn; cases hn; exact ⟨s.nodes, HeapSim.refl _ _ _, rfl⟩
  | sym nm =>
    obtain ⟨_, c, hv, _⟩ := ht; rw [hv] at hn; cases hn
    exact ⟨s.nodes, HeapSim.refl _ _ _, rfl⟩
  | un op e =>
    obtain ⟨hb, q, hv, hq⟩ := ht; rw [hv] at hn; cases hn
    obtain ⟨w, hw⟩ := hk e (by simp [Spec.kids])
    obtain ⟨ns, r, sim, _⟩ := expand_ok (f := f) (by simp only [Expr.depth] at hd; omega) he hq hw
    refine ⟨ns, sim, ?_⟩
    simp only [List.take, forEachM]
    rw [run_bind, run_bind, r]
    rfl
  | bin op a b =>
    obtain ⟨hb, q, r, hv, hqa, hqb⟩ := ht; rw [hv] at hn; cases hn
    obtain ⟨w, hw⟩ := hk a (by simp [Spec.kids])
    obtain ⟨w', hw'⟩ := hk b (by simp [Spec.kids])
    obtain ⟨ns, r1, sim, _⟩ := expand_ok (f := f) (by simp only [Expr.depth] at hd; omega) he hqa hw
    obtain ⟨ns', r2, sim', _⟩ := expand_ok (f := f) (s := { s with nodes := ns })
      (by simp only [Expr.depth] at hd; omega) he (hqb.sim sim) hw'
    refine ⟨ns', sim.trans sim', ?_⟩
    simp only [List.take, forEachM]
    rw [run_bind, run_bind, r1]
    simp only [run_pure]
    rw [run_bind, run_bind, r2]
    rfl

/-- One item. -/
theorem showItem_run {f : Nat} {s : St} {p : Ptr} {x : Item} {t : Str} {all : Bool} (hd : x.depth < f)
    (he : s.endExpansion = false) (hty : s.expansionType = if all then .printAll else .print)
    (ht : ItemAt (look s) s.nodeBase s.nodes x p)
    (hv : Spec.shownItem textOf (envOf s) s.pc x = some t) (acc : Option SymPtr) :
    ∃ s', exprListItem (expandNode f) (hasUninit f) acc p s = (.ok (some acc), s') ∧ Showed all s s' t := by
  cases x with
  | expr e =>
    simp only [Spec.shownItem] at hv
    split at hv
    case isFalse => cases hv
    rename_i hkids
    cases hev : Spec.eval (envOf s) s.pc e with
    | none => rw [hev] at hv; cases hv
    | some r =>
    obtain ⟨v, b⟩ := r
    rw [hev] at hv
    cases b with
    | true => cases hv
    | false =>
    simp only [Option.some.injEq] at hv
    subst hv
    have hk : ∀ k ∈ Spec.kids e, ∃ w, Spec.eval (envOf s) s.pc k = some (w, false) := by
      intro k hkk
      have := List.all_eq_true.1 hkids k hkk
      cases h : Spec.eval (envOf s) s.pc k with
      | none => rw [h] at this; cases this
      | some r =>
        obtain ⟨w, b⟩ := r
        rw [h] at this
        cases b with
        | true => cases this
        | false => exact ⟨w, rfl⟩
    obtain ⟨n, hb, hnode, _, hl, hops⟩ := ExprAt.kind (e := e) ht
    obtain ⟨n1, sim1, r1⟩ := kids_eval (f := f) (n := n) (by simp only [Item.depth] at hd; omega) he ht hnode hk
    let u : St := { s with nodes := n1 }
    have ht1 : ExprAt (look u) u.nodeBase u.nodes e p := ExprAt.sim (e := e) sim1 ht
    obtain ⟨n', hb', hnode', hk', hl', _⟩ := ht1.kind
    obtain ⟨n2, r2, sim2, _⟩ := expand_ok (f := f) (s := u) hd he ht1 hev
    obtain ⟨s', r3, h3⟩ := Showed.end (all := all) (t := Spec.shownNumber v) (sim1.trans sim2)
    refine ⟨s', ?_, h3⟩
    unfold exprListItem
    rw [bind_ok (Live.run ⟨hb, hnode⟩), if_neg hl, bind_ok (operands_run hops s), bind_ok r1,
      bind_ok (Live.run (s := u) ⟨hb', hnode'⟩), getS_bind]
    have key : printItem (expandNode f) all acc p n' u = (.ok (some acc), s') := by
      unfold printItem
      have e1 : (expandNode f p >>= fun op => M.pure ((if cand op 0xFF00 / 256 ≠ 0 then [32, 36] ++
          hexStr 2 (cand op 0xFF00 / 256).toNat else []) ++ [32, 36] ++ hexStr 2 (cand op 0xFF).toNat)) u =
          (.ok (Spec.shownNumber v), { s with nodes := n2 }) := by
        rw [bind_ok r2, shown_number]
        rfl
      cases hkk : n'.kind <;> rw [hkk] at hk' <;> first | cases hk' | skip
      all_goals exact Eq.trans (bind_ok e1) (by rw [bind_ok r3]; rfl)
    cases all with
    | true => simp only [if_true] at hty; rw [show u.expansionType = _ from hty]; exact key
    | false =>
      simp only [Bool.false_eq_true, if_false] at hty
      rw [show u.expansionType = _ from hty]; exact key
  | str raw =>
    obtain ⟨hb, v, hraw, hnode⟩ := ht
    have hbs : t = 32 :: v := by
      simp only [Spec.shownItem, hraw, Option.map_some, Option.some.injEq] at hv
      exact hv.symm
    subst hbs
    have hlive : Live s p ⟨.str v, 0, []⟩ := ⟨hb, hnode⟩
    obtain ⟨s', r3, h3⟩ := Showed.end (all := all) (t := 32 :: v) (HeapSim.refl false (look s) s.nodes)
    refine ⟨s', ?_, h3⟩
    unfold exprListItem
    rw [bind_ok hlive.run, if_neg (by simp), bind_ok (operands_run (by simp) s)]
    show (node p >>= _) s = _
    rw [bind_ok hlive.run, getS_bind]
    have key : printItem (expandNode f) all acc p ⟨.str v, 0, []⟩ s = (.ok (some acc), s') := by
      unfold printItem
      exact Eq.trans (bind_ok (show (M.pure (32 :: v) : M Str) s = (.ok (32 :: v), s) from rfl)) (by rw [bind_ok r3]; rfl)
    cases all with
    | true => simp only [if_true] at hty; rw [hty]; exact key
    | false =>
      simp only [Bool.false_eq_true, if_false] at hty
      rw [hty]; exact key

theorem shownItems_snoc {txt : Str → Option Str} {env : Str → Option Int} {x : Item} {pc : Int} :
    ∀ {xs : List Item} {t : Str}, Spec.shownItems txt env pc (xs ++ [x]) = some t →
      ∃ a b, Spec.shownItems txt env pc xs = some a ∧ Spec.shownItem txt env pc x = some b ∧ t = a ++ b
  | [], t, h => by
    simp only [List.nil_append, Spec.shownItems, Option.bind_eq_some_iff, Option.map_eq_some_iff] at h
    obtain ⟨b, hb, c, hc, rfl⟩ := h
    cases hc
    exact ⟨[], b, rfl, hb, by simp⟩
  | y :: ys, t, h => by
    simp only [List.cons_append, Spec.shownItems, Option.bind_eq_some_iff, Option.map_eq_some_iff] at h
    obtain ⟨b, hb, c, hc, rfl⟩ := h
    obtain ⟨b1, b2, h1, h2, rfl⟩ := shownItems_snoc hc
    exact ⟨b ++ b1, b2, by simp only [Spec.shownItems, hb, h1, Option.bind_some, Option.map_some], h2, by simp⟩

theorem shownItems_text {txt : Str → Option Str} {env : Str → Option Int} {pc : Int} :
    ∀ {xs : List Item} {t : Str}, Spec.shownItems txt env pc xs = some t → ∀ raw, .str raw ∈ xs → ∃ v, txt raw = some v
  | [], _, _, _, hm => by cases hm
  | y :: ys, t, h, raw, hm => by
    simp only [Spec.shownItems, Option.bind_eq_some_iff, Option.map_eq_some_iff] at h
    obtain ⟨b, hb, c, hc, rfl⟩ := h
    rcases List.mem_cons.1 hm with rfl | hm
    · simp only [Spec.shownItem, Option.map_eq_some_iff] at hb
      obtain ⟨v, hv, _⟩ := hb
      exact ⟨v, hv⟩
    · exact shownItems_text hc raw hm

/-- A list of items (last item first). -/
theorem showList_run {all : Bool} : ∀ (xs : List Item) {f : Nat} {s : St} {p : Ptr} {t : Str},
    (∀ x ∈ xs, x.depth + xs.length < f) → s.endExpansion = false → s.expansionType = (if all then .printAll else .print) →
    ListAt (look s) s.nodeBase s.nodes xs p → Spec.shownItems textOf (envOf s) s.pc xs.reverse = some t →
    ∃ s', expandNode f p s = (.ok 0, s') ∧ Showed all s s' t
  | [], _, _, _, _, _, _, _, ht, _ => ht.elim
  | [x], f, s, p, t, hd, he, hty, ht, hv => by
    obtain ⟨g, rfl⟩ : ∃ g, f = g + 1 := ⟨f - 1, by have := hd x (by simp); simp at this; omega⟩
    obtain ⟨hb, q, hn, hq⟩ := ht
    have hv' : Spec.shownItem textOf (envOf s) s.pc x = some t := by
      simp only [List.reverse_cons, List.reverse_nil, List.nil_append, Spec.shownItems, Option.bind_eq_some_iff,
        Option.map_eq_some_iff] at hv
      obtain ⟨b, hb, c, hc, rfl⟩ := hv
      cases hc
      simpa using hb
    obtain ⟨s', r, a⟩ := showItem_run (f := g) (all := all) (by have := hd x (by simp); simp at this; omega) he hty hq hv' none
    refine ⟨s', ?_, a⟩
    rw [expandNode_run he ⟨hb, hn⟩]
    show (operands ⟨.opr .exprList, 1, [q]⟩ >>= _) s = _
    rw [bind_ok (operands_run (by simp) s)]
    have : eachM (exprListItem (expandNode g) (hasUninit g)) [q] none s = (.ok (some none), s') := by
      show (exprListItem (expandNode g) (hasUninit g) none q >>= _) s = _
      rw [bind_ok r]
      rfl
    show (eachM (exprListItem (expandNode g) (hasUninit g)) [q] none >>= _) s = _
    rw [bind_ok this]
    rfl
  | x :: y :: ys, f, s, p, t, hd, he, hty, ht, hv => by
    obtain ⟨g, rfl⟩ : ∃ g, f = g + 1 := ⟨f - 1, by have := hd x (by simp); simp at this; omega⟩
    obtain ⟨hb, r, q, hn, hr, hq⟩ := ht
    rw [List.reverse_cons] at hv
    obtain ⟨b1, b2, hv1, hv2, rfl⟩ := shownItems_snoc hv
    obtain ⟨s1, r1, a1⟩ := showList_run (y :: ys) (f := g) (fun z hz => by
      have := hd z (List.mem_cons_of_mem _ hz); simp only [List.length_cons] at this ⊢; omega) he hty hr hv1
    obtain ⟨s2, r2, a2⟩ : ∃ s2, exprListItem (expandNode g) (hasUninit g) none q s1 = (.ok (some none), s2) ∧ Showed all s1 s2 b2 := by
      obtain ⟨ns, sim, rfl⟩ := a1
      exact showItem_run (f := g) (x := x) (s := { s with nodes := ns, console := _ }) (by have := hd x (by simp); simp at this; omega) he hty (hq.sim sim) hv2 none
    refine ⟨s2, ?_, a1.comp a2⟩
    rw [expandNode_run he ⟨hb, hn⟩]
    show (operands ⟨.opr .exprList, 2, [r, q]⟩ >>= _) s = _
    rw [bind_ok (operands_run (by simp) s)]
    have hrk : ∃ n, Live s r n ∧ n.kind = .opr .exprList := by
      cases ys with
      | nil => obtain ⟨hb', q', hn', _⟩ := hr; exact ⟨_, ⟨hb', hn'⟩, rfl⟩
      | cons z zs => obtain ⟨hb', r', q', hn', _⟩ := hr; exact ⟨_, ⟨hb', hn'⟩, rfl⟩
    obtain ⟨n, hl, hk⟩ := hrk
    have e1 : exprListItem (expandNode g) (hasUninit g) none r s = (.ok (some none), s1) := by
      unfold exprListItem
      rw [bind_ok hl.run, if_pos hk, bind_ok r1]
      rfl
    have : eachM (exprListItem (expandNode g) (hasUninit g)) [r, q] none s = (.ok (some none), s2) := by
      show (exprListItem (expandNode g) (hasUninit g) none r >>= _) s = _
      rw [bind_ok e1]
      show (exprListItem (expandNode g) (hasUninit g) none q >>= _) _ = _
      rw [bind_ok r2]
      rfl
    show (eachM (exprListItem (expandNode g) (hasUninit g)) [r, q] none >>= _) s = _
    rw [bind_ok this]
    rfl

/-- The items of a directive, if any. -/
def listOf : Option (Item × List Item) → List Item
  | none => []
  | some (x, xs) => x :: xs

/-- The whole directive. -/
theorem showStmt_run {f : Nat} {s : St} {all : Bool} {items : Option (Item × List Item)} {t : Str} (file : Str) (line : Int)
    (hdepth : ∀ x ∈ listOf items, x.depth + (listOf items).length < f) (he : s.endExpansion = false)
    (hb : s.nodeBase ≤ s.nodes.length) (hv : Spec.shownItems textOf (envOf s) s.pc (listOf items) = some t) :
    ∃ ns, HeapSim false (look s) s.nodes ns ∧
      runTop (expandNode (f + 1)) (hasUninit (f + 1)) (.stmt file line (.print all items)) s = (.ok true, { atLine s file line with
        nodes := ns
        expansionType := if all then .printAll else .print
        console := s.console ++ if s.finalPass || all then t ++ [10] else [] }) := by
  let s0 := atLine s file line
  -- the tree
  obtain ⟨l, os, hbuild, hos⟩ : ∃ l os, buildStmt (expandNode (f + 1)) (hasUninit (f + 1)) false (.print all items) s0 = (.ok (some (s0.nodes ++ l).length), { s0 with
      nodes := s0.nodes ++ l ++ [⟨.opr (if all then .printAll else .print), os.length, os⟩] }) ∧
      ((items = none ∧ os = []) ∨ ∃ q, os = [q] ∧ ListAt (look s) s0.nodeBase (s0.nodes ++ l) (listOf items).reverse q ∧
        listOf items ≠ []) := by
    cases items with
    | none =>
      refine ⟨[], [], ?_, .inl ⟨rfl, rfl⟩⟩
      refine built_run ?_
      show operatorNode _ [] s0 = _
      rw [List.append_nil]
      exact alloc_run _ _ _
    | some p =>
      obtain ⟨x, xs⟩ := p
      obtain ⟨l, q, h1, h2⟩ := buildItems_run (lk := look s) x xs s0 hb (shownItems_text hv)
      refine ⟨l, [q], ?_, .inr ⟨q, rfl, h2, by simp [listOf]⟩⟩
      refine built_run ?_
      show ((buildItems x xs >>= fun p => M.pure (some p)) >>= _) s0 = _
      rw [run_bind, bind_ok h1]
      exact alloc_run _ _ _
  let N : Node := ⟨.opr (if all then .printAll else .print), os.length, os⟩
  let s2 : St := { s0 with nodes := s0.nodes ++ l ++ [N] }
  let s3 : St := { s2 with expansionType := if all then .printAll else .print }
  have hl : Live s2 (s0.nodes ++ l).length N := by
    refine ⟨?_, by simp [s2]⟩
    have : s0.nodeBase ≤ s0.nodes.length := hb
    show s0.nodeBase ≤ _
    rw [List.length_append]
    omega
  -- its expansion
  have hrun : ∃ s4, forEachM (fun o => do let _ ← expandNode f o; M.pure ()) os s3 = (.ok (), s4) ∧ Showed all s3 s4 t := by
    rcases hos with ⟨rfl, rfl⟩ | ⟨q, rfl, hq, hne⟩
    · cases hv
      exact ⟨s3, rfl, s3.nodes, HeapSim.refl _ _ _, by simp⟩
    · obtain ⟨s4, r, a⟩ := showList_run (all := all) (listOf items).reverse (f := f) (s := s3) (p := q) (t := t)
        (fun x hx => by rw [List.length_reverse]; exact hdepth x (List.mem_reverse.1 hx)) he rfl
        (hq.sim (HeapSim.append false _ _ [N])) (by rw [List.reverse_reverse]; exact hv)
      refine ⟨s4, ?_, a⟩
      simp only [forEachM]
      rw [run_bind, run_bind, r]
      rfl
  obtain ⟨s4, r4, ns, sim, rfl⟩ := hrun
  refine ⟨ns, ?_, ?_⟩
  · refine HeapSim.trans ?_ sim
    show HeapSim false _ s.nodes (s.nodes ++ l ++ [N])
    exact (HeapSim.append _ _ _ _).trans (HeapSim.append _ _ _ _)
  · refine runTop_stmt (v := 0) (p := (s0.nodes ++ l).length) (s1 := s2) (by intro _ _ _ h; cases h) hbuild ?_
    have key : expandPrint (expandNode f) all N s2 = (.ok 0, { s0 with
        nodes := ns
        expansionType := if all then .printAll else .print
        console := s.console ++ if s.finalPass || all then t ++ [10] else [] }) := by
      unfold expandPrint
      show (operands N >>= _) s3 = _
      rw [bind_ok (operands_run (by simp [N]) s3)]
      have : N.ops.take N.numOps = os := by simp [N]
      rw [this, bind_ok r4]
      show (M.pure 0 : M Int) _ = _
      by_cases hc : (s.finalPass || all) = true
      · have hc' : (s0.finalPass || all) = true := hc
        simp [s3, s2, hc, hc', s0, atLine]
      · have hc' : ¬(s0.finalPass || all) = true := hc
        simp [s3, s2, hc, hc', s0, atLine]
    rw [expandNode_run (s := s2) he hl]
    cases all with
    | true => exact key
    | false => exact key

end Verif
