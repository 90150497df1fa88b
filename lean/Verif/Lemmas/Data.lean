import Verif.Lemmas.ListRow
import Verif.Lemmas.Assembled
import Verif.Spec.Data
import Verif.Spec.Listing
import Verif.Props.Output

/-! # Exact runs of data directives -/

namespace Verif

/-- The reading of quoted texts: only texts without bad escapes. -/
def textOf (raw : Str) : Option Str :=
  match stringValue raw with
  | some (v, 0) => some v
  | _ => none

/-- Depth of an item. -/
def Item.depth : Item → Nat
  | .expr e => e.depth
  | .str _ => 0

/-- The tree of an item is at `p`. -/
def ItemAt (lk : Str → Option SymPtr) (base : Nat) (ns : List Node) : Item → Ptr → Prop
  | .expr e, p => ExprAt lk base ns e p
  | .str raw, p => base ≤ p ∧ ∃ v, textOf raw = some v ∧ ns[p]? = some ⟨.str v, 0, []⟩

/-- The left-nested list node for the items (last item first). -/
def ListAt (lk : Str → Option SymPtr) (base : Nat) (ns : List Node) : List Item → Ptr → Prop
  | [], _ => False
  | [x], p => base ≤ p ∧ ∃ q, ns[p]? = some ⟨.opr .exprList, 1, [q]⟩ ∧ ItemAt lk base ns x q
  | x :: y :: ys, p => base ≤ p ∧ ∃ r q, ns[p]? = some ⟨.opr .exprList, 2, [r, q]⟩ ∧ ListAt lk base ns (y :: ys) r ∧
      ItemAt lk base ns x q

theorem ItemAt.sim {o : Bool} {lk : Str → Option SymPtr} {base : Nat} {ns ns' : List Node} (h : HeapSim o lk ns ns')
    {x : Item} {p : Ptr} (hx : ItemAt lk base ns x p) : ItemAt lk base ns' x p := by
  cases x with
  | expr e => exact ExprAt.sim (e := e) h hx
  | str raw =>
    obtain ⟨hb, v, hv, hn⟩ := hx
    exact ⟨hb, v, hv, h.opr hn (by intro _ c; cases c) (by intro _ _ _ c; cases c) (by intro _ _ _ _ _ c; cases c)⟩

theorem ListAt.sim {o : Bool} {lk : Str → Option SymPtr} {base : Nat} {ns ns' : List Node} (h : HeapSim o lk ns ns') :
    ∀ {xs : List Item} {p : Ptr}, ListAt lk base ns xs p → ListAt lk base ns' xs p
  | [], _, hx => hx
  | [x], p, hx => by
    obtain ⟨hb, q, hn, hq⟩ := hx
    exact ⟨hb, q, h.opr hn (by intro _ c; cases c) (by intro _ _ _ c; cases c) (by intro _ _ _ _ _ c; cases c), hq.sim h⟩
  | x :: y :: ys, p, hx => by
    obtain ⟨hb, r, q, hn, hr, hq⟩ := hx
    exact ⟨hb, r, q, h.opr hn (by intro _ c; cases c) (by intro _ _ _ c; cases c) (by intro _ _ _ _ _ c; cases c),
      ListAt.sim h hr, hq.sim h⟩

/-! ## Building -/

theorem stringNode_run {raw v : Str} (s : St) (h : textOf raw = some v) :
    stringNode raw s = (.ok s.nodes.length, { s with nodes := s.nodes ++ [⟨.str v, 0, []⟩] }) := by
  unfold textOf at h
  split at h
  · rename_i w hw
    cases h
    unfold stringNode
    rw [hw]
    rfl
  · cases h

theorem buildItem_run {lk : Str → Option SymPtr} (x : Item) (s : St) (hb : s.nodeBase ≤ s.nodes.length)
    (ht : ∀ raw, x = .str raw → ∃ v, textOf raw = some v) :
    ∃ l p, buildItem x s = (.ok p, { s with nodes := s.nodes ++ l }) ∧ ItemAt lk s.nodeBase (s.nodes ++ l) x p := by
  cases x with
  | expr e => exact buildExpr_run e s hb
  | str raw =>
    obtain ⟨v, hv⟩ := ht raw rfl
    exact ⟨_, _, stringNode_run s hv, hb, v, hv, by simp⟩

theorem buildItemsTl_run {lk : Str → Option SymPtr} : ∀ (xs : List Item) (acc : List Item) (s : St) (p : Ptr),
    s.nodeBase ≤ s.nodes.length → ListAt lk s.nodeBase s.nodes acc p →
    (∀ raw, .str raw ∈ xs → ∃ v, textOf raw = some v) →
    ∃ l q, buildItemsTl xs p s = (.ok q, { s with nodes := s.nodes ++ l }) ∧
      ListAt lk s.nodeBase (s.nodes ++ l) (xs.reverse ++ acc) q
  | [], acc, s, p, hb, ha, _ => ⟨[], p, by simp [buildItemsTl], by simpa using ha⟩
  | x :: xs, acc, s, p, hb, ha, ht => by
    obtain ⟨l, q, h1, h2⟩ := buildItem_run (lk := lk) x s hb (fun raw h => ht raw (by simp [h]))
    let s1 : St := { s with nodes := s.nodes ++ l }
    have hb1 : s1.nodeBase ≤ s1.nodes.length := by simp only [s1, List.length_append]; omega
    let N : Node := ⟨.opr .exprList, 2, [p, q]⟩
    let s2 : St := { s with nodes := s.nodes ++ l ++ [N] }
    have hb2 : s2.nodeBase ≤ s2.nodes.length := by simp only [s2, List.length_append] at *; omega
    have ha1 : ListAt lk s.nodeBase s2.nodes acc p := (ha.sim (HeapSim.append false lk _ l)).sim (HeapSim.append false lk _ [N])
    have hq1 : ItemAt lk s.nodeBase s2.nodes x q := h2.sim (HeapSim.append false lk _ [N])
    have hN : s2.nodes[s1.nodes.length]? = some N := by simp [s1, s2]
    have hacc : ListAt lk s.nodeBase s2.nodes (x :: acc) s1.nodes.length := by
      cases acc with
      | nil => exact absurd ha (by simp [ListAt])
      | cons y ys => exact ⟨hb1, p, q, hN, ha1, hq1⟩
    obtain ⟨l2, r, h3, h4⟩ := buildItemsTl_run xs (x :: acc) s2 s1.nodes.length hb2 hacc
      (fun raw h => ht raw (List.mem_cons_of_mem _ h))
    refine ⟨l ++ [N] ++ l2, r, ?_, ?_⟩
    · show (buildItem x >>= _) s = _
      rw [bind_ok h1]
      show (operatorNode .exprList [p, q] >>= _) s1 = _
      unfold operatorNode
      rw [bind_ok (alloc_run _ _ s1)]
      refine Eq.trans h3 ?_
      simp only [s2, List.append_assoc]
    · simpa only [s2, List.append_assoc, List.reverse_cons, List.singleton_append] using h4

theorem buildItems_run {lk : Str → Option SymPtr} (x : Item) (xs : List Item) (s : St) (hb : s.nodeBase ≤ s.nodes.length)
    (ht : ∀ raw, .str raw ∈ x :: xs → ∃ v, textOf raw = some v) :
    ∃ l q, buildItems x xs s = (.ok q, { s with nodes := s.nodes ++ l }) ∧
      ListAt lk s.nodeBase (s.nodes ++ l) ((x :: xs).reverse) q := by
  obtain ⟨l, q, h1, h2⟩ := buildItem_run (lk := lk) x s hb (fun raw h => ht raw (by simp [h]))
  let s1 : St := { s with nodes := s.nodes ++ l }
  have hb1 : s1.nodeBase ≤ s1.nodes.length := by simp only [s1, List.length_append]; omega
  let N : Node := ⟨.opr .exprList, 1, [q]⟩
  let s2 : St := { s with nodes := s.nodes ++ l ++ [N] }
  have hb2 : s2.nodeBase ≤ s2.nodes.length := by simp only [s2, List.length_append] at *; omega
  have hN : s2.nodes[s1.nodes.length]? = some N := by simp [s1, s2]
  have hacc : ListAt lk s.nodeBase s2.nodes [x] s1.nodes.length := ⟨hb1, q, hN, h2.sim (HeapSim.append false lk _ [N])⟩
  obtain ⟨l2, r, h3, h4⟩ := buildItemsTl_run xs [x] s2 s1.nodes.length hb2 hacc
    (fun raw h => ht raw (List.mem_cons_of_mem _ h))
  refine ⟨l ++ [N] ++ l2, r, ?_, ?_⟩
  · show (buildItem x >>= _) s = _
    rw [bind_ok h1]
    show (operatorNode .exprList [q] >>= _) s1 = _
    unfold operatorNode
    rw [bind_ok (alloc_run _ _ s1)]
    refine Eq.trans h3 ?_
    simp only [s2, List.append_assoc]
  · simpa only [s2, List.append_assoc, List.reverse_cons, List.singleton_append] using h4

/-! ## Emission of one item -/

theorem Asm.refl_nodes {s : St} {ns : List Node} (h : HeapSim true (look s) s.nodes ns) (hfin : s.finalPass = false) :
    Asm s { s with nodes := ns } 0 [] [] := by
  refine ⟨ns, s.codeGenerated, s.dataSize, s.byteDelta, s.expansionType, h, ?_⟩
  have : emitting s = false := by unfold emitting; rw [hfin]; rfl
  simp [this]

/-- Emission of a node whose listing and payload are known. -/
theorem emit_any {f : Nat} {s : St} {p : Ptr} {n : Node} {bs : List Nat} {ns1 : List Node} {ls : List ListEntry}
    (hp : Live s p n) (hs1 : HeapSim false (look s) s.nodes ns1) (hn1 : ∃ n', ns1[p]? = some n')
    (hlist : generateListNode (expandNode f) p s = (.ok (), { s with nodes := ns1, listing := s.listing ++ ls }))
    (hroom : Room s) (hfin : s.finalPass = true)
    (hpay : ∀ (s1 : St) (n' : Node), ns1[p]? = some n' → s1 = { s with
        nodes := ns1, listing := s.listing ++ ls, byteDelta := s1.byteDelta, out := s1.out, totalBytes := s1.totalBytes } →
      ∃ ns, HeapSim false (look s) ns1 ns ∧ payload (expandNode f) p n' s1 = (.ok (), { outBytes s1 bs with nodes := ns })) :
    ∃ ns bd, HeapSim false (look s) s.nodes ns ∧ emitNode (expandNode f) p s = (.ok (), { s with
        nodes := ns
        byteDelta := bd
        listing := s.listing ++ ls
        out := s.out ++ (if emitting s then outHdr s ++ bs else [])
        totalBytes := s.totalBytes + (if emitting s then (((outHdr s).length + bs.length : Nat) : Int) else 0) }) := by
  let t : St := { s with nodes := ns1, listing := s.listing ++ ls }
  obtain ⟨n', hn'⟩ := hn1
  have hp' : Live t p n' := ⟨hp.1, hn'⟩
  have hem : emitting s = (t.outputOpen && t.originSpecified) := by
    unfold emitting
    rw [hfin, Bool.true_and]
  obtain ⟨n2, ds, bd, hds, s2, r2, r3⟩ := generateOutput_any (f := f) (s := t) (bs := bs) (fun d => d = s.dataSize) hp' rfl
    (fun h1 h2 => hroom (by rw [hem, h1, h2]; rfl))
    (by
      intro s1 hs1
      obtain ⟨ns, g1, g2⟩ := hpay s1 n' hn' hs1
      refine ⟨ns, s1.dataSize, ?_, g1, ?_⟩
      · rw [hs1]
      · rw [g2]; rfl)
  refine ⟨n2, bd, hs1.trans s2, ?_⟩
  unfold emitNode
  rw [bind_ok hlist]
  cases hg : generateOutput (expandNode f) p t with
  | mk a b =>
    rw [hg] at r2 r3
    simp only at r2 r3
    rw [r3] at hg
    show (generateOutput (expandNode f) p >>= _) t = _
    rw [bind_ok hg, r2, hds, hem]
    rfl

theorem Prints.append {q : Nat → Prop} {file : Str} {line pc : Int} {l1 l2 : List ListEntry} {b1 b2 : List Nat}
    (h1 : Spec.Prints q file line pc l1 b1) (h2 : Spec.Prints q file line (pc + b1.length) l2 b2) :
    Spec.Prints q file line pc (l1 ++ l2) (b1 ++ b2) := by
  induction h1 with
  | nil pc => simpa using h2
  | @cons pc bs rest e ls h0 h3 h t ih =>
    rw [List.cons_append, List.append_assoc]
    refine .cons h0 h3 h (ih ?_)
    rw [List.length_append] at h2
    rw [show pc + (bs.length : Int) + rest.length = pc + ((bs.length + rest.length : Nat) : Int) by omega]
    exact h2

theorem Prints.one {q : Nat → Prop} {file : Str} {line pc : Int} {bs : List Nat} {e : ListEntry} (h0 : bs ≠ []) (h3 : bs.length ≤ 3)
    (h : Spec.ShowsData q file line pc bs e) : Spec.Prints q file line pc [e] bs := by
  have := Spec.Prints.cons (q := q) (file := file) (line := line) (pc := pc) h0 h3 h (.nil _)
  simpa using this

/-- Listing of a text. -/
theorem listString_run (pad : Bool) (pc : Int) (prev : Str × Nat) (v : Str) (s : St) :
    ∃ ls, listString pad pc prev v s = (.ok (), { s with listing := s.listing ++ ls }) ∧
      (∀ q : Nat → Prop, (pad = true → v.length % 3 ≠ 0) → (∀ c ∈ v, q (c % 256)) →
        Spec.Prints q s.file s.line pc ls (v.map (· % 256) ++ if pad then [0] else [])) := by
  fun_induction listString pad pc prev v generalizing s with
  | case1 pc _ a b c rest ih =>
    obtain ⟨ls, h, hp⟩ := ih { s with listing := s.listing ++ [listRow s (fullRow pc a b c)] }
    refine ⟨[listRow s (fullRow pc a b c)] ++ ls, ?_, ?_⟩
    · rw [← List.append_assoc]
      exact h
    · intro q hq hc
      have := hp q (fun h => by have := hq h; simp only [List.length_cons] at this; omega)
        (fun x hx => hc x (by simp [hx]))
      refine Spec.Prints.cons (bs := [a % 256, b % 256, c % 256]) (by simp) (by simp) ?_ this
      unfold fullRow
      rw [cand_ffff]
      exact showsData_row (bs := [a % 256, b % 256, c % 256]) (ts := [showChar a, showChar b, showChar c])
        (by simp; omega) ⟨showChar_text (hc a (by simp)), showChar_text (hc b (by simp)), showChar_text (hc c (by simp)), trivial⟩ pc
  | case2 pc _ a b =>
    refine ⟨_, rfl, fun q _ hc => ?_⟩
    unfold lastRow
    rw [cand_ffff]
    cases pad
    · exact Prints.one (bs := [a % 256, b % 256]) (by simp) (by simp)
        (showsData_row (bs := [a % 256, b % 256]) (ts := [[39, a % 256, 39], [39, b % 256, 39]]) (by simp; omega) ⟨Or.inr ⟨rfl, hc a (by simp)⟩, Or.inr ⟨rfl, hc b (by simp)⟩, trivial⟩ pc)
    · exact Prints.one (bs := [a % 256, b % 256, 0]) (by simp) (by simp)
        (showsData_row (bs := [a % 256, b % 256, 0]) (ts := [[39, a % 256, 39], [39, b % 256, 39], 36 :: fmtX 2 0]) (by simp; omega)
          ⟨Or.inr ⟨rfl, hc a (by simp)⟩, Or.inr ⟨rfl, hc b (by simp)⟩, fmtX_text (by decide), trivial⟩ pc)
  | case3 pc _ a =>
    refine ⟨_, rfl, fun q _ hc => ?_⟩
    unfold lastRow
    rw [cand_ffff]
    cases pad
    · exact Prints.one (bs := [a % 256]) (by simp) (by simp)
        (showsData_row (bs := [a % 256]) (ts := [[39, a % 256, 39]]) (by simp; omega) ⟨Or.inr ⟨rfl, hc a (by simp)⟩, trivial⟩ pc)
    · exact Prints.one (bs := [a % 256, 0]) (by simp) (by simp)
        (showsData_row (bs := [a % 256, 0]) (ts := [[39, a % 256, 39], 36 :: fmtX 2 0]) (by simp; omega) ⟨Or.inr ⟨rfl, hc a (by simp)⟩, fmtX_text (by decide), trivial⟩ pc)
  | case4 hpad => exact ⟨_, rfl, fun _ h _ => absurd rfl (h (by assumption))⟩
  | case5 pc prev hpad =>
    refine ⟨[], by rw [List.append_nil]; rfl, fun q _ hc => ?_⟩
    rw [if_neg hpad]
    exact .nil _


/-! ## Numbers -/

theorem writeDataValue_run {v : Int} {s : St} {bs : List Nat} (hv : InInt v)
    (h : Spec.number s.dataSize v = some bs) (h0 : s.dataSize = 0 ∨ s.dataSize = 1 ∨ s.dataSize = 2) :
    writeDataValue v s = (.ok (), outBytes s bs) := by
  have e1 := cand_not_ff hv
  have e2 := cand_not_ffff hv
  unfold Spec.number at h
  unfold writeDataValue
  rw [getS_bind]
  split at h
  · rename_i hd
    split at h
    · cases h
      by_cases hneg : v < 0
      · rw [if_pos ⟨fun h => by omega, hneg⟩, if_neg (by omega), if_neg (by omega), writeByte_run, cand_ff,
          show v % 256 % 256 = v % 256 by omega]
      · rw [if_neg (by omega), if_neg (by omega), if_pos (Or.inl hd), writeByte_run]
    · cases h
  · split at h
    · rename_i hd
      split at h
      · cases h
        have e3 : v / 256 % 256 = v % 65536 / 256 := by omega
        by_cases hneg : v < 0
        · rw [if_pos ⟨fun h => by omega, hneg⟩, if_pos (by omega), if_neg (by omega), writeWord_run, e3]
        · rw [if_neg (by omega), if_neg (by omega), if_neg (by omega), writeWord_run, e3]
      · cases h
    · split at h
      · cases h
        rw [if_neg (by omega), if_neg (by omega), if_pos (Or.inr ⟨by omega, by omega⟩), writeByte_run,
          show (v % 256) = v by omega]
      · cases h

theorem number_bytes {size v : Int} {bs : List Nat} (h : Spec.number size v = some bs) : ∀ b ∈ bs, b < 256 := by
  unfold Spec.number at h
  split at h
  · split at h
    · cases h
      simp
      omega
    · cases h
  · split at h
    · split at h
      · cases h
        simp
        omega
      · cases h
    · split at h
      · cases h
        simp
        omega
      · cases h

theorem dataRow_shows {q : Nat → Prop} {s : St} {bs : List Nat} (h : ∀ b ∈ bs, b < 256) (pc : Int) :
    Spec.ShowsData q s.file s.line pc bs (listRow s (dataRow pc (bs.map Int.ofNat))) := by
  have ht : Spec.ByteTexts q bs ((bs.map Int.ofNat).map fun b => 36 :: fmtX 2 b) := by
    clear pc
    induction bs with
    | nil => trivial
    | cons b bs ih => exact ⟨fmtX_text (h b (by simp)), ih fun x hx => h x (by simp [hx])⟩
  unfold dataRow
  rw [cand_ffff]
  exact showsData_row h ht pc

theorem number_ne {size v : Int} {bs : List Nat} (h : Spec.number size v = some bs) : v ≠ -2147483648 := by
  unfold Spec.number at h
  split at h
  · split at h
    · omega
    · cases h
  · split at h
    · split at h
      · omega
      · cases h
    · split at h
      · omega
      · cases h

/-- The listing bytes of a number. -/
theorem number_list {size v : Int} {bs : List Nat} (h : Spec.number size v = some bs)
    (h0 : size = 0 ∨ size = 1 ∨ size = 2) :
    ¬ ((if v < 0 ∧ size = 1 then 0 else cand v 0xFF00 / 256) ≠ 0 ∧ size < 2) ∧
    (if size > 1 then [cand v 0xFF, (if v < 0 ∧ size = 1 then 0 else cand v 0xFF00 / 256)] else [cand v 0xFF]) =
      bs.map Int.ofNat := by
  unfold Spec.number at h
  rw [cand_ff, cand_ff00]
  split at h
  · rename_i hd
    split at h
    · cases h
      refine ⟨?_, ?_⟩
      · split <;> omega
      · rw [if_neg (by omega)]
        simp only [List.map_cons, List.map_nil, Int.ofNat_eq_natCast]
        congr 1
        omega
    · cases h
  · split at h
    · rename_i hd
      split at h
      · cases h
        refine ⟨by omega, ?_⟩
        rw [if_pos (by omega), if_neg (by omega)]
        simp only [List.map_cons, List.map_nil, Int.ofNat_eq_natCast]
        congr 1
        · omega
        · congr 1
          omega
      · cases h
    · split at h
      · cases h
        refine ⟨?_, ?_⟩
        · split <;> omega
        · rw [if_neg (by omega)]
          simp only [List.map_cons, List.map_nil, Int.ofNat_eq_natCast]
          congr 1
          omega
      · cases h

/-- The node of an expression is an ordinary data item. -/
theorem ExprAt.kind {lk : Str → Option SymPtr} {base : Nat} {ns : List Node} {e : Expr} {p : Ptr}
    (h : ExprAt lk base ns e p) : ∃ n, base ≤ p ∧ ns[p]? = some n ∧ macroArgOk n.kind = true ∧
      n.kind ≠ .opr .exprList ∧ n.numOps ≤ n.ops.length := by
  cases e with
  | int v => exact ⟨_, h.1, h.2, rfl, by simp, by simp⟩
  | pc => obtain ⟨hb, v, hv⟩ := h; exact ⟨_, hb, hv, rfl, by simp, by simp⟩
  | sym name => obtain ⟨hb, v, hv, _⟩ := h; exact ⟨_, hb, hv, rfl, by simp, by simp⟩
  | un op e => obtain ⟨hb, v, hv, _⟩ := h; exact ⟨_, hb, hv, rfl, by cases op <;> simp [UnOp.opr], by simp⟩
  | bin op a b => obtain ⟨hb, v, w, hv, _⟩ := h; exact ⟨_, hb, hv, rfl, by cases op <;> simp [BinOp.opr], by simp⟩

/-- Listing of a number. -/
theorem listNumber_run {f : Nat} {s : St} {p : Ptr} {e : Expr} {v : Int} {bs : List Nat} (hd : e.depth < f)
    (he : s.endExpansion = false) (ht : ExprAt (look s) s.nodeBase s.nodes e p)
    (hv : Spec.eval (envOf s) s.pc e = some (v, false)) (hn : Spec.number s.dataSize v = some bs)
    (h0 : s.dataSize = 0 ∨ s.dataSize = 1 ∨ s.dataSize = 2) :
    ∃ ns, HeapSim false (look s) s.nodes ns ∧ generateListNode (expandNode f) p s =
      (.ok (), { s with nodes := ns, listing := s.listing ++ [listRow s (dataRow s.pc (bs.map Int.ofNat))] }) := by
  obtain ⟨n, hb, hnode, hk, hl, _⟩ := ht.kind
  obtain ⟨ns, r, sim, _⟩ := expand_ok hd he ht hv
  refine ⟨ns, sim, ?_⟩
  have e1 : generateListNode (expandNode f) p s = listData (expandNode f) p s := by
    unfold generateListNode
    rw [bind_ok (Live.run ⟨hb, hnode⟩)]
    cases hkk : n.kind <;> rw [hkk] at hk <;> first | rfl | cases hk
  rw [e1]
  unfold listData
  rw [getS_bind, bind_ok r, getS_bind]
  obtain ⟨g1, g2⟩ := number_list hn h0
  simp only
  rw [if_neg g1, g2]
  rfl

/-- Output of a number. -/
theorem payloadNumber_run {f : Nat} {s : St} {p : Ptr} {n : Node} {e : Expr} {v : Int} {bs : List Nat} (hd : e.depth < f)
    (he : s.endExpansion = false) (ht : ExprAt (look s) s.nodeBase s.nodes e p)
    (hv : Spec.eval (envOf s) s.pc e = some (v, false)) (hn : Spec.number s.dataSize v = some bs)
    (h0 : s.dataSize = 0 ∨ s.dataSize = 1 ∨ s.dataSize = 2) (hnode : s.nodes[p]? = some n) :
    ∃ ns, HeapSim false (look s) s.nodes ns ∧ payload (expandNode f) p n s =
      (.ok (), { outBytes s bs with nodes := ns }) := by
  obtain ⟨n', hb, hnode', hk, hl, _⟩ := ht.kind
  rw [hnode] at hnode'
  cases hnode'
  obtain ⟨ns, r, sim, _⟩ := expand_ok hd he ht hv
  refine ⟨ns, sim, ?_⟩
  have e1 : payload (expandNode f) p n s = writeDataNode (expandNode f) p s := by
    unfold payload
    cases hkk : n.kind <;> rw [hkk] at hk <;> first | rfl | cases hk
  rw [e1]
  unfold writeDataNode
  rw [bind_ok r, if_neg (number_ne hn)]
  rw [writeDataValue_run (s := { s with nodes := ns }) (eval_inInt hv) hn h0]
  rfl

/-- Emission of a number. -/
theorem emitNumber_run {f : Nat} {s : St} {p : Ptr} {e : Expr} {v : Int} {bs : List Nat} (hd : e.depth < f)
    (he : s.endExpansion = false) (ht : ExprAt (look s) s.nodeBase s.nodes e p)
    (hv : Spec.eval (envOf s) s.pc e = some (v, false)) (hn : Spec.number s.dataSize v = some bs)
    (h0 : s.dataSize = 0 ∨ s.dataSize = 1 ∨ s.dataSize = 2) (hroom : Room s) (hfin : s.finalPass = true) :
    ∃ ns bd, HeapSim false (look s) s.nodes ns ∧ emitNode (expandNode f) p s = (.ok (), { s with
        nodes := ns
        byteDelta := bd
        listing := s.listing ++ [listRow s (dataRow s.pc (bs.map Int.ofNat))]
        out := s.out ++ (if emitting s then outHdr s ++ bs else [])
        totalBytes := s.totalBytes + (if emitting s then (((outHdr s).length + bs.length : Nat) : Int) else 0) }) := by
  obtain ⟨n, hb, hnode, hk, hl, _⟩ := ht.kind
  obtain ⟨ns, sim, r⟩ := listNumber_run hd he ht hv hn h0
  obtain ⟨n', _, hnode', _⟩ := (ht.sim sim).kind
  refine emit_any ⟨hb, hnode⟩ sim ⟨n', hnode'⟩ r hroom hfin ?_
  intro s1 n'' hn'' hs1
  obtain ⟨ns2, g1, g2⟩ := payloadNumber_run (f := f) (s := s1) (p := p) (n := n'') (bs := bs) hd (by rw [hs1]; exact he)
    (by rw [hs1]; exact ht.sim sim) (by rw [hs1]; exact hv) (by rw [hs1]; exact hn) (by rw [hs1]; exact h0)
    (by rw [hs1]; exact hn'')
  refine ⟨ns2, ?_, g2⟩
  rw [hs1] at g1
  exact g1

/-! ## Texts -/

theorem emitText_run {f : Nat} {s : St} {p : Ptr} {v : Str} (hp : Live s p ⟨.str v, 0, []⟩) (hroom : Room s)
    (hfin : s.finalPass = true) :
    ∃ ns bd ls, HeapSim false (look s) s.nodes ns ∧
      (∀ q : Nat → Prop, (s.dataSize = 2 → v.length % 6 ≠ 3) ∧ (∀ c ∈ v, q (c % 256)) → Spec.Prints q s.file s.line s.pc ls (Spec.text s.dataSize v)) ∧
      emitNode (expandNode f) p s = (.ok (), { s with
        nodes := ns
        byteDelta := bd
        listing := s.listing ++ ls
        out := s.out ++ (if emitting s then outHdr s ++ Spec.text s.dataSize v else [])
        totalBytes := s.totalBytes + (if emitting s then
          (((outHdr s).length + (Spec.text s.dataSize v).length : Nat) : Int) else 0) }) := by
  obtain ⟨ls, hl, hpr⟩ := listString_run (decide (s.dataSize = 2 ∧ v.length % 2 = 1)) s.pc ([], 0) v s
  obtain ⟨ns, bd, h1, h2⟩ := emit_any (f := f) (s := s) (p := p) (bs := Spec.text s.dataSize v) (ns1 := s.nodes) (ls := ls) hp
    (HeapSim.refl _ _ _) ⟨_, hp.2⟩ (by
      unfold generateListNode
      rw [bind_ok hp.run]
      exact hl) hroom hfin (by
      intro s1 n' hn' hs1
      rw [hp.2] at hn'
      cases hn'
      refine ⟨s1.nodes, ?_, ?_⟩
      · rw [hs1]; exact HeapSim.refl _ _ _
      · show writeStringNode v s1 = _
        rw [writeStringNode_run]
        have : s1.dataSize = s.dataSize := by rw [hs1]
        rw [this]
        rfl)
  refine ⟨ns, bd, ls, h1, fun q hq => ?_, h2⟩
  have := hpr q (fun h => by
    have h := of_decide_eq_true h
    have := hq.1 h.1
    omega) hq.2
  unfold Spec.text
  by_cases hc : s.dataSize = 2 ∧ v.length % 2 = 1
  · rw [if_pos hc]
    rw [decide_eq_true hc] at this
    exact this
  · rw [if_neg hc]
    rw [decide_eq_false hc] at this
    exact this


/-! ## Items -/

/-- Evaluating the direct subexpressions of an item. -/
theorem kids_run {f : Nat} {s : St} {p : Ptr} {e : Expr} {n : Node} (hd : e.depth ≤ f) (he : s.endExpansion = false)
    (ht : ExprAt (look s) s.nodeBase s.nodes e p) (hn : s.nodes[p]? = some n)
    (hk : ∀ k ∈ Spec.kids e, (∃ w, Spec.eval (envOf s) s.pc k = some (w, false)) ∧ k.complete (envOf s) s.pc = true) :
    ∃ ns, HeapSim false (look s) s.nodes ns ∧
      forEachM (fun o => do let _ ← expandNode f o; M.pure ()) (n.ops.take n.numOps) s = (.ok (), { s with nodes := ns }) ∧
      ((∀ nm, e ≠ .sym nm) → Done (look s) s.syms ns e p) := by
  cases e with
  | int v => rw [ht.2] at hn; cases hn; exact ⟨s.nodes, HeapSim.refl _ _ _, rfl, fun _ => trivial⟩
  | pc => obtain ⟨_, v, hv⟩ := ht; rw [hv] at hn; cases hn; exact ⟨s.nodes, HeapSim.refl _ _ _, rfl, fun _ => trivial⟩
  | sym nm =>
    obtain ⟨_, c, hv, _⟩ := ht; rw [hv] at hn; cases hn
    exact ⟨s.nodes, HeapSim.refl _ _ _, rfl, fun h => absurd rfl (h nm)⟩
  | un op e =>
    obtain ⟨hb, q, hv, hq⟩ := ht; rw [hv] at hn; cases hn
    obtain ⟨⟨w, hw⟩, hc⟩ := hk e (by simp [Spec.kids])
    obtain ⟨ns, r, sim, done⟩ := expand_ok (f := f) (by simp only [Expr.depth] at hd; omega) he hq hw
    refine ⟨ns, sim, ?_, fun _ => ⟨q, ?_, done hc⟩⟩
    · simp only [List.take, forEachM]
      rw [run_bind, run_bind, r]
      rfl
    · exact sim.opr hv (by intro _ c; cases c) (by intro _ _ _ c; cases c) (by intro _ _ _ _ _ c; cases c)
  | bin op a b =>
    obtain ⟨hb, q, r, hv, hqa, hqb⟩ := ht; rw [hv] at hn; cases hn
    obtain ⟨⟨w, hw⟩, hc⟩ := hk a (by simp [Spec.kids])
    obtain ⟨⟨w', hw'⟩, hc'⟩ := hk b (by simp [Spec.kids])
    obtain ⟨ns, r1, sim, done⟩ := expand_ok (f := f) (by simp only [Expr.depth] at hd; omega) he hqa hw
    obtain ⟨ns', r2, sim', done'⟩ := expand_ok (f := f) (s := { s with nodes := ns })
      (by simp only [Expr.depth] at hd; omega) he (hqb.sim sim) hw'
    refine ⟨ns', sim.trans sim', ?_, fun _ => ⟨q, r, ?_, (done hc).sim sim', done' hc'⟩⟩
    · simp only [List.take, forEachM]
      rw [run_bind, run_bind, r1]
      simp only [run_pure]
      rw [run_bind, run_bind, r2]
      rfl
    · exact (sim.trans sim').opr hv (by intro _ c; cases c) (by intro _ _ _ c; cases c) (by intro _ _ _ _ _ c; cases c)

/-- An item whose subexpressions are resolved counts as resolved. -/
theorem hasUninit_item {f : Nat} {s : St} {p : Ptr} {e : Expr} (hd : e.depth < f)
    (ht : ExprAt (look s) s.nodeBase s.nodes e p) (hdone : (∀ nm, e ≠ .sym nm) → Done (look s) s.syms s.nodes e p) :
    hasUninit f p s = (.ok false, s) := by
  by_cases h : ∃ nm, e = .sym nm
  · obtain ⟨nm, rfl⟩ := h
    obtain ⟨f, rfl⟩ : ∃ g, f = g + 1 := ⟨f - 1, by omega⟩
    obtain ⟨hb, c, hv, _⟩ := ht
    show (node p >>= _) s = _
    rw [bind_ok (Live.run ⟨hb, hv⟩)]
    rfl
  · exact (Done.run hd ht (hdone (fun nm hh => h ⟨nm, hh⟩))).1

theorem itemValue_some {env : Str → Option Int} {pc : Int} {e : Expr} {v : Int} (h : Spec.itemValue env pc e = some v) :
    Spec.eval env pc e = some (v, false) ∧
    ∀ k ∈ Spec.kids e, (∃ w, Spec.eval env pc k = some (w, false)) ∧ k.complete env pc = true := by
  unfold Spec.itemValue at h
  split at h
  · rename_i hk
    split at h
    · rename_i w hw
      cases h
      refine ⟨hw, fun k hkk => ?_⟩
      have := List.all_eq_true.1 hk k hkk
      simp only [Bool.and_eq_true, Option.any_eq_true_iff_get] at this
      obtain ⟨⟨h1, h2⟩, h3⟩ := this
      refine ⟨⟨((Spec.eval env pc k).get h1).1, ?_⟩, h3⟩
      simp only [Bool.not_eq_true'] at h2
      rw [← h2, Option.some_get]
    · cases h
  · cases h

theorem macroArgOk_data {k : Kind} (h : macroArgOk k = true) : dataItemOk k = true := by
  cases k <;> first | rfl | exact h

/-- The end of an item: location counter. -/
theorem asm_item {s : St} {ns : List Node} {bd : Int} {bs : List Nat} {ls : List ListEntry}
    (h : HeapSim true (look s) s.nodes ns) (hl : s.finalPass = false → ls = []) :
    Asm s { s with
        nodes := ns
        byteDelta := bd
        listing := s.listing ++ ls
        out := s.out ++ (if emitting s then outHdr s ++ bs else [])
        totalBytes := s.totalBytes + (if emitting s then (((outHdr s).length + bs.length : Nat) : Int) else 0)
        pc := s.pc + (bs.length : Int) } bs.length bs ls := by
  refine ⟨ns, s.codeGenerated, s.dataSize, bd, s.expansionType, h, ?_⟩
  by_cases hf : s.finalPass = true
  · rw [if_pos hf]
  · rw [if_neg hf, hl (by simpa using hf)]

theorem emitting_final {s : St} (h : s.finalPass = false) : emitting s = false := by
  unfold emitting
  rw [h]
  rfl

/-- Emission in any pass. -/
theorem emit_item {f : Nat} {s : St} {p : Ptr} {bs : List Nat} {b : Bool} {Q : List ListEntry → Prop} (hb : s.finalPass = b)
    (h : s.finalPass = true → ∃ ns bd ls, HeapSim false (look s) s.nodes ns ∧ Q ls ∧ emitNode (expandNode f) p s = (.ok (), { s with
        nodes := ns
        byteDelta := bd
        listing := s.listing ++ ls
        out := s.out ++ (if emitting s then outHdr s ++ bs else [])
        totalBytes := s.totalBytes + (if emitting s then (((outHdr s).length + bs.length : Nat) : Int) else 0) })) :
    ∃ ns bd ls, HeapSim false (look s) s.nodes ns ∧ (s.finalPass = false → ls = []) ∧ (s.finalPass = true → Q ls) ∧
      (if b = true then emitNode (expandNode f) p else M.pure ()) s = (.ok (), { s with
        nodes := ns
        byteDelta := bd
        listing := s.listing ++ ls
        out := s.out ++ (if emitting s then outHdr s ++ bs else [])
        totalBytes := s.totalBytes + (if emitting s then (((outHdr s).length + bs.length : Nat) : Int) else 0) }) := by
  subst hb
  by_cases hfin : s.finalPass = true
  · obtain ⟨ns, bd, ls, h1, hq, h2⟩ := h hfin
    refine ⟨ns, bd, ls, h1, ?_, fun _ => hq, by rw [if_pos hfin, h2]⟩
    intro hh
    rw [hfin] at hh
    cases hh
  · have hf : s.finalPass = false := by simpa using hfin
    refine ⟨s.nodes, s.byteDelta, [], HeapSim.refl _ _ _, fun _ => rfl, fun h => absurd h hfin, ?_⟩
    rw [if_neg hfin, emitting_final hf]
    simp only [Bool.false_eq_true, if_false, List.append_nil, Int.add_zero]
    rfl

theorem number_length {size v : Int} {bs : List Nat} (h : Spec.number size v = some bs)
    (h0 : size = 0 ∨ size = 1 ∨ size = 2) : (bs.length : Int) = if size = 2 then 2 else 1 := by
  unfold Spec.number at h
  split at h
  · split at h
    · cases h
      rw [if_neg (by omega)]; rfl
    · cases h
  · split at h
    · rename_i hd
      split at h
      · cases h
        rw [if_pos hd]; rfl
      · cases h
    · split at h
      · cases h
        rw [if_neg (by omega)]; rfl
      · cases h

/-- Directive being expanded. -/
def DataState (s : St) : Prop :=
  (s.expansionType = .dataBytes ∧ (s.dataSize = 1 ∨ s.dataSize = 2)) ∨ (s.expansionType = .dataStrings ∧ s.dataSize = 0)

theorem DataState.size {s : St} (h : DataState s) : s.dataSize = 0 ∨ s.dataSize = 1 ∨ s.dataSize = 2 := by
  rcases h with ⟨_, h⟩ | ⟨_, h⟩
  · exact Or.inr h
  · exact Or.inl h

/-- One item of a data directive. -/
theorem dataItem_run {f : Nat} {s : St} {p : Ptr} {x : Item} {bs : List Nat} (hd : x.depth < f)
    (he : s.endExpansion = false) (hds : DataState s) (ht : ItemAt (look s) s.nodeBase s.nodes x p)
    (hv : Spec.item textOf (envOf s) s.dataSize s.pc x = some bs) (hroom : Room s) (acc : Option SymPtr) :
    ∃ s' ls, exprListItem (expandNode f) (hasUninit f) acc p s = (.ok (some acc), s') ∧
      Asm s s' bs.length bs ls ∧ s'.dataSize = s.dataSize ∧ s'.expansionType = s.expansionType ∧
      (s.finalPass = true → ∀ q, Spec.Printable q textOf s.dataSize x → Spec.Prints q s.file s.line s.pc ls bs) := by
  cases x with
  | expr e =>
    simp only [Spec.item, Option.bind_eq_some_iff] at hv
    obtain ⟨v, hv, hnum⟩ := hv
    obtain ⟨hev, hkids⟩ := itemValue_some hv
    have hlen := number_length hnum hds.size
    obtain ⟨n, hb, hnode, hk, hl, hops⟩ := ExprAt.kind (e := e) ht
    obtain ⟨n1, sim1, r1, hdone⟩ := kids_run (f := f) (n := n) (by simp only [Item.depth] at hd; omega) he ht hnode hkids
    let t : St := { s with nodes := n1 }
    have ht1 : ExprAt (look t) t.nodeBase t.nodes e p := ExprAt.sim (e := e) sim1 ht
    obtain ⟨n', hb', hnode', hk', hl', _⟩ := ht1.kind
    have hu := hasUninit_item (f := f) (s := t) hd ht1 hdone
    have hlen' : bs ≠ [] ∧ bs.length ≤ 3 := by
      split at hlen
      · exact ⟨fun h => (by rw [h] at hlen; cases hlen), by omega⟩
      · exact ⟨fun h => (by rw [h] at hlen; cases hlen), by omega⟩
    obtain ⟨ns, bd, ls, sim2, hls, hq, r2⟩ := emit_item (f := f) (s := t) (p := p) (bs := bs)
      (Q := fun ls => ∀ q, Spec.Prints q s.file s.line s.pc ls bs) rfl (fun hfin => by
      obtain ⟨ns, bd, h1, h2⟩ := emitNumber_run (s := t) hd he ht1 hev hnum hds.size hroom hfin
      exact ⟨ns, bd, _, h1, fun q => Prints.one hlen'.1 hlen'.2 (dataRow_shows (s := t) (number_bytes hnum) s.pc), h2⟩)
    let t2 : St := { t with
        nodes := ns
        byteDelta := bd
        listing := t.listing ++ ls
        out := t.out ++ (if emitting t then outHdr t ++ bs else [])
        totalBytes := t.totalBytes + (if emitting t then (((outHdr t).length + bs.length : Nat) : Int) else 0) }
    have pre : exprListItem (expandNode f) (hasUninit f) acc p s = (match s.expansionType with
        | .symbol => varItem (expandNode f) acc p n'
        | .macroParameter => macroArg (expandNode f) p n'
        | .dataBytes => dataBytesItem (expandNode f) (hasUninit f) acc p n'
        | .dataStrings => dataStringsItem (expandNode f) acc p n'
        | .printAll => printItem (expandNode f) true acc p n'
        | .print => printItem (expandNode f) false acc p n') t := by
      unfold exprListItem
      rw [bind_ok (Live.run ⟨hb, hnode⟩), if_neg hl, bind_ok (operands_run hops s), bind_ok r1,
        bind_ok (Live.run (s := t) ⟨hb', hnode'⟩), getS_bind]
      rfl
    rw [pre]
    rcases hds with ⟨htype, hsize⟩ | ⟨htype, hsize⟩
    · rw [htype]
      have hasm : Asm s { t2 with pc := t2.pc + (bs.length : Int) } bs.length bs ls :=
        asm_item (s := s) (sim1.trans sim2).mono hls
      refine ⟨_, ls, ?_, hasm, rfl, htype, fun hf q _ => hq hf q⟩
      show dataBytesItem (expandNode f) (hasUninit f) acc p n' t = _
      unfold dataBytesItem
      rw [bind_ok hu, getS_bind, if_neg (by rw [macroArgOk_data hk']; simp)]
      have r2' : (if (false : Bool) = false ∧ t.finalPass = true then emitNode (expandNode f) p else M.pure ()) t =
          (.ok (), t2) := by
        by_cases hfp : t.finalPass = true
        · rw [if_pos ⟨rfl, hfp⟩]
          rw [if_pos hfp] at r2
          exact r2
        · rw [if_neg (fun h => hfp h.2)]
          rw [if_neg hfp] at r2
          exact r2
      rw [bind_ok r2', getS_bind]
      have hpc : t2.dataSize = (bs.length : Int) := by
        show s.dataSize = _
        rw [hlen]
        rcases hsize with h | h <;> simp [h]
      cases hkk : n'.kind <;> rw [hkk] at hk' <;> first | cases hk' | skip
      all_goals
        exact Eq.trans (congrArg (fun z => (addPc z >>= fun _ => M.pure (some acc)) t2) hpc) rfl
    · rw [htype]
      -- the value is evaluated once more
      have htlk : look t2 = look s := rfl
      have ht2 : ExprAt (look t2) t2.nodeBase t2.nodes e p := ht1.sim sim2
      obtain ⟨ns3, r3, sim3, _⟩ := expand_ok (f := f) (s := t2) (e := e) (p := p) hd he ht2 hev
      have hasm : Asm s { t2 with nodes := ns3, pc := t2.pc + (bs.length : Int) } bs.length bs ls :=
        asm_item (s := s) ((sim1.trans sim2).trans sim3).mono hls
      refine ⟨_, ls, ?_, hasm, rfl, htype, fun hf q _ => hq hf q⟩
      show dataStringsItem (expandNode f) acc p n' t = _
      unfold dataStringsItem
      rw [if_pos (macroArgOk_data hk'), getS_bind, bind_ok r2]
      have hv255 : 0 ≤ v ∧ v ≤ 255 := by
        unfold Spec.number at hnum
        rw [hsize, if_neg (by decide), if_neg (by decide)] at hnum
        split at hnum
        · assumption
        · cases hnum
      have hfin : (expandNode f p >>= fun op => addPc (if cand op 0xFF00 / 256 ≠ 0 then 2 else 1)) t2 =
          (.ok (), { t2 with nodes := ns3, pc := t2.pc + (bs.length : Int) }) := by
        rw [bind_ok r3, cand_ff00, if_neg (by omega), hlen, hsize]
        rfl
      cases hkk : n'.kind <;> rw [hkk] at hk' <;> first | cases hk' | skip
      all_goals
        show ((expandNode f p >>= fun op => addPc (if cand op 0xFF00 / 256 ≠ 0 then 2 else 1)) >>=
          fun _ => M.pure (some acc)) t2 = _
        rw [bind_ok hfin]
        rfl
  | str raw =>
    obtain ⟨hb, v, hraw, hnode⟩ := ht
    have hbs : bs = Spec.text s.dataSize v := by
      simp only [Spec.item, hraw, Option.map_some, Option.some.injEq] at hv
      exact hv.symm
    subst hbs
    have hlive : Live s p ⟨.str v, 0, []⟩ := ⟨hb, hnode⟩
    obtain ⟨ns, bd, ls, sim2, hls, hq, r2⟩ := emit_item (f := f) (s := s) (p := p) (bs := Spec.text s.dataSize v)
      (Q := fun ls => ∀ q : Nat → Prop, (s.dataSize = 2 → v.length % 6 ≠ 3) ∧ (∀ c ∈ v, q (c % 256)) → Spec.Prints q s.file s.line s.pc ls (Spec.text s.dataSize v)) rfl
      (fun hfin => emitText_run hlive hroom hfin)
    let t2 : St := { s with
        nodes := ns
        byteDelta := bd
        listing := s.listing ++ ls
        out := s.out ++ (if emitting s then outHdr s ++ Spec.text s.dataSize v else [])
        totalBytes := s.totalBytes + (if emitting s then
          (((outHdr s).length + (Spec.text s.dataSize v).length : Nat) : Int) else 0) }
    have hasm : Asm s { t2 with pc := t2.pc + ((Spec.text s.dataSize v).length : Int) }
        (Spec.text s.dataSize v).length (Spec.text s.dataSize v) ls := asm_item (s := s) sim2.mono hls
    have pre : exprListItem (expandNode f) (hasUninit f) acc p s = (match s.expansionType with
        | .symbol => varItem (expandNode f) acc p ⟨.str v, 0, []⟩
        | .macroParameter => macroArg (expandNode f) p ⟨.str v, 0, []⟩
        | .dataBytes => dataBytesItem (expandNode f) (hasUninit f) acc p ⟨.str v, 0, []⟩
        | .dataStrings => dataStringsItem (expandNode f) acc p ⟨.str v, 0, []⟩
        | .printAll => printItem (expandNode f) true acc p ⟨.str v, 0, []⟩
        | .print => printItem (expandNode f) false acc p ⟨.str v, 0, []⟩) s := by
      unfold exprListItem
      rw [bind_ok hlive.run, if_neg (by simp), bind_ok (operands_run (by simp) s)]
      show (node p >>= _) s = _
      rw [bind_ok hlive.run, getS_bind]
      rfl
    rw [pre]
    rcases hds with ⟨htype, hsize⟩ | ⟨htype, hsize⟩
    · rw [htype]
      refine ⟨_, ls, ?_, hasm, rfl, htype, fun hf q hp => hq hf q (hp v hraw)⟩
      show dataBytesItem (expandNode f) (hasUninit f) acc p ⟨.str v, 0, []⟩ s = _
      have hu : hasUninit f p s = (.ok false, s) := by
        obtain ⟨f, rfl⟩ : ∃ g, f = g + 1 := ⟨f - 1, by omega⟩
        show (node p >>= _) s = _
        rw [bind_ok hlive.run]
        rfl
      unfold dataBytesItem
      rw [bind_ok hu, getS_bind, if_neg (by simp [dataItemOk])]
      have r2' : (if (false : Bool) = false ∧ s.finalPass = true then emitNode (expandNode f) p else M.pure ()) s =
          (.ok (), t2) := by
        by_cases hfp : s.finalPass = true
        · rw [if_pos ⟨rfl, hfp⟩]
          rw [if_pos hfp] at r2
          exact r2
        · rw [if_neg (fun h => hfp h.2)]
          rw [if_neg hfp] at r2
          exact r2
      rw [bind_ok r2', getS_bind]
      have hpc : (if v.length % 2 = 1 ∧ t2.dataSize = 2 then (v.length : Int) + 1 else v.length) =
          ((Spec.text s.dataSize v).length : Int) := by
        show (if v.length % 2 = 1 ∧ s.dataSize = 2 then (v.length : Int) + 1 else v.length) = _
        unfold Spec.text
        by_cases hc : v.length % 2 = 1 ∧ s.dataSize = 2
        · rw [if_pos hc, if_pos hc.symm]; simp
        · rw [if_neg hc, if_neg (fun h => hc h.symm)]; simp
      show (addPc (if v.length % 2 = 1 ∧ t2.dataSize = 2 then (v.length : Int) + 1 else v.length) >>=
        fun _ => M.pure (some acc)) t2 = _
      rw [hpc]
      rfl
    · rw [htype]
      refine ⟨_, ls, ?_, hasm, rfl, htype, fun hf q hp => hq hf q (hp v hraw)⟩
      show dataStringsItem (expandNode f) acc p ⟨.str v, 0, []⟩ s = _
      unfold dataStringsItem
      rw [if_pos (by rfl), getS_bind, bind_ok r2]
      have hpc : (v.length : Int) = ((Spec.text s.dataSize v).length : Int) := by
        unfold Spec.text
        rw [if_neg (by omega)]; simp
      show (addPc (v.length : Int) >>= fun _ => M.pure (some acc)) t2 = _
      rw [hpc]
      rfl


/-! ## Lists and statements -/

theorem Asm.room {s s' : St} {n : Int} {bs : List Nat} {ls : List ListEntry} (h : Asm s s' n bs ls)
    (hr : Room s) (hn : n ≤ bs.length) : Room s' := by
  obtain ⟨ns, cg, ds, bd, et, g, rfl⟩ := h
  intro he
  have he' : emitting s = true := he
  have := hr he'
  simp only [he', if_true]
  show s.pc + n ≤ s.origin + (s.totalBytes + _) + _
  have h2 : (0 : Int) ≤ (outHdr { s with
    nodes := ns
    codeGenerated := cg
    dataSize := ds
    byteDelta := bd
    expansionType := et
    pc := s.pc + n
    out := s.out ++ (outHdr s ++ bs)
    totalBytes := s.totalBytes + (((outHdr s).length + bs.length : Nat) : Int)
    listing := s.listing ++ (if s.finalPass then ls else []) }).length := Int.natCast_nonneg _
  omega

theorem Asm.facts {s s' : St} {n : Int} {bs : List Nat} {ls : List ListEntry} (h : Asm s s' n bs ls) :
    look s' = look s ∧ s'.nodeBase = s.nodeBase ∧ s'.pc = s.pc + n ∧ s'.endExpansion = s.endExpansion ∧
    envOf s' = envOf s ∧ HeapSim true (look s) s.nodes s'.nodes := by
  obtain ⟨ns, cg, ds, bd, et, g, rfl⟩ := h
  exact ⟨rfl, rfl, rfl, rfl, rfl, g⟩

theorem Asm.place {s s' : St} {n : Int} {bs : List Nat} {ls : List ListEntry} (h : Asm s s' n bs ls) :
    s'.finalPass = s.finalPass ∧ s'.file = s.file ∧ s'.line = s.line := by
  obtain ⟨ns, cg, ds, bd, et, g, rfl⟩ := h
  exact ⟨rfl, rfl, rfl⟩

theorem items_snoc {txt : Str → Option Str} {env : Str → Option Int} {size : Int} {x : Item} :
    ∀ {xs : List Item} {pc : Int} {bs : List Nat}, Spec.items txt env size pc (xs ++ [x]) = some bs →
      ∃ b1 b2, Spec.items txt env size pc xs = some b1 ∧ Spec.item txt env size (pc + b1.length) x = some b2 ∧
        bs = b1 ++ b2
  | [], pc, bs, h => by
    simp only [List.nil_append, Spec.items, Option.bind_eq_some_iff, Option.map_eq_some_iff] at h
    obtain ⟨b, hb, c, hc, rfl⟩ := h
    cases hc
    exact ⟨[], b, rfl, by simpa using hb, by simp⟩
  | y :: ys, pc, bs, h => by
    simp only [List.cons_append, Spec.items, Option.bind_eq_some_iff, Option.map_eq_some_iff] at h
    obtain ⟨b, hb, c, hc, rfl⟩ := h
    obtain ⟨b1, b2, h1, h2, rfl⟩ := items_snoc hc
    refine ⟨b ++ b1, b2, ?_, ?_, by simp⟩
    · simp only [Spec.items, hb, h1, Option.bind_some, Option.map_some]
    · rw [List.length_append, Int.natCast_add, ← Int.add_assoc]
      exact h2

theorem items_text {txt : Str → Option Str} {env : Str → Option Int} {size : Int} :
    ∀ {xs : List Item} {pc : Int} {bs : List Nat}, Spec.items txt env size pc xs = some bs →
      ∀ raw, .str raw ∈ xs → ∃ v, txt raw = some v
  | [], _, _, _, _, hm => by cases hm
  | y :: ys, pc, bs, h, raw, hm => by
    simp only [Spec.items, Option.bind_eq_some_iff, Option.map_eq_some_iff] at h
    obtain ⟨b, hb, c, hc, rfl⟩ := h
    rcases List.mem_cons.1 hm with rfl | hm
    · simp only [Spec.item, Option.map_eq_some_iff] at hb
      obtain ⟨v, hv, _⟩ := hb
      exact ⟨v, hv⟩
    · exact items_text hc raw hm

/-- A list of items (last item first). -/
theorem dataList_run : ∀ (xs : List Item) {f : Nat} {s : St} {p : Ptr} {bs : List Nat},
    (∀ x ∈ xs, x.depth + xs.length < f) → s.endExpansion = false → DataState s → 0 ≤ s.totalBytes →
    ListAt (look s) s.nodeBase s.nodes xs p → Spec.items textOf (envOf s) s.dataSize s.pc xs.reverse = some bs → Room s →
    ∃ s' ls, expandNode f p s = (.ok 0, s') ∧ Asm s s' bs.length bs ls ∧ s'.dataSize = s.dataSize ∧
      s'.expansionType = s.expansionType ∧
      (s.finalPass = true → ∀ q, (∀ x ∈ xs, Spec.Printable q textOf s.dataSize x) → Spec.Prints q s.file s.line s.pc ls bs)
  | [], _, _, _, _, _, _, _, _, ht, _, _ => ht.elim
  | [x], f, s, p, bs, hd, he, hds, h0, ht, hv, hroom => by
    obtain ⟨g, rfl⟩ : ∃ g, f = g + 1 := ⟨f - 1, by have := hd x (by simp); simp at this; omega⟩
    obtain ⟨hb, q, hn, hq⟩ := ht
    have hv' : Spec.item textOf (envOf s) s.dataSize s.pc x = some bs := by
      simp only [List.reverse_cons, List.reverse_nil, List.nil_append, Spec.items, Option.bind_eq_some_iff,
        Option.map_eq_some_iff] at hv
      obtain ⟨b, hb, c, hc, rfl⟩ := hv
      cases hc
      simpa using hb
    obtain ⟨s', ls, r, a, h1, h2, hp⟩ := dataItem_run (f := g) (by have := hd x (by simp); simp at this; omega) he hds hq hv'
      hroom none
    refine ⟨s', ls, ?_, a, h1, h2, fun hf q hx => hp hf q (hx x (by simp))⟩
    rw [expandNode_run he ⟨hb, hn⟩]
    show (operands ⟨.opr .exprList, 1, [q]⟩ >>= _) s = _
    rw [bind_ok (operands_run (by simp) s)]
    have : eachM (exprListItem (expandNode g) (hasUninit g)) [q] none s = (.ok (some none), s') := by
      show (exprListItem (expandNode g) (hasUninit g) none q >>= _) s = _
      rw [bind_ok r]
      rfl
    show (eachM (exprListItem (expandNode g) (hasUninit g)) [q] none >>= _) s = _
    rw [bind_ok this]
    rfl
  | x :: y :: ys, f, s, p, bs, hd, he, hds, h0, ht, hv, hroom => by
    obtain ⟨g, rfl⟩ : ∃ g, f = g + 1 := ⟨f - 1, by have := hd x (by simp); simp at this; omega⟩
    obtain ⟨hb, r, q, hn, hr, hq⟩ := ht
    rw [List.reverse_cons] at hv
    obtain ⟨b1, b2, hv1, hv2, rfl⟩ := items_snoc hv
    obtain ⟨s1, l1, r1, a1, h1, h2, hp1⟩ := dataList_run (y :: ys) (f := g) (fun z hz => by
      have := hd z (List.mem_cons_of_mem _ hz); simp only [List.length_cons] at this ⊢; omega) he hds h0 hr hv1 hroom
    have room1 := a1.room hroom (Int.le_refl _)
    obtain ⟨f1, f2, f3, f4, f5, sim⟩ := a1.facts
    obtain ⟨s2, l2, r2, a2, h3, h4, hp2⟩ := dataItem_run (f := g) (x := x) (bs := b2) (s := s1)
      (by have := hd x (by simp); simp at this; omega) (f4.trans he)
      (by unfold DataState at hds ⊢; rw [h1, h2]; exact hds) (by rw [f1, f2]; exact hq.sim sim)
      (by rw [h1, f5, f3]; exact hv2) room1 none
    obtain ⟨g1, g2, g3⟩ := a1.place
    refine ⟨s2, l1 ++ l2, ?_, ?_, h3.trans h1, h4.trans h2, fun hf q hx => ?_⟩
    · rw [expandNode_run he ⟨hb, hn⟩]
      show (operands ⟨.opr .exprList, 2, [r, q]⟩ >>= _) s = _
      rw [bind_ok (operands_run (by simp) s)]
      have hrk : ∃ n, Live s r n ∧ n.kind = .opr .exprList := by
        cases ys with
        | nil => obtain ⟨hb', q', hn', _⟩ := hr; exact ⟨_, ⟨hb', hn'⟩, rfl⟩
        | cons z zs => obtain ⟨hb', r', q', hn', _⟩ := hr; exact ⟨_, ⟨hb', hn'⟩, rfl⟩
      obtain ⟨n, hl, hk⟩ := hrk
      have e1 : exprListItem (expandNode g) (hasUninit g) none r s = (.ok (some none), s1) := by
        unfold exprListItem
        rw [bind_ok hl.run, if_pos hk, bind_ok r1]
        rfl
      have : eachM (exprListItem (expandNode g) (hasUninit g)) [r, q] none s = (.ok (some none), s2) := by
        show (exprListItem (expandNode g) (hasUninit g) none r >>= _) s = _
        rw [bind_ok e1]
        show (exprListItem (expandNode g) (hasUninit g) none q >>= _) _ = _
        rw [bind_ok r2]
        rfl
      show (eachM (exprListItem (expandNode g) (hasUninit g)) [r, q] none >>= _) s = _
      rw [bind_ok this]
      rfl
    · have := Asm.comp h0 a1 a2
      rw [List.length_append, Int.natCast_add]
      exact this
    · have p1 := hp1 hf q (fun z hz => hx z (List.mem_cons_of_mem _ hz))
      have p2 := hp2 (g1.trans hf) q (by rw [h1]; exact hx x (by simp))
      rw [g2, g3, f3] at p2
      exact Prints.append p1 p2

/-- The state a data directive works in. -/
def dataSt (s : St) (size : Int) : St := { s with
    originSpecified := true
    expansionType := if size = 0 then .dataStrings else .dataBytes
    dataSize := size }

theorem orig_true {s : St} (h : s.originSpecified = true ∨ s.pcAssigned > 0) : orig s = { s with originSpecified := true } := by
  unfold orig
  split
  · rfl
  · rename_i hh
    have := h.resolve_right hh
    rw [← this]

/-- Assembling a data directive whose values are known, in any pass. -/
theorem dataStmt_run {f : Nat} {s : St} {size : Int} {hd : Item} {tl : List Item} {bs : List Nat} (file : Str) (line : Int)
    (hsize : size = 0 ∨ size = 1 ∨ size = 2)
    (hdepth : ∀ x ∈ hd :: tl, x.depth + (hd :: tl).length < f) (he : s.endExpansion = false)
    (hb : s.nodeBase ≤ s.nodes.length) (h0 : 0 ≤ s.totalBytes)
    (hv : Spec.items textOf (envOf s) size s.pc (hd :: tl) = some bs)
    (ho : s.originSpecified = true ∨ s.pcAssigned > 0) (hroom : Room (orig s)) :
    ∃ s' ls, runTop (expandNode (f + 1)) (hasUninit (f + 1)) (.stmt file line (.data size hd tl)) s = (.ok true, s') ∧
      Asm (orig (atLine s file line)) s' bs.length bs ls ∧
      (s.finalPass = true → ∀ q, (∀ x ∈ hd :: tl, Spec.Printable q textOf size x) → Spec.Prints q file line s.pc ls bs) := by
  let s0 := atLine s file line
  obtain ⟨l, q, h1, h2⟩ := buildItems_run (lk := look s) hd tl s0 hb (items_text hv)
  let s1 : St := { s0 with nodes := s0.nodes ++ l }
  let N : Node := ⟨.data size q, 0, []⟩
  let s2 : St := { s0 with nodes := s0.nodes ++ l ++ [N] }
  have hb2 : s2.nodeBase ≤ s1.nodes.length := by
    simp only [s1, s2, List.length_append]
    have : s0.nodeBase ≤ s0.nodes.length := hb
    omega
  have hl : Live s2 s1.nodes.length N := ⟨hb2, by simp [s1, s2]⟩
  have hlist : ListAt (look s) s2.nodeBase s2.nodes ((hd :: tl).reverse) q := h2.sim (HeapSim.append false _ _ [N])
  let s3 : St := dataSt s2 size
  have hds : DataState s3 := by
    rcases hsize with h | h | h
    · exact Or.inr ⟨by simp [s3, dataSt, h], h⟩
    · exact Or.inl ⟨by simp [s3, dataSt, h], Or.inl h⟩
    · exact Or.inl ⟨by simp [s3, dataSt, h], Or.inr h⟩
  have horig : orig s0 = { s0 with originSpecified := true } := orig_true ho
  have hroom3 : Room s3 := by
    have := room_atLine file line hroom
    rw [show orig (atLine s file line) = _ from horig] at this
    exact this
  obtain ⟨s', ls, r, a, _, _, hp⟩ := dataList_run ((hd :: tl).reverse) (f := f) (s := s3) (bs := bs)
    (fun x hx => by rw [List.length_reverse]; exact hdepth x (List.mem_reverse.1 hx)) he hds h0 hlist
    (by rw [List.reverse_reverse]; exact hv) hroom3
  refine ⟨s', ls, ?_, ?_, fun hf q hx => hp hf q (fun x h => hx x (List.mem_reverse.1 h))⟩
  · refine runTop_stmt (v := 0) (p := s1.nodes.length) (s1 := s2) (by intro _ _ _ h; cases h) ?_ ?_
    · refine built_run ?_
      show (buildItems hd tl >>= fun p => dataNode size p) s0 = _
      rw [bind_ok h1]
      exact alloc_run _ _ _
    · rw [expandNode_run (s := s2) he hl]
      exact r
  · obtain ⟨ns, cg, ds, bd, et, sim, rfl⟩ := a
    rw [show orig (atLine s file line) = _ from horig]
    refine ⟨ns, cg, ds, bd, et, ?_, rfl⟩
    refine HeapSim.trans ?_ sim
    show HeapSim true _ s.nodes (s.nodes ++ l ++ [N])
    exact (HeapSim.append _ _ _ _).trans (HeapSim.append _ _ _ _)

end Verif
