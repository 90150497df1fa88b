import Verif.Lemmas.BlockLeaf

/-! # `.var` -/

namespace Verif

variable {mb : Bool}

/-- States that differ in variables and nodes only, with the effect on the values given by a change of configuration. -/
def Sets (mb : Bool) (s s' : St) (k k' : Spec.Cfg) : Prop :=
  ∃ ys ns, s' = { s with syms := ys, nodes := ns } ∧ SameVars s.syms ys ∧ HeapSim true (look s) s.nodes ns ∧
    (EnvEq mb (envOf s) k.env → s.pc = k.pc → EnvEq mb (envOf s') k'.env ∧ k'.pc = k.pc ∧ k'.fresh = k.fresh)

theorem Sets.trans {s s' s'' : St} {k k' k'' : Spec.Cfg} (h : Sets mb s s' k k') (h' : Sets mb s' s'' k' k'') : Sets mb s s'' k k'' := by
  obtain ⟨ys, ns, rfl, h1, h2, h3⟩ := h
  obtain ⟨ys', ns', rfl, g1, g2, g3⟩ := h'
  have hlk : look { s with syms := ys, nodes := ns } = look s := look_syms rfl rfl h1
  refine ⟨ys', ns', rfl, h1.trans g1, h2.trans (by rw [← hlk]; exact g2), fun a b => ?_⟩
  obtain ⟨c1, c2, c3⟩ := h3 a b
  obtain ⟨d1, d2, d3⟩ := g3 c1 (b.trans c2.symm)
  exact ⟨d1, d2.trans c2, d3.trans c3⟩

theorem Sets.eff {s s' : St} {k k' : Spec.Cfg} (h : Sets mb s s' k k') : Eff mb s s' [] := by
  obtain ⟨ys, ns, rfl, h1, h2, h3⟩ := h
  exact Eff.vars h1 h2

theorem Sets.nodes {s : St} {ns : List Node} (h : HeapSim true (look s) s.nodes ns) (k : Spec.Cfg) :
    Sets mb s { s with nodes := ns } k k := ⟨s.syms, ns, rfl, rfl, h, fun a _ => ⟨a, rfl, rfl⟩⟩

theorem Sets.set {C : Spec.Context} {slot : Str → Option Nat} {s : St} {name : Str} {c : Nat} {x : Sym} (v : Int)
    (hf : Fits mb C slot s) (h : slot name = some c) (hx : s.syms[c]? = some x) (hv : x.isVar = true) (hi : x.isInit = true)
    (k : Spec.Cfg) : Sets mb s { s with syms := s.syms.set c { x with value := v } } k (k.set slot c v) := by
  refine ⟨_, s.nodes, rfl, SameVars.set hx hv v, HeapSim.refl _ _ _, fun a b => ⟨?_, rfl, rfl⟩⟩
  rw [show ({ s with syms := s.syms.set c { x with value := v } } : St) =
    { s with syms := s.syms.set c { x with value := v }, nodes := s.nodes } from rfl,
    envOf_set v hf h hx hv hi s.nodes]
  intro n hn
  show (if slot n = some c then some v else envOf s n) = if slot n = some c then some v else k.env n
  rw [a n hn]

/-- A name in the list. -/
theorem varName_run {C : Spec.Context} {slot : Str → Option Nat} {f : Nat} {s : St} {i : Ptr} {name : Str} {c : Nat}
    (k : Spec.Cfg) (hfit : Fits mb C slot s) (het : s.expansionType = .symbol) (hi : IdAt mb s name i) (hc : slot name = some c)
    (acc : Option SymPtr) :
    ∃ s', exprListItem (expandNode f) (hasUninit f) acc i s = (.ok (some (some c)), s') ∧ Sets mb s s' k (k.set slot c 0) := by
  have hn' : slotOf s name = some c := by rw [hfit.slots]; exact hc
  obtain ⟨hp, hlk, x, hx, hvar, hinit, hsc⟩ := slotOf_some hn'
  have hlt : c < s.syms.length := by
    rcases Nat.lt_or_ge c s.syms.length with h | h
    · exact h
    · rw [List.getElem?_eq_none h] at hx; cases hx
  obtain ⟨ns, r, sim⟩ := resolveId_run false hi hp hlk
  have hset := Sets.set (mb := mb) (s := { s with nodes := ns }) 0 ((Eff.heap (mb := mb) sim).fits hfit) hc hx hvar hinit k
  refine ⟨_, ?_, (Sets.nodes sim k).trans hset⟩
  obtain ⟨⟨cc, hL, _⟩, _⟩ := hi
  have e0 : exprListItem (expandNode f) (hasUninit f) acc i s = varName false cc.isSome i s := by
    unfold exprListItem
    rw [bind_ok hL.run, if_neg (by intro h; cases h)]
    rw [bind_ok (operands_run (n := ⟨.id .id name cc, 0, []⟩) (Nat.zero_le _) s)]
    show ((forEachM _ []) >>= _) s = _
    rw [show forEachM (fun o => do let _ ← expandNode f o; M.pure ()) ([] : List Ptr) = M.pure () from rfl, pure_bind']
    rw [bind_ok hL.run, getS_bind, het]
    rfl
  rw [e0]
  unfold varName
  rw [bind_ok r]
  have hlt' : c < ({ s with nodes := ns } : St).syms.length := hlt
  have e1 : (if cc.isSome = false then modSym c fun x => { x with isVar := true } else M.pure ()) { s with nodes := ns } =
      (.ok (), { s with nodes := ns }) := by
    split
    · rw [modSym_run hlt', modify_set (show ({ s with nodes := ns } : St).syms[c]? = some x from hx)]
      have hg : ({ x with isVar := true } : Sym) = x := by rw [← hvar]
      have hget : s.syms[c] = x := by
        rw [List.getElem?_eq_getElem hlt] at hx
        exact Option.some.inj hx
      rw [hg]
      have : s.syms.set c x = s.syms := by rw [← hget]; exact List.set_getElem_self hlt
      simp only [this]
    · rfl
  show ((if cc.isSome = false then modSym c fun x => { x with isVar := true } else M.pure ()) >>= _) _ = _
  rw [bind_ok e1, getS_bind, bind_ok (modSym_run hlt' _), modify_set (show ({ s with nodes := ns } : St).syms[c]? = some x from hx)]
  have : ({ x with value := if false = true then s.pc else 0, isInit := true } : Sym) = { x with value := 0 } := by
    rw [if_neg Bool.false_ne_true, ← hinit]
  show (M.pure (some (some c)) : M _) { s with nodes := ns, syms := s.syms.set c { x with value := if false = true then s.pc else 0, isInit := true } } = _
  rw [this]
  rfl

/-- An initialiser. -/
theorem varValue_run {C : Spec.Context} {slot : Str → Option Nat} {f : Nat} {s : St} {q : Ptr} {name : Str} {e : Expr} {c : Nat}
    {v : Int} (k : Spec.Cfg) (hfit : Fits mb C slot s) (het : s.expansionType = .symbol) (hq : ExAt mb s e q)
    (hc : slot name = some c) (hd : e.depth < f) (he : s.endExpansion = false) (hs : ∀ n, e ≠ .sym n)
    (hv : Spec.itemValue (envOf s) s.pc e = some v) :
    ∃ s', exprListItem (expandNode f) (hasUninit f) (some c) q s = (.ok (some none), s') ∧ Sets mb s s' k (k.set slot c v) := by
  obtain ⟨hev, hkids⟩ := itemValue_some hv
  obtain ⟨n, hb, hn, _, hk, ho⟩ := ExprAt.kind hq.tree
  obtain ⟨ns1, sim1, r1, _⟩ := kids_run (f := f) (Nat.le_of_lt hd) he hq.tree hn hkids
  let s1 : St := { s with nodes := ns1 }
  have hq1 : ExAt mb s1 e q := hq.keep (Eff.heap sim1.mono).keeps
  obtain ⟨n1, hb1, hn1, _, _, _⟩ := ExprAt.kind hq1.tree
  obtain ⟨ns2, r2, sim2, _⟩ := expand_ok (f := f) (s := s1) hd he hq1.tree hev
  let s2 : St := { s1 with nodes := ns2 }
  have hfit2 : Fits mb C slot s2 := (Eff.heap (mb := mb) (s := s1) sim2.mono).fits ((Eff.heap (mb := mb) sim1.mono).fits hfit)
  have hn' : slotOf s2 name = some c := by rw [hfit2.slots]; exact hc
  obtain ⟨hp, hlk, x, hx, hvar, hinit, hsc⟩ := slotOf_some hn'
  have hset := Sets.set (mb := mb) (s := s2) v hfit2 hc hx hvar hinit k
  refine ⟨_, ?_, ((Sets.nodes sim1.mono k).trans (Sets.nodes (s := s1) sim2.mono k)).trans hset⟩
  have hl : Live s q n := ⟨hb, hn⟩
  have hl1 : Live s1 q n1 := ⟨hb1, hn1⟩
  have e0 : exprListItem (expandNode f) (hasUninit f) (some c) q s = varItem (expandNode f) (some c) q n1 s1 := by
    unfold exprListItem
    rw [bind_ok hl.run, if_neg hk, bind_ok (operands_run ho s), bind_ok r1, bind_ok hl1.run, getS_bind]
    have het1 : s1.expansionType = .symbol := het
    simp only [het1]
  rw [e0]
  have hkind : ∀ a b d, n1.kind ≠ .id a b d := by
    cases e with
    | int w => rw [hq1.tree.2] at hn1; cases hn1; intro _ _ _ h; cases h
    | pc => obtain ⟨_, w, hw⟩ := hq1.tree; rw [hw] at hn1; cases hn1; intro _ _ _ h; cases h
    | sym nm => exact absurd rfl (hs nm)
    | un op e => obtain ⟨_, w, hw, _⟩ := hq1.tree; rw [hw] at hn1; cases hn1; intro _ _ _ h; cases h
    | bin op a b => obtain ⟨_, w, w', hw, _⟩ := hq1.tree; rw [hw] at hn1; cases hn1; intro _ _ _ h; cases h
  have e1 : varItem (expandNode f) (some c) q n1 = (do
      let v ← expandNode f q
      setSymbolValue c v
      M.pure (some none)) := by
    unfold varItem
    cases hkk : n1.kind with
    | id a b d => exact absurd hkk (hkind a b d)
    | _ => rfl
  rw [e1, bind_ok r2, bind_ok (setVar_run hx hvar v)]
  rfl

theorem Declare.snoc {slot : Str → Option Nat} {x : Str × Option Expr} : ∀ {xs : List (Str × Option Expr)} {k k' : Spec.Cfg},
    Spec.Declare slot (xs ++ [x]) k k' → ∃ k1, Spec.Declare slot xs k k1 ∧ Spec.Declare slot [x] k1 k'
  | [], k, k', h => ⟨k, rfl, h⟩
  | (n, none) :: xs, k, k', h => by
    obtain ⟨c, hc, h⟩ := h
    obtain ⟨k1, h1, h2⟩ := Declare.snoc (xs := xs) h
    exact ⟨k1, ⟨c, hc, h1⟩, h2⟩
  | (n, some e) :: xs, k, k', h => by
    obtain ⟨c, v, hc, hs, hv, h⟩ := h
    obtain ⟨k1, h1, h2⟩ := Declare.snoc (xs := xs) h
    exact ⟨k1, ⟨c, v, hc, hs, hv, h1⟩, h2⟩

/-- Fuel for the initialiser. -/
def varFuel (x : Str × Option Expr) : Nat := match x.2 with
  | none => 0
  | some e => e.depth

/-- One name with its initialiser. -/
theorem varOne_run {C : Spec.Context} {slot : Str → Option Nat} {f : Nat} {s : St} {l : List Ptr} {x : Str × Option Expr}
    {k k' : Spec.Cfg} (hfit : Fits mb C slot s) (het : s.expansionType = .symbol) (he : s.endExpansion = false)
    (henv : EnvEq mb (envOf s) k.env) (hpc : s.pc = k.pc) (hx : VarAt mb s x l) (hd : varFuel x < f) (h : Spec.Declare slot [x] k k') :
    ∃ s' a, eachM (exprListItem (expandNode f) (hasUninit f)) l none s = (.ok (some a), s') ∧ Sets mb s s' k k' := by
  obtain ⟨name, e⟩ := x
  cases e with
  | none =>
    obtain ⟨i, rfl, hi⟩ := hx
    obtain ⟨c, hc, rfl⟩ := h
    obtain ⟨s1, r1, e1⟩ := varName_run (f := f) k hfit het hi hc none
    refine ⟨s1, some c, ?_, e1⟩
    show (exprListItem (expandNode f) (hasUninit f) none i >>= _) s = _
    rw [bind_ok r1]
    rfl
  | some e =>
    obtain ⟨i, q, rfl, hi, hq⟩ := hx
    obtain ⟨c, v, hc, hs, hv, rfl⟩ := h
    obtain ⟨s1, r1, e1⟩ := varName_run (f := f) k hfit het hi hc none
    have hfit1 := (e1.eff (mb := mb)).fits hfit
    have hq1 := hq.keep e1.eff.keeps
    have e1' := e1
    obtain ⟨ys, ns, rfl, g1, g2, g3⟩ := e1'
    obtain ⟨g4, g5, g6⟩ := g3 henv hpc
    obtain ⟨s2, r2, e2⟩ := varValue_run (f := f) (k.set slot c 0) hfit1 het hq1 hc hd he hs
      (by
        rw [itemValue_congr fun n hn => g4 n fun hm => hq.glob hm n hn]
        show Spec.itemValue _ s.pc e = _
        rw [hpc]
        exact hv)
    refine ⟨s2, none, ?_, e1.trans e2⟩
    show (exprListItem (expandNode f) (hasUninit f) none i >>= _) s = _
    rw [bind_ok r1]
    show (exprListItem (expandNode f) (hasUninit f) (some c) q >>= _) _ = _
    rw [bind_ok r2]
    rfl

/-- The list of `.var`. -/
theorem varList_run {C : Spec.Context} {slot : Str → Option Nat} : ∀ (xs : List (Str × Option Expr)) {f : Nat} {s : St} {p : Ptr}
    {k k' : Spec.Cfg}, Fits mb C slot s → s.expansionType = .symbol → s.endExpansion = false →
    EnvEq mb (envOf s) k.env → s.pc = k.pc → VarsAt mb s xs p → (∀ x ∈ xs, varFuel x + xs.length < f) →
    Spec.Declare slot xs.reverse k k' →
    ∃ s', expandNode f p s = (.ok 0, s') ∧ Sets mb s s' k k'
  | [], _, _, _, _, _, _, _, _, _, _, ht, _, _ => ht.elim
  | [x], f, s, p, k, k', hfit, het, he, henv, hpc, ht, hd, h => by
    have hd' := hd x (by simp)
    obtain ⟨g, rfl⟩ : ∃ g, f = g + 1 := ⟨f - 1, by omega⟩
    simp only [List.length_singleton] at hd'
    obtain ⟨l, hl, hx⟩ := ht
    obtain ⟨s', a, r, e⟩ := varOne_run (f := g) hfit het he henv hpc hx (by omega) h
    refine ⟨s', ?_, e⟩
    rw [expandNode_run he hl]
    show expandExprList (expandNode g) (hasUninit g) ⟨.opr .exprList, l.length, l⟩ s = _
    unfold expandExprList
    rw [bind_ok (operands_run (n := ⟨.opr .exprList, l.length, l⟩) (Nat.le_refl _) s)]
    show (eachM (exprListItem (expandNode g) (hasUninit g)) (l.take l.length) none >>= _) s = _
    rw [List.take_length, bind_ok r]
    rfl
  | x :: y :: ys, f, s, p, k, k', hfit, het, he, henv, hpc, ht, hd, h => by
    have hd' := hd x (by simp)
    obtain ⟨g, rfl⟩ : ∃ g, f = g + 1 := ⟨f - 1, by omega⟩
    obtain ⟨r, l, hl, hr, hx⟩ := ht
    rw [List.reverse_cons] at h
    obtain ⟨k1, h1, h2⟩ := Declare.snoc h
    obtain ⟨s1, r1, e1⟩ := varList_run (y :: ys) (f := g) hfit het he henv hpc hr (fun z hz => by
      have := hd z (List.mem_cons_of_mem _ hz); simp only [List.length_cons] at this ⊢; omega) h1
    have hfit1 := (e1.eff (mb := mb)).fits hfit
    have hx1 := hx.keep e1.eff.keeps
    have e1' := e1
    obtain ⟨zs, ns, rfl, g1, g2, g3⟩ := e1'
    obtain ⟨g4, g5, g6⟩ := g3 henv hpc
    obtain ⟨s2, a, r2, e2⟩ := varOne_run (f := g) hfit1 het he g4 (hpc.trans g5.symm) hx1 (by
      simp only [List.length_cons] at hd'; omega) h2
    refine ⟨s2, ?_, e1.trans e2⟩
    rw [expandNode_run he hl]
    show expandExprList (expandNode g) (hasUninit g) ⟨.opr .exprList, (r :: l).length, r :: l⟩ s = _
    unfold expandExprList
    rw [bind_ok (operands_run (n := ⟨.opr .exprList, (r :: l).length, r :: l⟩) (Nat.le_refl _) s)]
    show (eachM (exprListItem (expandNode g) (hasUninit g)) ((r :: l).take (r :: l).length) none >>= _) s = _
    have hrk : ∃ n, Live s r n ∧ n.kind = .opr .exprList := by
      cases ys with
      | nil => obtain ⟨l', hl', _⟩ := hr; exact ⟨_, hl', rfl⟩
      | cons z zs => obtain ⟨r', l', hl', _⟩ := hr; exact ⟨_, hl', rfl⟩
    obtain ⟨n, hl', hk⟩ := hrk
    have q1 : exprListItem (expandNode g) (hasUninit g) none r s = (.ok (some none), { s with syms := zs, nodes := ns }) := by
      unfold exprListItem
      rw [bind_ok hl'.run, if_pos hk, bind_ok r1]
      rfl
    have : eachM (exprListItem (expandNode g) (hasUninit g)) (r :: l) none s = (.ok (some a), s2) := by
      show (exprListItem (expandNode g) (hasUninit g) none r >>= _) s = _
      rw [bind_ok q1]
      exact r2
    rw [List.take_length, bind_ok this]
    rfl

/-- `.var`. -/
theorem varNode_run {C : Spec.Context} {slot : Str → Option Nat} {f : Nat} {s : St} {p : Ptr} {hd : Str × Option Expr}
    {tl : List (Str × Option Expr)} {k k' : Spec.Cfg} (hfit : Fits mb C slot s) (he : s.endExpansion = false)
    (henv : EnvEq mb (envOf s) k.env) (hpc : s.pc = k.pc) (ht : StmtAt mb s (.var hd tl) p)
    (hf : ∀ x ∈ hd :: tl, varFuel x + (hd :: tl).length < f) (h : Spec.Declare slot (hd :: tl) k k') :
    ∃ s', expandNode (f + 1) p s = (.ok 0, s') ∧ Eff mb s s' [] ∧ EnvEq mb (envOf s') k'.env ∧ k'.pc = k.pc ∧ k'.fresh = k.fresh := by
  obtain ⟨q, hl, hq⟩ := ht
  let s1 : St := { s with expansionType := .symbol }
  have e1 : Eff mb s s1 [] := ⟨s.syms, s.nodes, s.codeGenerated, s.dataSize, s.byteDelta, .symbol, s.macroDict, s.macroParamIndex, [], [],
    rfl, WSim.refl _ _ _, Or.inr ⟨rfl, rfl⟩, by simp [s1]⟩
  have hfit1 : Fits mb C slot s1 := e1.fits hfit
  have hk : Keeps mb s s1 := ⟨rfl, rfl, rfl, fun _ _ => rfl, fun _ x hx hi => ⟨x, hx, hi⟩, WSim.refl _ _ _⟩
  obtain ⟨s', r, e⟩ := varList_run ((hd :: tl).reverse) (f := f) (s := s1) hfit1 rfl he henv hpc (hq.keep hk) (fun x hx => by
    rw [List.length_reverse]
    exact hf x (List.mem_reverse.1 hx)) (by rw [List.reverse_reverse]; exact h)
  obtain ⟨ys, ns, rfl, g1, g2, g3⟩ := e
  refine ⟨_, ?_, ⟨ys, ns, s.codeGenerated, s.dataSize, s.byteDelta, .symbol, s.macroDict, s.macroParamIndex, [], [], g1, g2.weak mb, Or.inr ⟨rfl, rfl⟩, ?_⟩, g3 henv hpc⟩
  · rw [expandNode_run he hl]
    show expandVariable (expandNode f) ⟨.opr .var, 1, [q]⟩ s = _
    unfold expandVariable
    rw [bind_ok (opAt_run (show [q][0]? = some q from rfl) s), modS_bind]
    exact r
  · simp [s1]

end Verif
