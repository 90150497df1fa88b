import Verif.Lemmas.Layout
import Verif.Lemmas.PassInv
import Verif.Spec.Draft

/-! # Passes without changes over flat programs

A line whose symbol does not have its value changes the value, which is counted, or reports an error. -/

namespace Verif

/-- Errors and changes so far. -/
def dirt (s : St) : Nat := s.errorCount + s.symValueChanged

theorem TSteps.dirt {T : Opr → Bool} {s t : St} (h : TSteps T s t) : dirt s ≤ Verif.dirt t :=
  h.rel (R := fun a b => Verif.dirt a ≤ Verif.dirt b) (fun _ => Nat.le_refl _) (fun _ _ _ => Nat.le_trans)
    (fun _ _ h => by have h1 := h.frame.errorCount; have h2 := h.frame.symValueChanged; unfold Verif.dirt; omega)
    (fun _ _ => Nat.le_refl _) (fun _ _ => Nat.le_refl _) fun _ => Nat.le_refl _

/-- No variables, macro parameters or sections. -/
structure Plain (s : St) : Prop where
  scope : s.currentScope = none
  syms : ∀ x ∈ s.syms, x.isVar = false ∧ x.isMacroParam = false

theorem bind_pure_snd {α β : Type} (m : M α) (b : β) (s : St) : ((m >>= fun _ => M.pure b) s).2 = (m s).2 := by
  rw [run_bind]
  rcases m s with ⟨r, s'⟩
  cases r <;> rfl

theorem equ_tail {s : St} {i : SymPtr} {x : Sym} {v : Int} (hs : Plain s) (hx : s.syms[i]? = some x) (hv : x.value ≠ v) :
    ∃ s', ((if x.isInit = false ∨ x.value ≠ v then equTarget i x >>= fun j => setSymbolValue j v >>= fun _ =>
        modSym j fun x => { x with isInit := true }
      else M.pure ()) >>= fun _ => M.pure v) s = (.ok v, s') ∧ dirt s < dirt s' := by
  have hi := (List.getElem?_eq_some_iff.mp hx).1
  obtain ⟨hvar, hpar⟩ := hs.syms x (List.mem_of_getElem? hx)
  have h1 : equTarget i x s = (.ok i, s) := by
    unfold equTarget
    rw [getS_bind, hs.scope]
    cases x.scope <;> rfl
  have h2 : ∃ s', setSymbolValue i v s = (.ok (), s') ∧ dirt s' = dirt s + 1 ∧ s'.syms.length = s.syms.length := by
    unfold setSymbolValue
    rw [bind_ok (sym_run hx), if_pos hv]
    split
    · exact ⟨_, rfl, by simp only [dirt]; omega, rfl⟩
    · have hm : modSym i (fun x => { x with value := v }) s =
          (.ok (), { s with syms := s.syms.modify i (fun x => { x with value := v }) }) := if_pos hi
      rw [bind_ok hm, if_pos ⟨hpar, hvar⟩]
      exact ⟨_, rfl, by simp only [dirt]; omega, by simp⟩
  obtain ⟨s', h2, hd, hl⟩ := h2
  refine ⟨{ s' with syms := s'.syms.modify i fun x => { x with isInit := true } }, ?_, ?_⟩
  · rw [if_pos (Or.inr hv)]
    have hi' : i < s'.syms.length := by rw [hl]; exact hi
    have h3 : modSym i (fun x => { x with isInit := true }) s' =
        (.ok (), { s' with syms := s'.syms.modify i fun x => { x with isInit := true } }) := if_pos hi'
    rw [run_bind, bind_ok h1, bind_ok h2, h3]
    rfl
  · have : dirt { s' with syms := s'.syms.modify i fun x => { x with isInit := true } } = dirt s' := rfl
    omega

/-- An assignment that changes the value of the symbol. -/
theorem equ_stale {f : Nat} {s : St} {p q0 q1 : Ptr} {k : IdKind} {name : Str} {e : Expr} {v w : Int} (hs : Plain s)
    (he : s.endExpansion = false) (hl : Live s p ⟨.opr .equ, 2, [q0, q1]⟩) (h0 : Live s q0 ⟨.id k name none, 0, []⟩)
    (h1 : ExprAt (look s) s.nodeBase s.nodes e q1) (hd : e.depth < f) (hv : Spec.eval (envOf s) s.pc e = some (v, false))
    (hn : envOf s name = some w) (hne : w ≠ v) :
    ∃ s', expandNode (f + 1) p s = (.ok v, s') ∧ dirt s < dirt s' := by
  obtain ⟨n1, r1, sim1, _⟩ := expand_ok (f := f) (s := s) hd he h1 hv
  let s1 : St := { s with nodes := n1 }
  obtain ⟨N0, hN0, hsim⟩ := sim1.2 q0 _ h0.2
  obtain ⟨c, rfl, hc⟩ : ∃ c, N0 = ⟨.id k name c, 0, []⟩ ∧ (c = none ∨ c = look s name) := by
    obtain ⟨g1, g2, g3⟩ := hsim
    obtain ⟨k0, m0, o0⟩ := N0
    simp only at g1 g2 g3
    subst g1 g2
    rcases g3 with g3 | ⟨v, w, g3, _⟩ | ⟨k', nm, cc, g3, g4, g5⟩ | ⟨_, _, _, _, _, g, _⟩
    · subst g3; exact ⟨none, rfl, Or.inl rfl⟩
    · cases g3
    · cases g3; subst g4; exact ⟨_, rfl, Or.inr rfl⟩
    · cases g
  obtain ⟨hp, i, x, hi, hx, hinit, hval⟩ := envOf_some hn
  have hL : Live s1 q0 ⟨.id k name c, 0, []⟩ := ⟨h0.1, hN0⟩
  have hr : ∃ n2, resolveId (name.head? == some 64) q0 s1 = (.ok (some i), { s1 with nodes := n2 }) := by
    have hslow : (addSymbol name >>= fun j => setNode q0 ⟨.id k name j, 0, []⟩ >>= fun _ => M.pure j) s1 =
        (.ok (some i), { s1 with nodes := n1.set q0 ⟨.id k name (some i), 0, []⟩ }) := by
      rw [bind_ok (addSymbol_run (s := s1) hp hi), bind_ok (hL.set _)]
      rfl
    by_cases hfast : ∃ j, c = some j ∧ (name.head? == some 64) = false
    · obtain ⟨j, rfl, hloc⟩ := hfast
      refine ⟨n1, ?_⟩
      unfold resolveId
      rw [bind_ok hL.run, hloc]
      rcases hc with hc | hc
      · cases hc
      · rw [hi] at hc
        cases hc
        rfl
    · refine ⟨n1.set q0 ⟨.id k name (some i), 0, []⟩, ?_⟩
      · unfold resolveId
        rw [bind_ok hL.run]
        cases hloc : (name.head? == some 64) with
        | true => cases c <;> exact hslow
        | false =>
          cases c with
          | none => exact hslow
          | some j => exact absurd ⟨j, rfl, hloc⟩ hfast
  obtain ⟨n2, r2⟩ := hr
  obtain ⟨s', r3, h3⟩ := equ_tail (s := { s1 with nodes := n2 }) (i := i) (x := x) (v := v) ⟨hs.scope, hs.syms⟩ hx
    (by rw [hval]; exact hne)
  refine ⟨s', ?_, h3⟩
  rw [expandNode_run he hl]
  show expandEqu (expandNode f) _ s = _
  unfold expandEqu
  rw [bind_ok (opAt_run (show [q0, q1][1]? = some q1 from rfl) s), bind_ok r1,
    bind_ok (opAt_run (show [q0, q1][0]? = some q0 from rfl) s1), bind_ok hL.run]
  show (if stricmp name [45] = 0 then equMinus v else if stricmp name [43] = 0 then equPlus v else _) s1 = _
  rw [if_neg (stricmp_pm hp).1, if_neg (stricmp_pm hp).2, bind_ok r2]
  show (needSym (some i) >>= _) { s1 with nodes := n2 } = _
  rw [show needSym (some i) = M.pure i from rfl, pure_bind', bind_ok (sym_run (s := { s1 with nodes := n2 }) (x := x) hx)]
  exact r3

/-- The statement can be built in `s`; expanded afterwards, possibly after a label was entered, it changes a symbol or
reports an error. -/
def Stale (f : Nat) (s : St) (st : Stmt) : Prop :=
  ∃ ns p, buildStmt (expandNode (f + 1)) (hasUninit (f + 1)) false st s = (.ok (some p), { s with nodes := ns }) ∧
    s.nodes.length ≤ ns.length ∧
    ∀ (l : List Node) (ll : Option Str), ll = s.lastLabel ∨ st.globals = true →
      dirt s < dirt (expandNode (f + 1) p { s with nodes := ns ++ l, lastLabel := ll }).2

theorem stale_assign {f : Nat} {s : St} {name : Str} {e : Expr} {v w : Int} (hs : Plain s) (hd : e.depth < f)
    (he : s.endExpansion = false) (hb : s.nodeBase ≤ s.nodes.length)
    (hv : Spec.eval (envOf s) s.pc e = some (v, false)) (hn : envOf s name = some w) (hne : w ≠ v) :
    Stale f s (.assign name e) := by
  obtain ⟨l1, q1, h1, h2⟩ := buildExpr_run (lk := look s) e s hb
  let I : Node := ⟨.id .id name none, 0, []⟩
  let s1 : St := { s with nodes := s.nodes ++ l1 }
  let N : Node := ⟨.opr .equ, 2, [s1.nodes.length, q1]⟩
  let s2 : St := { s with nodes := s1.nodes ++ [I] }
  refine ⟨s1.nodes ++ [I] ++ [N], s2.nodes.length, ?_, by simp [s1], ?_⟩
  · refine built_run ?_
    show (buildExpr e >>= fun p => idNode .id name >>= fun i => operatorNode .equ [i, p]) s = _
    rw [bind_ok h1]
    show (idNode .id name >>= fun i => operatorNode .equ [i, q1]) s1 = _
    rw [bind_ok (show idNode .id name s1 = (.ok s1.nodes.length, s2) from alloc_run _ _ _)]
    exact alloc_run _ _ _
  · intro l ll hll
    let s3 : St := { s with nodes := s1.nodes ++ [I] ++ [N] ++ l, lastLabel := ll }
    have hll1 : ll = s.lastLabel ∨ e.names.all globalName = true := hll.imp id fun h => by
      simp only [Stmt.globals, Bool.and_eq_true] at h
      exact h.2
    obtain ⟨hlk, hev⟩ := names_look (s := s) (e := e) s3.nodes hll1
    have hname : envOf s3 name = some w := by
      rcases hll with rfl | h
      · exact hn
      · simp only [Stmt.globals, Bool.and_eq_true] at h
        rw [← hn]
        exact envOf_label ll _ h.1
    have hb1 : s.nodeBase ≤ s1.nodes.length := by simp only [s1, List.length_append]; omega
    obtain ⟨s', r, hlt⟩ := equ_stale (f := f) (s := s3) (p := s2.nodes.length) (q0 := s1.nodes.length) (q1 := q1)
      (k := .id) (name := name) (e := e) (v := v) (w := w) ⟨hs.scope, hs.syms⟩ he
      ⟨by simp only [s2, List.length_append]; exact Nat.le_trans hb1 (Nat.le_add_right _ _), by simp [s3, s2, N]⟩
      ⟨hb1, by simp [s3, I]⟩
      ((((h2.sim (HeapSim.append false _ _ [I])).sim (HeapSim.append false _ _ [N])).sim
        (HeapSim.append false _ _ l)).congr hlk) hd (by rw [← eval_congr (env := envOf s) hev]; exact hv) hname hne
    show dirt s < dirt (expandNode (f + 1) s2.nodes.length s3).2
    rw [r]
    exact hlt

/-- Entering a label that has another value. -/
theorem label_stale {f : Nat} {s : St} {name : Str} {w : Int} (hs : Plain s) (hf : 1 ≤ f) (he : s.endExpansion = false)
    (hb : s.nodeBase ≤ s.nodes.length) (hpm : isPmName name = false)
    (hn : envOf { s with lastLabel := labelLL s.lastLabel name } (labelId s.lastLabel name) = some w) (hne : w ≠ s.pc) :
    ∃ p l s', buildLabel name s = (.ok p, { s with lastLabel := labelLL s.lastLabel name, nodes := s.nodes ++ l }) ∧
      expandNode (f + 1) p { s with lastLabel := labelLL s.lastLabel name, nodes := s.nodes ++ l } = (.ok s.pc, s') ∧
      dirt s < dirt s' := by
  let ll := labelLL s.lastLabel name
  let id := labelId s.lastLabel name
  let C : Node := ⟨.con s.pc true, 0, []⟩
  let I : Node := ⟨.id .label id none, 0, []⟩
  let E : Node := ⟨.opr .equ, 2, [s.nodes.length + 1, s.nodes.length]⟩
  let s1 : St := { s with nodes := s.nodes ++ [C] }
  let s2 : St := { s with lastLabel := ll, nodes := s.nodes ++ [C] ++ [I] }
  let s3 : St := { s with lastLabel := ll, nodes := s.nodes ++ [C, I, E] }
  obtain ⟨hp, i, x, hi, hx, hinit, hval⟩ := envOf_some hn
  let J : Node := ⟨.id .label id (some i), 0, []⟩
  obtain ⟨s', r3, h3⟩ := equ_tail (s := { s3 with nodes := s.nodes ++ [C, J, E] }) (i := i) (x := x) (v := s.pc)
    ⟨hs.scope, hs.syms⟩ hx (by rw [hval]; exact hne)
  refine ⟨s.nodes.length + 2, [C, I, E], s', ?_, ?_, h3⟩
  · unfold buildLabel
    rw [bind_ok (show constantNode 0 true s = (.ok s.nodes.length, s1) from rfl), bind_ok (labelNode_run s1 hpm)]
    have : s1.nodes.length = s.nodes.length + 1 := by simp [s1]
    rw [this]
    refine (alloc_run _ _ s2).trans ?_
    simp only [s2, List.length_append, List.length_cons, List.length_nil, Nat.zero_add, Nat.reduceAdd,
      List.append_assoc, List.cons_append, List.nil_append]
    rfl
  · obtain ⟨f, rfl⟩ : ∃ g, f = g + 1 := ⟨f - 1, by omega⟩
    have hC : Live s3 s.nodes.length C := ⟨hb, by simp [s3]⟩
    have hI : Live s3 (s.nodes.length + 1) I := ⟨Nat.le_trans hb (Nat.le_add_right _ _), by simp [s3]⟩
    have hE : Live s3 (s.nodes.length + 2) E := ⟨Nat.le_trans hb (Nat.le_add_right _ _), by simp [s3]⟩
    have rC : expandNode (f + 1) s.nodes.length s3 = (.ok s.pc, s3) := by
      rw [expandNode_run (s := s3) he hC]
      show expandConstant _ _ _ s3 = _
      unfold expandConstant
      rw [if_pos rfl, getS_bind, bind_ok hC.run, bind_ok (hC.set _)]
      show (Res.ok s.pc, _) = _
      have : s3.nodes.set s.nodes.length ⟨.con s3.pc true, 0, []⟩ = s3.nodes := by
        have h2 := hC.2
        rw [List.getElem?_eq_getElem hC.lt] at h2
        have h3 : (⟨.con s3.pc true, 0, []⟩ : Node) = C := rfl
        rw [h3, ← Option.some.inj h2, List.set_getElem_self]
      rw [this]
    have rI : resolveId (id.head? == some 64) (s.nodes.length + 1) s3 =
        (.ok (some i), { s3 with nodes := s.nodes ++ [C, J, E] }) := by
      unfold resolveId
      rw [bind_ok hI.run]
      show (addSymbol id >>= fun j => setNode (s.nodes.length + 1) ⟨.id .label id j, 0, []⟩ >>= fun _ => M.pure j) s3 = _
      rw [bind_ok (addSymbol_run (s := s3) hp hi), bind_ok (hI.set _)]
      show (Res.ok (some i), _) = _
      have : s3.nodes.set (s.nodes.length + 1) J = s.nodes ++ [C, J, E] := by
        show (s.nodes ++ [C, I, E]).set _ _ = _
        rw [List.set_append_right _ _ (Nat.le_add_right _ _), Nat.add_sub_cancel_left]
        rfl
      rw [this]
    show expandNode (f + 1 + 1) (s.nodes.length + 2) s3 = _
    rw [expandNode_run (s := s3) he hE]
    show expandEqu (expandNode (f + 1)) E s3 = _
    unfold expandEqu
    rw [bind_ok (opAt_run (show E.ops[1]? = some s.nodes.length from rfl) s3), bind_ok rC,
      bind_ok (opAt_run (show E.ops[0]? = some (s.nodes.length + 1) from rfl) s3), bind_ok hI.run]
    show (if stricmp id [45] = 0 then equMinus s.pc else if stricmp id [43] = 0 then equPlus s.pc else _) s3 = _
    rw [if_neg (stricmp_pm hp).1, if_neg (stricmp_pm hp).2, bind_ok rI]
    show (needSym (some i) >>= _) { s3 with nodes := s.nodes ++ [C, J, E] } = _
    rw [show needSym (some i) = M.pure i from rfl, pure_bind',
      bind_ok (sym_run (s := { s3 with nodes := s.nodes ++ [C, J, E] }) (x := x) hx)]
    exact r3

/-- A statement of a draft is either consistent or noticed. -/
theorem sized_built {f : Nat} {s : St} {st : Stmt} {bs : List Nat} {fresh : Bool} (hp : Plain s) (hs : Flat s fresh)
    (hf : st.fuel + bs.length + 4 ≤ f) (h : Spec.Sized (ctxOf s) (envOf s) s.pc fresh bs st) :
    (Spec.Placed (ctxOf s) (envOf s) s.pc fresh bs st ∧ BuiltL f s st bs (fun _ => True)) ∨ Stale f s st := by
  by_cases ha : ∃ name e, st = .assign name e
  · obtain ⟨name, e, rfl⟩ := ha
    obtain ⟨⟨v, hv⟩, ⟨w, hw⟩, rfl⟩ := h
    by_cases hne : w = v
    · subst hne
      exact Or.inl ⟨Or.inl ⟨w, hv, hw, rfl⟩, placed_built hs hf (Or.inl ⟨w, hv, hw, rfl⟩)⟩
    · exact Or.inr (stale_assign hp (by simp only [Stmt.fuel] at hf; omega) hs.running hs.heap hv hw hne)
  · have h' : Spec.Placed (ctxOf s) (envOf s) s.pc fresh bs st := by
      cases st with
      | assign name e => exact absurd ⟨name, e, rfl⟩ ha
      | _ => exact h
    exact Or.inl ⟨h', placed_built hs hf h'⟩

theorem declares_label {s : St} {name : Str} {ll' : Option Str} (h : Spec.Declares (ctxOf s) s.lastLabel name ll') :
    isMacroWord s name = false ∧ isPmName name = false ∧ labelLL s.lastLabel name = ll' ∧ ∃ w,
      envOf { s with lastLabel := labelLL s.lastLabel name } (labelId s.lastLabel name) = some w ∧
      (w = s.pc → Spec.Defines (ctxOf s) s.lastLabel s.pc name ll') := by
  obtain ⟨h1, h2, h3, ⟨w, h4⟩, h5⟩ := h
  obtain ⟨g1, g2, g3, g4⟩ := defines_label (s := { s with pc := w }) (name := name) (ll' := ll') ⟨h1, h2, h3, h4, h5⟩
  refine ⟨g1, g2, g3, w, g4, ?_⟩
  rintro rfl
  exact ⟨h1, h2, h3, h4, h5⟩

theorem sized_globals {C : Spec.Context} {env : Str → Option Int} {pc : Int} {fresh : Bool} {bs : List Nat} {st : Stmt}
    (h : Spec.Sized C env pc fresh bs st) (hn : Spec.noLocals st = true) : st.globals = true := by
  by_cases ha : ∃ name e, st = .assign name e
  · obtain ⟨name, e, rfl⟩ := ha
    simpa [Spec.noLocals, Stmt.globals, all_global, global_eq] using hn
  · refine placed_globals (C := C) (env := env) (pc := pc) (fresh := fresh) (bs := bs) ?_ hn
    cases st with
    | assign name e => exact absurd ⟨name, e, rfl⟩ ha
    | _ => exact h

theorem expand_dirt (f : Nat) (p : Ptr) (s : St) (h : 0 ≤ s.totalBytes) : dirt s ≤ dirt (expandNode f p s).2 :=
  (expandNode_steps (T := fun _ => true) f p s (fun _ => h)).tsteps.dirt

/-- A labelled statement of a draft. -/
theorem runLabelled_draft {f : Nat} {s : St} {name : Str} {st : Stmt} {bs : List Nat} {fresh : Bool} {w : Int}
    (hp : Plain s) (hs : Flat s fresh) (hf : st.fuel + bs.length + 5 ≤ f) (hpm : isPmName name = false)
    (hn : envOf { s with lastLabel := labelLL s.lastLabel name } (labelId s.lastLabel name) = some w)
    (hg : labelLL s.lastLabel name = s.lastLabel ∨ st.globals = true)
    (h : Spec.Sized (ctxOf s) (envOf s) s.pc fresh bs st) :
    (w = s.pc ∧ Spec.Placed (ctxOf s) (envOf s) s.pc fresh bs st) ∨
      dirt s < dirt (runLabelled (expandNode (f + 1)) (hasUninit (f + 1)) name st s).2 := by
  have hb := sized_built (f := f) hp hs (by omega) h
  by_cases hw : w = s.pc
  · rcases hb with hb | hb
    · exact Or.inl ⟨hw, hb.1⟩
    · right
      obtain ⟨ns, p, h1, h2, h3⟩ := hb
      let s1 : St := { s with nodes := ns }
      obtain ⟨q, l, l', r1, r2⟩ := label_run (f := f) (s := s1) (by omega) hs.running (Nat.le_trans hs.heap h2) hpm
        (by rw [hw] at hn; exact hn)
      have h4 := h3 l' (labelLL s.lastLabel name) hg
      unfold runLabelled
      rw [bind_ok h1]
      show _ < dirt ((buildLabel name >>= _) s1).2
      rw [bind_ok r1, bind_ok r2, bind_pure_snd]
      exact h4
  · right
    obtain ⟨ns, p, h1, h2⟩ : ∃ ns p, buildStmt (expandNode (f + 1)) (hasUninit (f + 1)) false st s =
        (.ok (some p), { s with nodes := ns }) ∧ s.nodes.length ≤ ns.length := by
      rcases hb with ⟨_, ns, p, h1, h2, _⟩ | ⟨ns, p, h1, h2, _⟩ <;> first | exact ⟨ns, p, h1, h2⟩ | exact ⟨ns, p, h1, h2.1⟩
    let s1 : St := { s with nodes := ns }
    obtain ⟨q, l, s', r1, r2, hlt⟩ := label_stale (f := f) (s := s1) ⟨hp.scope, hp.syms⟩ (by omega) hs.running
      (Nat.le_trans hs.heap h2) hpm hn hw
    unfold runLabelled
    rw [bind_ok h1]
    show _ < dirt ((buildLabel name >>= _) s1).2
    rw [bind_ok r1, bind_ok r2, bind_pure_snd]
    have hlt' : dirt s < dirt s' := hlt
    have h0 := (expandNode_steps (T := fun _ => true) (f + 1) q
      { s1 with lastLabel := labelLL s1.lastLabel name, nodes := s1.nodes ++ l } (fun _ => hs.count)).frame.totalBytes
    rw [r2] at h0
    have := expand_dirt (f + 1) p s' (Int.le_trans hs.count h0)
    omega

theorem Flat.line {s : St} {fresh : Bool} (hs : Flat s fresh) (file : Str) (line : Int) : Flat (atLine s file line) fresh :=
  ⟨hs.running, hs.heap, hs.origin, hs.count, hs.image, hs.started⟩

/-- A line of a draft is either consistent or noticed. -/
theorem line_draft {f : Nat} {s : St} {t : Top} {ll' : Option Str} {bs : List Nat} {fresh : Bool} (hp : Plain s)
    (hs : Flat s fresh) (hf : t.fuel + bs.length + 8 ≤ f) (h : Spec.DraftLine (ctxOf s) s.lastLabel s.pc fresh t ll' bs) :
    Spec.Line (ctxOf s) s.lastLabel s.pc fresh t ll' bs ∨
      dirt s < dirt (runTop (expandNode (f + 1)) (hasUninit (f + 1)) t s).2 := by
  cases t with
  | stmt file line st =>
    have hp1 : Plain (atLine s file line) := ⟨hp.scope, hp.syms⟩
    by_cases hw : ∃ b n a, st = .word b n a
    · obtain ⟨b, n, a, rfl⟩ := hw
      cases b with
      | false => exact (placed_word (And.right (show _ ∧ Spec.Placed _ _ _ _ _ _ from h))).elim
      | true =>
        cases a with
        | some a => exact (placed_word (And.right (show _ ∧ Spec.Placed _ _ _ _ _ _ from h))).elim
        | none =>
          obtain ⟨hd, rfl⟩ := h
          obtain ⟨h1, h2, rfl, w, h3, h4⟩ := declares_label hd
          rcases runLabelled_draft (f := f) (s := atLine s file line) (name := n) (st := .empty) (bs := []) (fresh := fresh)
            hp1 (hs.line file line) (by simp only [Top.fuel, Stmt.fuel, List.length_nil] at hf ⊢; omega) h2 h3 (Or.inr rfl) (Or.inl rfl)
            with ⟨g, _⟩ | g
          · exact Or.inl ⟨h4 g, rfl⟩
          · right
            show _ < dirt (((modS fun s => { s with file := file, line := line }) >>= fun _ => getS >>= _) s).2
            rw [modS_bind, getS_bind]
            have : isMacroWord { s with file := file, line := line } n = false := h1
            rw [this]
            exact g
    · have hw' : ∀ b n a, st ≠ .word b n a := fun b n a he => hw ⟨b, n, a, he⟩
      have h' : ll' = s.lastLabel ∧ Spec.Sized (ctxOf s) (envOf s) s.pc fresh bs st := by
        cases st with
        | word b n a => exact absurd rfl (hw' b n a)
        | _ => exact h
      obtain ⟨rfl, h'⟩ := h'
      rcases sized_built (f := f) (s := atLine s file line) hp1 (hs.line file line)
        (by simp only [Top.fuel] at hf; omega) h' with ⟨g, _⟩ | ⟨ns, p, h1, _, h3⟩
      · left
        cases st with
        | word b n a => exact absurd rfl (hw' b n a)
        | _ => exact ⟨rfl, g⟩
      · right
        have key : runTop (expandNode (f + 1)) (hasUninit (f + 1)) (.stmt file line st) s =
            (buildStmt (expandNode (f + 1)) (hasUninit (f + 1)) false st >>= fun r => match r with
              | none => M.pure false
              | some p => expandNode (f + 1) p >>= fun _ => M.pure true) (atLine s file line) := by
          cases st with
          | word b n a => exact absurd rfl (hw' b n a)
          | _ => rfl
        rw [key, bind_ok h1]
        show _ < dirt ((expandNode (f + 1) p >>= fun _ => M.pure true) _).2
        rw [bind_pure_snd]
        have := h3 [] s.lastLabel (Or.inl rfl)
        rw [List.append_nil] at this
        exact this
  | labelled file line name st =>
    obtain ⟨hd, he, hg⟩ := h
    obtain ⟨h1, h2, rfl, w, h3, h4⟩ := declares_label hd
    rcases runLabelled_draft (f := f) (s := atLine s file line) (name := name) (st := st) (bs := bs) (fresh := fresh)
      ⟨hp.scope, hp.syms⟩ (hs.line file line) (by simp only [Top.fuel] at hf; omega) h2 h3
      (hg.imp id (sized_globals he)) he with ⟨g1, g2⟩ | g
    · exact Or.inl ⟨h4 g1, g2, hg⟩
    · right
      show _ < dirt (((modS fun s => { s with file := file, line := line }) >>= fun _ => getS >>= _) s).2
      rw [modS_bind, getS_bind]
      have : isMacroWord { s with file := file, line := line } name = false := h1
      rw [this]
      exact g
  | _ => exact False.elim h

theorem top_uses_all (t : Top) : t.uses (fun _ => true) = true := by
  cases t <;> simp [Top.uses, Stmt.uses_all]

theorem runFile_dirt (f : Nat) (ts : List Top) (s : St) (h : 0 ≤ s.totalBytes) :
    dirt s ≤ dirt (runFile (expandNode f) (hasUninit f) ts s).2 :=
  (TPr.runFile (T := fun _ => true) (expandNode_pr s.finalPass s.outputOpen f) (Pr.hasUninit f) ts
    (List.all_eq_true.2 fun t _ => top_uses_all t) s ⟨rfl, rfl, fun _ => h, fun h => absurd h (by decide)⟩).dirt

/-- A flat program whose pass reports and changes nothing is consistent. -/
theorem layout_draft {f : Nat} : ∀ {prog : List Top} {s : St} {ll' : Option Str} {bs : List Nat} {fresh : Bool},
    Plain s → Flat s fresh → progFuel prog bs ≤ f → Spec.Draft (ctxOf s) s.lastLabel s.pc fresh prog ll' bs →
    dirt (runFile (expandNode (f + 1)) (hasUninit (f + 1)) prog s).2 ≤ dirt s →
    Spec.Layout (ctxOf s) s.lastLabel s.pc fresh prog ll' bs
  | [], s, ll', bs, fresh, _, _, _, h, _ => h
  | t :: ts, s, ll', bs, fresh, hp, hs, hf, h, hd => by
    obtain ⟨ll1, b1, b2, h1, h2, rfl⟩ := h
    simp only [progFuel, List.map_cons, List.sum_cons, List.length_append] at hf
    rcases line_draft (f := f) (t := t) (bs := b1) hp hs (by omega) h1 with g | g
    · obtain ⟨s1, r1, a1⟩ := line_run (f := f) (t := t) (bs := b1) hs (by omega) g
      obtain ⟨hs1, hctx, hll, hpc⟩ := a1.flat hs
      have hp1 : Plain s1 ∧ dirt s1 = dirt s := by
        obtain ⟨ns, cg, ds, bd, et, fl, ln, hd, ls, w, ic, _, _, rfl⟩ := a1
        exact ⟨⟨hp.scope, hp.syms⟩, rfl⟩
      rw [runFile_cons r1, ← hp1.2] at hd
      rw [← hctx, ← hll, ← hpc] at h2
      have := layout_draft (f := f) (prog := ts) (bs := b2) hp1.1 hs1 (by simp only [progFuel]; omega) h2 hd
      rw [hctx, hll, hpc] at this
      exact ⟨ll1, b1, b2, g, this, rfl⟩
    · exfalso
      have key : dirt (runTop (expandNode (f + 1)) (hasUninit (f + 1)) t s).2 ≤
          dirt (runFile (expandNode (f + 1)) (hasUninit (f + 1)) (t :: ts) s).2 := by
        have h0 := (TPr.runTop (T := fun _ => true) (expandNode_pr s.finalPass s.outputOpen (f + 1)) (Pr.hasUninit (f + 1)) t
          (top_uses_all t) s ⟨rfl, rfl, fun _ => hs.count, fun h => absurd h (by decide)⟩)
        unfold runFile
        rw [run_bind]
        rcases hr : runTop (expandNode (f + 1)) (hasUninit (f + 1)) t s with ⟨r, s1⟩
        rw [hr] at h0
        have h1 : 0 ≤ s1.totalBytes := Int.le_trans hs.count (h0.rel (R := fun a b => a.totalBytes ≤ b.totalBytes)
          (fun _ => Int.le_refl _) (fun _ _ _ => Int.le_trans) (fun _ _ h => h.frame.totalBytes) (fun _ _ => Int.le_refl _)
          (fun _ _ => Int.le_refl _) fun _ => Int.le_refl _)
        cases r with
        | ok g =>
          cases g with
          | true => exact runFile_dirt (f + 1) ts s1 h1
          | false => exact Nat.le_trans (Nat.le_refl _) (by simp only [dirt]; show _ ≤ s1.errorCount + 1 + s1.symValueChanged; omega)
        | _ => exact Nat.le_refl _
      omega

end Verif
