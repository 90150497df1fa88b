import Verif.Lemmas.BlockNodes

/-! # Expanding the plain statements of a block -/

namespace Verif

variable {mb : Bool}

theorem indexed_indirect (cpu : Cpu) (ill : Bool) (ins : Int) (h0 : 0 ≤ ins) (h1 : ins < Ins._slo) :
    getOpCode cpu ill ins .aix = -1 ∨ getOpCode cpu ill ins .izx = -1 := by
  have key : ∀ cpu : Cpu, (List.range Ins._slo.toNat).all (fun n => decide (getOpCode cpu false (n : Nat) .aix = -1 ∨
      getOpCode cpu false (n : Nat) .izx = -1)) = true := by
    intro cpu
    cases cpu <;> decide +kernel
  have := List.all_eq_true.1 (key cpu) ins.toNat (List.mem_range.2 (by
    have : (0 : Int) ≤ Ins._slo := by decide
    omega))
  rw [show ((ins.toNat : Nat) : Int) = ins by omega] at this
  rw [getOpCode_eq_of_lt h1 _ ill false, getOpCode_eq_of_lt h1 _ ill false]
  exact of_decide_eq_true this

/-- The choice made when the node was built does not matter. -/
theorem effective_any {get : Mode → Int} (hg : ∀ m, get m = -1 ∨ 0 ≤ get m) (hx : get .aix = -1 ∨ get .izx = -1)
    (form : Spec.Form) {pc v v0 : Int} (hv : 0 ≤ v) (hv' : v ≤ 65535) {r : Mode × Int}
    (h : encode get (Form.mode form) pc v = some r) :
    effective get (nodeMode get (Form.mode form) v0).1 (nodeMode get (Form.mode form) v0).2 pc v = some r := by
  by_cases hr : get .r = -1
  · have hsrc : srcMode get (Form.mode form) = Form.mode form := by
      unfold srcMode
      rw [if_neg (fun h => h hr)]
    have hI := hg .I
    have h0 := hg .zp
    have h1 := hg .a
    have h2 := hg .zpx
    have h3 := hg .ax
    have h4 := hg .zpy
    have h5 := hg .ay
    have h6 := hg .zpi
    have h7 := hg .ind
    have h8 := hg .izx
    have h9 := hg .aix
    have h10 := hg .izy
    unfold encode nodeMode at h
    unfold nodeMode
    rw [hsrc] at h ⊢
    generalize hb0 : decide (0 ≤ v0 ∧ v0 < 256) = b0
    clear hb0
    cases form <;> simp only [Form.mode, chooseMode, zpForm] at h ⊢ <;> cases b0 <;>
      grind [effective, opShape, wideForm, zpForm]
  · have hsrc : srcMode get (Form.mode form) = .r := by
      unfold srcMode
      rw [if_pos hr]
    have e : ∀ w, nodeMode get (Form.mode form) w = (.r, get .r) := by
      intro w
      unfold nodeMode
      rw [hsrc]
      unfold chooseMode
      simp only [zpForm]
      simp
    unfold encode at h
    rw [e] at h ⊢
    split at h
    · cases h
    · exact h

/-- A plain statement: the symbols keep their values. -/
def LeafRun (mb : Bool) (f : Nat) (s : St) (p : Ptr) (bs : List Nat) : Prop :=
  ∃ v s', expandNode (f + 1) p s = (.ok v, s') ∧ Eff mb s s' bs ∧ s'.syms = s.syms

theorem LeafRun.of {f : Nat} {s s' : St} {p : Ptr} {bs : List Nat} {ls : List ListEntry} {v : Int}
    (r : expandNode (f + 1) p s = (.ok v, s')) (a : Asm s s' bs.length bs ls) : LeafRun mb f s p bs := by
  refine ⟨v, s', r, Eff.of a, ?_⟩
  obtain ⟨ns, cg, ds, bd, et, g, rfl⟩ := a
  rfl

theorem emptyNode_run {f : Nat} {s : St} {p : Ptr} (he : s.endExpansion = false)
    (hl : Live s p ⟨.opr .statement, 0, []⟩) : LeafRun mb f s p [] :=
  ⟨0, s, (expandNode_run he hl).trans rfl, Eff.refl s, rfl⟩

theorem opNode_run {f : Nat} {s : St} {p : Ptr} {ins code a v : Int} {mode m : Mode} {c : Int} {k : Nat} {ops : List Ptr}
    (he : s.endExpansion = false) (ho : s.originSpecified = true) (hroom : Room s)
    (hl : Live s p ⟨.opcode ins code mode a, k, ops⟩) (hk : OpKnown f s mode k ops v)
    (heff : effective (getOf s ins) mode code s.pc v = some (m, c)) :
    LeafRun mb f s p (toBytes (instrBytes m c s.pc v)) := by
  have ht : orig s = s := orig_id ho
  obtain ⟨s', r, h⟩ := expandOp_run (f := f) he hl hk heff (by rw [ht]; exact hroom)
  rw [ht] at h
  have hlen : opByteCount m + 1 = ((toBytes (instrBytes m c s.pc v)).length : Int) := instrBytes_len ..
  rw [hlen] at h
  exact LeafRun.of (v := 0) ((expandNode_run he hl).trans r) h

theorem dataNode_run {f : Nat} {s : St} {p q : Ptr} {size : Int} {xs : List Item} {bs : List Nat}
    (hsize : size = 0 ∨ size = 1 ∨ size = 2) (hd : ∀ x ∈ xs, x.depth + xs.length < f) (he : s.endExpansion = false)
    (h0 : 0 ≤ s.totalBytes) (ho : s.originSpecified = true) (hroom : Room s) (hl : Live s p ⟨.data size q, 0, []⟩)
    (hlist : ListAt (look s) s.nodeBase s.nodes xs.reverse q)
    (hv : Spec.items textOf (envOf s) size s.pc xs = some bs) : LeafRun mb f s p bs := by
  let s3 : St := dataSt s size
  have hds : DataState s3 := by
    rcases hsize with h | h | h
    · exact Or.inr ⟨by simp [s3, dataSt, h], h⟩
    · exact Or.inl ⟨by simp [s3, dataSt, h], Or.inl h⟩
    · exact Or.inl ⟨by simp [s3, dataSt, h], Or.inr h⟩
  have hs3 : emitting s3 = emitting s := by
    unfold emitting
    rw [ho]
    rfl
  have hroom3 : Room s3 := by
    intro hem
    rw [hs3] at hem
    exact hroom hem
  obtain ⟨s', ls, r, a, _, _⟩ := dataList_run xs.reverse (f := f) (s := s3) (bs := bs)
    (fun x hx => by rw [List.length_reverse]; exact hd x (List.mem_reverse.1 hx)) he hds h0 hlist
    (by rw [List.reverse_reverse]; exact hv) hroom3
  have a' : Asm s s' bs.length bs ls := by
    obtain ⟨ns, cg, ds, bd, et, sim, rfl⟩ := a
    refine ⟨ns, cg, ds, bd, et, sim, ?_⟩
    have : s3 = { s with dataSize := size, expansionType := s3.expansionType, originSpecified := true } := rfl
    rw [← ho] at this
    rw [this]
    rfl
  exact LeafRun.of (v := 0) ((expandNode_run (s := s) he hl).trans r) a'

theorem fillNode_run {f : Nat} {s : St} {p q1 q2 : Ptr} {ve ne : Expr} {v : Int} {n : Nat}
    (hf : 2 ≤ f) (hfn : n ≤ 2 * f) (hd1 : ve.depth < f) (hd2 : ne.depth < f) (he : s.endExpansion = false)
    (hb : s.nodeBase ≤ s.nodes.length) (h0 : 0 ≤ s.totalBytes) (hl : Live s p ⟨.opr .fill, 2, [q1, q2]⟩)
    (t1 : ExAt mb s ve q1) (t2 : ExAt mb s ne q2)
    (hv : Spec.eval (envOf s) s.pc ve = some (v, false)) (hn : Spec.eval (envOf s) s.pc ne = some ((n : Int), false))
    (hrange : 0 ≤ v ∧ v ≤ 255)
    (hpos : s.finalPass = false → 0 < n) (ho : s.originSpecified = true) (hroom : Room s) (hh : NoHdr s) :
    LeafRun mb f s p (List.replicate n v.toNat) := by
  let N : Node := ⟨.opr .fill, 2, [q1, q2]⟩
  obtain ⟨n4, r4, sim4, _⟩ := expand_ok (f := f) (s := s) hd1 he t1.tree hv
  let s4 : St := { s with nodes := n4 }
  obtain ⟨n5, r5, sim5, _⟩ := expand_ok (f := f) (s := s4) hd2 he (ExprAt.sim sim4 t2.tree) hn
  let s5 : St := { s4 with nodes := n5 }
  have sim : HeapSim true (look s) s.nodes n5 := (sim4.trans sim5).mono
  have hb5 : s5.nodeBase ≤ s5.nodes.length := Nat.le_trans hb sim.1
  have pre : ∀ {s'}, (if s5.finalPass then do
          modS fun s => { s with dataSize := 0 }
          let c2 ← constantNode (v * 256 + v) false
          let two ← dataNode 2 c2
          let c1 ← constantNode v false
          let one ← dataNode 1 c1
          fillLoop (expandNode f) two one f n
        else addPc (if (n : Int) > 0 then (n : Int) else 1)) s5 = (.ok (), s') →
      expandNode (f + 1) p s = (.ok v, s') := by
    intro s' hs'
    rw [expandNode_run (s := s) he hl]
    show expandFill (expandNode f) f N s = _
    unfold expandFill
    rw [bind_ok (opAt_run (show N.ops[0]? = some q1 from rfl) s), bind_ok r4,
      bind_ok (opAt_run (show N.ops[1]? = some q2 from rfl) _), bind_ok r5, if_neg (by omega), getS_bind, bind_ok hs']
    rfl
  by_cases hfp : s.finalPass = true
  · let C2 : Node := ⟨.con (v * 256 + v) false, 0, []⟩
    let T : Node := ⟨.data 2 s5.nodes.length, 0, []⟩
    let C1 : Node := ⟨.con v false, 0, []⟩
    let O : Node := ⟨.data 1 (s5.nodes.length + 2), 0, []⟩
    let s6 : St := { s5 with dataSize := 0, nodes := s5.nodes ++ [C2] ++ [T] ++ [C1] ++ [O] }
    have hat : FillAt s6 v (s5.nodes.length + 1) (s5.nodes.length + 3) := by
      have hb6 : s6.nodeBase ≤ s5.nodes.length := hb5
      refine ⟨⟨s5.nodes.length, ⟨Nat.le_trans hb6 (by omega), ?_⟩, ⟨hb6, ?_⟩⟩,
        ⟨s5.nodes.length + 2, ⟨Nat.le_trans hb6 (by omega), ?_⟩, ⟨Nat.le_trans hb6 (by omega), ?_⟩⟩⟩
      all_goals
        show (s5.nodes ++ [C2] ++ [T] ++ [C1] ++ [O])[_]? = _
        simp [C2, T, C1, O]
    obtain ⟨g, rfl⟩ : ∃ g, f = g + 2 := ⟨f - 2, by omega⟩
    obtain ⟨s', ls, r, a, _⟩ := fillLoop_run (g := g) hrange (g + 2) n s6 hfn he hat hfp ho hroom hh h0
    refine LeafRun.of (v := v) (ls := ls) (s' := s') (pre ?_) ?_
    · rw [if_pos (show s5.finalPass = true from hfp), modS_bind]
      unfold constantNode dataNode
      rw [bind_assoc', getS_bind, bind_ok (alloc_run _ _ _), bind_ok (alloc_run _ _ _), bind_assoc', getS_bind,
        bind_ok (alloc_run _ _ _), bind_ok (alloc_run _ _ _)]
      simp only [List.length_append, List.length_cons, List.length_nil, Nat.zero_add, Nat.add_assoc, Nat.reduceAdd]
      exact r
    · rw [List.length_replicate]
      obtain ⟨ns, cg, ds, bd, et, sim', rfl⟩ := a
      refine ⟨ns, cg, ds, bd, et, ?_, rfl⟩
      refine HeapSim.trans sim (HeapSim.trans ?_ sim')
      show HeapSim true _ n5 (n5 ++ [C2] ++ [T] ++ [C1] ++ [O])
      exact (((HeapSim.append _ _ _ _).trans (HeapSim.append _ _ _ _)).trans (HeapSim.append _ _ _ _)).trans
        (HeapSim.append _ _ _ _)
  · have hfp' : s.finalPass = false := by simpa using hfp
    refine LeafRun.of (v := v) (ls := []) (s' := { s5 with pc := s5.pc + n }) (pre ?_) ?_
    · rw [if_neg (show ¬ s5.finalPass = true from hfp), if_pos (by have := hpos hfp'; omega)]
      rfl
    · rw [List.length_replicate]
      refine ⟨n5, s.codeGenerated, s.dataSize, s.byteDelta, s.expansionType, sim, ?_⟩
      have : emitting s = false := emitting_final hfp'
      simp only [this, Bool.false_eq_true, if_false, List.append_nil, Int.add_zero, ite_self]
      rfl

theorem loadNode_run {f : Nat} {s : St} {p q : Ptr} {name nm : Str} {bytes : List Nat}
    (hf : 4 ≤ f) (he : s.endExpansion = false) (hb : s.nodeBase ≤ s.nodes.length) (h0 : 0 ≤ s.totalBytes)
    (hl : Live s p ⟨.opr .load, 1, [q]⟩) (hS : Live s q ⟨.str name, 0, []⟩)
    (hfile : s.files.find? (fun e => e.1 == name) = some (nm, bytes))
    (ho : s.originSpecified = true) (hroom : Room s) : LeafRun mb f s p (bytes.map (· % 256)) := by
  let N : Node := ⟨.opr .load, 1, [q]⟩
  have pre : ∀ {s'}, loadLoop (expandNode f) bytes s = (.ok (), s') → expandNode (f + 1) p s = (.ok 1, s') := by
    intro s' r
    rw [expandNode_run (s := s) he hl]
    show expandLoad (expandNode f) N s = _
    unfold expandLoad
    rw [bind_ok (opAt_run (show N.ops[0]? = some q from rfl) s), bind_ok hS.run]
    show (getS >>= _) s = _
    rw [getS_bind, hfile]
    show (loadLoop (expandNode f) bytes >>= fun _ => M.pure 1) s = _
    rw [bind_ok r]
    rfl
  by_cases hne : bytes = []
  · subst hne
    exact ⟨1, s, pre rfl, Eff.refl s, rfl⟩
  · obtain ⟨s', ls, r, a, _⟩ := loadLoop_run hf bytes s he hb h0 ho hroom (fun h => absurd h hne)
    refine LeafRun.of (ls := ls) (pre r) ?_
    rw [List.length_map]
    exact a

theorem resolveKind_run {s : St} {q : Ptr} {kd : IdKind} {name : Str} {c : Option SymPtr} {i : SymPtr} (force : Bool)
    (hL : Live s q ⟨.id kd name c, 0, []⟩) (hc : c = none ∨ c = look s name) (hp : plainName name = true) (hi : look s name = some i) :
    ∃ ns, resolveId force q s = (.ok (some i), { s with nodes := ns }) ∧ HeapSim true (look s) s.nodes ns ∧
      ns[q]? = some ⟨.id kd name (some i), 0, []⟩ := by
  have hslow : (addSymbol name >>= fun j => setNode q ⟨.id kd name j, 0, []⟩ >>= fun _ => M.pure j) s =
      (.ok (some i), { s with nodes := s.nodes.set q ⟨.id kd name (some i), 0, []⟩ }) := by
    rw [bind_ok (addSymbol_run (s := s) hp hi), bind_ok (hL.set _)]
    rfl
  have hsim : HeapSim true (look s) s.nodes (s.nodes.set q ⟨.id kd name (some i), 0, []⟩) :=
    HeapSim.set hL.2 ⟨rfl, rfl, Or.inr (Or.inr (Or.inl ⟨_, _, _, rfl, by rw [hi], by rw [hi]; rfl⟩))⟩
  by_cases hfast : ∃ j, c = some j ∧ force = false
  · obtain ⟨j, rfl, hloc⟩ := hfast
    refine ⟨s.nodes, ?_, HeapSim.refl _ _ _, ?_⟩
    rotate_left
    · rw [hi] at hc
      rw [hL.2, hc.resolve_left (by simp)]
    unfold resolveId
    rw [bind_ok hL.run, hloc]
    rcases hc with hc | hc
    · cases hc
    · rw [hi] at hc
      cases hc
      rfl
  · refine ⟨_, ?_, hsim, List.getElem?_set_self (List.getElem?_eq_some_iff.1 hL.2).1⟩
    unfold resolveId
    rw [bind_ok hL.run]
    cases hloc : force with
    | true => cases c <;> exact hslow
    | false =>
      cases c with
      | none => exact hslow
      | some j => exact absurd ⟨j, rfl, hloc⟩ hfast

theorem resolveId_run {s : St} {q : Ptr} {name : Str} {i : SymPtr} (force : Bool) (h : IdAt mb s name q)
    (hp : plainName name = true) (hi : look s name = some i) :
    ∃ ns, resolveId force q s = (.ok (some i), { s with nodes := ns }) ∧ HeapSim true (look s) s.nodes ns := by
  obtain ⟨⟨c, hL, hc⟩, _⟩ := h
  obtain ⟨ns, h1, h2, _⟩ := resolveKind_run force hL hc hp hi
  exact ⟨ns, h1, h2⟩

theorem IdAt.sim {s : St} {name : Str} {p : Ptr} {ns : List Node} (h : IdAt mb s name p)
    (hs : HeapSim true (look s) s.nodes ns) : IdAt mb { s with nodes := ns } name p :=
  IdAt.keep (s := s) (s' := { s with nodes := ns }) ⟨rfl, rfl, rfl, fun _ _ => rfl, fun _ x hx hi => ⟨x, hx, hi⟩, hs.weak mb⟩ h

/-- The beginning of an assignment. -/
theorem equNode_pre {f : Nat} {s : St} {p q0 q1 : Ptr} {name : Str} {e : Expr} {v : Int} {i : SymPtr}
    (he : s.endExpansion = false) (hl : Live s p ⟨.opr .equ, 2, [q0, q1]⟩) (h0 : IdAt mb s name q0) (h1 : ExAt mb s e q1)
    (hd : e.depth < f) (hv : Spec.eval (envOf s) s.pc e = some (v, false)) (hp : plainName name = true)
    (hi : look s name = some i) :
    ∃ ns, HeapSim true (look s) s.nodes ns ∧ expandNode (f + 1) p s = (sym i >>= fun x =>
      (if x.isInit = false ∨ x.value ≠ v then do
        let j ← equTarget i x
        setSymbolValue j v
        modSym j fun x => { x with isInit := true }
      else M.pure ()) >>= fun _ => M.pure v) { s with nodes := ns } := by
  obtain ⟨n1, r1, sim1, _⟩ := expand_ok (f := f) (s := s) hd he h1.tree hv
  let s1 : St := { s with nodes := n1 }
  have h0' : IdAt mb s1 name q0 := h0.sim sim1.mono
  obtain ⟨n2, r2, sim2⟩ := resolveId_run (s := s1) (name.head? == some 64) h0' hp hi
  refine ⟨n2, sim1.mono.trans sim2, ?_⟩
  obtain ⟨⟨c, hL, _⟩, _⟩ := h0'
  rw [expandNode_run he hl]
  show expandEqu (expandNode f) _ s = _
  unfold expandEqu
  rw [bind_ok (opAt_run (show [q0, q1][1]? = some q1 from rfl) s), bind_ok r1,
    bind_ok (opAt_run (show [q0, q1][0]? = some q0 from rfl) s1), bind_ok hL.run]
  show (if stricmp name [45] = 0 then equMinus v else if stricmp name [43] = 0 then equPlus v else _) s1 = _
  rw [if_neg (stricmp_pm hp).1, if_neg (stricmp_pm hp).2, bind_ok r2]
  rfl

/-- An assignment of the value the symbol already has. -/
theorem equNode_run {f : Nat} {s : St} {p q0 q1 : Ptr} {name : Str} {e : Expr} {v : Int}
    (he : s.endExpansion = false) (hl : Live s p ⟨.opr .equ, 2, [q0, q1]⟩) (h0 : IdAt mb s name q0) (h1 : ExAt mb s e q1)
    (hd : e.depth < f) (hv : Spec.eval (envOf s) s.pc e = some (v, false)) (hn : envOf s name = some v) :
    LeafRun mb f s p [] := by
  obtain ⟨hp, i, x, hi, hx, hinit, hval⟩ := envOf_some hn
  obtain ⟨ns, sim, r⟩ := equNode_pre he hl h0 h1 hd hv hp hi
  refine ⟨v, { s with nodes := ns }, ?_, Eff.heap sim, rfl⟩
  rw [r, bind_ok (sym_run (s := { s with nodes := ns }) (x := x) hx)]
  rw [if_neg (by simp [hinit, hval])]
  rfl

/-- Writing a variable. -/
theorem setVar_run {s : St} {i : SymPtr} {x : Sym} (hx : s.syms[i]? = some x) (hv : x.isVar = true) (v : Int) :
    setSymbolValue i v s = (.ok (), { s with syms := s.syms.set i { x with value := v } }) := by
  have hlt : i < s.syms.length := by
    rcases Nat.lt_or_ge i s.syms.length with h | h
    · exact h
    · rw [List.getElem?_eq_none h] at hx; cases hx
  have hget : s.syms[i] = x := by
    rw [List.getElem?_eq_getElem hlt] at hx
    exact Option.some.inj hx
  unfold setSymbolValue
  rw [bind_ok (sym_run hx)]
  by_cases h : x.value ≠ v
  · rw [if_pos h, if_neg (by simp [hv]), bind_ok (modSym_run hlt _), if_neg (by simp [hv]), modify_set hx]
    rfl
  · rw [if_neg h]
    have hvv : x.value = v := Classical.not_not.1 h
    have : ({ x with value := v } : Sym) = x := by rw [← hvv]
    rw [this]
    have : s.syms.set i x = s.syms := by rw [← hget]; exact List.set_getElem_self hlt
    rw [this]
    rfl

/-- An assignment to a variable. -/
theorem equVar_run {C : Spec.Context} {slot : Str → Option Nat} {f : Nat} {s : St} {p q0 q1 : Ptr} {name : Str} {e : Expr}
    {v : Int} {i : SymPtr} (hfit : Fits mb C slot s)
    (he : s.endExpansion = false) (hl : Live s p ⟨.opr .equ, 2, [q0, q1]⟩) (h0 : IdAt mb s name q0) (h1 : ExAt mb s e q1)
    (hd : e.depth < f) (hv : Spec.eval (envOf s) s.pc e = some (v, false)) (hn : slot name = some i) :
    ∃ ys ns, expandNode (f + 1) p s = (.ok v, { s with syms := ys, nodes := ns }) ∧ SameVars s.syms ys ∧
      HeapSim true (look s) s.nodes ns ∧
      envOf { s with syms := ys, nodes := ns } = fun n => if slot n = some i then some v else envOf s n := by
  have hn' : slotOf s name = some i := by rw [hfit.slots]; exact hn
  obtain ⟨hp, hi, x, hx, hvar, hinit, hsc⟩ := slotOf_some hn'
  obtain ⟨ns, sim, r⟩ := equNode_pre he hl h0 h1 hd hv hp hi
  have hlt : i < s.syms.length := by
    rcases Nat.lt_or_ge i s.syms.length with h | h
    · exact h
    · rw [List.getElem?_eq_none h] at hx; cases hx
  refine ⟨s.syms.set i { x with value := v }, ns, ?_, SameVars.set hx hvar v, sim,
    envOf_set v hfit hn hx hvar hinit ns⟩
  rw [r, bind_ok (sym_run (s := { s with nodes := ns }) (x := x) hx)]
  by_cases h : x.value = v
  · rw [if_neg (by simp [hinit, h])]
    have : ({ x with value := v } : Sym) = x := by rw [← h]
    rw [this]
    have hget : s.syms[i] = x := by
      rw [List.getElem?_eq_getElem hlt] at hx
      exact Option.some.inj hx
    have : s.syms.set i x = s.syms := by rw [← hget]; exact List.set_getElem_self hlt
    rw [this]
    rfl
  · rw [if_pos (Or.inr h)]
    have ht : equTarget i x { s with nodes := ns } = (.ok i, { s with nodes := ns }) := by
      unfold equTarget
      rw [getS_bind]
      cases hxs : x.scope with
      | none =>
        have : s.currentScope = none := hsc hxs
        simp only [this]
        rfl
      | some sc => rfl
    rw [run_bind, bind_ok ht, bind_ok (setVar_run (s := { s with nodes := ns }) hx hvar v)]
    have hx' : (s.syms.set i { x with value := v })[i]? = some { x with value := v } := List.getElem?_set_self hlt
    rw [modSym_run (s := { s with nodes := ns, syms := s.syms.set i { x with value := v } })
      (by show i < (s.syms.set i _).length; rw [List.length_set]; exact hlt)]
    show M.pure v { s with nodes := ns, syms := (s.syms.set i { x with value := v }).modify i _ } = _
    rw [modify_set hx', List.set_set]
    have : ({ ({ x with value := v } : Sym) with isInit := true } : Sym) = { x with value := v } := by rw [← hinit]
    rw [this]
    rfl

end Verif
