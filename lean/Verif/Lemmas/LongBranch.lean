import Verif.Lemmas.Assembled
import Verif.Lemmas.Opcodes

/-! # Exact runs of branches that are out of range -/

namespace Verif

/-- Nodes beyond the end of `H` may be replaced. -/
theorem HeapSim.setNew {o : Bool} {lk : Str → Option SymPtr} {H ns : List Node} (h : HeapSim o lk H ns) {p : Nat}
    (hp : H.length ≤ p) (n : Node) : HeapSim o lk H (ns.set p n) := by
  refine ⟨by rw [List.length_set]; exact h.1, fun x m hx => ?_⟩
  have hlt : x < H.length := by
    rcases Nat.lt_or_ge x H.length with h' | h'
    · exact h'
    · rw [List.getElem?_eq_none h'] at hx; cases hx
  rw [List.getElem?_set, if_neg (by omega)]
  exact h.2 x m hx

/-- Two steps of which the second is described from the same initial heap. -/
theorem Asm.compH {s s1 s2 : St} {n1 n2 : Int} {b1 b2 : List Nat} {l1 l2 : List ListEntry} (h0 : 0 ≤ s.totalBytes)
    (h1 : Asm s s1 n1 b1 l1) (h2 : Asm { s1 with nodes := s.nodes } s2 n2 b2 l2) :
    Asm s s2 (n1 + n2) (b1 ++ b2) (l1 ++ l2) := by
  obtain ⟨ns, cg, ds, bd, et, _, rfl⟩ := h1
  refine Asm.comp (s1 := { s with
    codeGenerated := cg
    dataSize := ds
    byteDelta := bd
    expansionType := et
    pc := s.pc + n1
    out := s.out ++ (if emitting s then outHdr s ++ b1 else [])
    totalBytes := s.totalBytes + (if emitting s then (((outHdr s).length + b1.length : Nat) : Int) else 0)
    listing := s.listing ++ (if s.finalPass then l1 else []) }) h0
    ⟨s.nodes, cg, ds, bd, et, HeapSim.refl _ _ _, rfl⟩ h2

/-- Listing and output of an instruction node followed by the step of the location counter. -/
theorem emitStep {f : Nat} {s : St} {H : List Node} {p : Ptr} {ins c v : Int} {m : Mode} {k : Nat} {ops : List Ptr}
    (he : s.endExpansion = false) (hH : HeapSim true (look s) H s.nodes)
    (hp : s.finalPass = true → Live s p ⟨.opcode ins c m s.pc, k, ops⟩) (hv : s.finalPass = true → OpVal f s m ops s.pc v)
    (hroom : Room s) :
    ∃ ns ds bd tb out ls, HeapSim false (look s) s.nodes ns ∧
      (if s.finalPass then emitNode (expandNode f) p else M.pure ()) s = (.ok (), { s with
        nodes := ns, dataSize := ds, byteDelta := bd, totalBytes := tb, out := out, listing := ls }) ∧
      Asm { s with nodes := H } { s with nodes := ns, dataSize := ds, byteDelta := bd, totalBytes := tb, out := out, listing := ls, pc := s.pc + (opByteCount m + 1) } (opByteCount m + 1)
        (toBytes (instrBytes m c s.pc v)) [listRow s (opRow ins k m c s.pc v)] := by
  by_cases hfin : s.finalPass = true
  · obtain ⟨ns, ds, bd, g1, g2⟩ := emitOp_run he (hp hfin) (hv hfin) (by
      intro ho hs
      exact hroom (by unfold emitting; rw [hfin, ho, hs]; rfl))
    refine ⟨ns, ds, bd, _, _, _, g1, by rw [if_pos hfin]; exact g2, ns, s.codeGenerated, ds, bd, s.expansionType,
      hH.trans g1.mono, ?_⟩
    have hem : emitting s = (s.outputOpen && s.originSpecified) := by
      unfold emitting
      rw [hfin, Bool.true_and]
    have hem' : emitting { s with nodes := H } = emitting s := rfl
    have ho' : outHdr { s with nodes := H } = outHdr s := rfl
    rw [hem', ho', hem]
    simp only [hfin, if_true]
  · have hem : emitting { s with nodes := H } = false := by
      unfold emitting
      simp only [Bool.not_eq_true] at hfin
      show (s.finalPass && _ && _) = false
      rw [hfin, Bool.false_and, Bool.false_and]
    refine ⟨s.nodes, s.dataSize, s.byteDelta, s.totalBytes, s.out, s.listing, HeapSim.refl _ _ _, by rw [if_neg hfin]; rfl,
      s.nodes, s.codeGenerated, s.dataSize, s.byteDelta, s.expansionType, hH, ?_⟩
    rw [hem]
    simp only [hfin, Bool.false_eq_true, if_false, List.append_nil, Int.add_zero]

/-- The warning of the final pass. -/
def warned (s : St) : St :=
  if s.finalPass then { s with warningCount := s.warningCount + 1, log := s.log ++ [.branchOutOfRange] } else s

theorem jmp_code (cpu : Cpu) (ill : Bool) (v : Int) :
    getOpCode cpu ill Ins._jmp .r = -1 ∧ getOpCode cpu ill Ins._jmp .a = 0x4C ∧
      chooseMode (getOpCode cpu ill Ins._jmp) .a (decide (0 ≤ v ∧ v < 256)) = (.a, 0x4C) := by
  have h : getOpCode cpu ill Ins._jmp .r = -1 ∧ getOpCode cpu ill Ins._jmp .a = 0x4C ∧
      getOpCode cpu ill Ins._jmp .zp = -1 := by
    cases cpu <;> cases ill <;> decide +kernel
  refine ⟨h.1, h.2.1, ?_⟩
  unfold chooseMode
  simp only [h.2.1]
  rw [if_neg]
  rintro ⟨h1, h2⟩
  split at h2
  · exact h2 h.2.2
  · rename_i h3
    exact h1 (if_neg h3)

/-- The inverted branch over a `jmp`. -/
def longBytes (code2 pc v : Int) : List Nat :=
  toBytes (instrBytes .r code2 pc (pc + 5)) ++ toBytes (instrBytes .a 0x4C (pc + 2) v)

theorem longBytes_eq {c pc v : Int} (h0 : 0 ≤ c) (h1 : c ≤ 255) :
    longBytes c pc v = [c.toNat, 3, 0x4C, (v % 256).toNat, (v / 256 % 256).toNat] := by
  show [(c % 256).toNat, ((operandValue .r pc (pc + 5)) % 256 % 256).toNat, ((0x4C : Int) % 256).toNat,
    (operandValue .a (pc + 2) v % 256 % 256).toNat, (operandValue .a (pc + 2) v % 65536 / 256 % 256).toNat] = _
  have e1 : operandValue .r pc (pc + 5) = 3 := by simp only [operandValue, if_true]; omega
  have e2 : operandValue .a (pc + 2) v = v := by simp [operandValue]
  rw [e1, e2]
  congr 1
  · omega
  · congr 1
    congr 1
    congr 1
    · omega
    · congr 1; omega

/-- Their listing. -/
def longList (s : St) (ins code2 v : Int) : List ListEntry :=
  [listRow s (opRow ins 1 .r code2 s.pc (s.pc + 5)), listRow s (opRow Ins._jmp 1 .a 0x4C (s.pc + 2) v)]

/-- A branch rewritten into an inverted branch over a `jmp`: `v` is the value of the target expression seen from
the branch, `v2` its value seen from the `jmp`. -/
theorem longBranch_run {f : Nat} {s : St} {H : List Node} {p q : Ptr} {ins code0 code code2 v v2 : Int} {e : Expr}
    (he : s.endExpansion = false) (hH : HeapSim true (look s) H s.nodes) (hHp : H.length ≤ p)
    (hp : Live s p ⟨.opcode ins code0 .r s.pc, 1, [q]⟩) (hb : s.nodeBase ≤ s.nodes.length)
    (hd : e.depth + 1 < f) (ht : ExprAt (look s) s.nodeBase s.nodes e q)
    (hv : Spec.eval (envOf s) s.pc e = some (v, false)) (hc : e.complete (envOf s) s.pc = true)
    (hv2 : Spec.eval (envOf s) (s.pc + 2) e = some (v2, false))
    (hpc : InInt (s.pc + 5)) (ht0 : 0 ≤ s.totalBytes) (hroom : Room s) :
    ∃ s'', longBranch (expandNode f) (hasUninit f) p q code code2 .r s = (.ok (), warned s'') ∧
      Asm { s with nodes := H } s'' 5 (longBytes code2 s.pc v2) (longList s ins code2 v2) := by
  obtain ⟨j1, j2, j3⟩ := jmp_code s.cpu s.allowIllegal v
  obtain ⟨n1, j, r1, g1, hbj', hj, t1, d1⟩ := opcodeNode_run (ins := Ins._jmp) (mode0 := .a) (mode := .a) hd he hb ht hv hc
    (by rw [j1]; rfl) j3 (by decide)
  have hbj : s.nodeBase ≤ j := Nat.le_trans hb hbj'
  have hjp : j ≠ p := by
    intro h
    subst h
    rw [g1.opcode hp.2] at hj
    cases hj
  have hp1 : Live ({ s with nodes := n1 } : St) p ⟨.opcode ins code0 .r s.pc, 1, [q]⟩ := ⟨hp.1, g1.opcode hp.2⟩
  let n2 := n1.set p ⟨.opcode ins code2 .r s.pc, 1, [q]⟩
  have hl1 : p < n1.length := hp1.lt
  have hH2 : HeapSim true (look s) H n2 := (hH.trans g1.mono).setNew hHp _
  have hp2 : n2[p]? = some ⟨.opcode ins code2 .r s.pc, 1, [q]⟩ := by simp only [n2]; rw [List.getElem?_set_self hl1]
  have hj2 : n2[j]? = some ⟨.opcode Ins._jmp 0x4C .a 0, 1, [q]⟩ := by
    simp only [n2]; rw [List.getElem?_set, if_neg (Ne.symm hjp)]; exact hj
  have t2 : ExprAt (look s) s.nodeBase n2 e q := t1.setOp hp1.2 ⟨_, _, _, _, rfl⟩
  let s2 : St := { s with nodes := n2 }
  -- the inverted branch
  have branch : ∃ n3 ops, (s.finalPass = true → OpVal f { s with nodes := n3 } .r ops s.pc (s.pc + 5)) ∧
      HeapSim true (look s) H n3 ∧ n3[p]? = some ⟨.opcode ins code2 .r s.pc, 1, ops⟩ ∧
      n3[j]? = some ⟨.opcode Ins._jmp 0x4C .a 0, 1, [q]⟩ ∧ ExprAt (look s) s.nodeBase n3 e q ∧
      (if s.finalPass then (constantNode (s.pc + 5) false >>= fun c => node p >>= fun n =>
        setNode p { n with ops := n.ops.set 0 c } >>= fun _ => emitNode (expandNode f) p) else M.pure ()) s2 =
        (if s.finalPass then emitNode (expandNode f) p else M.pure ()) { s with nodes := n3 } := by
    by_cases hfin : s.finalPass = true
    · let c := n2.length
      have hlc : p < c := by simp only [c, n2, List.length_set]; exact hl1
      let C : Node := ⟨.con (s.pc + 5) false, 0, []⟩
      have hbc : s.nodeBase ≤ c := Nat.le_trans hp.1 (Nat.le_of_lt hlc)
      have hp3 : (n2 ++ [C])[p]? = some ⟨.opcode ins code2 .r s.pc, 1, [q]⟩ := by
        rw [List.getElem?_append_left hlc]; exact hp2
      have hlj : j < n2.length := by
        rcases Nat.lt_or_ge j n2.length with h' | h'
        · exact h'
        · rw [List.getElem?_eq_none h'] at hj2; cases hj2
      refine ⟨(n2 ++ [C]).set p ⟨.opcode ins code2 .r s.pc, 1, [c]⟩, [c], ?_, ?_, ?_, ?_, ?_, ?_⟩
      · intro _ _
        have hcc : ((n2 ++ [C]).set p ⟨.opcode ins code2 .r s.pc, 1, [c]⟩)[c]? = some C := by
          rw [List.getElem?_set, if_neg (Nat.ne_of_lt hlc)]
          simp [c]
        refine ⟨c, .int (s.pc + 5), rfl, by simp only [Expr.depth]; omega, ⟨hbc, hcc⟩, ?_, fun _ => ?_⟩
        · simp only [Spec.eval, Spec.rng]
          rw [if_pos (by unfold InInt at hpc; omega)]
          rfl
        · simp only [branchBad]
          rw [Bool.or_eq_false_iff]
          constructor <;> simp only [decide_eq_false_iff_not] <;> omega
      · exact HeapSim.setNew (hH2.trans (HeapSim.append _ _ _ _)) hHp _
      · rw [List.getElem?_set_self (by rw [List.length_append]; exact Nat.lt_of_lt_of_le hlc (Nat.le_add_right _ _))]
      · rw [List.getElem?_set, if_neg (Ne.symm hjp), List.getElem?_append_left hlj]
        exact hj2
      · exact (t2.append _).setOp hp3 ⟨_, _, _, _, rfl⟩
      · rw [if_pos hfin, if_pos hfin]
        have hcn : constantNode (s.pc + 5) false s2 = (.ok c, { s with
          nodes := n2 ++ [C] }) := rfl
        have hl3 : Live ({ s with nodes := n2 ++ [C] } : St) p
            ⟨.opcode ins code2 .r s.pc, 1, [q]⟩ := ⟨hp.1, hp3⟩
        rw [bind_ok hcn, bind_ok hl3.run, bind_ok (hl3.set _)]
        rfl
    · exact ⟨n2, [q], fun h => absurd h hfin, hH2, hp2, hj2, t2, by rw [if_neg hfin, if_neg hfin]⟩
  obtain ⟨n3, ops, hv3, hH3, hp3, hj3, t3, r3⟩ := branch
  let s3 : St := { s with nodes := n3 }
  obtain ⟨n4, ds, bd, tb, out, ls, g4, r4, a4⟩ := emitStep (f := f) (s := s3) (H := H) (p := p) (c := code2) (v := s.pc + 5)
    he hH3 (fun _ => ⟨hp.1, hp3⟩) hv3 hroom
  let s4 : St := { s3 with nodes := n4, dataSize := ds, byteDelta := bd, totalBytes := tb, out := out, listing := ls }
  let s5 : St := { s4 with pc := s.pc + 2 }
  have a4' : Asm { s with nodes := H } s5 2 (toBytes (instrBytes .r code2 s.pc (s.pc + 5)))
    [listRow s (opRow ins 1 .r code2 s.pc (s.pc + 5))] := a4
  have hp4 : n4[p]? = some ⟨.opcode ins code2 .r s.pc, 1, ops⟩ := g4.opcode hp3
  have hj4 : n4[j]? = some ⟨.opcode Ins._jmp 0x4C .a 0, 1, [q]⟩ := g4.opcode hj3
  have t4 : ExprAt (look s) s.nodeBase n4 e q := t3.sim g4
  have hH4 : HeapSim true (look s) H n4 := hH3.trans g4.mono
  -- the jump
  have hpc4 : s5.totalBytes = tb := rfl
  have htb : s.pc + 2 ≤ s.origin + tb + (outHdr s5).length ∨ emitting s = false := by
    by_cases hem : emitting s = true
    · left
      have := hroom hem
      obtain ⟨_, _, _, _, _, _, h⟩ := a4'
      have h' : tb = s.totalBytes + (if emitting s then (((outHdr s).length + 2 : Nat) : Int) else 0) :=
        congrArg St.totalBytes h
      rw [if_pos hem] at h'
      omega
    · right
      simpa using hem
  have hroom5 : Room s5 := by
    intro hem
    have hem' : emitting s = true := hem
    rcases htb with h | h
    · exact h
    · rw [h] at hem'; cases hem'
  let J : Node := ⟨.opcode Ins._jmp 0x4C .a (s.pc + 2), 1, [q]⟩
  have hlj : j < n4.length := by
    rcases Nat.lt_or_ge j n4.length with h' | h'
    · exact h'
    · rw [List.getElem?_eq_none h'] at hj4; cases hj4
  have jump : ∃ n5, HeapSim true (look s) n4 n5 ∧
      (s.finalPass = true → n5[j]? = some J) ∧ (∃ a, n5[j]? = some ⟨.opcode Ins._jmp 0x4C .a a, 1, [q]⟩) ∧
      n5[p]? = some ⟨.opcode ins code2 .r s.pc, 1, ops⟩ ∧
      ExprAt (look s) s.nodeBase n5 e q ∧
      (if s.finalPass then (modOpcode j (fun ins c m _ => .opcode ins c m (s.pc + 2)) >>= fun _ =>
        emitNode (expandNode f) j >>= fun _ => warn .branchOutOfRange) else M.pure ()) s5 =
        ((if s.finalPass then emitNode (expandNode f) j else M.pure ()) >>= fun _ =>
          (if s.finalPass then warn .branchOutOfRange else M.pure ())) { s5 with nodes := n5 } := by
    by_cases hfin : s.finalPass = true
    · refine ⟨n4.set j J, HeapSim.set hj4 ⟨rfl, rfl, Or.inr (Or.inr (Or.inr ⟨_, _, _, _, s.pc + 2, rfl, rfl, rfl⟩))⟩,
        fun _ => by rw [List.getElem?_set_self hlj], ⟨_, by rw [List.getElem?_set_self hlj]⟩,
        by rw [List.getElem?_set, if_neg hjp]; exact hp4, t4.setOp hj4 ⟨_, _, _, _, rfl⟩, ?_⟩
      rw [if_pos hfin, if_pos hfin, if_pos hfin]
      have hl : Live s5 j ⟨.opcode Ins._jmp 0x4C .a 0, 1, [q]⟩ := ⟨hbj, hj4⟩
      rw [bind_ok (modOpcode_run hl _)]
    · refine ⟨n4, HeapSim.refl _ _ _, fun h => absurd h hfin, ⟨_, hj4⟩, hp4, t4, ?_⟩
      rw [if_neg hfin, if_neg hfin, if_neg hfin]
      rfl
  obtain ⟨n5, g5, hj5, ⟨a, hj5'⟩, hp5, t5, r5⟩ := jump
  let s5' : St := { s5 with nodes := n5 }
  obtain ⟨n6, ds6, bd6, tb6, out6, ls6, g6, r6, a6⟩ := emitStep (f := f) (s := s5') (H := H) (p := j) (ins := Ins._jmp)
    (c := 0x4C) (m := .a) (k := 1) (ops := [q]) (v := v2) he (hH4.trans g5) (fun h => ⟨hbj, hj5 h⟩)
    (fun _ _ => ⟨q, e, rfl, by omega, t5, hv2, fun h => by cases h⟩) hroom5
  let s6 : St := { s5' with nodes := n6, dataSize := ds6, byteDelta := bd6, totalBytes := tb6, out := out6, listing := ls6 }
  have hp6 : n6[p]? = some ⟨.opcode ins code2 .r s.pc, 1, ops⟩ := g6.opcode hp5
  have hj6 : n6[j]? = some ⟨.opcode Ins._jmp 0x4C .a a, 1, [q]⟩ := g6.opcode hj5'
  have a6' : Asm { s5 with nodes := H } { s6 with pc := s.pc + 5 } 3 (toBytes (instrBytes .a 0x4C (s.pc + 2) v2))
      [listRow s (opRow Ins._jmp 1 .a 0x4C (s.pc + 2) v2)] := by
    have h : s.pc + 2 + (opByteCount .a + 1) = s.pc + 5 := by
      rw [show opByteCount Mode.a = 2 from rfl]; omega
    rw [← h]
    exact a6
  have all := Asm.compH (s := { s with nodes := H }) ht0 a4' a6'
  let n7 := n6.set p ⟨.opcode ins code .r s.pc, 1, ops⟩
  refine ⟨{ s6 with pc := s.pc + 5, nodes := n7 }, ?_, ?_⟩
  · unfold longBranch
    rw [bind_ok r1, bind_ok (modOpcode_run hp1 _)]
    show (getS >>= _) s2 = _
    rw [getS_bind]
    have hbr := r3.trans r4
    rw [bind_ok hbr, bind_ok (opNodeBytes_run (s := s4) ⟨hp.1, hp4⟩)]
    show (modS _ >>= _) s4 = _
    rw [modS_bind]
    show (getS >>= _) s5 = _
    rw [getS_bind]
    have hw : (if s.finalPass then (modOpcode j (fun ins c m _ => .opcode ins c m (s.pc + 2)) >>= fun _ =>
        emitNode (expandNode f) j >>= fun _ => warn .branchOutOfRange) else M.pure ()) s5 = (.ok (), warned s6) := by
      rw [r5, bind_ok r6]
      unfold warned
      by_cases hfin : s.finalPass = true
      · rw [if_pos hfin, if_pos (show s6.finalPass = true from hfin)]
        rfl
      · rw [if_neg hfin, if_neg (show ¬ s6.finalPass = true from hfin)]
        rfl
    rw [bind_ok hw]
    have hw6 : warned s6 = { s6 with warningCount := (warned s6).warningCount, log := (warned s6).log } := by
      unfold warned
      split <;> rfl
    have hlj6 : Live (warned s6) j ⟨.opcode Ins._jmp 0x4C .a a, 1, [q]⟩ := by rw [hw6]; exact ⟨hbj, hj6⟩
    rw [bind_ok (opNodeBytes_run hlj6)]
    show (modS _ >>= _) _ = _
    rw [modS_bind]
    have hlp6 : Live { warned s6 with pc := (warned s6).pc + (opByteCount .a + 1) } p
        ⟨.opcode ins code2 .r s.pc, 1, ops⟩ := by rw [hw6]; exact ⟨hp.1, hp6⟩
    refine (modOpcode_run hlp6 _).trans ?_
    congr 1
    unfold warned
    have e5 : s.pc + 2 + (opByteCount .a + 1) = s.pc + 5 := by
      rw [show opByteCount Mode.a = 2 from rfl]; omega
    by_cases hfin : s.finalPass = true
    · rw [if_pos (show s6.finalPass = true from hfin), if_pos (show s.finalPass = true from hfin)]
      show ({ s6 with warningCount := _, log := _, pc := s.pc + 2 + (opByteCount .a + 1), nodes := _ } : St) = _
      rw [e5]
    · rw [if_neg (show ¬ s6.finalPass = true from hfin), if_neg (show ¬ s.finalPass = true from hfin)]
      show ({ s6 with pc := s.pc + 2 + (opByteCount .a + 1), nodes := _ } : St) = _
      rw [e5]
  · obtain ⟨ns, cg, dz, bz, et, _, h⟩ := all
    refine ⟨n7, cg, dz, bz, et, ((hH4.trans g5).trans g6.mono).setNew hHp _, ?_⟩
    have := congrArg (fun t : St => ({ t with nodes := n7 } : St)) h
    exact this

/-- The operand of a branch is not the name of a local label with value 0 (expand.cc:871-873 replaces its value). -/
def NotLocalZero (e : Expr) (v : Int) : Prop := v = 0 → ∀ n, e ≠ .sym (64 :: n)

theorem notLocalRef {s : St} {e : Expr} {q : Ptr} {qn : Node} {v : Int} {ns : List Node}
    (ht : ExprAt (look s) s.nodeBase ns e q) (hv : Spec.eval (envOf s) s.pc e = some (v, false))
    (hq : ns[q]? = some qn) (hn : ∀ n, e ≠ .sym (64 :: n)) : isLocalRef qn = false := by
  cases e with
  | int _ => rw [ht.2] at hq; cases hq; rfl
  | pc => obtain ⟨_, _, h⟩ := ht; rw [h] at hq; cases hq; rfl
  | un _ _ => obtain ⟨_, _, h, _⟩ := ht; rw [h] at hq; cases hq; rfl
  | bin _ _ _ => obtain ⟨_, _, _, h, _⟩ := ht; rw [h] at hq; cases hq; rfl
  | sym nm =>
    obtain ⟨_, _, h, _⟩ := ht
    rw [h] at hq
    cases hq
    cases nm with
    | nil => rfl
    | cons c cs =>
      have h64 : c ≠ 64 := fun h => hn cs (by rw [h])
      have hpl : plainName (c :: cs) = true := by
        simp only [Spec.eval, envOf] at hv
        split at hv
        · assumption
        · cases hv
      simp only [plainName, Bool.and_eq_true, Bool.not_eq_true'] at hpl
      have hpm := hpl.1.1.1
      simp only [isLocalRef, Bool.or_eq_false_iff, beq_eq_false_iff_ne]
      simp only [isPmName] at hpm
      grind

/-- The operand part of `expand_op_code_node` for a branch out of range. -/
theorem operandPhase_long {e : Expr} {f : Nat} {p q : Ptr} {s : St} {H : List Node} {v v2 ins code : Int} {pc : Int}
    {n : Node} (hd : e.depth + 1 < f) (he : s.endExpansion = false) (hH : HeapSim true (look s) H s.nodes)
    (hHp : H.length ≤ p)
    (hp : Live s p ⟨.opcode ins code .r s.pc, 1, [q]⟩) (hn : n.numOps = 1 ∧ n.ops = [q]) (hpc : pc = s.pc)
    (hb : s.nodeBase ≤ s.nodes.length)
    (ht : ExprAt (look s) s.nodeBase s.nodes e q) (hv : Spec.eval (envOf s) s.pc e = some (v, false))
    (hc : e.complete (envOf s) s.pc = true)
    (hv2 : Spec.eval (envOf s) (s.pc + 2) e = some (v2, false)) (hz : NotLocalZero e v)
    (hin : InInt (v - (s.pc + 2))) (hbad : branchBad (v - (s.pc + 2)) = true)
    (hcode : getOpCode s.cpu s.allowIllegal (invertBranch ins) .r ≠ -1)
    (hpc5 : InInt (s.pc + 5)) (ht0 : 0 ≤ s.totalBytes) (hroom : Room s) :
    ∃ s'', operandPhase (expandNode f) (hasUninit f) p n ins code .r pc s = (.ok true, warned s'') ∧
      Asm { s with nodes := H } s'' 5 (longBytes (getOpCode s.cpu s.allowIllegal (invertBranch ins) .r) s.pc v2)
        (longList s (invertBranch ins) (getOpCode s.cpu s.allowIllegal (invertBranch ins) .r) v2) := by
  subst hpc
  obtain ⟨ns, h1, h2, _⟩ := expand_ok (show e.depth < f by omega) he ht hv
  obtain ⟨qn, hqn⟩ : ∃ qn, Live { s with nodes := ns } q qn := (ht.sim h2).live
  have hp' : Live { s with nodes := ns } p ⟨.opcode ins code .r s.pc, 1, [q]⟩ := ⟨hp.1, h2.opcode hp.2⟩
  let n2 := ns.set p ⟨.opcode (invertBranch ins) code .r s.pc, 1, [q]⟩
  have hnl : ¬ (v = 0 ∧ (Mode.r : Mode) = .r ∧ isLocalRef qn = true) := by
    rintro ⟨h0, _, hl⟩
    rw [notLocalRef (ht.sim h2) hv hqn.2 (hz h0)] at hl
    cases hl
  have hlen : p < ns.length := hp'.lt
  obtain ⟨s'', r, a⟩ := longBranch_run (f := f) (s := { s with nodes := n2 }) (H := H) (p := p) (q := q) (code := code)
    (code2 := getOpCode s.cpu s.allowIllegal (invertBranch ins) .r) he ((hH.trans h2.mono).setNew hHp _) hHp
    ⟨hp.1, by show n2[p]? = _; simp only [n2]; rw [List.getElem?_set_self hlen]⟩
    (by show s.nodeBase ≤ n2.length; simp only [n2, List.length_set]; exact Nat.le_trans hb h2.1) hd
    ((ht.sim h2).setOp hp'.2 ⟨_, _, _, _, rfl⟩) hv hc hv2 hpc5 ht0 hroom
  refine ⟨s'', ?_, a⟩
  unfold operandPhase
  rw [if_neg (by rw [hn.1]; decide), bind_ok (opAt_run (by rw [hn.2]; rfl) s), bind_ok h1, bind_ok hqn.run, getS_bind,
    if_neg hnl, if_neg (by intro h; exact absurd h.1 (by decide)), if_pos rfl]
  have hbd : branchDisp v s.pc = some (v - (s.pc + 2)) := by
    unfold branchDisp cchk
    rw [if_pos hin]
  rw [hbd, bind_ok (run_liftO_some _ _), if_pos hbad, bind_ok (modOpcode_run hp' _), bind_ok (opCodeM_run _ _ _)]
  rw [if_pos (by exact hcode)]
  exact bind_ok r

/-- Assembling a branch that is out of range. -/
theorem expandOp_long {f : Nat} {s : St} {H : List Node} {p q : Ptr} {ins code pc0 v v2 : Int} {e : Expr}
    (he : s.endExpansion = false) (hH : HeapSim true (look s) H s.nodes) (hHp : H.length ≤ p)
    (hp : Live s p ⟨.opcode ins code .r pc0, 1, [q]⟩) (hb : s.nodeBase ≤ s.nodes.length)
    (hd : e.depth + 1 < f) (hte : ExprAt (look s) s.nodeBase s.nodes e q) (hdone : Done (look s) s.syms s.nodes e q)
    (hv : Spec.eval (envOf s) s.pc e = some (v, false)) (hc : e.complete (envOf s) s.pc = true)
    (hv2 : Spec.eval (envOf s) (s.pc + 2) e = some (v2, false)) (hz : NotLocalZero e v)
    (hin : InInt (v - (s.pc + 2))) (hbad : branchBad (v - (s.pc + 2)) = true)
    (hcode : getOpCode s.cpu s.allowIllegal (invertBranch ins) .r ≠ -1)
    (hpc5 : InInt (s.pc + 5)) (ht0 : 0 ≤ s.totalBytes) (hroom : Room (orig s)) :
    ∃ s'', expandOpCode (expandNode f) (hasUninit f) p s = (.ok 0, warned s'') ∧
      Asm { orig s with nodes := H } s'' 5 (longBytes (getOpCode s.cpu s.allowIllegal (invertBranch ins) .r) s.pc v2)
        (longList s (invertBranch ins) (getOpCode s.cpu s.allowIllegal (invertBranch ins) .r) v2) := by
  let N : Node := ⟨.opcode ins code .r s.pc, 1, [q]⟩
  have hsim0 : HeapSim true (look s) s.nodes (s.nodes.set p N) :=
    HeapSim.set hp.2 ⟨rfl, rfl, Or.inr (Or.inr (Or.inr ⟨_, _, _, _, s.pc, rfl, rfl, rfl⟩))⟩
  have hlt : p < s.nodes.length := hp.lt
  have key : ∀ b : Bool, orig s = { s with originSpecified := b } → ∃ s'', expandOpCode (expandNode f) (hasUninit f) p s =
      (.ok 0, warned s'') ∧ Asm { ({ s with originSpecified := b } : St) with nodes := H } s'' 5
        (longBytes (getOpCode s.cpu s.allowIllegal (invertBranch ins) .r) s.pc v2)
        (longList s (invertBranch ins) (getOpCode s.cpu s.allowIllegal (invertBranch ins) .r) v2) := by
    intro b hb0
    let t1 : St := { s with originSpecified := b, nodes := s.nodes.set p N }
    have hp1 : Live t1 p N := ⟨hp.1, by simp only [t1]; rw [List.getElem?_set_self hlt]⟩
    obtain ⟨s'', r, a⟩ := operandPhase_long (s := t1) (n := ⟨.opcode ins code .r pc0, 1, [q]⟩) (pc := s.pc) (H := H)
      (code := code) hd he
      (hH.trans hsim0) hHp hp1 ⟨rfl, rfl⟩ rfl (by simp only [t1, List.length_set]; exact hb) (hte.sim hsim0) hv hc hv2 hz
      hin hbad hcode hpc5 ht0 (by rw [hb0] at hroom; exact hroom)
    refine ⟨s'', ?_, a⟩
    unfold expandOpCode
    rw [bind_ok hp.run]
    show (modS _ >>= _) s = _
    rw [modS_bind]
    show (getS >>= _) (orig s) = _
    rw [hb0, getS_bind, bind_ok (Live.set (s := { s with originSpecified := b }) hp _)]
    have hph : (if (opShape .r).1 > 0 then (hasUninit f p >>= fun u =>
        if u then M.pure false else operandPhase (expandNode f) (hasUninit f) p ⟨.opcode ins code .r pc0, 1, [q]⟩ ins
          code .r s.pc) else M.pure false) t1 = (.ok true, warned s'') := by
      rw [if_pos (by decide), bind_ok (hasUninit_op hp1 hd (hte.sim hsim0) (hdone.sim hsim0)), if_neg Bool.false_ne_true]
      exact r
    exact bind_ok hph
  obtain ⟨s'', r, a⟩ := key (orig s).originSpecified (orig_eq s)
  refine ⟨s'', r, ?_⟩
  rw [orig_eq s]
  exact a

/-- A statement with a branch that is out of range. -/
theorem longStmt_run {e : Expr} {f : Nat} {s : St} {v v2 ins : Int} {mode0 : Mode} (file : Str) (line : Int)
    (hd : e.depth + 1 < f) (he : s.endExpansion = false) (hb : s.nodeBase ≤ s.nodes.length)
    (hv : Spec.eval (envOf s) s.pc e = some (v, false)) (hc : e.complete (envOf s) s.pc = true)
    (hr : getOpCode s.cpu s.allowIllegal ins .r ≠ -1)
    (hv2 : Spec.eval (envOf s) (s.pc + 2) e = some (v2, false)) (hz : NotLocalZero e v)
    (hin : InInt (v - (s.pc + 2))) (hbad : branchBad (v - (s.pc + 2)) = true)
    (hcode : getOpCode s.cpu s.allowIllegal (invertBranch ins) .r ≠ -1)
    (hpc5 : InInt (s.pc + 5)) (ht0 : 0 ≤ s.totalBytes) (hroom : Room (orig s)) :
    ∃ s'', runTop (expandNode (f + 1)) (hasUninit (f + 1)) (.stmt file line (.op ins mode0 (some e))) s =
        (.ok true, warned s'') ∧
      Asm (orig (atLine s file line)) s'' 5 (longBytes (getOpCode s.cpu s.allowIllegal (invertBranch ins) .r) s.pc v2)
        (longList (atLine s file line) (invertBranch ins) (getOpCode s.cpu s.allowIllegal (invertBranch ins) .r) v2) := by
  have hra := getOpCode_range s.cpu s.allowIllegal ins .r
  have hnm : nodeMode (getOpCode s.cpu s.allowIllegal ins) mode0 v = (.r, getOpCode s.cpu s.allowIllegal ins .r) := by
    unfold nodeMode chooseMode srcMode
    rw [if_pos hr]
    simp [zpForm]
  let s0 := atLine s file line
  obtain ⟨ns, p, q, h1, h2, h3, h4, h5, h6⟩ := buildOp_run (s := s0) (ins := ins) (mode0 := mode0) (f := f + 1)
    (by omega) he hb hv hc (by show 0 ≤ (nodeMode (getOpCode s.cpu s.allowIllegal ins) mode0 v).2; rw [hnm]; omega) false
  have hnm' : nodeMode (getOpCode s0.cpu s0.allowIllegal ins) mode0 v = (.r, getOpCode s.cpu s.allowIllegal ins .r) := hnm
  rw [hnm'] at h4
  let s1 : St := { s0 with nodes := ns }
  have hl : Live s1 p _ := ⟨Nat.le_trans hb h3, h4⟩
  obtain ⟨s'', r, a⟩ := expandOp_long (f := f) (s := s1) (H := s.nodes) he h2.mono h3 hl (Nat.le_trans hb h2.1) hd h5 h6
    hv hc hv2 hz hin hbad hcode hpc5 ht0
    (by rw [show s1 = { s0 with nodes := ns } from rfl, orig_nodes]; exact room_nodes _ (room_atLine _ _ hroom))
  refine ⟨s'', ?_, ?_⟩
  · refine runTop_stmt (v := 0) (by intro _ _ _ h; cases h) h1 ?_
    exact (expandNode_run (s := s1) he hl).trans r
  · rw [show s1 = { s0 with nodes := ns } from rfl, orig_nodes] at a
    have e : ({ ({ orig s0 with nodes := ns } : St) with nodes := s.nodes } : St) = orig s0 := by
      rw [orig_eq s0]
      rfl
    rw [e] at a
    exact a

end Verif
