import Verif.Lemmas.Fill

/-! # Exact runs of `.load` -/

namespace Verif

/-- One piece of the file. -/
theorem loadEmit_run {f : Nat} {s : St} {size v : Int} {bs : List Nat} (hf : 4 ≤ f) (hsize : size = 1 ∨ size = 2)
    (hv : InInt v) (hn : Spec.number size v = some bs)
    (he : s.endExpansion = false) (hb : s.nodeBase ≤ s.nodes.length) (h0 : 0 ≤ s.totalBytes)
    (ho : s.originSpecified = true) (hroom : Room s) :
    ∃ s' ls, loadEmit (expandNode f) size v s = (.ok (), s') ∧ Asm s s' bs.length bs ls ∧
      (s.finalPass = true → ∀ q, Spec.Prints q s.file s.line s.pc ls bs) := by
  obtain ⟨f, rfl⟩ : ∃ g, f = g + 1 := ⟨f - 1, by omega⟩
  let C : Node := ⟨.con v false, 0, []⟩
  let L : Node := ⟨.opr .exprList, 1, [s.nodes.length]⟩
  let D : Node := ⟨.data size (s.nodes.length + 1), 0, []⟩
  let s3 : St := { s with dataSize := size, nodes := s.nodes ++ [C] ++ [L] ++ [D] }
  have hl : Live s3 (s.nodes.length + 2) D :=
    ⟨Nat.le_trans hb (Nat.le_add_right _ _), by show (s.nodes ++ [C] ++ [L] ++ [D])[_]? = _; simp⟩
  have hlist : ListAt (look s) s3.nodeBase s3.nodes [.expr (.int v)] (s.nodes.length + 1) :=
    ⟨Nat.le_trans hb (Nat.le_add_right _ _), s.nodes.length,
      by show (s.nodes ++ [C] ++ [L] ++ [D])[_]? = _; simp [L],
      ⟨hb, by show (s.nodes ++ [C] ++ [L] ++ [D])[_]? = _; simp [C]⟩⟩
  let s4 : St := dataSt s3 size
  have hds : DataState s4 := Or.inl ⟨by show (if size = 0 then ExpType.dataStrings else .dataBytes) = _; rw [if_neg (by omega)], hsize⟩
  have hitems : Spec.items textOf (envOf s4) s4.dataSize s4.pc [.expr (.int v)].reverse = some bs := by
    have : Spec.itemValue (envOf s4) s4.pc (.int v) = some v := by
      unfold Spec.itemValue
      rw [if_pos (by rfl)]
      have : Spec.eval (envOf s4) s4.pc (.int v) = some (v, false) := by
        unfold Spec.eval Spec.rng
        rw [if_pos (by unfold InInt at hv; omega)]
        rfl
      rw [this]
    show (Option.bind ((Spec.itemValue (envOf s4) s4.pc (.int v)).bind (Spec.number size)) _) = _
    rw [this]
    show (Option.bind (Spec.number size v) _) = _
    rw [hn]
    simp [Spec.items]
  have hroom4 : Room s4 := by
    intro h
    have h' : emitting s = true := by
      unfold emitting at h ⊢
      rw [ho]
      exact h
    exact hroom h'
  obtain ⟨s', ls, r, a, _, _, p⟩ := dataList_run [.expr (.int v)] (f := f) (s := s4) (bs := bs)
    (fun x hx => by
      rw [List.mem_singleton] at hx
      subst hx
      show 0 + 1 < f
      omega) he hds h0 hlist hitems hroom4
  refine ⟨s', ls, ?_, ?_, fun h q => p h q ?_⟩
  · unfold loadEmit constantNode operatorNode dataNode
    rw [modS_bind, bind_assoc', getS_bind, bind_ok (alloc_run _ _ _), bind_ok (alloc_run _ _ _), bind_ok (alloc_run _ _ _)]
    simp only [List.length_append, List.length_cons, List.length_nil, Nat.zero_add, Nat.add_assoc, Nat.reduceAdd]
    have hx : expandNode (f + 1) (s.nodes.length + 2) s3 = (.ok 0, s') := by
      rw [expandNode_run (s := s3) he hl]
      exact r
    exact (bind_ok (f := fun _ => M.pure ()) hx).trans rfl
  · obtain ⟨ns, cg, ds, bd, et, sim, rfl⟩ := a
    refine ⟨ns, cg, ds, bd, et, ?_, ?_⟩
    · refine HeapSim.trans ?_ sim
      show HeapSim true _ s.nodes (s.nodes ++ [C] ++ [L] ++ [D])
      exact ((HeapSim.append _ _ _ _).trans (HeapSim.append _ _ _ _)).trans (HeapSim.append _ _ _ _)
    · have : s4 = { s with
        nodes := s4.nodes, dataSize := size, expansionType := s4.expansionType, originSpecified := true } := rfl
      rw [← ho] at this
      rw [this]
      rfl
  · intro x hx
    rw [List.mem_singleton] at hx
    subst hx
    trivial

/-- The loop.  With the output open, an empty file writes nothing, not even the header. -/
theorem loadLoop_run {f : Nat} (hf : 4 ≤ f) : ∀ (bytes : List Nat) (s : St), s.endExpansion = false →
    s.nodeBase ≤ s.nodes.length → 0 ≤ s.totalBytes → s.originSpecified = true → Room s → (bytes = [] → NoHdr s) →
    ∃ s' ls, loadLoop (expandNode f) bytes s = (.ok (), s') ∧
      Asm s s' bytes.length (bytes.map (· % 256)) ls ∧
      (s.finalPass = true → ∀ q, Spec.Prints q s.file s.line s.pc ls (bytes.map (· % 256)))
  | [], s, _, _, _, _, _, hh => ⟨s, [], rfl, Asm.refl (hh rfl), fun _ _ => .nil _⟩
  | [a], s, he, hb, h0, ho, hroom, _ => by
    have hn : Spec.number 1 ((a % 256 : Nat) : Int) = some [a % 256] := by
      unfold Spec.number
      rw [if_pos rfl, if_pos (by omega)]
      rw [show ((a % 256 : Nat) : Int) % 256 = ((a % 256 : Nat) : Int) by omega]
      rfl
    exact loadEmit_run hf (Or.inl rfl) (by unfold InInt; omega) hn he hb h0 ho hroom
  | a :: b :: rest, s, he, hb, h0, ho, hroom, _ => by
    have hn : Spec.number 2 ((a % 256 : Nat) + 256 * (b % 256 : Nat) : Int) = some [a % 256, b % 256] := by
      unfold Spec.number
      rw [if_neg (by decide), if_pos rfl, if_pos (by omega)]
      rw [show ((a % 256 : Nat) + 256 * (b % 256 : Nat) : Int) % 256 = ((a % 256 : Nat) : Int) by omega,
        show ((a % 256 : Nat) + 256 * (b % 256 : Nat) : Int) / 256 % 256 = ((b % 256 : Nat) : Int) by omega]
      rfl
    obtain ⟨s1, l1, r1, a1, p1⟩ := loadEmit_run (s := s) hf (Or.inr rfl) (by unfold InInt; omega) hn he hb h0 ho hroom
    have room1 := a1.room hroom (Int.le_refl _)
    have hfacts := a1.facts
    have hs : s1.originSpecified = s.originSpecified ∧ s1.finalPass = s.finalPass ∧ s1.file = s.file ∧ s1.line = s.line ∧
        s1.pc = s.pc + ([a % 256, b % 256] : List Nat).length := by
      obtain ⟨_, _, _, _, _, _, rfl⟩ := a1
      exact ⟨rfl, rfl, rfl, rfl, rfl⟩
    obtain ⟨s2, l2, r2, a2, p2⟩ := loadLoop_run hf rest s1 (hfacts.2.2.2.1.trans he)
      (by rw [hfacts.2.1]; exact Nat.le_trans hb hfacts.2.2.2.2.2.1) (a1.total h0) (hs.1.trans ho) room1
      (fun _ => NoHdr.asm a1 h0 (Or.inr (by simp)))
    refine ⟨s2, l1 ++ l2, ?_, ?_, fun hfin q => ?_⟩
    · unfold loadLoop
      rw [bind_ok r1]
      exact r2
    · have := Asm.comp h0 a1 a2
      simp only [List.length_cons, List.map_cons]
      have e : ((rest.length + 1 + 1 : Nat) : Int) = ([a % 256, b % 256] : List Nat).length + (rest.length : Int) := by
        simp only [List.length_cons, List.length_nil]
        omega
      rw [e]
      exact this
    · have h := p2 (hs.2.1.trans hfin) q
      rw [hs.2.2.1, hs.2.2.2.1, hs.2.2.2.2] at h
      exact Prints.append (p1 hfin q) h

/-- Assembling `.load` of an existing file. -/
theorem loadStmt_run {f : Nat} {s : St} {raw name nm : Str} {bytes : List Nat} (file : Str) (line : Int)
    (hf : 4 ≤ f) (he : s.endExpansion = false) (hb : s.nodeBase ≤ s.nodes.length) (h0 : 0 ≤ s.totalBytes)
    (hraw : textOf raw = some name) (hfile : s.files.find? (fun e => e.1 == name) = some (nm, bytes))
    (ho : s.originSpecified = true) (hroom : Room s) (hh : bytes = [] → NoHdr s) :
    ∃ s' ls, runTop (expandNode (f + 1)) (hasUninit (f + 1)) (.stmt file line (.load raw)) s = (.ok true, s') ∧
      Asm (atLine s file line) s' bytes.length (bytes.map (· % 256)) ls ∧
      (s.finalPass = true → ∀ q, Spec.Prints q file line s.pc ls (bytes.map (· % 256))) := by
  let s0 := atLine s file line
  have hb0 : s0.nodeBase ≤ s0.nodes.length := hb
  let S : Node := ⟨.str name, 0, []⟩
  let N : Node := ⟨.opr .load, 1, [s.nodes.length]⟩
  let s1 : St := { s0 with nodes := s0.nodes ++ [S] }
  let s2 : St := { s0 with nodes := s0.nodes ++ [S] ++ [N] }
  have hl : Live s2 (s.nodes.length + 1) N :=
    ⟨Nat.le_trans hb (Nat.le_add_right _ _), by show (s.nodes ++ [S] ++ [N])[_]? = _; simp⟩
  have hS : Live s2 s.nodes.length S := ⟨hb, by show (s.nodes ++ [S] ++ [N])[_]? = _; simp⟩
  have hb2 : s2.nodeBase ≤ s2.nodes.length := by
    show s.nodeBase ≤ (s.nodes ++ [S] ++ [N]).length
    simp only [List.length_append]
    omega
  obtain ⟨s', ls, r, a, p⟩ := loadLoop_run hf bytes s2 he hb2 h0 ho hroom hh
  refine ⟨s', ls, ?_, ?_, p⟩
  · refine runTop_stmt (v := 1) (p := s.nodes.length + 1) (s1 := s2) (by intro _ _ _ h; cases h) ?_ ?_
    · refine built_run ?_
      show (stringNode raw >>= fun p => operatorNode .load [p]) s0 = _
      rw [bind_ok (stringNode_run s0 hraw)]
      refine (alloc_run _ _ s1).trans ?_
      have : s1.nodes.length = s.nodes.length + 1 := by
        show (s.nodes ++ [S]).length = _
        simp
      rw [this]
      rfl
    · rw [expandNode_run (s := s2) he hl]
      show expandLoad (expandNode f) N s2 = _
      unfold expandLoad
      rw [bind_ok (opAt_run (show N.ops[0]? = some s.nodes.length from rfl) s2), bind_ok hS.run]
      show (getS >>= _) s2 = _
      rw [getS_bind]
      have hf2 : s2.files.find? (fun e => e.1 == name) = some (nm, bytes) := hfile
      rw [hf2]
      show (loadLoop (expandNode f) bytes >>= fun _ => M.pure 1) s2 = _
      rw [bind_ok r]
      rfl
  · obtain ⟨ns, cg, ds, bd, et, sim, rfl⟩ := a
    refine ⟨ns, cg, ds, bd, et, ?_, rfl⟩
    refine HeapSim.trans ?_ sim
    show HeapSim true _ s.nodes (s.nodes ++ [S] ++ [N])
    exact (HeapSim.append _ _ _ _).trans (HeapSim.append _ _ _ _)

/-- Assembling `.load` of an empty file. -/
theorem loadStmt_empty {f : Nat} {s : St} {raw name nm : Str} (file : Str) (line : Int)
    (he : s.endExpansion = false) (hb : s.nodeBase ≤ s.nodes.length)
    (hraw : textOf raw = some name) (hfile : s.files.find? (fun e => e.1 == name) = some (nm, [])) :
    ∃ ns, runTop (expandNode (f + 1)) (hasUninit (f + 1)) (.stmt file line (.load raw)) s =
      (.ok true, { atLine s file line with nodes := ns }) := by
  let s0 := atLine s file line
  let S : Node := ⟨.str name, 0, []⟩
  let N : Node := ⟨.opr .load, 1, [s.nodes.length]⟩
  let s1 : St := { s0 with nodes := s0.nodes ++ [S] }
  let s2 : St := { s0 with nodes := s0.nodes ++ [S] ++ [N] }
  have hl : Live s2 (s.nodes.length + 1) N :=
    ⟨Nat.le_trans hb (Nat.le_add_right _ _), by show (s.nodes ++ [S] ++ [N])[_]? = _; simp⟩
  have hS : Live s2 s.nodes.length S := ⟨hb, by show (s.nodes ++ [S] ++ [N])[_]? = _; simp⟩
  refine ⟨s.nodes ++ [S] ++ [N], runTop_stmt (v := 1) (p := s.nodes.length + 1) (s1 := s2)
    (by intro _ _ _ h; cases h) ?_ ?_⟩
  · refine built_run ?_
    show (stringNode raw >>= fun p => operatorNode .load [p]) s0 = _
    rw [bind_ok (stringNode_run s0 hraw)]
    refine (alloc_run _ _ s1).trans ?_
    have : s1.nodes.length = s.nodes.length + 1 := by
      show (s.nodes ++ [S]).length = _
      simp
    rw [this]
    rfl
  · rw [expandNode_run (s := s2) he hl]
    show expandLoad (expandNode f) N s2 = _
    unfold expandLoad
    rw [bind_ok (opAt_run (show N.ops[0]? = some s.nodes.length from rfl) s2), bind_ok hS.run]
    show (getS >>= _) s2 = _
    rw [getS_bind]
    have hf2 : s2.files.find? (fun e => e.1 == name) = some (nm, []) := hfile
    rw [hf2]
    rfl

end Verif
