import Verif.Lemmas.Data

/-! # Exact runs of `.ds`, and the gap check of `generate_output` -/

namespace Verif

/-- Assembling `.ds`. -/
theorem dsStmt_run {f : Nat} {s : St} {e : Expr} {n : Int} (file : Str) (line : Int) (hd : e.depth < f)
    (he : s.endExpansion = false) (hb : s.nodeBase ≤ s.nodes.length)
    (hn : Spec.eval (envOf s) s.pc e = some (n, false)) (h0 : 0 ≤ n) :
    ∃ ns, HeapSim true (look s) s.nodes ns ∧
      runTop (expandNode (f + 1)) (hasUninit (f + 1)) (.stmt file line (.ds e)) s =
        (.ok true, { atLine s file line with nodes := ns, pc := s.pc + if n > 0 then n else 1 }) := by
  let s0 := atLine s file line
  have hb0 : s0.nodeBase ≤ s0.nodes.length := hb
  obtain ⟨l1, q1, h1, h2⟩ := buildExpr_run (lk := look s) e s0 hb
  let s1 : St := { s0 with nodes := s0.nodes ++ l1 }
  have hb1 : s1.nodeBase ≤ s1.nodes.length := by simp only [s1, List.length_append]; omega
  let N : Node := ⟨.opr .ds, 1, [q1]⟩
  let s3 : St := { s1 with nodes := s1.nodes ++ [N] }
  have hl : Live s3 s1.nodes.length N := ⟨hb1, by simp [s3]⟩
  have t1 : ExprAt (look s) s.nodeBase s3.nodes e q1 := h2.sim (HeapSim.append false _ _ [N])
  obtain ⟨n4, r4, sim4, _⟩ := expand_ok (f := f) (s := s3) hd he t1 hn
  refine ⟨n4, ?_, ?_⟩
  · refine HeapSim.trans ?_ sim4.mono
    show HeapSim true _ s.nodes (s.nodes ++ l1 ++ [N])
    exact (HeapSim.append _ _ _ _).trans (HeapSim.append _ _ _ _)
  · refine runTop_stmt (v := n) (p := s1.nodes.length) (s1 := s3) (by intro _ _ _ h; cases h) ?_ ?_
    · refine built_run ?_
      show (buildExpr e >>= fun p => operatorNode .ds [p]) s0 = _
      rw [bind_ok h1]
      exact alloc_run _ _ _
    · rw [expandNode_run (s := s3) he hl]
      show expandDs (expandNode f) N s3 = _
      unfold expandDs
      rw [bind_ok (opAt_run (show N.ops[0]? = some q1 from rfl) s3), bind_ok r4, if_neg (by omega)]
      rfl

/-- The gap check: nothing but a header is written, and the program ends. -/
theorem generateOutput_gap {ex : Ptr → M Int} {p : Ptr} {s : St} (ho : s.outputOpen = true)
    (hs : s.originSpecified = true)
    (hg : s.pc > s.origin + s.totalBytes +
      ((if s.totalBytes = 0 then headerBytes s.format s.origin else []).length : Int)) :
    ∃ s', generateOutput ex p s = (.exit (-1), s') ∧ s'.errorCount = s.errorCount + 1 ∧
      s'.out = s.out ++ if s.totalBytes = 0 then headerBytes s.format s.origin else [] := by
  unfold generateOutput
  rw [getS_bind, if_neg (by simp [ho, hs])]
  have h1 : (if s.totalBytes = 0 then writeHeader else M.pure ()) s = (.ok (), withHeader s) := by
    unfold withHeader
    split
    · rw [writeHeader_run s hs]
    · rfl
  obtain ⟨d, hw⟩ := withHeader_eq s
  rw [bind_ok h1, getS_bind, if_pos (by rw [hw]; simp only [outBytes]; omega)]
  refine ⟨_, rfl, ?_, ?_⟩
  · rw [hw]; rfl
  · rw [hw]; rfl

end Verif
