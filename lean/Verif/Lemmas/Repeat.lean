import Verif.Lemmas.Assembled

/-! # Expanding one instruction node several times -/

namespace Verif

/-- `m` run `k + 1` times. -/
def times (m : M Int) : Nat → M Unit
  | 0 => m >>= fun _ => M.pure ()
  | k + 1 => m >>= fun _ => times m k

/-- Nothing the mode selection depends on is changed by assembling. -/
theorem Asm.known {s s' : St} {n : Int} {bs : List Nat} {ls : List ListEntry} (h : Asm (orig s) s' n bs ls) :
    HeapSim true (look s) s.nodes s'.nodes ∧ look s' = look s ∧ envOf s' = envOf s ∧ s'.pc = s.pc + n ∧
    s'.nodeBase = s.nodeBase ∧ s'.endExpansion = s.endExpansion ∧ s'.syms = s.syms ∧ s'.cpu = s.cpu ∧
    s'.allowIllegal = s.allowIllegal ∧ s'.pcAssigned = s.pcAssigned ∧ s'.originSpecified = (orig s).originSpecified ∧
    s'.file = s.file ∧ s'.line = s.line := by
  have e := orig_eq s
  obtain ⟨ns, cg, ds, bd, et, g, rfl⟩ := h
  have hl := look_orig s
  have he : envOf (orig s) = envOf s := by rw [e]; rfl
  rw [hl] at g
  have hn : (orig s).nodes = s.nodes := by rw [e]
  rw [hn] at g
  refine ⟨g, hl, he, ?_, ?_, ?_, ?_, ?_, ?_, ?_, rfl, ?_, ?_⟩ <;> (simp only; rw [e])

theorem orig_orig {s s' : St} (hp : s'.pcAssigned = s.pcAssigned) (ho : s'.originSpecified = (orig s).originSpecified) :
    orig s' = s' := by
  unfold orig at ho ⊢
  split
  · rename_i h
    rw [if_pos (by rw [← hp]; exact h)] at ho
    cases s'
    simp only at ho
    subst ho
    rfl
  · rfl

/-- After assembling there is still no gap. -/
theorem Asm.roomAfter {s s' : St} {n : Int} {bs : List Nat} {ls : List ListEntry} (h : Asm s s' n bs ls) (hn : n = bs.length)
    (hr : Room s) : Room s' := by
  obtain ⟨ns, cg, ds, bd, et, g, rfl⟩ := h
  intro he
  have he' : emitting s = true := he
  have := hr he'
  simp only [if_pos he']
  omega

theorem HeapSim.opcodeT {lk : Str → Option SymPtr} {ns ns' : List Node} (h : HeapSim true lk ns ns') {p : Nat}
    {ins code : Int} {m : Mode} {a : Int} {k : Nat} {ops : List Ptr} (hp : ns[p]? = some ⟨.opcode ins code m a, k, ops⟩) :
    ∃ b, ns'[p]? = some ⟨.opcode ins code m b, k, ops⟩ := by
  obtain ⟨n', h1, g1, g2, g3⟩ := h.2 p _ hp
  obtain ⟨k0, m0, o0⟩ := n'
  simp only at g1 g2 g3
  subst g1 g2
  rcases g3 with g3 | ⟨v, w, g3, _⟩ | ⟨k', nm, cc, g3, _⟩ | ⟨_, _, _, _, b, _, g, g'⟩
  · subst g3; exact ⟨a, h1⟩
  · cases g3
  · cases g3
  · cases g; subst g'; exact ⟨b, h1⟩

/-- The bytes of `k + 1` successive branches to the values `v`. -/
def branchRun (c pc : Int) (v : Nat → Int) : Nat → List Nat
  | 0 => toBytes (instrBytes .r c pc (v 0))
  | k + 1 => toBytes (instrBytes .r c pc (v 0)) ++ branchRun c (pc + 2) (fun j => v (j + 1)) k

theorem branchRun_length (c : Int) : ∀ (k : Nat) (pc : Int) (v : Nat → Int),
    (((branchRun c pc v k).length : Nat) : Int) = 2 * k + 2
  | 0, pc, v => by
    have h := instrBytes_len .r c pc (v 0)
    have e : opByteCount .r = 1 := rfl
    simp only [branchRun]
    omega
  | k + 1, pc, v => by
    have := branchRun_length c k (pc + 2) (fun j => v (j + 1))
    have h := instrBytes_len .r c pc (v 0)
    simp only [branchRun, List.length_append]
    have e : opByteCount .r = 1 := rfl
    omega

/-- One branch node expanded `k + 1` times, each time in range. -/
theorem branch_times {f : Nat} {p q : Ptr} {ins code : Int} {e : Expr} : ∀ {k : Nat} {s : St} {pc0 : Int} {v : Nat → Int},
    s.endExpansion = false → Live s p ⟨.opcode ins code .r pc0, 1, [q]⟩ → e.depth + 1 < f →
    ExprAt (look s) s.nodeBase s.nodes e q → Done (look s) s.syms s.nodes e q →
    (∀ j : Nat, j ≤ k → Spec.eval (envOf s) (s.pc + 2 * j) e = some (v j, false)) →
    (∀ j : Nat, j ≤ k → branchBad (v j - (s.pc + 2 * j + 2)) = false) → 0 ≤ s.totalBytes → Room (orig s) →
    ∃ s' ls, times (expandNode (f + 1) p) k s = (.ok (), s') ∧
      Asm (orig s) s' (2 * k + 2) (branchRun code s.pc v k) ls
  | 0, s, pc0, v, he, hp, hd, ht, hdn, hv, hb, h0, hroom => by
    obtain ⟨s', r, a⟩ := expandOp_run (f := f) (s := s) (v := v 0) (m := .r) (c := code) he hp
      (fun _ => ⟨q, e, rfl, rfl, hd, ht, hdn, by simpa using hv 0 (Nat.le_refl _)⟩)
      (by
        have := hb 0 (Nat.le_refl _)
        simp only [Int.natCast_zero, Int.mul_zero, Int.add_zero] at this
        unfold effective
        simp only [if_true, this, Bool.false_eq_true, if_false]
        rfl) hroom
    refine ⟨s', _, ?_, a⟩
    unfold times
    rw [bind_ok ((expandNode_run (s := s) he hp).trans r)]
    rfl
  | k + 1, s, pc0, v, he, hp, hd, ht, hdn, hv, hb, h0, hroom => by
    obtain ⟨s1, r, a⟩ := expandOp_run (f := f) (s := s) (v := v 0) (m := .r) (c := code) he hp
      (fun _ => ⟨q, e, rfl, rfl, hd, ht, hdn, by simpa using hv 0 (Nat.zero_le _)⟩)
      (by
        have := hb 0 (Nat.zero_le _)
        simp only [Int.natCast_zero, Int.mul_zero, Int.add_zero] at this
        unfold effective
        simp only [if_true, this, Bool.false_eq_true, if_false]
        rfl) hroom
    obtain ⟨k1, k2, k3, k4, k5, k6, k7, k8, k9, k10, k11, k12, k13⟩ := a.known
    obtain ⟨b, hb1⟩ := k1.opcodeT hp.2
    have ho := orig_orig k10 k11
    have e2 : opByteCount .r = 1 := rfl
    rw [e2] at a k4
    have htb : 0 ≤ (orig s).totalBytes := by rw [orig_eq]; exact h0
    have h1 : 0 ≤ s1.totalBytes := by
      obtain ⟨_, _, _, _, _, _, rfl⟩ := a
      simp only
      split <;> omega
    obtain ⟨s', ls, r2, a2⟩ := branch_times (k := k) (s := s1) (pc0 := b) (v := fun j => v (j + 1)) (by rw [k6]; exact he)
      ⟨by rw [k5]; exact hp.1, hb1⟩ hd (by rw [k2, k5]; exact ht.sim k1) (by rw [k2, k7]; exact hdn.sim k1)
      (fun j hj => by
        rw [k3, k4]
        have := hv (j + 1) (by omega)
        rw [← this]; congr 1; omega)
      (fun j hj => by
        rw [k4]
        have := hb (j + 1) (by omega)
        rw [← this]; congr 1; push_cast; omega) h1
      (by rw [ho]; exact a.roomAfter (instrBytes_len .r code s.pc (v 0)) hroom)
    have r3 : times (expandNode (f + 1) p) (k + 1) s = (.ok (), s') := by
      show (expandNode (f + 1) p >>= fun _ => times (expandNode (f + 1) p) k) s = _
      rw [bind_ok ((expandNode_run (s := s) he hp).trans r)]
      exact r2
    rw [ho, k4] at a2
    have a3 := Asm.comp htb a a2
    have e3 : (1 + 1 + (2 * (k : Int) + 2)) = 2 * ((k + 1 : Nat) : Int) + 2 := by omega
    rw [e3] at a3
    exact ⟨s', _, r3, a3⟩

end Verif
