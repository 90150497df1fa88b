import Verif.Model.Driver

/-! # Properties C27, C28, C29 (driver level) -/

namespace Verif

/-- What is known when the pass loop stops: the passes performed are all non-final and form a chain;
their number is `pass - start`; if the loop stopped before the pass limit without error, the last pass
was clean. -/
private theorem passLoop_spec {σ : Type} (P : PassSem σ) : ∀ (fuel pass : Nat) (s : σ)
    (tr : List (Bool × σ × σ)), 0 < fuel → pass + fuel ≥ maxPasses → pass < maxPasses →
    (∀ t ∈ tr, t.1 = false) → tr.length + 1 = pass →
    (∀ t ∈ (passLoop P fuel pass s tr).2.2, t.1 = false) ∧
    (∀ s', (passLoop P fuel pass s tr).1 = some s' →
      (passLoop P fuel pass s tr).2.2.length + 1 = (passLoop P fuel pass s tr).2.1 ∧
      (passLoop P fuel pass s tr).2.1 ≤ maxPasses ∧
      (∃ s0, (passLoop P fuel pass s tr).2.2.getLast? = some (false, s0, s') ∧
        P.parse false s0 = some s' ∧
        ((passLoop P fuel pass s tr).2.1 < maxPasses → P.errorCount s' = 0 → P.clean s' = true))) ∧
    ((passLoop P fuel pass s tr).1 = none →
      (passLoop P fuel pass s tr).2.2.length + 1 < maxPasses) := by
  intro fuel
  induction fuel with
  | zero => intro pass s tr h; omega
  | succ fuel ih =>
    intro pass s tr _ hf hp htr hlen
    unfold passLoop
    cases hq : P.parse false s with
    | none => exact ⟨htr, fun s' h => by simp at h, fun _ => by simp; omega⟩
    | some s' =>
      have htr' : ∀ t ∈ tr ++ [(false, s, s')], t.1 = false := by
        intro t ht
        rcases List.mem_append.1 ht with h | h
        · exact htr t h
        · simp only [List.mem_singleton] at h; rw [h]
      simp only
      split
      · rename_i hc
        apply ih (pass + 1) s' _ ?_ (by omega) hc.2.1 htr' (by simp; omega)
        cases fuel with
        | zero => omega
        | succ f => omega
      · rename_i hc
        refine ⟨htr', ?_, fun h => by simp at h⟩
        intro s'' hs''
        simp only [Option.some.injEq] at hs''
        subst hs''
        refine ⟨by simp; omega, by simp only; omega, s, by simp, hq, ?_⟩
        intro h1 h2
        cases hcl : P.clean s' with
        | true => rfl
        | false => exact absurd ⟨h2, h1, hcl⟩ hc

private def passLoop_top {σ : Type} (P : PassSem σ) (s : σ) :=
  passLoop_spec P maxPasses 1 s [] (by decide) (by decide) (by decide) (by simp) rfl

/-- **C27.** Whatever the passes do, at most 19 resolving passes and at most one final pass are
started. -/
theorem C27_passes_bounded {σ : Type} (P : PassSem σ) (F : AsmFiles) (s : σ) :
    (assemble P F s).calls.1 ≤ 19 ∧ (assemble P F s).calls.2 ≤ 1 := by
  obtain ⟨_, h2, h3⟩ := passLoop_top P s
  unfold assemble
  split
  · simp
  · cases hl : passLoop P maxPasses 1 s [] with
    | mk o r =>
      obtain ⟨pass, tr⟩ := r
      rw [hl] at h2 h3
      have hm : maxPasses = 20 := rfl
      cases o with
      | none => have := h3 rfl; simp at this ⊢; omega
      | some s1 =>
        obtain ⟨h4, h5, _⟩ := h2 s1 rfl
        simp only at h4 h5 ⊢
        split
        · simp; omega
        · split
          · simp; omega
          · split
            · simp; omega
            · split <;> simp <;> omega

/-- A pass function whose counters never settle really uses all 19 passes. -/
example : (assemble (σ := Nat) ⟨fun _ s => some (s + 1), fun _ => 0, fun _ => 1, fun _ => 0⟩ {} 0).calls
    = (19, 0) := by decide

/-- **C28.** If a final pass was started, or the output file was opened, then at least one resolving pass
was completed, the last one reported no error, changed no symbol and left no symbol unresolved, and the
final pass started from exactly the state that pass produced. -/
theorem C28_final_after_clean {σ : Type} (P : PassSem σ) (F : AsmFiles) (s : σ)
    (h : (assemble P F s).calls.2 ≠ 0 ∨ (assemble P F s).opened = true) :
    ∃ pre s0 s1 fin, (assemble P F s).passes = pre ++ (false, s0, s1) :: fin ∧
      P.parse false s0 = some s1 ∧
      P.errorCount s1 = 0 ∧ P.symValueChanged s1 = 0 ∧ P.unresolved s1 = 0 ∧
      (∀ t ∈ pre, t.1 = false) ∧
      (fin = [] ∧ P.parse true s1 = none ∨
        ∃ s2, fin = [(true, s1, s2)] ∧ P.parse true s1 = some s2) := by
  obtain ⟨h1, h2, _⟩ := passLoop_top P s
  unfold assemble at h ⊢
  split at h
  · simp at h
  · rename_i hlog
    rw [if_neg hlog]
    cases hl : passLoop P maxPasses 1 s [] with
    | mk o r =>
      obtain ⟨pass, tr⟩ := r
      rw [hl] at h1 h2 h
      cases o with
      | none => simp at h
      | some s1 =>
        obtain ⟨h4, h5, s0, h6, h7, h8⟩ := h2 s1 rfl
        simp only at h h1 h4 h5 h6 h8 ⊢
        split at h
        · simp at h
        · rename_i hp
          rw [if_neg hp]
          split at h
          · simp at h
          · rename_i he
            rw [if_neg he]
            split at h
            · simp at h
            · rename_i ho
              rw [if_neg ho]
              have hc := h8 (by omega) (by omega)
              simp only [PassSem.clean, Bool.and_eq_true, beq_iff_eq] at hc
              obtain ⟨pre, hpre⟩ := List.getLast?_eq_some_iff.1 h6
              cases hq : P.parse true s1 with
              | none =>
                exact ⟨pre, s0, s1, [], by simp only [hpre], h7, hc.1.1, hc.1.2, hc.2,
                  fun t ht => h1 t (by simp [hpre, ht]), Or.inl ⟨rfl, hq⟩⟩
              | some s2 =>
                exact ⟨pre, s0, s1, [(true, s1, s2)], by simp [hpre], h7, hc.1.1, hc.1.2, hc.2,
                  fun t ht => h1 t (by simp [hpre, ht]), Or.inr ⟨s2, rfl, hq⟩⟩

/-- A concrete run: three unsettled passes, one clean pass, the final pass. -/
example : let r := (assemble (σ := Nat)
    ⟨fun _ s => some (s + 1), fun _ => 0, fun s => if s < 4 then 1 else 0, fun _ => 0⟩
    { output := some true } 0);
    r.calls = (4, 1) ∧ r.opened = true ∧ r.status = some 0 ∧
      r.passes = [(false, 0, 1), (false, 1, 2), (false, 2, 3), (false, 3, 4), (true, 4, 5)] := by decide

/-- **C28**, converse: without a clean last pass the result is a failure (or the process exited in a
pass) and the output file is not touched. -/
theorem C28_failure_leaves_output {σ : Type} (P : PassSem σ) (F : AsmFiles) (s : σ)
    (h : (assemble P F s).calls.2 = 0) :
    (assemble P F s).opened = false ∧
      ((assemble P F s).status = some (-1) ∨ (assemble P F s).status = none) := by
  unfold assemble at h ⊢
  split at h
  · rename_i hlog
    rw [if_pos hlog]
    exact ⟨rfl, Or.inl rfl⟩
  · rename_i hlog
    rw [if_neg hlog]
    split at h
    · exact ⟨rfl, Or.inr rfl⟩
    · split at h
      · rename_i hp
        simp only [if_pos hp, true_or, and_self]
      · rename_i hp
        rw [if_neg hp]
        split at h
        · rename_i he
          simp only [if_pos he, true_or, and_self]
        · rename_i he
          rw [if_neg he]
          split at h
          · rename_i ho
            simp only [if_pos ho, true_or, and_self]
          · split at h <;> simp at h

example : (assemble (σ := Nat) ⟨fun _ s => some s, fun _ => 1, fun _ => 0, fun _ => 0⟩
    { output := some true } 0).calls.2 = 0 := by decide

/-- **C29** (`_partial`, driver level).  Status 0 implies that a final pass was completed from a state
produced by a pass without errors, changes and unresolved symbols.  Missing from the full statement:
absence of errors in the final pass itself, see `C29_false_driver`. -/
theorem C29_success_partial {σ : Type} (P : PassSem σ) (F : AsmFiles) (s : σ)
    (h : (assemble P F s).status = some 0) :
    ∃ pre s0 s1 s2, (assemble P F s).passes = pre ++ [(false, s0, s1), (true, s1, s2)] ∧
      P.parse false s0 = some s1 ∧ P.parse true s1 = some s2 ∧
      P.errorCount s1 = 0 ∧ P.symValueChanged s1 = 0 ∧ P.unresolved s1 = 0 := by
  have hcalls : (assemble P F s).calls.2 ≠ 0 := by
    intro h0
    rcases (C28_failure_leaves_output P F s h0).2 with h1 | h1 <;> rw [h1] at h <;> simp at h
  obtain ⟨pre, s0, s1, fin, h1, h2, h3, h4, h5, h6, h7⟩ := C28_final_after_clean P F s (Or.inl hcalls)
  rcases h7 with ⟨_, h8⟩ | ⟨s2, h8, h9⟩
  · exfalso
    have hlast : ∀ t, (assemble P F s).passes.getLast? = some t → t.1 = true := by
      unfold assemble at h ⊢
      split at h
      · simp at h
      · rename_i hlog
        rw [if_neg hlog]
        split at h
        · simp at h
        · split at h
          · simp at h
          · rename_i hp
            rw [if_neg hp]
            split at h
            · simp at h
            · rename_i he
              rw [if_neg he]
              split at h
              · simp at h
              · rename_i ho
                rw [if_neg ho]
                split at h
                · simp at h
                · rename_i s2 hq
                  intro t ht
                  simp at ht
                  rw [← ht]
    have := hlast (false, s0, s1) (by rw [h1, ‹fin = []›]; simp)
    simp at this
  · exact ⟨pre, s0, s1, s2, by rw [h1, h8], h2, h9, h3, h4, h5⟩

/-- **C29**, negation at driver level: errors of the final pass do not influence the status.  For every
pass behaviour, changing what the final pass reports changes neither the status nor the files
written. -/
theorem C29_false_driver {σ : Type} (P : PassSem σ) (F : AsmFiles) (s0 s1 s2 : σ)
    (hlog : F.log ≠ some false) (hout : F.output = some true) (hsym : F.sym = none)
    (h0 : P.parse false s0 = some s1) (hc : P.clean s1 = true) (h1 : P.parse true s1 = some s2) :
    (assemble P F s0).status = some 0 ∧ (true, s1, s2) ∈ (assemble P F s0).passes := by
  have he : P.errorCount s1 = 0 := by
    simp only [PassSem.clean, Bool.and_eq_true, beq_iff_eq] at hc; exact hc.1.1
  have hl : passLoop P maxPasses 1 s0 [] = (some s1, 2, [(false, s0, s1)]) := by
    show passLoop P (19 + 1) 1 s0 [] = _
    simp [passLoop, h0, hc]
  unfold assemble
  rw [if_neg hlog, hl]
  simp only
  rw [if_neg (by decide), if_neg (by omega), hout, if_neg (by decide), h1]
  simp [finishStatus, hsym]

/-- The final pass reports an error, the status is 0. -/
example : ∃ P : PassSem Nat, P.parse false 0 = some 1 ∧ P.clean 1 = true ∧ P.parse true 1 = some 2 ∧
    P.errorCount 2 = 1 ∧ (assemble P { output := some true } 0).status = some 0 :=
  ⟨⟨fun _ s => some (s + 1), fun s => if s = 2 then 1 else 0, fun _ => 0, fun _ => 0⟩, by decide⟩

/-- **C27**, the limit is off by one: a program that settles exactly in pass 19 is rejected, although the
same number of passes is spent. -/
theorem C27_pass19_rejected : ∃ P : PassSem Nat,
    (∀ n < 18, (assemble P {} 0).passes[n]? = some (false, n, n + 1) ∧ P.clean (n + 1) = false) ∧
    (assemble P {} 0).passes[18]? = some (false, 18, 19) ∧ P.clean 19 = true ∧
    (assemble P {} 0).status = some (-1) :=
  ⟨⟨fun _ s => some (s + 1), fun _ => 0, fun s => if s < 19 then 1 else 0, fun _ => 0⟩, by
    refine ⟨fun n hn => ?_, by decide⟩
    have : ∀ n : Fin 18, (assemble (σ := Nat)
      ⟨fun _ s => some (s + 1), fun _ => 0, fun s => if s < 19 then 1 else 0, fun _ => 0⟩ {} 0).passes[n.val]? =
      some (false, n.val, n.val + 1) ∧ (PassSem.clean (σ := Nat)
      ⟨fun _ s => some (s + 1), fun _ => 0, fun s => if s < 19 then 1 else 0, fun _ => 0⟩ (n.val + 1)) =
      false := by
      decide
    exact this ⟨n, hn⟩⟩

end Verif
