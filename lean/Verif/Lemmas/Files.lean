import Verif.Lemmas.Draft

/-! # Several input files and their statements in one -/

namespace Verif

private theorem files_mono (f : Nat) (ps : Program) (s : St) (h : 0 ≤ s.totalBytes) :
    s.errorCount ≤ (forEachM (runFile (expandNode f) (hasUninit f)) ps s).2.errorCount ∧
      0 ≤ (forEachM (runFile (expandNode f) (hasUninit f)) ps s).2.totalBytes := by
  have := (passBody_tsteps (T := fun _ => true) f ps ps.uses_all s (fun _ => h)).rel
    (R := fun a b => a.errorCount ≤ b.errorCount ∧ a.totalBytes ≤ b.totalBytes) (fun _ => ⟨Nat.le_refl _, Int.le_refl _⟩)
    (fun _ _ _ h h' => ⟨Nat.le_trans h.1 h'.1, Int.le_trans h.2 h'.2⟩) (fun _ _ h => ⟨h.frame.errorCount, h.frame.totalBytes⟩)
    (fun _ _ => ⟨Nat.le_refl _, Int.le_refl _⟩) (fun _ _ => ⟨Nat.le_refl _, Int.le_refl _⟩) fun _ => ⟨Nat.le_refl _, Int.le_refl _⟩
  exact ⟨this.1, Int.le_trans h this.2⟩

private theorem runFile_mono (f : Nat) (ts : List Top) (s : St) (h : 0 ≤ s.totalBytes) :
    s.errorCount ≤ (runFile (expandNode f) (hasUninit f) ts s).2.errorCount ∧
      0 ≤ (runFile (expandNode f) (hasUninit f) ts s).2.totalBytes := by
  have := files_mono f [ts] s h
  rw [show forEachM (runFile (expandNode f) (hasUninit f)) [ts] = (runFile (expandNode f) (hasUninit f) ts >>= fun _ => M.pure ()) from rfl,
    bind_pure_snd] at this
  exact this

theorem runTop_mono (f : Nat) (t : Top) (s : St) (h : 0 ≤ s.totalBytes) :
    s.errorCount ≤ (runTop (expandNode f) (hasUninit f) t s).2.errorCount ∧
      0 ≤ (runTop (expandNode f) (hasUninit f) t s).2.totalBytes := by
  have := (TPr.runTop (T := fun _ => true) (expandNode_pr s.finalPass s.outputOpen f) (Pr.hasUninit f) t (top_uses_all t) s
    ⟨rfl, rfl, fun _ => h, fun h => absurd h (by decide)⟩).rel
    (R := fun a b => a.errorCount ≤ b.errorCount ∧ a.totalBytes ≤ b.totalBytes) (fun _ => ⟨Nat.le_refl _, Int.le_refl _⟩)
    (fun _ _ _ h h' => ⟨Nat.le_trans h.1 h'.1, Int.le_trans h.2 h'.2⟩) (fun _ _ h => ⟨h.frame.errorCount, h.frame.totalBytes⟩)
    (fun _ _ => ⟨Nat.le_refl _, Int.le_refl _⟩) (fun _ _ => ⟨Nat.le_refl _, Int.le_refl _⟩) fun _ => ⟨Nat.le_refl _, Int.le_refl _⟩
  exact ⟨this.1, Int.le_trans h this.2⟩

/-- Without errors it makes no difference where a file ends: a syntax error is the only thing that ends a file early. -/
theorem runFile_two (f : Nat) (b : List Top) (K : M Unit) (hK : ∀ s, 0 ≤ s.totalBytes → s.errorCount ≤ (K s).2.errorCount) :
    ∀ (a : List Top) (s t : St), 0 ≤ s.totalBytes → t.errorCount = s.errorCount →
    ((runFile (expandNode f) (hasUninit f) (a ++ b) >>= fun _ => K) s = (.ok (), t) ↔
      (runFile (expandNode f) (hasUninit f) a >>= fun _ => (runFile (expandNode f) (hasUninit f) b >>= fun _ => K)) s = (.ok (), t))
  | [], s, t, _, _ => Iff.rfl
  | x :: a, s, t, h0, he => by
    rw [List.cons_append]
    simp only [runFile, run_bind]
    have hm := runTop_mono f x s h0
    rcases hr : runTop (expandNode f) (hasUninit f) x s with ⟨r, u⟩
    rw [hr] at hm
    cases r with
    | ok g =>
      cases g with
      | true =>
        by_cases hu : t.errorCount = u.errorCount
        · have ih := runFile_two f b K hK a u t hm.2 hu
          simp only [run_bind] at ih
          exact ih
        · -- both sides count further errors
          have := runFile_two f b K hK a u
          constructor
          · intro hh
            exfalso
            have h1 := runFile_mono f (a ++ b) u hm.2
            simp only [if_true] at hh
            rcases hq : runFile (expandNode f) (hasUninit f) (a ++ b) u with ⟨r, w⟩
            rw [hq] at hh h1
            cases r with
            | ok _ =>
              have h2 := hK w h1.2
              simp only at hh
              rw [hh] at h2
              have h3 : u.errorCount ≤ w.errorCount := h1.1
              have h4 : s.errorCount ≤ u.errorCount := hm.1
              simp only at h2
              omega
            | _ => cases hh
          · intro hh
            exfalso
            have h1 := runFile_mono f a u hm.2
            simp only [if_true] at hh
            rcases hq : runFile (expandNode f) (hasUninit f) a u with ⟨r, w⟩
            rw [hq] at hh h1
            cases r with
            | ok _ =>
              have h5 := runFile_mono f b w h1.2
              simp only at hh
              rcases hq2 : runFile (expandNode f) (hasUninit f) b w with ⟨r, w2⟩
              rw [hq2] at hh h5
              cases r with
              | ok _ =>
                have h2 := hK w2 h5.2
                simp only at hh
                rw [hh] at h2
                have h3 : u.errorCount ≤ w.errorCount := h1.1
                have h4 : s.errorCount ≤ u.errorCount := hm.1
                have h6 : w.errorCount ≤ w2.errorCount := h5.1
                simp only at h2
                omega
              | _ => cases hh
            | _ => cases hh
      | false =>
        have h4 : s.errorCount ≤ u.errorCount := hm.1
        have herr : ∃ w, (error .syntaxError : M Unit) u = (.ok (), w) ∧ w.errorCount = u.errorCount + 1 ∧ w.totalBytes = u.totalBytes :=
          ⟨_, rfl, rfl, rfl⟩
        obtain ⟨w, e1, e2, e3⟩ := herr
        simp only [Bool.false_eq_true, if_false, e1]
        constructor
        · intro hh
          exfalso
          have h2 := hK w (by rw [e3]; exact hm.2)
          rw [hh] at h2
          simp only at h2
          omega
        · intro hh
          exfalso
          have h5 := runFile_mono f b w (by rw [e3]; exact hm.2)
          rcases hq2 : runFile (expandNode f) (hasUninit f) b w with ⟨r, w2⟩
          rw [hq2] at hh h5
          cases r with
          | ok _ =>
            have h2 := hK w2 h5.2
            simp only at hh
            rw [hh] at h2
            have h6 : w.errorCount ≤ w2.errorCount := h5.1
            simp only at h2
            omega
          | _ => cases hh
    | _ => constructor <;> (intro hh; cases hh)

/-- A pass over several files without errors is the pass over one file with all their statements. -/
theorem files_flatten (f : Nat) : ∀ (ps : Program) (s t : St), 0 ≤ s.totalBytes → t.errorCount = s.errorCount →
    (forEachM (runFile (expandNode f) (hasUninit f)) ps s = (.ok (), t) ↔
      runFile (expandNode f) (hasUninit f) ps.flatten s = (.ok (), t)) := by
  have key : ∀ (ps : Program) (a : List Top) (s t : St), 0 ≤ s.totalBytes → t.errorCount = s.errorCount →
      (forEachM (runFile (expandNode f) (hasUninit f)) (a :: ps) s = (.ok (), t) ↔
        runFile (expandNode f) (hasUninit f) (a ++ ps.flatten) s = (.ok (), t)) := by
    intro ps
    induction ps with
    | nil =>
      intro a s t _ _
      rw [List.flatten_nil, List.append_nil]
      show (runFile (expandNode f) (hasUninit f) a >>= fun _ => M.pure ()) s = _ ↔ _
      rw [run_bind]
      rcases runFile (expandNode f) (hasUninit f) a s with ⟨r, u⟩
      cases r <;> exact Iff.rfl
    | cons b ps ih =>
      intro a s t h0 he
      rw [List.flatten_cons, ← List.append_assoc, ← ih (a ++ b) s t h0 he]
      exact (runFile_two f b (forEachM (runFile (expandNode f) (hasUninit f)) ps)
        (fun s hs => (files_mono f ps s hs).1) a s t h0 he).symm
  intro ps s t h0 he
  cases ps with
  | nil => exact Iff.rfl
  | cons a ps => exact key ps a s t h0 he

theorem length_le_flatten {P : Program} {t : Top} {head prog : List Top} (hP : P.flatten = head ++ t :: prog) {l : List Top} (hl : l ∈ P) :
    l.length ≤ head.length + prog.length + 1 := by
  have : l.length ≤ P.flatten.length := by
    clear hP
    induction P with
    | nil => cases hl
    | cons a P ih =>
      rw [List.flatten_cons, List.length_append]
      rcases List.mem_cons.1 hl with rfl | hl
      · omega
      · have := ih hl
        omega
  rw [hP, List.length_append, List.length_cons] at this
  omega

end Verif
