import Verif.Model.Text
import Verif.Model.Driver
import Verif.Lemmas.Text

/-! # Two descriptions of a pass that agree give the same assembly -/

namespace Verif

open Spec

section
variable {σ τ : Type} {P : PassSem σ} {Q : PassSem τ} {g : σ → τ} {I : σ → Prop}

/-- `P` and `Q` agree on the states with the property `I`, which passes keep. -/
structure Agree (P : PassSem σ) (Q : PassSem τ) (g : σ → τ) (I : σ → Prop) : Prop where
  parse : ∀ fin s, I s → (P.parse fin s).map g = Q.parse fin (g s)
  keep : ∀ s s', I s → P.parse false s = some s' → I s'
  errorCount : ∀ s, P.errorCount s = Q.errorCount (g s)
  symValueChanged : ∀ s, P.symValueChanged s = Q.symValueChanged (g s)
  unresolved : ∀ s, P.unresolved s = Q.unresolved (g s)

/-- The passes in terms of `Q`. -/
def mapTrace (g : σ → τ) (tr : List (Bool × σ × σ)) : List (Bool × τ × τ) := tr.map fun x => (x.1, g x.2.1, g x.2.2)

theorem Agree.loop (h : Agree P Q g I) : ∀ (f pass : Nat) (s : σ) (tr : List (Bool × σ × σ)), I s →
    passLoop Q f pass (g s) (mapTrace g tr) =
      ((passLoop P f pass s tr).1.map g, (passLoop P f pass s tr).2.1, mapTrace g (passLoop P f pass s tr).2.2) ∧
    ∀ s', (passLoop P f pass s tr).1 = some s' → I s'
  | 0, pass, s, tr, hI => ⟨rfl, fun s' h => by cases h; exact hI⟩
  | f + 1, pass, s, tr, hI => by
    have hp := h.parse false s hI
    cases hs : P.parse false s with
    | none =>
      rw [hs] at hp
      simp only [passLoop, hs, ← hp, Option.map_none]
      exact ⟨trivial, by simp⟩
    | some s' =>
      rw [hs] at hp
      have hI' := h.keep s s' hI hs
      have hcl : P.clean s' = Q.clean (g s') := by
        simp only [PassSem.clean, h.errorCount, h.symValueChanged, h.unresolved]
      have htr : mapTrace g tr ++ [(false, g s, g s')] = mapTrace g (tr ++ [(false, s, s')]) := by
        simp [mapTrace]
      simp only [passLoop, hs, ← hp, Option.map_some, htr, h.errorCount, hcl]
      split
      · exact h.loop f _ s' _ hI'
      · exact ⟨by simp, fun s2 h2 => by cases h2; exact hI'⟩

theorem Agree.assemble (h : Agree P Q g I) (F : AsmFiles) (s : σ) (hI : I s) :
    (assemble Q F (g s)).status = (assemble P F s).status ∧
    (assemble Q F (g s)).passes = mapTrace g (assemble P F s).passes ∧
    (assemble Q F (g s)).calls = (assemble P F s).calls ∧
    (assemble Q F (g s)).opened = (assemble P F s).opened := by
  obtain ⟨hl, hk⟩ := h.loop maxPasses 1 s [] hI
  unfold Verif.assemble
  split
  · exact ⟨rfl, rfl, rfl, rfl⟩
  · rw [show passLoop Q maxPasses 1 (g s) [] = _ from hl]
    rcases hp : passLoop P maxPasses 1 s [] with ⟨r, pass, tr⟩
    rw [hp] at hk
    have hlen : (mapTrace g tr).length = tr.length := by simp [mapTrace]
    cases r with
    | none => simp only [Option.map_none, hlen]; exact ⟨trivial, trivial, trivial, trivial⟩
    | some s1 =>
      have hI1 := hk s1 rfl
      have hp1 := h.parse true s1 hI1
      simp only [Option.map_some, ← h.errorCount, hlen]
      split
      · exact ⟨rfl, rfl, rfl, rfl⟩
      · split
        · exact ⟨rfl, rfl, rfl, rfl⟩
        · split
          · exact ⟨rfl, rfl, rfl, rfl⟩
          · cases hq : P.parse true s1 with
            | none =>
              rw [hq] at hp1
              simp only [← hp1, Option.map_none]
              exact ⟨trivial, trivial, trivial, trivial⟩
            | some s2 =>
              rw [hq] at hp1
              simp only [← hp1, Option.map_some]
              exact ⟨trivial, by simp [mapTrace], trivial, trivial⟩

end

/-- The state of the scanner between passes. -/
structure LexClean (lx : LexSt) : Prop where
  cond : lx.cond = .initial
  doCount : lx.doCount = 0
  last : lx.last = none

theorem text_pass {D : Str → Bool} {n : Nat} {files : List (Str × Str)} {prog : Program} (h : FilesText D files prog)
    (hm : ∀ l ∈ prog, ∀ t ∈ l, MacroFreeTop t) {lx : LexSt} (hlx : LexClean lx) (b o : Bool) :
    ∃ lx', LexClean lx' ∧ ∀ S : St, NoMacro S → Given D S → Cond noMacroT b o S →
      parsePassText n files lx S = (parsePass n prog >>= fun _ => M.pure lx') S := by
  obtain ⟨lx', h1, h2⟩ := text_files (b := b) (o := o) (n := n) h hm (lx := { lx with ifStack := [], inMacro := 0 })
    ⟨hlx.cond, hlx.doCount, rfl, rfl, rfl, hlx.last⟩
  refine ⟨lx', ⟨h1.cond, h1.dos, h1.place⟩, ?_⟩
  intro S hN hD hC
  show (resetLex >>= fun _ => runTexts n files { lx with ifStack := [], inMacro := 0 } >>= fun lx' => _) S =
    ((resetLex >>= fun _ => forEachM (runFile (expandNode n) (hasUninit n)) prog >>= fun _ => _) >>= fun _ => _) S
  rw [bind_ok (resetLex_run S), bind_assoc', bind_ok (resetLex_run S), run_bind,
    h2 (resetSt S) hN hD ⟨hC.finalPass, hC.outputOpen, hC.totalBytes, fun h => absurd h (by decide)⟩, bind_assoc', run_bind, run_bind]
  rcases forEachM (runFile (expandNode n) (hasUninit n)) prog (resetSt S) with ⟨r, S1⟩
  cases r <;> rfl

/-- What holds between passes. -/
def TextInv (D : Str → Bool) (s : St × LexSt) : Prop := NoMacro s.1 ∧ Given D s.1 ∧ 0 ≤ s.1.totalBytes ∧ LexClean s.2

theorem text_agree {D : Str → Bool} {n : Nat} {files : List (Str × Str)} {prog : Program} (h : FilesText D files prog)
    (hm : ∀ l ∈ prog, ∀ t ∈ l, MacroFreeTop t) (output : Bool) :
    Agree (passSemText n files output) (passSem n prog output) (·.1) (TextInv D) := by
  have key : ∀ fin (s : St × LexSt), TextInv D s →
      ((passSemText n files output).parse fin s).map (·.1) = (passSem n prog output).parse fin s.1 ∧
      ∀ s', (passSemText n files output).parse fin s = some s' → TextInv D s' := by
    rintro fin ⟨S, lx⟩ ⟨hN, hD, hb, hlx⟩
    obtain ⟨lx', h1, h2⟩ := text_pass (n := n) h hm hlx fin (fin && output)
    have hN' : NoMacro { S with finalPass := fin, outputOpen := fin && output } := hN
    have e := h2 { S with finalPass := fin, outputOpen := fin && output } hN' hD ⟨rfl, rfl, fun _ => hb, fun h => absurd h (by decide)⟩
    rw [run_bind] at e
    have hu : prog.uses noMacroT = true := by
      simp only [Program.uses, List.all_eq_true]
      exact fun l hl t ht => macroFreeTop_uses (hm l hl t ht)
    obtain ⟨t, hT, ht⟩ := runPass_tsteps (T := noMacroT) n prog hu output fin S (fun _ => hb)
    have hNt : NoMacro (runPass n prog output fin S).2 ∧ Given D (runPass n prog output fin S).2 ∧ 0 ≤ (runPass n prog output fin S).2.totalBytes := by
      have hNr : NoMacro (resetSt { S with finalPass := fin, outputOpen := fin && output }) := hN
      have hN1 : NoMacro t := hNr.tsteps hT
      have hDr : Given D (resetSt { S with finalPass := fin, outputOpen := fin && output }) := hD
      have hD1 : Given D t := hDr.tsteps hT
      have hb1 : 0 ≤ t.totalBytes :=
        Int.le_trans (show 0 ≤ (resetSt { S with finalPass := fin, outputOpen := fin && output }).totalBytes from hb)
          (hT.rel (R := fun s t => s.totalBytes ≤ t.totalBytes) (fun _ => Int.le_refl _) (fun _ _ _ => Int.le_trans)
            (fun _ _ h => h.frame.totalBytes) (fun _ _ => Int.le_refl _) (fun _ _ => Int.le_refl _) (fun _ => Int.le_refl _))
      rcases ht with ht | ht
      · rw [ht]; exact ⟨hN1, hD1, hb1⟩
      · rw [ht]; exact ⟨hN1, hD1, hb1⟩
    unfold runPass at hNt
    simp only [passSemText, passSem, runPass, e]
    rcases hr : parsePass n prog { S with finalPass := fin, outputOpen := fin && output } with ⟨r, S1⟩
    rw [hr] at hNt
    cases r with
    | ok a => exact ⟨rfl, fun s' hs => by cases hs; exact ⟨hNt.1, hNt.2.1, hNt.2.2, h1⟩⟩
    | _ => exact ⟨rfl, fun s' hs => by cases hs⟩
  exact ⟨fun fin s hI => (key fin s hI).1, fun s s' hI => (key false s hI).2 s', fun _ => rfl, fun _ => rfl, fun _ => rfl⟩

end Verif
