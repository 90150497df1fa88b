import Verif.Model.Main
import Verif.Lemmas.Head
import Verif.Lemmas.Args
import Verif.Lemmas.Draft
import Verif.Lemmas.Include

/-! # Lemmas about `main` -/

namespace Verif

open Spec

/-! ## The files seen by `open_file` -/

theorem mem_suffixes {p e n : Str} (h : p = e ++ n) : n ∈ suffixes p := by
  subst h
  induction e with
  | nil => cases n <;> simp [suffixes]
  | cons c e ih =>
    simp only [List.cons_append, suffixes, List.mem_cons]
    exact Or.inr ih

theorem openLoop_opened {ex : Str → Bool} {file p : Str} : ∀ {fuel : Nat} {dir : Str}, openLoop ex file fuel dir = .opened p →
    ex p = true ∧ ∃ e, p = e ++ file := by
  intro fuel
  induction fuel with
  | zero => intro dir h; simp [openLoop] at h
  | succ fuel ih =>
    intro dir h
    cases dir with
    | nil => simp [openLoop] at h
    | cons c dir =>
      simp only [openLoop] at h
      split at h
      · simp at h
      · split at h
        · simp at h
        · split at h
          · simp at h
          · split at h
            · rename_i h1; injection h with h; rw [← h]; exact ⟨h1, _, rfl⟩
            · exact ih h

theorem openFile_opened {ex : Str → Bool} {file p : Str} {dirs : Option Str} (h : openFile ex file dirs = .opened p) :
    ex p = true ∧ ∃ e, p = e ++ file := by
  unfold openFile at h
  split at h
  · rename_i h1; injection h with h; rw [← h]; exact ⟨h1, [], rfl⟩
  · cases dirs with
    | none => simp at h
    | some d => exact openLoop_opened h

theorem find_consistent {l : List (Str × List Nat)} {n : Str} {c : List Nat} (hm : (n, c) ∈ l) (hc : ∀ d, (n, d) ∈ l → d = c) :
    l.find? (fun e => e.1 == n) = some (n, c) := by
  induction l with
  | nil => cases hm
  | cons e l ih =>
    rw [List.find?_cons]
    by_cases h : e.1 = n
    · subst h
      simp only [beq_self_eq_true]
      rw [← hc e.2 (by simp)]
    · rw [show (e.1 == n) = false by simpa using h]
      refine ih ?_ fun d hd => hc d (List.mem_cons_of_mem _ hd)
      rcases List.mem_cons.1 hm with h' | h'
      · subst h'; exact absurd rfl h
      · exact h'

theorem mem_visible {W : Disk} {dirs : Option Str} {n : Str} {c : List Nat} :
    (n, c) ∈ W.visible dirs ↔ ∃ p, openFile W.exist n dirs = .opened p ∧ c = W.read p := by
  constructor
  · intro h
    simp only [Disk.visible, List.mem_flatMap, List.mem_filterMap] at h
    obtain ⟨e, -, m, -, h⟩ := h
    split at h
    · rename_i p hp
      cases h
      exact ⟨p, hp, rfl⟩
    · cases h
  · rintro ⟨p, hp, rfl⟩
    obtain ⟨h1, e, h2⟩ := openFile_opened hp
    obtain ⟨x, hx⟩ := Option.isSome_iff_exists.1 h1
    have hx1 : x.1 = p := by simpa using List.find?_some hx
    simp only [Disk.visible, List.mem_flatMap, List.mem_filterMap]
    refine ⟨x, List.mem_of_find?_eq_some hx, n, mem_suffixes (hx1.trans h2), ?_⟩
    rw [hp]

theorem visible_find (W : Disk) (dirs : Option Str) (n : Str) : (W.visible dirs).find? (fun e => e.1 == n) =
    match openFile W.exist n dirs with
    | .opened p => some (n, W.read p)
    | _ => none := by
  split
  · rename_i p hp
    refine find_consistent (mem_visible.2 ⟨p, hp, rfl⟩) fun d hd => ?_
    obtain ⟨q, hq, rfl⟩ := mem_visible.1 hd
    rw [hp] at hq
    cases hq
    rfl
  · rename_i hp
    rw [List.find?_eq_none]
    rintro ⟨m, c⟩ hm h
    simp only [beq_iff_eq] at h
    subst h
    obtain ⟨q, hq, _⟩ := mem_visible.1 hm
    exact hp q hq

/-- The name is that of no file with contents. -/
def Disk.Harmless (W : Disk) (n : Str) : Prop := ∀ c, (n, c) ∈ W.files → c = []

theorem Disk.emptied_eq {W : Disk} {o : Option Str} (h : ∀ n, o = some n → W.Harmless n) : W.emptied o = W := by
  cases o with
  | none => rfl
  | some n =>
    have : (W.files.map fun e => if e.1 == n then (e.1, []) else e) = W.files := by
      conv => rhs; rw [← List.map_id W.files]
      refine List.map_congr_left ?_
      rintro ⟨m, c⟩ hm
      split
      · rename_i hc
        simp only [beq_iff_eq] at hc
        subst hc
        rw [h m rfl c hm]
        rfl
      · rfl
    show ({ W with files := _ } : Disk) = W
    rw [this]

theorem inputTexts_of {W : Disk} {dirs : Option Str} : ∀ {texts : List (Str × Str)},
    (∀ t ∈ texts, ∃ p, openFile W.exist t.1 dirs = .opened p ∧ t.2 = W.read p) → inputTexts W dirs (texts.map (·.1)) = some texts
  | [], _ => rfl
  | t :: texts, h => by
    obtain ⟨p, h1, h2⟩ := h t (by simp)
    have := inputTexts_of (fun t ht => h t (List.mem_cons_of_mem _ ht))
    simp only [List.map_cons, inputTexts, h1, this, ← h2]

theorem inputTexts_some {W : Disk} {dirs : Option Str} : ∀ {fs : List Str} {l : List (Str × Str)}, inputTexts W dirs fs = some l →
    ∀ f ∈ fs, ∃ p, openFile W.exist f dirs = .opened p
  | [], _, _ => by simp
  | g :: r, l, h => by
    unfold inputTexts at h
    split at h
    · rename_i p l' hp hl
      intro f hf
      rcases List.mem_cons.1 hf with rfl | hf
      · exact ⟨p, hp⟩
      · exact inputTexts_some hl f hf
    · cases h

/-- A successful assembly could write all its files. -/
theorem assemble_files {σ : Type} {P : PassSem σ} {F : AsmFiles} {s : σ} (h : (assemble P F s).status = some 0) :
    F.log ≠ some false ∧ F.output ≠ some false ∧ F.sym ≠ some false := by
  unfold assemble at h
  split at h
  · simp at h
  rename_i h1
  refine ⟨h1, ?_⟩
  split at h
  · cases h
  split at h
  · simp at h
  split at h
  · simp at h
  split at h
  · simp at h
  rename_i h2
  refine ⟨h2, ?_⟩
  simp only at h
  split at h
  · cases h
  · simp only [finishStatus] at h
    split at h
    · simp at h
    · assumption

/-! ## Two ways to make a pass -/

theorem passLoop_congr {σ : Type} {P Q : PassSem σ} {I : σ → Prop} (he : P.errorCount = Q.errorCount)
    (hc : P.symValueChanged = Q.symValueChanged) (hu : P.unresolved = Q.unresolved)
    (hp : ∀ s, I s → P.parse false s = Q.parse false s) (hI : ∀ a b, Q.parse false a = some b → I a → I b) :
    ∀ (fuel pass : Nat) (s : σ) (tr : List (Bool × σ × σ)), I s →
      passLoop P fuel pass s tr = passLoop Q fuel pass s tr ∧ ∀ s', (passLoop Q fuel pass s tr).1 = some s' → I s' := by
  intro fuel
  induction fuel with
  | zero => exact fun pass s tr hs => ⟨rfl, fun s' h => by cases h; exact hs⟩
  | succ fuel ih =>
    intro pass s tr hs
    unfold passLoop
    rw [hp s hs]
    rcases hq : Q.parse false s with _ | s1
    · exact ⟨rfl, fun s' h => by cases h⟩
    · have h1 := hI _ _ hq hs
      have hcl : P.clean s1 = Q.clean s1 := by unfold PassSem.clean; rw [he, hc, hu]
      simp only [he, hcl]
      split
      · exact ih _ _ _ h1
      · exact ⟨rfl, fun s' h => by cases h; exact h1⟩

theorem assemble_congr {σ : Type} {P Q : PassSem σ} {I : σ → Prop} (he : P.errorCount = Q.errorCount)
    (hc : P.symValueChanged = Q.symValueChanged) (hu : P.unresolved = Q.unresolved)
    (hp : ∀ b s, I s → P.parse b s = Q.parse b s) (hI : ∀ a b, Q.parse false a = some b → I a → I b) (F : AsmFiles) {s : σ} (hs : I s) :
    assemble P F s = assemble Q F s := by
  obtain ⟨h1, h2⟩ := passLoop_congr he hc hu (hp false) hI maxPasses 1 s [] hs
  unfold assemble
  rw [h1]
  rcases hq : passLoop Q maxPasses 1 s [] with ⟨r, pass, tr⟩
  rw [hq] at h2
  cases r with
  | none => rfl
  | some s1 =>
    simp only [he]
    rw [hp true s1 (h2 s1 rfl)]

/-! ## What a pass leaves alone -/

theorem TSteps.files_eq {T : Opr → Bool} {s t : St} (h : TSteps T s t) : t.files = s.files := by
  induction h with
  | refl => rfl
  | steps _ h' ih => exact h'.frame.files.trans ih
  | cpu _ c ih => exact ih
  | illegal _ c ih => exact ih
  | c64 _ ih => exact ih

theorem TPr.runEvent {T : Opr → Bool} [TOk T] {b o : Bool} (ev : LexEv) : TPr T b o (runEvent ev) := by
  cases ev with
  | setCpu c => exact fun s _ => .cpu (.refl s) c
  | setIllegal c => exact fun s _ => .illegal (.refl s) c
  | setC64 => exact fun s _ => .c64 (.refl s)
  | error n t =>
    refine TPr.of ?_
    show Pr T b o (reportTimes n)
    induction n with
    | zero => exact Pr.pure _
    | succ n ih => exact Pr.bind (Pr.error _) fun _ => ih
  | _ => exact TPr.of (Pr.pure _)

theorem TPr.runSrc {T : Opr → Bool} [TOk T] (hT : T = fun _ => true) {b o : Bool} {ex : Ptr → M Int} {hu : Ptr → M Bool} (hex : ∀ p, Pr T b o (ex p))
    (hhu : ∀ p, Pr T b o (hu p)) : ∀ (n : Nat) (lx : LexSt) (file text : Str) (bufs : List Buf),
      TPr T b o (runSrc ex hu n lx file text bufs) := by
  intro n
  induction n with
  | zero => exact fun _ _ _ _ s _ => .refl s
  | succ n ih =>
    intro lx file text bufs
    unfold Verif.runSrc
    intro s hs
    rw [getS_bind]
    generalize readSrc _ _ _ _ _ _ _ _ _ = r
    cases r with
    | ub => exact .refl s
    | syntaxError lx' => exact (TPr.of (Pr.bind (Pr.error _) fun _ => Pr.pure _)) s hs
    | eof evs lx' => exact TPr.bind (TPr.forEachM TPr.runEvent _) (fun _ => TPr.of (Pr.pure _)) s hs
    | top evs t lx' file' rest bufs' =>
      refine TPr.bind (TPr.forEachM TPr.runEvent _) (fun _ => TPr.bind (TPr.runTop hex hhu _ ?_) fun good => ?_) s hs
      · subst hT; exact top_uses_all _
      · split
        · intro u hu
          rw [getS_bind]
          exact ih _ _ _ _ u hu
        · exact TPr.of (Pr.bind (Pr.error _) fun _ => Pr.pure _)

theorem TPr.runSrcs {b o : Bool} (f n : Nat) : ∀ (files : List (Str × Str)) (lx : LexSt),
    TPr (fun _ => true) b o (runSrcs f n files lx)
  | [], lx => TPr.of (Pr.pure _)
  | (file, text) :: r, lx => by
    unfold Verif.runSrcs
    exact TPr.bind (TPr.runSrc rfl (expandNode_pr _ _ f) (Pr.hasUninit f) _ _ _ _ _) fun _ => TPr.runSrcs f n r _

/-- A resolving pass keeps the list of files. -/
theorem parse_files {f n : Nat} {files : List (Str × Str)} {output : Bool} {a b : St × LexSt}
    (h : (passSemSrc f n files output).parse false a = some b) : b.1.files = a.1.files := by
  simp only [passSemSrc, parsePassSrc, run_bind, resetLex_run] at h
  have key := TPr.runSrcs (b := false) (o := false && output) f n files { a.2 with ifStack := [], inMacro := 0 }
    (resetSt { a.1 with finalPass := false, outputOpen := false && output }) ⟨rfl, rfl, (fun h => by cases h), fun h => absurd h (by decide)⟩
  have e := key.files_eq
  rcases hr : Verif.runSrcs f n files { a.2 with ifStack := [], inMacro := 0 }
    (resetSt { a.1 with finalPass := false, outputOpen := false && output }) with ⟨r, t⟩
  rw [hr] at h e
  cases r with
  | ok lx => cases h; exact e
  | exit c => cases h
  | ub => cases h
  | timeout => cases h

/-- Assembling from the disk is assembling the texts found there, if nothing that is read is written. -/
theorem mainSem_assemble {f n : Nat} {W : Disk} {dirs : Option Str} {inputs : List Str} {texts : List (Str × Str)} {output : Bool}
    (ht : inputTexts W dirs inputs = some texts) (F : AsmFiles) (s : St × LexSt) (hs : s.1.files = W.visible dirs) :
    assemble (mainSem f n W W dirs inputs output) F s = assemble (passSemSrc f n texts output) F s := by
  refine assemble_congr (P := mainSem f n W W dirs inputs output) (Q := passSemSrc f n texts output) (I := fun s => s.1.files = W.visible dirs) rfl rfl rfl ?_ (fun a b h ha => (parse_files h).trans ha) F hs
  rintro b ⟨u, lx⟩ hu
  simp only [mainSem, ite_self, ht]
  rw [← hu]

/-- Assembling starts with `assemble_starts`: the first pass starts in the initial state. -/
theorem assemble_first {σ : Type} (P : PassSem σ) (F : AsmFiles) (s : σ) :
    ∀ e, (assemble P F s).passes.head? = some e → e.2.1 = s := by
  have grow : ∀ (fuel pass : Nat) (s : σ) (tr : List (Bool × σ × σ)), tr ≠ [] →
      (passLoop P fuel pass s tr).2.2.head? = tr.head? := by
    intro fuel
    induction fuel with
    | zero => exact fun _ _ _ _ => rfl
    | succ fuel ih =>
      intro pass s tr hne
      unfold passLoop
      rcases hq : P.parse false s with _ | s1
      · rfl
      · have hh : (tr ++ [(false, s, s1)]).head? = tr.head? := by
          cases tr with
          | nil => exact absurd rfl hne
          | cons => rfl
        simp only
        split
        · rw [ih _ _ _ (by simp), hh]
        · exact hh
  have first : ∀ (fuel pass : Nat) (s : σ), ∀ e, (passLoop P fuel pass s []).2.2.head? = some e → e.2.1 = s := by
    intro fuel pass s e h
    cases fuel with
    | zero => simp [passLoop] at h
    | succ fuel =>
      unfold passLoop at h
      rcases hq : P.parse false s with _ | s1
      · simp [hq] at h
      · simp only [hq] at h
        split at h
        · rw [grow _ _ _ _ (by simp)] at h
          cases h
          rfl
        · cases h
          rfl
  have key := first maxPasses 1 s
  intro e h
  unfold assemble at h
  split at h
  · cases h
  rcases hq : passLoop P maxPasses 1 s [] with ⟨r, pass, tr⟩
  rw [hq] at key h
  cases r with
  | none => exact key e h
  | some s1 =>
    simp only at h
    split at h
    · exact key e h
    split at h
    · exact key e h
    split at h
    · exact key e h
    · rcases hz : P.parse true s1 with _ | s2
      · simp only [hz] at h
        exact key e h
      · simp only [hz] at h
        cases tr with
        | nil =>
          exfalso
          unfold passLoop maxPasses at hq
          rcases hy : P.parse false s with _ | s3
          · simp [hy] at hq
          · simp only [hy] at hq
            split at hq
            · rename_i hgo
              have h1 := grow 19 (1 + 1) s3 ([] ++ [(false, s, s3)]) (by simp)
              have h2 := congrArg (fun x : Option σ × Nat × List (Bool × σ × σ) => x.2.2.head?) hq
              simp only at h2
              simp at h1
              simp [h1] at h2
            · simp at hq
        | cons x tr => exact key e (by simpa using h)

/-! ## Programs without settings -/

/-- Not a setting. -/
def NoSetting : Top → Prop
  | .stmt _ _ _ => True
  | .labelled _ _ _ _ => True
  | _ => False

theorem Pr.runTop {T : Opr → Bool} [TOk T] {b o : Bool} {ex : Ptr → M Int} {hu : Ptr → M Bool} (hex : ∀ p, Pr T b o (ex p))
    (hhu : ∀ p, Pr T b o (hu p)) (t : Top) (h : t.uses T = true) (hn : NoSetting t) : Pr T b o (Verif.runTop ex hu t) := by
  have hb := Pr.buildStmt (b := b) (o := o) hex hhu
  cases t with
  | setCpu c => exact hn.elim
  | setIllegal c => exact hn.elim
  | setC64 => exact hn.elim
  | stmt file line st =>
    have h : st.uses T = true := h
    replace hb := fun m => hb st m h
    unfold Verif.runTop
    split
    · rename_i e
      cases e
      have hl := fun nm => Pr.runLabelled hex hhu nm .empty rfl
      pr
    · rename_i e
      cases e
      pr
    all_goals (rename_i e; cases e)
  | labelled file line l st =>
    have h : st.uses T = true := h
    unfold Verif.runTop
    pr

/-- The setting does not change what `k` says about the processor and the format. -/
def SetKeeps {β : Type} (k : Cpu → Format → β) : Top → Prop
  | .setCpu c => ∀ a b, k c b = k a b
  | .setC64 => ∀ a b, k a .c64 = k a b
  | _ => True

theorem runTop_keeps {β : Type} {k : Cpu → Format → β} (f : Nat) {t : Top} (h : SetKeeps k t) {s : St} (hs : s.finalPass = false) :
    k (Verif.runTop (expandNode f) (hasUninit f) t s).2.cpu (Verif.runTop (expandNode f) (hasUninit f) t s).2.format = k s.cpu s.format ∧
      (Verif.runTop (expandNode f) (hasUninit f) t s).2.finalPass = false := by
  have key : NoSetting t → k (Verif.runTop (expandNode f) (hasUninit f) t s).2.cpu (Verif.runTop (expandNode f) (hasUninit f) t s).2.format =
      k s.cpu s.format ∧ (Verif.runTop (expandNode f) (hasUninit f) t s).2.finalPass = false := by
    intro hn
    have := (Pr.runTop (T := fun _ => true) (expandNode_pr s.finalPass s.outputOpen f) (Pr.hasUninit f) t (top_uses_all t) hn s
      ⟨rfl, rfl, (fun h => by rw [hs] at h; cases h), fun h => absurd h (by decide)⟩).frame
    exact ⟨by rw [this.cpu, this.format], this.finalPass.trans hs⟩
  cases t with
  | setCpu c => exact ⟨h _ _, hs⟩
  | setIllegal c => exact ⟨rfl, hs⟩
  | setC64 => exact ⟨h _ _, hs⟩
  | _ => exact key trivial

theorem runFile_keeps {β : Type} {k : Cpu → Format → β} (f : Nat) : ∀ {ts : List Top}, (∀ t ∈ ts, SetKeeps k t) → ∀ {s : St}, s.finalPass = false →
    k (Verif.runFile (expandNode f) (hasUninit f) ts s).2.cpu (Verif.runFile (expandNode f) (hasUninit f) ts s).2.format = k s.cpu s.format ∧
      (Verif.runFile (expandNode f) (hasUninit f) ts s).2.finalPass = false
  | [], _, s, hs => ⟨rfl, hs⟩
  | t :: ts, h, s, hs => by
    have h1 := runTop_keeps f (h t (by simp)) hs
    unfold Verif.runFile
    rw [run_bind]
    rcases hr : Verif.runTop (expandNode f) (hasUninit f) t s with ⟨r, u⟩
    rw [hr] at h1
    cases r with
    | ok g =>
      cases g with
      | true =>
        have h2 := runFile_keeps f (fun t ht => h t (List.mem_cons_of_mem _ ht)) h1.2
        exact ⟨h2.1.trans h1.1, h2.2⟩
      | false => exact h1
    | _ => exact h1

theorem files_keeps {β : Type} {k : Cpu → Format → β} (f : Nat) : ∀ {P : Program}, (∀ t ∈ P.flatten, SetKeeps k t) → ∀ {s : St}, s.finalPass = false →
    k (Verif.forEachM (Verif.runFile (expandNode f) (hasUninit f)) P s).2.cpu (Verif.forEachM (Verif.runFile (expandNode f) (hasUninit f)) P s).2.format =
      k s.cpu s.format
  | [], _, s, hs => rfl
  | ts :: P, h, s, hs => by
    have h1 := runFile_keeps (k := k) f (ts := ts) (fun t ht => h t (by simp [ht])) hs
    unfold Verif.forEachM
    rw [run_bind]
    rcases hr : Verif.runFile (expandNode f) (hasUninit f) ts s with ⟨r, u⟩
    rw [hr] at h1
    cases r with
    | ok g => exact (files_keeps f (fun t ht => h t (by rw [List.flatten_cons]; exact List.mem_append_right _ ht)) h1.2).trans h1.1
    | _ => exact h1.1

/-- A resolving pass over a program keeps what its settings do not change. -/
theorem parse_keeps {β : Type} {k : Cpu → Format → β} {f : Nat} {P : Program} {output : Bool} {a b : St} (hn : ∀ t ∈ P.flatten, SetKeeps k t)
    (h : (passSem f P output).parse false a = some b) : k b.cpu b.format = k a.cpu a.format := by
  replace h := passSem_parse h
  unfold runPass at h
  have key := files_keeps f hn (s := resetSt { a with finalPass := false, outputOpen := false && output }) rfl
  rcases parsePass_cases f P { a with finalPass := false, outputOpen := false && output } with ⟨t, h1, h2⟩ | ⟨r, t, h1, h2, h3⟩
  · rw [h2] at h
    cases h
    rw [h1] at key
    exact key
  · rw [h3] at h
    cases h
    exact absurd rfl (h2 ())

theorem NoSetting.keeps {β : Type} (k : Cpu → Format → β) {t : Top} (h : NoSetting t) : SetKeeps k t := by
  cases t <;> first | trivial | exact h.elim

theorem settle_keeps (head : List Top) : ∀ t ∈ head, SetKeeps (fun c f => (Spec.cpuAfter c head, if Spec.asksC64 head then Format.c64 else f)) t := by
  intro t ht
  cases t with
  | setCpu c =>
    intro a b
    have : ∀ c d, Spec.cpuAfter c head = Spec.cpuAfter d head := by
      clear a b
      induction head with
      | nil => cases ht
      | cons t head ih =>
        intro c' d
        rcases List.mem_cons.1 ht with rfl | ht'
        · rfl
        · cases t <;> first | rfl | exact ih ht' _ _
    show (Spec.cpuAfter c head, _) = (Spec.cpuAfter a head, _)
    rw [this c a]
  | setC64 =>
    intro a b
    have : Spec.asksC64 head = true := by
      clear a b
      induction head with
      | nil => cases ht
      | cons t head ih =>
        rcases List.mem_cons.1 ht with rfl | ht'
        · rfl
        · cases t <;> first | rfl | exact ih ht'
    show (_, if Spec.asksC64 head then _ else _) = (_, if Spec.asksC64 head then _ else _)
    rw [this]
    rfl
  | _ => trivial

theorem Spec.Draft.noSetting {C : Context} : ∀ {prog : List Top} {ll : Option Str} {pc : Int} {fresh : Bool} {ll' : Option Str} {bs : List Nat},
    Spec.Draft C ll pc fresh prog ll' bs → ∀ t ∈ prog, NoSetting t
  | [], _, _, _, _, _, _ => by simp
  | t :: ts, _, _, _, _, _, ⟨_, _, _, h1, h2, _⟩ => by
    intro u hu
    rcases List.mem_cons.1 hu with rfl | hu
    · cases u <;> first | trivial | exact h1.elim
    · exact Spec.Draft.noSetting h2 u hu

/-! ## The command line -/

/-- The state after `parse_arguments`. -/
theorem arguments_done {xs : List Arg} {argv : List Str} (hc : ∀ w ∈ argv, 0 ∉ w) (h : CmdLine xs argv) (ho : Once xs)
    (hi : inputFiles xs ≠ []) (hd : ∀ d ∈ definitions xs, Identifier d.1 ∧ 0 ≤ defineValue d.2 ∧ defineValue d.2 ≤ 0xFFFF) :
    ∃ ys k, parseArguments argv {} = .done (settingsOf xs) { ({} : St) with syms := ys, symValueChanged := k } ∧
      Fresh { ({} : St) with syms := ys, symValueChanged := k } ∧
      ∀ m, Identifier m → envOf { ({} : St) with syms := ys, symValueChanged := k } m =
        ((definitions xs).reverse.find? fun d => foldCase d.1 = foldCase m).map fun d => defineValue d.2 := by
  have hc' : ∀ w ∈ argv, CStr w := fun w hw c hcw h0 => hc w hw (h0 ▸ hcw)
  obtain ⟨s', h2, h6, -, -, ⟨ys, k, rfl⟩, h5⟩ := defs_run (ds := definitions xs) (s := {}) ⟨rfl, by simp, by simp⟩ hd
  refine ⟨ys, k, parseArgs_reads ⟨xs, h, ?_, h2, hi⟩ hc', h6, fun m hm => ?_⟩
  · rw [steps_eq]
    exact if_pos ho
  · rw [h5 m hm]
    cases (definitions xs).reverse.find? fun d => decide (foldCase d.1 = foldCase m) with
    | some d => rfl
    | none =>
      show envOf {} m = none
      unfold envOf
      rw [if_pos (ident_plain hm), ident_look rfl hm]
      rfl

/-- The state in which the first pass starts. -/
def startState (xs : List Arg) (ys : List Sym) (k : Nat) (files : List (Str × List Nat)) : St :=
  { ({} : St) with
    syms := ys
    symValueChanged := k
    cpu := (settingsOf xs).cpu
    format := (settingsOf xs).format
    allowIllegal := (settingsOf xs).allowIllegal
    files := files }

/-- A symbol with a value is in the table. -/
theorem env_known {s : St} {m : Str} (hs : s.currentScope = none) (hm : Identifier m) (h : envOf s m ≠ none) :
    ∃ x ∈ s.syms, stricmp x.fullname m = 0 := by
  unfold envOf at h
  rw [if_pos (ident_plain hm), ident_look hs hm] at h
  cases hf : symFind s.syms m with
  | none => rw [hf] at h; exact absurd rfl h
  | some i =>
    obtain ⟨x, hx, _, h0⟩ := symFindAux_name hf
    exact ⟨x, List.mem_of_getElem? hx, h0⟩

end Verif
