import Verif.Spec.Head
import Verif.Lemmas.Files

/-! # The lines before `.org` -/

namespace Verif

open Spec (cpuAfter asksC64 settle HeadLine HeadDraft)

theorem cpuAfter_append (a : List Top) : ∀ (c : Cpu) (b : List Top), cpuAfter c (a ++ b) = cpuAfter (cpuAfter c a) b := by
  induction a with
  | nil => intros; rfl
  | cons t a ih => intro c b; cases t <;> exact ih _ _

theorem cpuAfter_or (a : List Top) : (∀ c, cpuAfter c a = c) ∨ ∃ d, ∀ c, cpuAfter c a = d := by
  induction a with
  | nil => exact Or.inl fun _ => rfl
  | cons t a ih =>
    cases t with
    | setCpu d => exact Or.inr ⟨cpuAfter d a, fun _ => rfl⟩
    | _ => exact ih

theorem cpuAfter_twice (a : List Top) (c : Cpu) : cpuAfter (cpuAfter c a) a = cpuAfter c a := by
  rcases cpuAfter_or a with h | ⟨d, h⟩ <;> simp only [h]

/-- The state after lines without bytes and definitions. -/
def Headed (s s' : St) (ts : List Top) : Prop :=
  ∃ ns fl ln il, s.nodes.length ≤ ns.length ∧ s' = { s with
    nodes := ns
    file := fl
    line := ln
    allowIllegal := il
    cpu := cpuAfter s.cpu ts
    format := if asksC64 ts then .c64 else s.format }

theorem Headed.ctx {s s' : St} {ts : List Top} (h : Headed s s' ts) : ctxOf s' = settle (ctxOf s) ts := by
  obtain ⟨ns, fl, ln, il, _, rfl⟩ := h
  have : decide ((if asksC64 ts then Format.c64 else s.format) = .bin) = (decide (s.format = .bin) && !asksC64 ts) := by
    cases asksC64 ts <;> simp
  show ({ cpu := _, raw := decide ((if asksC64 ts then Format.c64 else s.format) = .bin), files := _, isMacro := _, text := _, env := _ } : Spec.Context) = _
  rw [this]
  rfl

theorem Headed.comp {s s1 s2 : St} {t : Top} {ts : List Top} (h : Headed s s1 [t]) (h' : Headed s1 s2 ts) : Headed s s2 (t :: ts) := by
  obtain ⟨ns, fl, ln, il, h1, rfl⟩ := h
  obtain ⟨ns', fl', ln', il', h2, rfl⟩ := h'
  have e1 : cpuAfter (cpuAfter s.cpu [t]) ts = cpuAfter s.cpu (t :: ts) := (cpuAfter_append [t] _ ts).symm
  have e2 : (if asksC64 ts then Format.c64 else if asksC64 [t] then .c64 else s.format) = if asksC64 (t :: ts) then .c64 else s.format := by
    cases t <;> cases h : asksC64 ts <;> simp [asksC64, h]
  refine ⟨ns', fl', ln', il', Nat.le_trans h1 h2, ?_⟩
  rw [← e1, ← e2]

/-- What the lines leave as it is. -/
theorem Headed.keeps {s s' : St} {ts : List Top} (h : Headed s s' ts) : s'.endExpansion = s.endExpansion ∧ s'.nodeBase = s.nodeBase ∧
    s.nodes.length ≤ s'.nodes.length ∧ s'.lastLabel = s.lastLabel ∧ s'.pc = s.pc ∧ s'.totalBytes = s.totalBytes ∧
    s'.errorCount = s.errorCount ∧ s'.symValueChanged = s.symValueChanged ∧ s'.syms = s.syms ∧ s'.currentScope = s.currentScope := by
  obtain ⟨ns, fl, ln, il, h1, rfl⟩ := h
  exact ⟨rfl, rfl, h1, rfl, rfl, rfl, rfl, rfl, rfl, rfl⟩

private theorem assign_exact {f : Nat} {s : St} {name : Str} {e : Expr} {v : Int} (hd : e.depth < f)
    (he : s.endExpansion = false) (hb : s.nodeBase ≤ s.nodes.length)
    (hv : Spec.eval (envOf s) s.pc e = some (v, false)) (hn : envOf s name = some v) :
    ∃ ns p ns', buildStmt (expandNode (f + 1)) (hasUninit (f + 1)) false (.assign name e) s = (.ok (some p), { s with nodes := ns }) ∧
      s.nodes.length ≤ ns'.length ∧ expandNode (f + 1) p { s with nodes := ns } = (.ok v, { s with nodes := ns' }) := by
  obtain ⟨l1, q1, h1, h2⟩ := buildExpr_run (lk := look s) e s hb
  let I : Node := ⟨.id .id name none, 0, []⟩
  let s1 : St := { s with nodes := s.nodes ++ l1 }
  let N : Node := ⟨.opr .equ, 2, [s1.nodes.length, q1]⟩
  let s2 : St := { s with nodes := s1.nodes ++ [I] }
  let s3 : St := { s with nodes := s1.nodes ++ [I] ++ [N] }
  obtain ⟨hlk, hev⟩ := names_look (s := s) (e := e) (ll := s.lastLabel) s3.nodes (Or.inl rfl)
  have hb1 : s.nodeBase ≤ s1.nodes.length := by simp only [s1, List.length_append]; omega
  obtain ⟨ns, r, hlen⟩ := equ_run (f := f) (s := s3) (p := s2.nodes.length) (q0 := s1.nodes.length) (q1 := q1)
    (k := .id) (name := name) (e := e) (v := v) he
    ⟨by simp only [s2, List.length_append]; exact Nat.le_trans hb1 (Nat.le_add_right _ _), by simp [s3, s2, N]⟩
    ⟨hb1, by simp [s3, I]⟩
    (((h2.sim (HeapSim.append false _ _ [I])).sim (HeapSim.append false _ _ [N])).congr hlk) hd
      (by rw [← eval_congr (env := envOf s) hev]; exact hv) hn
  refine ⟨s3.nodes, s2.nodes.length, ns, ?_, ?_, r⟩
  · refine built_run ?_
    show (buildExpr e >>= fun p => idNode .id name >>= fun i => operatorNode .equ [i, p]) s = _
    rw [bind_ok h1]
    show (idNode .id name >>= fun i => operatorNode .equ [i, q1]) s1 = _
    rw [bind_ok (show idNode .id name s1 = (.ok s1.nodes.length, s2) from alloc_run _ _ _)]
    exact alloc_run _ _ _
  · refine Nat.le_trans ?_ (hlen.weak true).1
    simp [s3, s1]

theorem headLine_run {f : Nat} {s : St} {t : Top} (he : s.endExpansion = false) (hb : s.nodeBase ≤ s.nodes.length)
    (hl : s.lastLabel = none) (hpc : s.pc = 0x1000) (hf : t.fuel < f) (h : HeadLine (ctxOf s) t) :
    ∃ s', runTop (expandNode (f + 1)) (hasUninit (f + 1)) t s = (.ok true, s') ∧ Headed s s' [t] := by
  cases t with
  | setCpu c => exact ⟨_, rfl, s.nodes, s.file, s.line, s.allowIllegal, Nat.le_refl _, rfl⟩
  | setIllegal c => exact ⟨_, rfl, s.nodes, s.file, s.line, c, Nat.le_refl _, rfl⟩
  | setC64 => exact ⟨_, rfl, s.nodes, s.file, s.line, s.allowIllegal, Nat.le_refl _, rfl⟩
  | labelled file line name st => exact h.elim
  | stmt file line st =>
    cases st with
    | empty =>
      obtain ⟨ns, p, h1, h2, h3⟩ : ∃ ns p, buildStmt (expandNode (f + 1)) (hasUninit (f + 1)) false .empty (atLine s file line) =
          (.ok (some p), { atLine s file line with nodes := ns }) ∧ s.nodes.length ≤ ns.length ∧
          expandNode (f + 1) p { atLine s file line with nodes := ns } = (.ok 0, { atLine s file line with nodes := ns }) := by
        let N : Node := ⟨.opr .statement, 0, []⟩
        have hl : Live { atLine s file line with nodes := s.nodes ++ [N] } s.nodes.length N := ⟨hb, by simp⟩
        refine ⟨s.nodes ++ [N], s.nodes.length, rfl, by simp, ?_⟩
        exact (expandNode_run (s := { atLine s file line with nodes := s.nodes ++ [N] }) he hl).trans rfl
      exact ⟨_, runTop_stmt (by intros; simp) h1 h3, ns, file, line, s.allowIllegal, h2, rfl⟩
    | assign name e =>
      obtain ⟨v, g1, g2⟩ := h
      rw [← hl, ← hpc] at g1
      rw [← hl] at g2
      simp only [Top.fuel, Stmt.fuel] at hf
      obtain ⟨ns, p, ns', h1, h2, h3⟩ := assign_exact (f := f) (s := atLine s file line) (name := name) (e := e) (by omega) he hb g1 g2
      exact ⟨_, runTop_stmt (by intros; simp) h1 h3, ns', file, line, s.allowIllegal, h2, rfl⟩
    | _ => exact h.elim

theorem headLine_congr {C D : Spec.Context} (h : C.env = D.env) {t : Top} (hC : HeadLine C t) : HeadLine D t := by
  unfold HeadLine at hC ⊢
  rw [← h]
  exact hC

theorem headDraft_congr {C D : Spec.Context} (h : C.env = D.env) {t : Top} (hC : HeadDraft C t) : HeadDraft D t := by
  unfold HeadDraft at hC ⊢
  rw [← h]
  exact hC

/-- The lines before `.org`, whatever follows. -/
theorem head_run {f : Nat} (rest : List Top) : ∀ {ts : List Top} {s : St}, s.endExpansion = false → s.nodeBase ≤ s.nodes.length →
    s.lastLabel = none → s.pc = 0x1000 → (ts.map Top.fuel).sum < f → (∀ t ∈ ts, HeadLine (ctxOf s) t) →
    ∃ s', runFile (expandNode (f + 1)) (hasUninit (f + 1)) (ts ++ rest) s =
      runFile (expandNode (f + 1)) (hasUninit (f + 1)) rest s' ∧ Headed s s' ts
  | [], s, _, _, _, _, _, _ => ⟨s, rfl, s.nodes, s.file, s.line, s.allowIllegal, Nat.le_refl _, rfl⟩
  | t :: ts, s, he, hb, hl, hpc, hf, h => by
    simp only [List.map_cons, List.sum_cons] at hf
    obtain ⟨s1, r1, a1⟩ := headLine_run (f := f) he hb hl hpc (by omega) (h t (by simp))
    obtain ⟨k1, k2, k3, k4, k5, -⟩ := a1.keeps
    obtain ⟨s2, r2, a2⟩ := head_run (f := f) rest (ts := ts) (s := s1) (k1.trans he) (by omega) (k4.trans hl) (k5.trans hpc) (by omega)
      (fun t ht => headLine_congr (by rw [a1.ctx]; rfl) (h t (by simp [ht])))
    exact ⟨s2, (runFile_cons r1).trans r2, a1.comp a2⟩

/-- The lines before `.org` in a pass that reports and changes nothing. -/
theorem head_draft {f : Nat} (rest : List Top) : ∀ {ts : List Top} {s : St}, Plain s → s.endExpansion = false → s.nodeBase ≤ s.nodes.length →
    0 ≤ s.totalBytes → s.lastLabel = none → s.pc = 0x1000 → (ts.map Top.fuel).sum < f → (∀ t ∈ ts, HeadDraft (ctxOf s) t) →
    dirt (runFile (expandNode (f + 1)) (hasUninit (f + 1)) (ts ++ rest) s).2 ≤ dirt s → ∀ t ∈ ts, HeadLine (ctxOf s) t
  | [], _, _, _, _, _, _, _, _, _, _ => by simp
  | t :: ts, s, hp, he, hb, h0, hl, hpc, hf, h, hd => by
    simp only [List.map_cons, List.sum_cons] at hf
    have key : HeadLine (ctxOf s) t ∨ dirt s < dirt (runTop (expandNode (f + 1)) (hasUninit (f + 1)) t s).2 := by
      have ht := h t (by simp)
      cases t with
      | setCpu c => exact Or.inl trivial
      | setIllegal c => exact Or.inl trivial
      | setC64 => exact Or.inl trivial
      | labelled file line name st => exact ht.elim
      | stmt file line st =>
        cases st with
        | empty => exact Or.inl trivial
        | assign name e =>
          obtain ⟨⟨v, g1⟩, w, g2⟩ := ht
          by_cases hw : w = v
          · subst hw
            exact Or.inl ⟨w, g1, g2⟩
          · right
            rw [← hl, ← hpc] at g1
            rw [← hl] at g2
            simp only [Top.fuel, Stmt.fuel] at hf
            obtain ⟨ns, p, h1, _, h3⟩ := stale_assign (f := f) (s := atLine s file line) (name := name) (e := e) ⟨hp.scope, hp.syms⟩
              (by omega) he hb g1 g2 hw
            show _ < dirt ((buildStmt (expandNode (f + 1)) (hasUninit (f + 1)) false (.assign name e) >>= fun r => match r with
              | none => M.pure false
              | some p => expandNode (f + 1) p >>= fun _ => M.pure true) (atLine s file line)).2
            rw [bind_ok h1]
            show _ < dirt ((expandNode (f + 1) p >>= fun _ => M.pure true) _).2
            rw [bind_pure_snd]
            have := h3 [] s.lastLabel (Or.inl rfl)
            rw [List.append_nil] at this
            exact this
        | _ => exact ht.elim
    rcases key with g | g
    · obtain ⟨s1, r1, a1⟩ := headLine_run (f := f) he hb hl hpc (by omega) g
      obtain ⟨k1, k2, k3, k4, k5, k6, k7, k8, k9, k10⟩ := a1.keeps
      rw [List.cons_append, runFile_cons r1] at hd
      have hctx : (ctxOf s1).env = (ctxOf s).env := by rw [a1.ctx]; rfl
      have := head_draft (f := f) rest (ts := ts) (s := s1) ⟨k10.trans hp.scope, by rw [k9]; exact hp.syms⟩ (k1.trans he) (by omega) (by omega)
        (k4.trans hl) (k5.trans hpc) (by omega) (fun t ht => headDraft_congr hctx.symm (h t (by simp [ht])))
        (by simp only [dirt] at hd ⊢; omega)
      intro u hu
      rcases List.mem_cons.1 hu with rfl | hu
      · exact g
      · exact headLine_congr hctx (this u hu)
    · exfalso
      have h1 : dirt (runTop (expandNode (f + 1)) (hasUninit (f + 1)) t s).2 ≤
          dirt (runFile (expandNode (f + 1)) (hasUninit (f + 1)) (t :: (ts ++ rest)) s).2 := by
        have hm := runTop_mono (f + 1) t s h0
        unfold runFile
        rw [run_bind]
        rcases hr : runTop (expandNode (f + 1)) (hasUninit (f + 1)) t s with ⟨r, s1⟩
        rw [hr] at hm
        cases r with
        | ok g =>
          cases g with
          | true => exact runFile_dirt (f + 1) _ s1 hm.2
          | false => exact Nat.le_trans (Nat.le_refl _) (by simp only [dirt]; show _ ≤ s1.errorCount + 1 + s1.symValueChanged; omega)
        | _ => exact Nat.le_refl _
      rw [List.cons_append] at hd
      omega

end Verif
