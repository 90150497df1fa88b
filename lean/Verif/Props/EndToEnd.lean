import Verif.Lemmas.Head
import Verif.Props.Layout
import Verif.Props.Driver

/-! # Property C12 for whole assemblies -/

namespace Verif

/-- Properties of all states in which a pass can start. -/
structure Between (s : St) : Prop where
  scope : s.currentScope = none
  heap : s.nodeBase ≤ s.nodes.length
  out : s.out = []
  count : s.totalBytes = 0

theorem Between.next {f : Nat} {prog : Program} {o : Bool} {a b : St}
    (h : (passSem f prog o).parse false a = some b) (ha : Between a) : Between b := by
  have hr := passSem_parse h
  have h1 := (runPass_tsteps (T := fun _ => true) f prog prog.uses_all o false a (fun c => by cases c))
  unfold runPass at hr
  rcases parsePass_cases f prog { a with finalPass := false, outputOpen := false && o } with ⟨t, h1, h2⟩ | ⟨r, t, _, h2, h3⟩
  · have T := passBody_tsteps (T := fun _ => true) f prog prog.uses_all
      (resetSt { a with finalPass := false, outputOpen := false && o }) (fun c => by cases c)
    rw [h1] at T
    rw [h2] at hr
    cases hr
    have hn := T.noOut.2 rfl
    exact ⟨rfl, Nat.le_refl _, hn.1.trans ha.out, hn.2.1.trans ha.count⟩
  · rw [h3] at hr
    cases hr
    exact absurd rfl (h2 ())

theorem pass_files {f : Nat} {ps : Program} {o fin : Bool} {a b : St}
    (h : (passSem f ps o).parse fin a = some b) :
    ∃ t, forEachM (runFile (expandNode f) (hasUninit f)) ps (resetSt { a with finalPass := fin, outputOpen := fin && o }) = (.ok (), t) ∧
      b = { t with nodeBase := t.nodes.length, currentScope := none } := by
  have hr := passSem_parse h
  unfold runPass at hr
  rcases parsePass_cases f ps { a with finalPass := fin, outputOpen := fin && o } with ⟨t, h1, h2⟩ | ⟨r, t, _, h2, h3⟩
  · rw [h2] at hr
    cases hr
    exact ⟨_, h1, rfl⟩
  · rw [h3] at hr
    cases hr
    exact absurd rfl (h2 ())

private theorem ctxOf_reset (s : St) (b o : Bool) : ctxOf (resetSt { s with finalPass := b, outputOpen := o }) = ctxOf s := rfl

/-- **C12, part**, for whole assemblies.  Assemble one or more files whose statements, one file after the other, are
`head : st : prog`, where `st` is `.org e` or `*= e`, `head` consists of empty lines, settings (`.6502`, `.65c02`, `.illegal`, `.c64`) and assignments, and `prog`
of instructions, data, fills, binary files, assignments, labels, branches out of range and included files, into a file, from an
initial state without output.  Suppose the
assembly succeeds; then the last passes were a resolving pass from `s` to `s1` and the final pass from `s1` to `s2`
(`C29_success_partial`).  Let `C` be the symbol values in `s` with the processor and the format set in `head`, and suppose that for them
every statement has an encoding (`Spec.HeadDraft`, `Spec.Draft`; this
says nothing about the values of the labels).  Then the symbol values are those the program gives to its symbols: each
label has the address of its line, each assigned symbol the value of its expression (`Spec.HeadLine`, `Spec.Layout`).  And the output file is
the header followed by the bytes of the lines for these values, and the final pass neither reports errors nor changes a
symbol; its only messages are the warnings for branches out of range.  Missing: statements without encoding that the assembler accepts (`C09_false`, `C10_false_large` and
others), symbols that appear first in the last resolving pass, anonymous labels, settings after `.org` or `*=`, sections, variables, macros and
loops. -/
theorem C12_accepted_partial (head : List Top) (file : Str) (line : Int) (st : Stmt) (e : Expr) (prog : List Top)
    (bs : List Nat) (hor : Spec.SetsOrigin e st) :
    ∃ f0, ∀ f, f0 ≤ f → ∀ (F : AsmFiles) (P : Program) (s0 s s1 s2 : St) (pre : List (Bool × St × St)) (o : Int)
      (ll : Option Str), P.flatten = head ++ .stmt file line st :: prog →
      F.output = some true → s0.out = [] → s0.totalBytes = 0 → s0.currentScope = none → s0.nodeBase ≤ s0.nodes.length →
      let r := assembleProg f P F s0
      r.status = some 0 → r.passes = pre ++ [(false, s, s1), (true, s1, s2)] →
      (∀ x ∈ s.syms, x.isVar = false ∧ x.isMacroParam = false) →
      let C := Spec.settle (ctxOf s) head
      (∀ t ∈ head, Spec.HeadDraft C t) →
      Spec.eval (C.env none) 0x1000 e = some (o, false) → Spec.Draft C none o true prog ll bs → bs ≠ [] →
      ctxOf s1 = C ∧ (∀ t ∈ head, Spec.HeadLine C t) ∧ Spec.Layout C none o true prog ll bs ∧
      s2.out = headerBytes s1.format o ++ bs ∧ s2.errorCount = 0 ∧ s2.syms = s1.syms ∧
      (∃ w, s2.log = s1.log ++ List.replicate w .branchOutOfRange) := by
  refine ⟨e.depth + progFuel prog bs + (head.map Top.fuel).sum + 3, ?_⟩
  intro f hf F P s0 s s1 s2 pre o ll hP hF h1 h2 h3 h4 r hst hr hx C hh hv hd hne
  obtain ⟨g, rfl⟩ : ∃ g, f = g + 1 := ⟨f - 1, by omega⟩
  obtain ⟨pre', a, b, c, hr', _, _, he0, hc0, _⟩ := C29_success_partial _ F s0 hst
  have hr2 : pre ++ [(false, s, s1), (true, s1, s2)] = pre' ++ [(false, a, b), (true, b, c)] := hr.symm.trans hr'
  have := (List.append_inj' hr2 rfl).2
  cases this
  have he1 : s1.errorCount = 0 := he0
  have hc1 : s1.symValueChanged = 0 := hc0
  have hB := assemble_starts (passSem (g + 1) P F.output.isSome) F Between
    (fun a b h ha => Between.next h ha) s0 ⟨h3, h4, h1, h2⟩
  have m1 : (false, s, s1) ∈ r.passes := by rw [hr]; simp
  have m2 : (true, s1, s2) ∈ r.passes := by rw [hr]; simp
  obtain ⟨B1, p1⟩ := hB _ m1
  obtain ⟨B2, p2⟩ := hB _ m2
  have z1 : 0 ≤ s.totalBytes := Int.le_of_eq B1.count.symm
  obtain ⟨t, q1, rfl⟩ := pass_files p1
  rw [files_flatten _ _ _ _ (by exact z1) he1, hP] at q1
  -- the resolving pass
  let u0 : St := resetSt { s with finalPass := false, outputOpen := false && F.output.isSome }
  have hdt : dirt t = 0 := by
    have e1 : t.errorCount = 0 := he1
    have e2 : t.symValueChanged = 0 := hc1
    simp only [dirt, e1, e2]
  have hH : ∀ t ∈ head, Spec.HeadLine (ctxOf s) t := head_draft (f := g) (.stmt file line st :: prog) (ts := head) (s := u0)
    ⟨B1.scope, hx⟩ rfl B1.heap z1 rfl rfl (by omega) (fun t ht => headDraft_congr rfl (hh t ht)) (by
      rw [show runFile (expandNode (g + 1)) (hasUninit (g + 1)) (head ++ .stmt file line st :: prog) u0 = _ from q1]
      show dirt t ≤ _
      omega)
  obtain ⟨u, q0, a0⟩ := head_run (f := g) (.stmt file line st :: prog) (ts := head) (s := u0) rfl B1.heap rfl rfl (by omega) hH
  have hcu : ctxOf u = C := a0.ctx
  have q1 : runFile (expandNode (g + 1)) (hasUninit (g + 1)) (.stmt file line st :: prog) u = (.ok (), t) := q0.symm.trans q1
  obtain ⟨k1, k2, k3, k4, k5, k6, k7, k8, k9, k10⟩ := a0.keeps
  have k11 : u.orgOriginSpecified = false ∧ u.finalPass = false := by
    obtain ⟨_, _, _, _, _, rfl⟩ := a0
    exact ⟨rfl, rfl⟩
  have k4 : u.lastLabel = none := k4
  have hv' : Spec.eval (envOf u) u.pc e = some (o, false) := by
    rw [k5, show envOf u = (ctxOf u).env none from by rw [← k4]; rfl, hcu]
    exact hv
  have hub : u.nodeBase ≤ u.nodes.length := Nat.le_trans (Nat.le_of_eq k2) (Nat.le_trans B1.heap k3)
  obtain ⟨ns, ob, hns, ro⟩ := origin_run (f := g) (s := u) file line hor (by omega) k1 hub k11.1 hv'
  let v : St := { u with
    file := file
    line := line
    nodes := ns
    pcAssigned := u.pcAssigned + 1
    pc := o
    origin := o
    originSpecified := true
    orgOriginSpecified := ob }
  have hFl : Flat v true := ⟨k1, Nat.le_trans hub hns, rfl, by show 0 ≤ u.totalBytes; rw [k6]; exact z1,
    fun h => (by simp only [emitting, v, k11.2] at h; cases h), fun _ h => (by cases h)⟩
  have q2 : runFile (expandNode (g + 1)) (hasUninit (g + 1)) prog v = (.ok (), t) := (runFile_cons ro).symm.trans q1
  have hsc : v.currentScope = none := k10.trans B1.scope
  have hL : Spec.Layout (ctxOf v) v.lastLabel v.pc true prog ll bs :=
    layout_draft (f := g) (s := v) ⟨hsc, by show ∀ x ∈ u.syms, _; rw [k9]; exact hx⟩ hFl (by omega)
      (by show Spec.Draft (ctxOf u) u.lastLabel o true prog ll bs; rw [hcu, k4]; exact hd) (by
      rw [q2]
      show dirt t ≤ _
      omega)
  obtain ⟨t', q3, a⟩ := layout_run (f := g) (s := v) hFl (by omega) hL
  cases q2.symm.trans q3
  have hcpu : t.cpu = u.cpu ∧ t.format = u.format := by
    obtain ⟨ns', cg, ds, bd, et, fl, ln, hd', ls, w, ic, _, _, rfl⟩ := a
    exact ⟨rfl, rfl⟩
  have hctx : ctxOf { t with nodeBase := t.nodes.length, currentScope := none } = C := by
    obtain ⟨ns', cg, ds, bd, et, fl, ln, hd', ls, w, ic, _, _, rfl⟩ := a
    refine Eq.trans ?_ hcu
    show ctxOf { v with currentScope := none } = ctxOf v
    have hv : v = { v with currentScope := none } := by rw [← hsc]
    rw [← hv]
  have hset : (∀ c, c = t.cpu → Spec.cpuAfter c head = t.cpu) ∧ (Spec.asksC64 head = true → t.format = .c64) := by
    rw [hcpu.1, hcpu.2]
    obtain ⟨_, _, _, _, _, rfl⟩ := a0
    refine ⟨fun c hc => ?_, fun hc => ?_⟩
    · rw [hc]
      exact cpuAfter_twice head _
    · show (if Spec.asksC64 head = true then Format.c64 else _) = _
      rw [if_pos hc]
  generalize hs1 : ({ t with nodeBase := t.nodes.length, currentScope := none } : St) = s1 at *
  have hset' : Spec.cpuAfter s1.cpu head = s1.cpu ∧ (if Spec.asksC64 head = true then Format.c64 else s1.format) = s1.format := by
    subst hs1
    refine ⟨hset.1 _ rfl, ?_⟩
    split
    · exact (hset.2 (by assumption)).symm
    · rfl
  have hLC : Spec.Layout C none o true prog ll bs := by
    have : Spec.Layout (ctxOf u) u.lastLabel o true prog ll bs := hL
    rw [hcu, k4] at this
    exact this
  have hHC : ∀ t ∈ head, Spec.HeadLine C t := fun t ht => headLine_congr rfl (hH t ht)
  -- the final pass
  obtain ⟨t2, q4, rfl⟩ := pass_files p2
  let w0 : St := resetSt { s1 with finalPass := true, outputOpen := true && F.output.isSome }
  have hw0 : ctxOf w0 = C := hctx
  obtain ⟨w, q6, a1⟩ := head_run (f := g) (.stmt file line st :: prog) (ts := head) (s := w0) rfl B2.heap rfl rfl (by omega)
    (fun t ht => by rw [hw0]; exact hHC t ht)
  obtain ⟨nw, fw, lw, iw, hnw, rfl⟩ := a1
  rw [show Spec.cpuAfter w0.cpu head = w0.cpu from hset'.1,
    show (if Spec.asksC64 head = true then Format.c64 else w0.format) = w0.format from hset'.2] at q6
  have hS : Start { w0 with nodes := nw, file := fw, line := lw, allowIllegal := iw } :=
    ⟨rfl, Nat.le_trans B2.heap hnw, rfl, rfl, by show (true && F.output.isSome) = true; rw [hF]; rfl, B2.count, B2.out⟩
  obtain ⟨t3, q5, ho, _, _, hlog, herr, hsy, _⟩ := orgLayout_run (f := g) file line hor hS (by omega)
    (o := o) (e := e) (prog := prog) (ll' := ll) (bs := bs) (by
      have : Spec.eval ((ctxOf w0).env none) 0x1000 e = some (o, false) := by rw [hw0]; exact hv
      exact this) (by
      have : Spec.Layout (ctxOf w0) none o true prog ll bs := by rw [hw0]; exact hLC
      exact this) (by omega)
  have q5 := q6.trans q5
  rw [← hP, ← files_flatten _ _ _ _ (by show 0 ≤ s1.totalBytes; exact Int.le_of_eq B2.count.symm)
    (show t3.errorCount = w0.errorCount from herr)] at q5
  cases q4.symm.trans q5
  exact ⟨hctx, hHC, hLC, ho hne, herr, hsy, hlog⟩

/-! ## The demo program of `Verif.Props.Layout`, assembled from its text -/

theorem Spec.Layout.draft {C : Spec.Context} : ∀ {prog : List Top} {ll : Option Str} {pc : Int} {fresh : Bool}
    {ll' : Option Str} {bs : List Nat}, Spec.Layout C ll pc fresh prog ll' bs → Spec.Draft C ll pc fresh prog ll' bs
  | [], _, _, _, _, _, h => h
  | t :: ts, ll, pc, fresh, ll', bs, h => by
    obtain ⟨ll1, b1, b2, h1, h2, rfl⟩ := h
    have hdef : ∀ {name}, Spec.Defines C ll pc name ll1 → Spec.Declares C ll name ll1 :=
      fun h => ⟨h.1, h.2.1, h.2.2.1, ⟨_, h.2.2.2.1⟩, h.2.2.2.2⟩
    have hst : ∀ {env st}, Spec.Placed C env pc fresh b1 st → Spec.Sized C env pc fresh b1 st := by
      intro env st h
      cases st with
      | assign name e =>
        obtain ⟨v, g1, g2, g3⟩ := h.resolve_right (fun h => h.elim id id)
        exact ⟨⟨v, g1⟩, ⟨v, g2⟩, g3⟩
      | _ => exact h
    refine ⟨ll1, b1, b2, ?_, h2.draft, rfl⟩
    cases t with
    | stmt file line st =>
      cases st with
      | word b n a =>
        cases b with
        | false => exact (placed_word (And.right (show _ ∧ Spec.Placed _ _ _ _ _ _ from h1))).elim
        | true =>
          cases a with
          | some a => exact (placed_word (And.right (show _ ∧ Spec.Placed _ _ _ _ _ _ from h1))).elim
          | none => exact ⟨hdef h1.1, h1.2⟩
      | _ => exact ⟨h1.1, hst h1.2⟩
    | labelled file line name st => exact ⟨hdef h1.1, hst h1.2.1, h1.2.2⟩
    | _ => exact False.elim h1

theorem ctxOf_congr {a b : St} (h1 : a.cpu = b.cpu) (h2 : a.format = b.format) (h3 : a.files = b.files)
    (h4 : a.syms = b.syms) (h5 : a.currentScope = b.currentScope) : ctxOf a = ctxOf b := by
  have e1 : isMacroWord a = isMacroWord b := by
    funext n
    unfold isMacroWord
    rw [h4, h5]
  have e2 : ∀ ll, envOf { a with lastLabel := ll } = envOf { b with lastLabel := ll } := by
    intro ll
    funext n
    unfold envOf look addSymbolKey
    simp only [h4, h5]
  simp only [ctxOf, Spec.Context.mk.injEq]
  exact ⟨h1, by rw [h2], h3, e1, trivial, funext e2, trivial, trivial, trivial⟩

/-- The program meets the hypotheses: after `.c64` in a file of its own, assembled from the empty state, it is accepted after two
resolving passes, and at the start of the second one its statements have encodings. -/
example : let r := assembleProg 60 [[.setC64, .stmt [98] 1 .empty], .stmt [97] 1 (.org (.int 0x1000)) :: flatProg] { output := some true } {}
    r.status = some 0 ∧ ∃ pre s s1 s2, r.passes = pre ++ [(false, s, s1), (true, s1, s2)] ∧ pre.length = 1 ∧
      (∀ x ∈ s.syms, x.isVar = false ∧ x.isMacroParam = false) ∧
      Spec.eval ((ctxOf s).env none) 0x1000 (.int 0x1000) = some (0x1000, false) ∧
      (∀ t ∈ [.setC64, .stmt [98] 1 .empty], Spec.HeadDraft (Spec.settle (ctxOf s) [.setC64, .stmt [98] 1 .empty]) t) ∧
      Spec.Draft (Spec.settle (ctxOf s) [.setC64, .stmt [98] 1 .empty]) none 0x1000 true flatProg (some (cstr! "tab")) flatBytes ∧ s2.out = [0x00, 0x10] ++ flatBytes := by
  intro r
  have hst : r.status = some 0 := by decide +kernel
  obtain ⟨pre, s, s1, s2, hr, _⟩ := C29_success_partial _ _ _ hst
  have hr : r.passes = pre ++ [(false, s, s1), (true, s1, s2)] := hr
  have hlen : r.passes.length = 3 := by decide +kernel
  have hpre : pre.length = 1 := by
    rw [hr] at hlen
    simpa using hlen
  have hs : r.passes[1]? = some (false, s, s1) := by
    rw [hr, List.getElem?_append_right (by omega), hpre]
    rfl
  have hs2 : r.passes[2]? = some (true, s1, s2) := by
    rw [hr, List.getElem?_append_right (by omega), hpre]
    rfl
  have k1 : r.passes[1]?.map (fun e => e.2.1.cpu) = some flatSt.cpu := by decide +kernel
  have k2 : r.passes[1]?.map (fun e => e.2.1.format) = some flatSt.format := by decide +kernel
  have k3 : r.passes[1]?.map (fun e => e.2.1.files) = some flatSt.files := by decide +kernel
  have k4 : r.passes[1]?.map (fun e => e.2.1.syms) = some flatSt.syms := by decide +kernel
  have k5 : r.passes[1]?.map (fun e => e.2.1.currentScope) = some flatSt.currentScope := by decide +kernel
  have hout : r.passes[2]?.map (fun e => e.2.2.out) = some ([0x00, 0x10] ++ flatBytes) := by decide +kernel
  rw [hs] at k1 k2 k3 k4 k5
  rw [hs2] at hout
  simp only [Option.map_some, Option.some.injEq] at k1 k2 k3 k4 k5 hout
  refine ⟨hst, pre, s, s1, s2, hr, hpre, ?_, rfl, ?_, ?_, hout⟩
  · rw [k4]
    decide
  · simp [Spec.HeadDraft]
  · rw [ctxOf_congr k1 k2 k3 k4 k5]
    exact flat_layout.draft

/-- An assignment and a setting before `*=`. -/
example : let head : List Top := [.setCpu .c65C02, .stmt [97] 1 (.assign [107] (.int 5))]
    let r := assembleProg 60 [head ++ [.stmt [97] 2 (.pcAssign (.int 0x1000)), .stmt [97] 3 (.data 1 (.expr (.sym [107])) [])]]
      { output := some true } {}
    r.status = some 0 ∧ ∃ pre s s1 s2, r.passes = pre ++ [(false, s, s1), (true, s1, s2)] ∧
      (∀ x ∈ s.syms, x.isVar = false ∧ x.isMacroParam = false) ∧ (∀ t ∈ head, Spec.HeadDraft (Spec.settle (ctxOf s) head) t) ∧
      Spec.Draft (Spec.settle (ctxOf s) head) none 0x1000 true [.stmt [97] 3 (.data 1 (.expr (.sym [107])) [])] none [5] ∧
      s2.out = [5] := by
  intro head r
  have hst : r.status = some 0 := by decide +kernel
  obtain ⟨pre, s, s1, s2, hr, _⟩ := C29_success_partial _ _ _ hst
  have hr : r.passes = pre ++ [(false, s, s1), (true, s1, s2)] := hr
  have hlen : r.passes.length = 3 := by decide +kernel
  have hpre : pre.length = 1 := by
    rw [hr] at hlen
    simpa using hlen
  have hs : r.passes[1]? = some (false, s, s1) := by
    rw [hr, List.getElem?_append_right (by omega), hpre]
    rfl
  have hs2 : r.passes[2]? = some (true, s1, s2) := by
    rw [hr, List.getElem?_append_right (by omega), hpre]
    rfl
  have k4 : r.passes[1]?.map (fun e => e.2.1.syms.all fun x => x.isVar == false && x.isMacroParam == false) = some true := by
    decide +kernel
  have k5 : r.passes[1]?.map (fun e => (ctxOf e.2.1).env none [107]) = some (some 5) := by decide +kernel
  have hout : r.passes[2]?.map (fun e => e.2.2.out) = some [5] := by decide +kernel
  rw [hs] at k4 k5
  rw [hs2] at hout
  simp only [Option.map_some, Option.some.injEq] at k4 k5 hout
  refine ⟨hst, pre, s, s1, s2, hr, by simpa using k4, ?_, ?_, hout⟩
  · intro t ht
    simp only [head, List.mem_cons, List.not_mem_nil, or_false] at ht
    rcases ht with rfl | rfl
    · trivial
    · exact ⟨⟨5, rfl⟩, 5, k5⟩
  · refine ⟨none, [5], [], ⟨rfl, Or.inl ⟨Or.inr (Or.inl rfl), ?_⟩⟩, ⟨rfl, rfl⟩, rfl⟩
    have k5' : (Spec.settle (ctxOf s) head).env none [107] = some 5 := k5
    show (Spec.itemValue ((Spec.settle (ctxOf s) head).env none) 0x1000 (.sym [107]) |>.bind (Spec.number 1)).bind _ = _
    simp only [Spec.itemValue, Spec.kids, Spec.eval, k5', List.all_nil, if_true]
    rfl

end Verif
