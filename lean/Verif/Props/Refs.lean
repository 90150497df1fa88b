import Verif.Lemmas.PassInv
import Verif.Lemmas.Line
import Verif.Props.Pass

/-! # Property C44: references agree with the final addresses -/

namespace Verif

/-! ## Counterexamples -/

/-- `bne +` over 200 bytes:
```
        .org $1000
        bne +
        .fill 234, 200
+       nop
```
-/
def plusProg : Program := [[
  .stmt [97] 1 (.org (.int 0x1000)),
  .stmt [97] 2 (.op Ins._bne .r (some (.sym [43]))),
  .stmt [97] 3 (.fill (.int 234) (.int 200)),
  .labelled [97] 4 [43] (.op Ins._nop .i none)]]

/-- **C44 is false.**  The label `+` moves from `$10CA` to `$10CD` in the final pass, because the branch is expanded to
`beq *+5 : jmp +`, which was not known in the only resolving pass.  The move is counted, but nobody looks at the counter
after the final pass: assembly succeeds with a warning about the branch, and the `jmp` goes to `$10CA`, three bytes
before the label. -/
theorem C44_plus_false :
    let r := assembleProg 300 plusProg { output := some true } {}
    let s := ((r.passes.getLast?).map (·.2.2)).getD {}
    r.status = some 0 ∧ (r.passes.map (·.1)) = [false, true] ∧ s.errorCount = 0 ∧ s.symValueChanged = 1 ∧
    s.out.take 5 = [0xF0, 0x03, 0x4C, 0xCA, 0x10] ∧ s.plusTab.map (·.value) = [0x10CD] := by
  decide +kernel

/-- `jmp -` with no label `-` before it. -/
def minusProg : Program := [[
  .stmt [97] 1 (.org (.int 0x1000)),
  .stmt [97] 2 (.op Ins._jmp .a (some (.sym [45])))]]

/-- **C44 is false**, second case: a reference to an anonymous label that does not exist is assembled as `jmp $0000`
without any message. -/
theorem C44_minus_false :
    let r := assembleProg 300 minusProg { output := some true } {}
    let s := ((r.passes.getLast?).map (·.2.2)).getD {}
    r.status = some 0 ∧ s.log = [] ∧ s.out = [0x4C, 0, 0] ∧ s.minusTab = [] := by
  decide +kernel

/-! ## Passes without changes -/

private theorem runFile_split {ex : Ptr → M Int} {hu : Ptr → M Bool} : ∀ {a : List Top} (b : List Top) {s t : St},
    runFile ex hu a s = (.ok (), t) → ∃ b', (b' = b ∨ b' = []) ∧ runFile ex hu (a ++ b) s = runFile ex hu b' t
  | [], b, _, _, h => by cases h; exact ⟨b, Or.inl rfl, rfl⟩
  | x :: a, b, s, t, h => by
    simp only [List.cons_append, runFile, run_bind] at h ⊢
    rcases hr : runTop ex hu x s with ⟨r, s'⟩
    rw [hr] at h
    cases r with
    | ok g =>
      cases g with
      | true => exact runFile_split (a := a) b h
      | false => exact ⟨[], Or.inr rfl, h⟩
    | _ => cases h

private theorem forEachM_split {α : Type} {body : α → M Unit} : ∀ {a b : List α} {s t : St},
    forEachM body a s = (.ok (), t) → forEachM body (a ++ b) s = forEachM body b t
  | [], _, _, _, h => by cases h; rfl
  | x :: a, b, s, t, h => by
    simp only [List.cons_append, forEachM, run_bind] at h ⊢
    rcases hr : body x s with ⟨r, s'⟩
    rw [hr] at h
    cases r with
    | ok _ => exact forEachM_split (a := a) h
    | _ => cases h

private theorem stable_pass (f : Nat) (pre post : Program) (a b : List Top) (output final : Bool) (s u t : St)
    (hb : 0 ≤ s.totalBytes) {w0 : List Heap.Col} (hg : Heap.Good w0 s)
    (hpre : (resetLex >>= fun _ => forEachM (runFile (expandNode f) (hasUninit f)) pre)
      { s with finalPass := final, outputOpen := final && output } = (.ok (), u))
    (ha : runFile (expandNode f) (hasUninit f) a u = (.ok (), t))
    (hc : (runPass f (pre ++ (a ++ b) :: post) output final s).2.symValueChanged = 0) :
    let e := (runPass f (pre ++ (a ++ b) :: post) output final s).2
    (∀ (i : Nat) (x : Sym), t.syms[i]? = some x → ∃ x', e.syms[i]? = some x' ∧ x'.fullname = x.fullname ∧
      (x'.isVar = false → x'.isMacroParam = false → x'.isMacroName = false → x'.isPlusMinus = false →
        x.value = x'.value)) ∧
    (∀ name v, envOf t name = some v → ∃ i x', look t name = some i ∧ e.syms[i]? = some x' ∧
      (x'.isVar = false → x'.isMacroParam = false → x'.isMacroName = false → x'.isPlusMinus = false →
        x'.value = v)) ∧
    (∀ m, (m ∈ t.plusTab → m ∈ e.plusTab) ∧ (m ∈ t.minusTab → m ∈ e.minusTab)) := by
  intro e
  have hp := Program.uses_all (pre ++ (a ++ b) :: post)
  let s0 := resetSt { s with finalPass := final, outputOpen := final && output }
  have hpre' : forEachM (runFile (expandNode f) (hasUninit f)) pre s0 = (.ok (), u) := by
    rw [run_bind, resetLex_run] at hpre
    exact hpre
  simp only [Program.uses, List.all_append, List.all_cons, Bool.and_eq_true] at hp
  obtain ⟨hp1, ⟨hp2, hp3⟩, hp4⟩ := hp
  have T1 := passBody_tsteps (T := fun _ => true) f pre hp1 s0 (fun _ => hb)
  rw [hpre'] at T1
  have C0 : Cond (fun _ => true) final (final && output) s0 := ⟨rfl, rfl, fun _ => hb, fun h => absurd h (by decide)⟩
  have C1 := C0.tsteps T1
  have T2 := TPr.runFile (T := fun _ => true) (expandNode_pr final (final && output) f) (Pr.hasUninit f) a hp2 u C1
  rw [ha] at T2
  have C2 := C1.tsteps T2
  -- the rest of the pass
  obtain ⟨b', hb', hsp⟩ := runFile_split b ha
  have hp3' : b'.all (Top.uses fun _ => true) = true := by
    rcases hb' with rfl | rfl
    · exact hp3
    · rfl
  have hbody : (forEachM (runFile (expandNode f) (hasUninit f)) (pre ++ (a ++ b) :: post) s0).2 =
      (forEachM (runFile (expandNode f) (hasUninit f)) (b' :: post) t).2 := by
    rw [forEachM_split hpre']
    show ((runFile (expandNode f) (hasUninit f) (a ++ b) >>= fun _ => _) u).2 =
      ((runFile (expandNode f) (hasUninit f) b' >>= fun _ => _) t).2
    rw [run_bind, run_bind, hsp]
  have T3 := passBody_tsteps (T := fun _ => true) f (b' :: post)
    (by simp only [Program.uses, List.all_cons, Bool.and_eq_true]; exact ⟨hp3', hp4⟩) t (by
      rw [C2.finalPass]
      exact C2.totalBytes)
  rw [← hbody] at T3
  have hend : e.syms = (forEachM (runFile (expandNode f) (hasUninit f)) (pre ++ (a ++ b) :: post) s0).2.syms ∧
      e.symValueChanged = (forEachM (runFile (expandNode f) (hasUninit f)) (pre ++ (a ++ b) :: post) s0).2.symValueChanged ∧
      e.plusTab = (forEachM (runFile (expandNode f) (hasUninit f)) (pre ++ (a ++ b) :: post) s0).2.plusTab ∧
      e.minusTab = (forEachM (runFile (expandNode f) (hasUninit f)) (pre ++ (a ++ b) :: post) s0).2.minusTab := by
    show (parsePass f _ _).2.syms = _ ∧ (parsePass f _ _).2.symValueChanged = _ ∧ _ ∧ _
    rcases parsePass_cases f (pre ++ (a ++ b) :: post) { s with finalPass := final, outputOpen := final && output } with
      ⟨w, h1, h2⟩ | ⟨r, w, h1, _, h2⟩
    · rw [h1]
      refine ⟨by rw [h2], by rw [h2], ?_, ?_⟩ <;> (simp only [e, runPass, h2])
    · rw [h1]
      refine ⟨by rw [h2], by rw [h2], ?_, ?_⟩ <;> (simp only [e, runPass, h2])
  obtain ⟨w1, _, G1, _⟩ := Heap.Hp.passBody (w := w0) f pre w0 s0 (List.prefix_refl _) (hg.of rfl rfl) (fun e he => by cases he)
  rw [hpre'] at G1
  obtain ⟨w2, _, G2, _⟩ := Heap.Hp.runFile (w := w1) (Heap.sem_expandNode f) a w1 u (List.prefix_refl _) G1 (fun e he => by cases he)
  rw [ha] at G2
  obtain ⟨_, _, _, Z3, _⟩ := Heap.Hp.passBody (w := w2) f (b' :: post) w2 t (List.prefix_refl _) G2 (fun e he => by cases he)
  rw [← hbody] at Z3
  generalize (forEachM (runFile (expandNode f) (hasUninit f)) (pre ++ (a ++ b) :: post) s0).2 = w at *
  have hc0 : w.symValueChanged = 0 := hend.2.1.symm.trans hc
  have m1 := T1.svc_mono
  have m2 := T2.svc_mono
  have m3 := T3.svc_mono
  have hs0 : s0.symValueChanged = 0 := rfl
  have key := Z3.val (by omega)
  have pm := T3.pmLe (by omega)
  have main : ∀ (i : Nat) (x : Sym), t.syms[i]? = some x → ∃ x', e.syms[i]? = some x' ∧ x'.fullname = x.fullname ∧
      (x'.isVar = false → x'.isMacroParam = false → x'.isMacroName = false → x'.isPlusMinus = false →
        x.value = x'.value) := by
    intro i x hx
    obtain ⟨x', hx', _, h2, _⟩ := T3.symsLe i x hx
    refine ⟨x', by rw [hend.1]; exact hx', h2, fun a b c d => ?_⟩
    exact (key i x x' hx hx' (by simp [Sym.ordinary, a, b, c, d])).symm
  refine ⟨main, ?_, ?_⟩
  · intro name v hv
    obtain ⟨_, i, x, h1, h2, h3, rfl⟩ := envOf_some hv
    obtain ⟨x', h4, _, h5⟩ := main i x h2
    exact ⟨i, x', h1, h4, fun a b c d => (h5 a b c d).symm⟩
  · intro m
    rw [hend.2.2.1, hend.2.2.2]
    exact ⟨fun h => pm.1.subset h, fun h => pm.2.subset h⟩

/-- **C44, part**.  Take any program and any place between two lines of it: `pre` are the files before, `a` the lines
before in the same file.  Take any pass `e` of an assembly of it, and let `t` be the state in which the pass arrives
there.  If the pass ends with the change counter at zero then each ordinary symbol (not a variable, macro parameter,
macro name or anonymous label) has in `t` the value it has at the end of the pass; so every name that the next statement
refers to has its final value.  And the anonymous labels known in `t` have their final addresses.  What is missing for
C44: the assembler does not look at the change counter after the final pass (`C44_plus_false`), and missing anonymous
labels are not reported (`C44_minus_false`). -/
theorem C44_stable_partial (f : Nat) (pre post : Program) (a b : List Top) (F : AsmFiles) (s : St)
    (hb : 0 ≤ s.totalBytes) (hn : s.nodes = []) (hm : ∀ x ∈ s.syms, x.macroNode = none) :
    ∀ e ∈ (assembleProg f (pre ++ (a ++ b) :: post) F s).passes, e.2.2.symValueChanged = 0 → ∀ u t,
    (resetLex >>= fun _ => forEachM (runFile (expandNode f) (hasUninit f)) pre)
      { e.2.1 with finalPass := e.1, outputOpen := e.1 && F.output.isSome } = (.ok (), u) →
    runFile (expandNode f) (hasUninit f) a u = (.ok (), t) →
    (∀ (i : Nat) (x : Sym), t.syms[i]? = some x → ∃ x', e.2.2.syms[i]? = some x' ∧ x'.fullname = x.fullname ∧
      (x'.isVar = false → x'.isMacroParam = false → x'.isMacroName = false → x'.isPlusMinus = false →
        x.value = x'.value)) ∧
    (∀ name v, envOf t name = some v → ∃ i x', look t name = some i ∧ e.2.2.syms[i]? = some x' ∧
      (x'.isVar = false → x'.isMacroParam = false → x'.isMacroName = false → x'.isPlusMinus = false →
        x'.value = v)) ∧
    (∀ m, (m ∈ t.plusTab → m ∈ e.2.2.plusTab) ∧ (m ∈ t.minusTab → m ∈ e.2.2.minusTab)) := by
  intro e he hc u t hu ht
  obtain ⟨⟨⟨w, hw⟩, h0⟩, hr⟩ := assemble_starts (passSem f _ F.output.isSome) F
    (fun a => (∃ w, Heap.Good w a) ∧ 0 ≤ a.totalBytes) (by
      intro a' b' hab ⟨⟨w, hw⟩, h0⟩
      obtain ⟨v, _, h, _⟩ := Heap.runPass_good f _ F.output.isSome false a' hw
      have h2 := C17_pass f (pre ++ (a ++ b) :: post) F.output.isSome a'
      rw [passSem_parse hab] at h h2
      exact ⟨⟨v, h⟩, by rw [h2.2.1]; exact h0⟩) s ⟨⟨[], Heap.Good.start hn hm⟩, hb⟩ e he
  have h := passSem_parse hr
  have := stable_pass f pre post a b F.output.isSome e.1 e.2.1 u t h0 hw hu ht (by rw [h]; exact hc)
  rw [h] at this
  exact this

/-! The final pass over the demo program (`C30`) is such a pass: after the second line the symbol `loop` is known, and
used by the third.  The final pass over `plusProg` is not. -/

private def tprog : Program := [[
  .stmt [97] 1 (.org (.int 0x1000)),
  .labelled [97] 2 (cstr! "loop") (.op Ins._lda .I (some (.int 5))),
  .stmt [97] 3 (.op Ins._bne .a (some (.sym (cstr! "end")))),
  .labelled [97] 4 (cstr! "end") (.op Ins._jmp .a (some (.sym (cstr! "loop"))))]]

private def lastStart : St := (((assembleProg 40 tprog { output := some true } {}).passes.getLast?).map (·.2.1)).getD {}

example : (runPass 40 tprog true true lastStart).2.symValueChanged = 0 ∧
    (runPass 40 tprog true true lastStart).2.out = [0xA9, 5, 0xD0, 0, 0x4C, 0, 0x10] := by
  decide +kernel

example : let r := runFile (expandNode 40) (hasUninit 40) ((tprog.headD []).take 2) ((resetLex { lastStart with finalPass := true, outputOpen := true }).2);
    r.1 = .ok () ∧ envOf r.2 (cstr! "end") = some 0x1004 := by
  decide +kernel

end Verif
