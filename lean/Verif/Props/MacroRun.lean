import Verif.Lemmas.MacroProgram
import Verif.Lemmas.Subst
import Verif.Props.Block

/-! # C58: what macro calls emit -/

namespace Verif

/-! ## The text of the macro -/

/-- **C58** (text replacement).  A call whose arguments mention no parameters has the bytes of the text of the macro in which
the values of the arguments are written in place of the parameters; address and variables are the same afterwards, too.  This
holds for macros that call no macros; `C32_swap_false` shows why arguments that mention parameters are excluded, and
parameters that a macro called with fewer arguments inherits from its caller are the reason why nested calls are. -/
theorem C58_text {C : Spec.Context} {slot : Str → Option Nat} {first : Bool} {name : Str} {args : Option (Item × List Item)}
    {body : Stmt} {k k' : Spec.Cfg} {bs : List Nat} (hm : C.macros name = some body)
    (hA : C.param [65] = none ∧ C.param [97] = none) (hslot : ∀ n, C.param n ≠ none → slot n = none)
    (hargs : ∀ x ∈ Spec.argList args, ∀ n ∈ x.names, C.param n = none)
    (hb : body.leaves (Spec.actual C k (Spec.argList args)) = true)
    (h : Spec.Runs C slot (.word first name args) k k' bs) :
    ∃ l, Spec.Runs C slot (body.subst (Spec.actual C k (Spec.argList args)))
        ⟨fun n => if Spec.global n then k.env n else none, k.pc, k.fresh⟩ l bs ∧
      k'.pc = l.pc ∧ k'.fresh = l.fresh ∧ ∀ n, k'.env n = if (slot n).isSome then l.env n else k.env n := by
  cases h with
  | plain h => exact h.elim
  | @call _ _ _ body' env _ k1 _ hm' hn ha h =>
    rw [hm] at hm'
    cases hm'
    have hbind := bind_env (env0 := k.env) hargs (fun _ _ => rfl) ha
    have hpar : ∀ n, C.param n = none → Spec.actual C k (Spec.argList args) n = none := by
      intro n hn
      unfold Spec.actual
      rw [hn]
      split <;> rfl
    have hs : ∀ n, Spec.actual C k (Spec.argList args) n ≠ none → slot n = none := fun n hn => hslot n fun hp => hn (hpar n hp)
    have hal : Alike (Spec.actual C k (Spec.argList args)) ⟨fun n => if Spec.global n then env n else none, k.pc, k.fresh⟩
        ⟨fun n => if Spec.global n then k.env n else none, k.pc, k.fresh⟩ := by
      refine ⟨⟨fun n v hv => ?_, fun n hv => ?_⟩, rfl, rfl⟩
      · show (if Spec.global n then env n else none) = some v
        unfold Spec.actual at hv
        split at hv
        · rename_i hg
          rw [if_pos hg]
          split at hv
          · rename_i i hi
            split at hv
            · rename_i e he
              have hlt : i < (Spec.argList args).length := (List.getElem?_eq_some_iff.1 he).1
              obtain ⟨e', v', a1, a2, a3⟩ := (hbind n).2.2 i (by rw [hi]; congr 1; omega) hlt
              rw [he] at a1
              cases a1
              rw [hv] at a2
              cases a2
              exact a3
            · cases hv
          · cases hv
        · cases hv
      · show (if Spec.global n then k.env n else none) = if Spec.global n then env n else none
        cases hg : Spec.global n with
        | false => rfl
        | true =>
          simp only [if_true]
          cases hp : C.param n with
          | none => exact ((hbind n).2.1 hp).symm
          | some i =>
            by_cases hlt : i < 1 ∨ 1 + (Spec.argList args).length ≤ i
            · exact ((hbind n).1 i hp hlt).symm
            · obtain ⟨i, rfl⟩ : ∃ j, i = j + 1 := ⟨i - 1, by omega⟩
              obtain ⟨e, v, a1, a2, a3⟩ := (hbind n).2.2 i (by rw [hp]; congr 1; omega) (by omega)
              unfold Spec.actual at hv
              rw [if_pos hg, hp] at hv
              simp only [a1] at hv
              rw [a2] at hv
              cases hv
    obtain ⟨l, h1, h2⟩ := runs_subst ⟨hpar _ hA.1, hpar _ hA.2⟩ hs h hb _ hal
    refine ⟨l, h1, h2.pc.symm, h2.fresh.symm, fun n => ?_⟩
    show (if (slot n).isSome then k1.env n else k.env n) = _
    cases hsn : slot n with
    | none => rfl
    | some c =>
      simp only [Option.isSome_some, if_true]
      refine (h2.env.2 n ?_).symm
      cases hz : Spec.actual C k (Spec.argList args) n with
      | none => rfl
      | some v =>
        rw [hs n (by rw [hz]; simp)] at hsn
        cases hsn

/-! ## Programs -/

/-- **C58**.  Let a program consist of `.org`, flat lines, blocks, macro definitions and macro calls, where calls may be
nested and may stand in blocks.  All symbols have their final values, as in the last pass; the names of macros and the parameters
are known.  Then the pass writes the header and the bytes that the rules of `Spec.MacroSource` give to the program, and reports
nothing.  According to these rules a call stands for the last text defined under its name, with the arguments as values of
the parameters, and afterwards the parameters have their old values.  Missing: local names and labels in macros and in
blocks that call macros, sections, and macros that are called before they are defined. -/
theorem C58_program_partial {s : St} {e : Expr} {o : Int} (file : Str) (line : Int) (hs : Start s) (hsc : s.currentScope = none)
    (hll : Spec.CLabel s.lastLabel) (hvar : ∀ x, x ∈ s.syms → x.isVar = true → 64 ∉ x.fullname)
    (hcn : ∀ x ∈ s.syms, 0 ∉ x.fullname) (hpar : ParamsSet s)
    (hv : Spec.eval (envOf s) s.pc e = some (o, false)) {prog : List Top} {g' : Spec.Stage} {bs : List Nat}
    (h : Spec.MacroSource (slotOf s) (macroCtx s) prog ⟨(macroCtx s).env, s.lastLabel, o, true⟩ g' bs) :
    ∃ f0, ∀ f, f0 ≤ f → ∃ s', runFile (expandNode f) (hasUninit f) (.stmt file line (.org e) :: prog) s = (.ok (), s') ∧
      (bs ≠ [] → s'.out = headerBytes s.format o ++ bs) ∧ s'.pc = o + bs.length ∧
      (∀ n, envOf s' n = g'.env g'.last n) ∧ s'.lastLabel = g'.last ∧ s'.paramStack = s.paramStack ∧
      (∃ w, s'.log = s.log ++ List.replicate w .branchOutOfRange) ∧ s'.errorCount = s.errorCount ∧
      s'.symValueChanged = s.symValueChanged := by
  have hcs : ∀ x ∈ s.syms, CStr x.fullname := fun x hx c hc => by
    rintro rfl
    exact hcn x hx hc
  obtain ⟨f0, hr⟩ := source_run h
  refine ⟨max f0 (e.depth + 2), fun f hf => ?_⟩
  obtain ⟨f, rfl⟩ : ∃ g, f = g + 1 := ⟨f - 1, by omega⟩
  obtain ⟨ns, hns, r⟩ := org_run (f := f) file line (by omega) hs.running hs.heap hs.noOrg hv
  let s1 : St := { s with
    file := file
    line := line
    nodes := ns
    pcAssigned := s.pcAssigned + 1
    pc := o
    origin := o
    originSpecified := true
    orgOriginSpecified := true }
  have hz := hs.nothing
  have hF : Flat s1 true := ⟨hs.running, Nat.le_trans hs.heap hns, rfl, by show 0 ≤ s.totalBytes; omega,
    fun _ => by show o = o + _; rw [if_pos hz.1]; omega, fun _ hh => by cases hh⟩
  have hcalls : Calls (macroCtx s) (slotOf s) s1 := by
    refine ⟨hsc, hcs, hll, fun ll h' => slotOf_label hvar hsc h' hll, rfl, ?_, fun n i _ => numOf_iff hsc hll hcs hpar, fun n b hb => by cases hb⟩
    intro i h1 h2
    obtain ⟨i, rfl⟩ : ∃ j, i = j + 1 := ⟨i - 1, by omega⟩
    exact hpar i h2
  have hA : MacroAt (macroCtx s) (slotOf s) s1 ⟨(macroCtx s).env, s.lastLabel, o, true⟩ :=
    ⟨rfl, rfl, rfl, rfl, rfl, fun _ _ => rfl, rfl, rfl, hF, fun n hn => slotOf_local hvar hsc hll hn, fun n b hb => (by cases hb), hcalls⟩
  obtain ⟨s', C', r2, a, ha⟩ := hr (f + 1) (by omega) s1 hA
  refine ⟨s', (runFile_cons r).trans r2, ?_⟩
  have henv : ∀ n, envOf s' n = g'.env g'.last n := congrFun ha.here
  have hlast := ha.last
  obtain ⟨ys, ns0, md, mi, ll, ns', cg, ds, bd, et, fl, ln, hd', ls, w, ic, _, g2, rfl⟩ := a
  have hem : emitting s1 = true := by
    show (s.finalPass && s.outputOpen && true) = true
    rw [hs.final, hs.output]
    rfl
  refine ⟨?_, rfl, henv, hlast, rfl, ⟨w, rfl⟩, rfl, rfl⟩
  intro hne
  rcases g2 with rfl | ⟨_, rfl⟩
  · show s.out ++ (if emitting s1 then outHdr s1 ++ bs else []) = _
    rw [if_pos hem, hz.2, List.nil_append]
    congr 1
    show (if s.totalBytes = 0 then headerBytes s.format o else []) = _
    rw [if_pos hz.1]
  · exact absurd rfl hne

/-! A concrete program:

```
        .org $1000
        .macro b
        .byte \1
        .endm
        .macro d
        b \2
        b \1
        .endm
start   lda #1
        d 5,7
        .if start
        d 8,start/256
        .endif
```
-/

private def p1 : Str := paramName 1
private def p2 : Str := paramName 2
private def n_b : Str := cstr! "b"
private def n_d : Str := cstr! "d"
private def n_s : Str := cstr! "start"

private def sm : St where
  finalPass := true
  outputOpen := true
  format := .c64
  maxMacroParam := 2
  syms := [{ name := n_b, fullname := n_b, value := 0x1000, isInit := true, isMacroName := true, macroNode := some 4 },
    { name := n_d, fullname := n_d, value := 0x1000, isInit := true, isMacroName := true, macroNode := some 15 },
    { name := n_s, fullname := n_s, value := 0x1000, isInit := true },
    { name := p1, fullname := p1, value := 5, isInit := true, isMacroParam := true },
    { name := p2, fullname := p2, value := 7, isInit := true, isMacroParam := true }]

private def body_b' : Stmt := .data 1 (.expr (.sym p1)) []
private def body_d : Stmt := .seq (.word false n_b (some (.expr (.sym p2), []))) (.word false n_b (some (.expr (.sym p1), [])))
private def call1 : Stmt := .word false n_d (some (.expr (.int 5), [.expr (.int 7)]))
private def call2 : Stmt := .word false n_d (some (.expr (.int 8), [.expr (.bin .div (.sym n_s) (.int 256))]))

private def prog_m : List Top := [
  .stmt [97] 2 (.macroDef n_b body_b'), .stmt [97] 5 (.macroDef n_d body_d),
  .labelled [97] 9 n_s (.op Ins._lda .I (some (.int 1))), .stmt [97] 10 call1, .stmt [97] 11 (.ifThen (.sym n_s) call2)]

private def C2 : Spec.Context := ((macroCtx sm).define n_b body_b').define n_d body_d

example : Start sm ∧ sm.currentScope = none ∧ Spec.CLabel sm.lastLabel ∧
    (∀ x, x ∈ sm.syms → x.isVar = true → 64 ∉ x.fullname) ∧ (∀ x ∈ sm.syms, 0 ∉ x.fullname) ∧ ParamsSet sm ∧
    Spec.eval (envOf sm) sm.pc (.int 0x1000) = some (0x1000, false) ∧
    ∃ g', Spec.MacroSource (slotOf sm) (macroCtx sm) prog_m ⟨(macroCtx sm).env, sm.lastLabel, 0x1000, true⟩ g'
      [0xA9, 1, 7, 5, 16, 8] := by
  refine ⟨⟨rfl, by decide, rfl, rfl, rfl, rfl, rfl⟩, rfl, fun l h => (by cases h), by decide +kernel, by decide +kernel, ?_,
    by decide, ?_⟩
  · intro i hi
    obtain rfl | rfl : i = 0 ∨ i = 1 := by
      have : i < 2 := hi
      omega
    · exact ⟨3, _, by decide +kernel, rfl, rfl, rfl, rfl, by decide, by decide⟩
    · exact ⟨4, _, by decide +kernel, rfl, rfl, rfl, rfl, by decide, by decide⟩
  suffices h : ∃ g', Spec.MacroSource (slotOf sm) C2 [.stmt [97] 10 call1, .stmt [97] 11 (.ifThen (.sym n_s) call2)]
      ⟨(macroCtx sm).env, some n_s, 0x1002, false⟩ g' [7, 5, 16, 8] by
    obtain ⟨g', h⟩ := h
    refine ⟨g', .define (by decide) (by decide +kernel) (by decide +kernel) (by decide +kernel) (fun raw h => by simp at h)
      (.define (by decide) (by decide +kernel) (by decide +kernel) (by decide +kernel) ?_ ?_)⟩
    · refine ⟨⟨by decide +kernel, fun raw h => by simp [Spec.argList] at h⟩, by decide +kernel, fun raw h => by simp [Spec.argList] at h⟩
    refine .line (b1 := [0xA9, 1]) (ll := some n_s) ⟨?_, Or.inl (Or.inr ⟨.imm, 1, rfl, by decide +kernel, by decide, ?_⟩),
      Or.inr (by decide)⟩ (fun l h => by cases h; decide) h
    · exact ⟨by decide +kernel, by decide, by decide, by decide +kernel, Or.inl ⟨by decide, rfl⟩⟩
    · exact shortest_of (by decide) (by decide) (by decide) (by decide) (by decide) (by decide +kernel) (by decide +kernel)
        (by decide +kernel)
  exact ⟨_, .block (b1 := [7, 5]) (b2 := [16, 8]) (by decide +kernel) ⟨by decide +kernel, fun raw h => by simp [Spec.argList] at h⟩
    (.call (body := body_d) rfl (by decide +kernel) ⟨5, by decide +kernel, by decide, by decide, 7, by decide +kernel, by decide, by decide, rfl⟩
      (.seq (b1 := [7]) (b2 := [5])
        (.call (body := body_b') rfl (by decide +kernel) ⟨7, by decide +kernel, by decide, by decide, rfl⟩
          (.plain ⟨Or.inr (Or.inl rfl), by decide +kernel⟩))
        (.call (body := body_b') rfl (by decide +kernel) ⟨5, by decide +kernel, by decide, by decide, rfl⟩
          (.plain ⟨Or.inr (Or.inl rfl), by decide +kernel⟩))))
    (.block (b1 := [16, 8]) (b2 := []) (by decide +kernel) ⟨by decide +kernel, fun raw h => by simp [Spec.argList] at h⟩
    (.ifTrue (v := 0x1000) (by unfold Spec.Cfg.value; decide +kernel) (by decide)
      (.call (body := body_d) rfl (by decide +kernel) ⟨8, by decide +kernel, by decide, by decide, 16, by decide +kernel, by decide, by decide, rfl⟩
        (.seq (b1 := [16]) (b2 := [8])
          (.call (body := body_b') rfl (by decide +kernel) ⟨16, by decide +kernel, by decide, by decide, rfl⟩
            (.plain ⟨Or.inr (Or.inl rfl), by decide +kernel⟩))
          (.call (body := body_b') rfl (by decide +kernel) ⟨8, by decide +kernel, by decide, by decide, rfl⟩
            (.plain ⟨Or.inr (Or.inl rfl), by decide +kernel⟩))))) .nil)⟩

private theorem sm_slot (n : Str) : slotOf sm n = none := by
  have hv : ∀ x ∈ sm.syms, x.isVar = false := by decide
  unfold slotOf
  split
  · split
    · split
      · rename_i x hx
        rw [if_neg]
        rw [hv x (List.mem_of_getElem? hx)]
        simp
      · rfl
    · rfl
  · rfl

/-- The call `b 5` is `.byte 5`. -/
example : let k : Spec.Cfg := ⟨(macroCtx sm).env none, 0x1002, false⟩
    let args : Option (Item × List Item) := some (.expr (.int 5), [])
    C2.macros n_b = some body_b' ∧ (C2.param [65] = none ∧ C2.param [97] = none) ∧
    (∀ n, C2.param n ≠ none → slotOf sm n = none) ∧ (∀ x ∈ Spec.argList args, ∀ n ∈ x.names, C2.param n = none) ∧
    body_b'.leaves (Spec.actual C2 k (Spec.argList args)) = true ∧
    body_b'.subst (Spec.actual C2 k (Spec.argList args)) = .data 1 (.expr (.int 5)) [] ∧
    ∃ k', Spec.Runs C2 (slotOf sm) (.word false n_b args) k k' [5] := by
  refine ⟨rfl, by decide +kernel, fun n _ => sm_slot n, ?_, by decide +kernel, ?_, _, .call (body := body_b') rfl (by decide +kernel)
    ⟨5, by decide +kernel, by decide, by decide, rfl⟩ (.plain ⟨Or.inr (Or.inl rfl), by decide +kernel⟩)⟩
  · intro x hx n hn
    simp only [Spec.argList, List.mem_singleton] at hx
    subst hx
    simp [Item.names, Expr.names] at hn
  · have : Spec.actual C2 ⟨(macroCtx sm).env none, 0x1002, false⟩ [.expr (.int 5)] p1 = some 5 := by decide +kernel
    simp only [Spec.argList, body_b', Stmt.subst, Item.subst, Expr.subst, this, List.map_nil]

/-- The first pass leaves these symbols, and the last pass writes these bytes. -/
example : let r1 := runFile (expandNode 40) (hasUninit 40) (.stmt [97] 1 (.org (.int 0x1000)) :: prog_m) { format := .c64 }
    let r := runFile (expandNode 40) (hasUninit 40) (.stmt [97] 1 (.org (.int 0x1000)) :: prog_m) sm
    r1.1 = .ok () ∧ r1.2.syms = sm.syms ∧ r1.2.maxMacroParam = sm.maxMacroParam ∧
    r.1 = .ok () ∧ r.2.out = [0x00, 0x10, 0xA9, 1, 7, 5, 16, 8] ∧ r.2.log = [] := by decide +kernel

end Verif
