import Verif.Lemmas.PassInv
import Verif.Lemmas.Ended
import Verif.Lemmas.HeapParse

/-! # Properties C13 (program level), C17, C26, C30, C42: invariants of whole passes -/

namespace Verif

/-! ## Programs used in the examples -/

/-- Origin, labels, an instruction, data, a macro definition and a call. -/
def demoProg : Program := [[
  .stmt [97] 1 (.org (.int 0x1000)),
  .labelled [97] 2 (cstr! "loop") (.op Ins._lda .I (some (.int 5))),
  .stmt [97] 3 (.op Ins._bne .a (some (.sym (cstr! "loop")))),
  .stmt [97] 4 (.data 1 (.expr (.int 1)) [.str (cstr! "\"ab\"")]),
  .stmt [97] 5 (.macroDef (cstr! "m") (.op Ins._lda .I (some (.sym (cstr! "\\1"))))),
  .stmt [97] 6 (.word true (cstr! "m") (some (.expr (.int 9), []))) ]]

/-- Data without any origin directive. -/
def rawProg : Program := [[ .stmt [97] 1 (.data 1 (.expr (.int 1)) [.expr (.int 2)]) ]]

/-! ## C17: only the final pass writes output -/

/-- **C17** for a syntax tree: with the final-pass flag off, expanding any node of any heap in any state, with
any outcome, leaves the output file, the byte counter, the header bookkeeping and the listing alone. -/
theorem C17_expand (f : Nat) (p : Ptr) (s : St) (h : s.finalPass = false) :
    (expandNode f p s).2.out = s.out ∧ (expandNode f p s).2.totalBytes = s.totalBytes ∧
    (expandNode f p s).2.byteDelta = s.byteDelta ∧ (expandNode f p s).2.listing = s.listing :=
  (expandNode_steps (T := fun _ => true) f p s (by rw [h]; intro c; cases c)).noOut.2 h

/-- **C17** for a whole resolving pass over any program, including everything the parser evaluates. -/
theorem C17_pass (f : Nat) (prog : Program) (output : Bool) (s : St) :
    (runPass f prog output false s).2.out = s.out ∧ (runPass f prog output false s).2.totalBytes = s.totalBytes ∧
    (runPass f prog output false s).2.byteDelta = s.byteDelta ∧
    (runPass f prog output false s).2.listing = s.listing := by
  obtain ⟨t, ht, he⟩ := runPass_tsteps (T := fun _ => true) f prog prog.uses_all output false s (fun c => by cases c)
  have := ht.noOut.2 rfl
  rcases he with he | he <;> (rw [he]; exact this)

/-- **C17** for an assembly: whenever a pass starts, the output file has its initial contents and nothing has
been counted; so all bytes come from the final pass. -/
theorem C17_assemble (f : Nat) (prog : Program) (F : AsmFiles) (s : St) :
    ∀ e ∈ (assembleProg f prog F s).passes,
      e.2.1.out = s.out ∧ e.2.1.totalBytes = s.totalBytes ∧ e.2.1.listing = s.listing ∧
      (e.1 = false → e.2.2.out = s.out ∧ e.2.2.totalBytes = s.totalBytes ∧ e.2.2.listing = s.listing) := by
  intro e he
  have key := assemble_starts (passSem f prog F.output.isSome) F
    (fun a => a.out = s.out ∧ a.totalBytes = s.totalBytes ∧ a.listing = s.listing) (by
      intro a b hab ha
      have hp := C17_pass f prog F.output.isSome a
      rw [passSem_parse hab] at hp
      exact ⟨hp.1.trans ha.1, hp.2.1.trans ha.2.1, hp.2.2.2.trans ha.2.2⟩) s ⟨rfl, rfl, rfl⟩ e he
  obtain ⟨ha, hp⟩ := key
  refine ⟨ha.1, ha.2.1, ha.2.2, fun hf => ?_⟩
  rw [hf] at hp
  have hq := C17_pass f prog F.output.isSome e.2.1
  rw [passSem_parse hp] at hq
  exact ⟨hq.1.trans ha.1, hq.2.1.trans ha.2.1, hq.2.2.2.trans ha.2.2⟩

/-- The theorem is not vacuous: this assembly performs two resolving passes and a final one, and the final one
writes eight bytes. -/
example : ((assembleProg 30 demoProg { output := some true } {}).passes.map
    fun e => (e.1, e.2.1.out, e.2.2.out.length)) = [(false, [], 0), (false, [], 0), (true, [], 9)] := by
  decide +kernel

/-! ## C26: symbols are never lost -/

/-- What C26 promises about two symbol tables: every symbol is still there under the same names; defined symbols
stay defined; names that could be looked up can still be looked up. -/
structure SymsKept (a b : List Sym) : Prop where
  same : ∀ (i : Nat) (x : Sym), a[i]? = some x → ∃ x' : Sym, b[i]? = some x' ∧ x'.name = x.name ∧
    x'.fullname = x.fullname ∧ x'.scope = x.scope ∧ (x.isInit = true → x'.isInit = true)
  found : ∀ (scope : Option Str) (name : Str) (i : SymPtr), lookUpSymbol scope a name = some i →
    ∃ j, lookUpSymbol scope b name = some j

private theorem SymsKept.of {a b : List Sym} (h : SymsLe a b) : SymsKept a b := by
  constructor
  · intro i x hx
    obtain ⟨x', h1, h2, h3, h4, _, h6, _⟩ := h i x hx
    exact ⟨x', h1, h2, h3, h4, h6⟩
  · intro scope name i hi
    unfold lookUpSymbol at hi ⊢
    cases scope with
    | none =>
      obtain ⟨j, hj, _⟩ := symFind_mono h hi
      exact ⟨j, hj⟩
    | some sc =>
      simp only at hi ⊢
      rcases h1 : symFind b (dotted sc name) with _ | j
      · rcases h2 : symFind a (dotted sc name) with _ | k
        · rw [h2] at hi
          obtain ⟨j, hj, _⟩ := symFind_mono h hi
          exact ⟨j, hj⟩
        · obtain ⟨j, hj, _⟩ := symFind_mono h h2
          rw [h1] at hj
          cases hj
      · exact ⟨j, rfl⟩

/-- **C26** for a syntax tree.  (The byte counter is only required to be non-negative, which holds for every
state an assembly reaches.) -/
theorem C26_expand (f : Nat) (p : Ptr) (s : St) (h : 0 ≤ s.totalBytes) :
    SymsKept s.syms (expandNode f p s).2.syms ∧ s.errorCount ≤ (expandNode f p s).2.errorCount :=
  have hs := expandNode_steps (T := fun _ => true) f p s (fun _ => h)
  ⟨.of hs.symsLe, hs.frame.errorCount⟩

/-- **C26** for a pass (the pass itself starts by setting the error count to 0). -/
theorem C26_pass (f : Nat) (prog : Program) (output final : Bool) (s : St) (h : 0 ≤ s.totalBytes) :
    SymsKept s.syms (runPass f prog output final s).2.syms := by
  obtain ⟨t, ht, he⟩ := runPass_tsteps (T := fun _ => true) f prog prog.uses_all output final s (fun _ => h)
  have := ht.symsLe
  rcases he with he | he <;> (rw [he]; exact .of this)

/-- Within a pass the error count never decreases from one top-level element to the next. -/
theorem C26_errors (f : Nat) (t : Top) (s : St) (h : 0 ≤ s.totalBytes) :
    s.errorCount ≤ (runTop (expandNode f) (hasUninit f) t s).2.errorCount ∧
    SymsKept s.syms (runTop (expandNode f) (hasUninit f) t s).2.syms := by
  have hu : t.uses (fun _ => true) = true := by cases t <;> simp [Top.uses, Stmt.uses_all]
  have key := TPr.runTop (T := fun _ => true) (expandNode_pr s.finalPass s.outputOpen f) (Pr.hasUninit f) t hu s
    ⟨rfl, rfl, fun _ => h, fun h => absurd h (by decide)⟩
  refine ⟨?_, .of key.symsLe⟩
  exact key.rel (R := fun a b => a.errorCount ≤ b.errorCount) (fun _ => Nat.le_refl _)
    (fun _ _ _ => Nat.le_trans) (fun _ _ h => h.frame.errorCount) (fun _ _ => Nat.le_refl _)
    (fun _ _ => Nat.le_refl _) fun _ => Nat.le_refl _

/-- **C26** for an assembly: the symbols present at the start are present, and defined if they were, at the
start and end of every pass. -/
theorem C26_assemble (f : Nat) (prog : Program) (F : AsmFiles) (s : St) (h : 0 ≤ s.totalBytes) :
    ∀ e ∈ (assembleProg f prog F s).passes,
      SymsKept s.syms e.2.1.syms ∧ SymsKept e.2.1.syms e.2.2.syms := by
  intro e he
  have key := assemble_starts (passSem f prog F.output.isSome) F
    (fun a => SymsLe s.syms a.syms ∧ 0 ≤ a.totalBytes) (by
      intro a b hab ha
      obtain ⟨t, ht, he⟩ := runPass_tsteps (T := fun _ => true) f prog prog.uses_all F.output.isSome false a
        (fun c => by cases c)
      have h1 := ht.symsLe
      have h2 := C17_pass f prog F.output.isSome a
      have hb := passSem_parse hab
      rw [hb] at he h2
      refine ⟨ha.1.trans ?_, by rw [h2.2.1]; exact ha.2⟩
      have hs : b.syms = t.syms := tail_proj he St.syms rfl
      rw [hs]
      exact h1) s ⟨SymsLe.refl _, h⟩ e he
  refine ⟨.of key.1.1, ?_⟩
  have h2 := C26_pass f prog F.output.isSome e.1 e.2.1 key.1.2
  rw [passSem_parse key.2] at h2
  exact h2

/-- Two passes with existing symbols. -/
example : ((assembleProg 30 demoProg { output := some true } {}).passes.map
    fun e => (e.2.1.syms.length, e.2.2.syms.length)) = [(0, 3), (3, 3), (3, 3)] := by
  decide +kernel

/-! ## C13: load address (program level) -/

/-- **C13, part**, whole final pass in C64 format, started with an empty file: either nothing is written or the
file starts with two header bytes, and the byte counter counts exactly the bytes of the file (so the header is
written once, before the first item).  When the program contains neither `.org` nor `*=`, the two bytes are the
origin in little-endian order.  Not covered here: which value `origin` has when a program sets it; the
statement about single items (`C13_item`) covers it. -/
theorem C13_pass_partial (f : Nat) (prog : Program) (output : Bool) (s : St) (h0 : s.out = [])
    (h1 : s.totalBytes = 0) (hc : s.format = .c64) :
    let s' := (runPass f prog output true s).2
    s'.totalBytes = s'.out.length ∧ (s'.out = [] ∨ ∃ lo hi rest, s'.out = lo :: hi :: rest ∧ lo < 256 ∧ hi < 256) := by
  intro s'
  obtain ⟨t, ht, he⟩ := runPass_tsteps (T := fun _ => true) f prog prog.uses_all output true s
    (fun _ => by rw [h1]; decide)
  have key := HdrInv.tsteps ht ⟨hc, by show s.totalBytes = s.out.length; rw [h0, h1]; rfl, trivial, Or.inl h0⟩
  have key' : s'.totalBytes = s'.out.length ∧
      (s'.out = [] ∨ ∃ o rest, True ∧ s'.out = (o % 256 : Int).toNat :: (o % 65536 / 256).toNat :: rest) := by
    rw [tail_proj he St.totalBytes rfl, tail_proj he St.out rfl]
    exact ⟨key.2.1, key.2.2.2⟩
  refine ⟨key'.1, ?_⟩
  rcases key'.2 with h | ⟨o, rest, _, h⟩
  · exact Or.inl h
  · exact Or.inr ⟨_, _, rest, h, by omega, by omega⟩

/-- **C13, part**: for programs without `.org` and `*=` the header is the origin. -/
theorem C13_raw_partial (f : Nat) (prog : Program) (output : Bool) (s : St) (h0 : s.out = [])
    (h1 : s.totalBytes = 0) (hc : s.format = .c64)
    (hp : prog.uses (fun op => op ≠ .org && op ≠ .pcAssign) = true) (hn : s.nodes = []) :
    let s' := (runPass f prog output true s).2
    s'.out = [] ∨ ∃ lo hi rest, s'.out = lo :: hi :: rest ∧ lo < 256 ∧ hi < 256 ∧
      ((lo + 256 * hi : Nat) : Int) = s.origin % 65536 := by
  intro s'
  have : TOk (fun op => op ≠ .org && op ≠ .pcAssign) :=
    ⟨rfl, rfl, rfl, fun op => by cases op <;> rfl, fun op => by cases op <;> rfl⟩
  obtain ⟨t, ht, he⟩ := runPass_tsteps (T := fun op => op ≠ .org && op ≠ .pcAssign) f prog hp output true s
    (fun _ => by rw [h1]; decide) (fun _ n hm => by rw [hn] at hm; cases hm)
  have key := HdrInv.tsteps_org (org := fun v => v = s.origin) ⟨rfl, rfl⟩ ht
    (by intro n hm; replace hm : n ∈ s.nodes := hm; rw [hn] at hm; cases hm)
    ⟨hc, by show s.totalBytes = s.out.length; rw [h0, h1]; rfl, rfl, Or.inl h0⟩
  have key' : s'.out = [] ∨ ∃ o rest, o = s.origin ∧ s'.out = (o % 256 : Int).toNat :: (o % 65536 / 256).toNat :: rest := by
    rw [tail_proj he St.out rfl]
    exact key.2.2.2
  rcases key' with h | ⟨o, rest, ho, h⟩
  · exact Or.inl h
  · exact Or.inr ⟨_, _, rest, h, by omega, by omega, by subst ho; omega⟩

example : (runPass 30 rawProg true true { format := .c64, origin := 0x1234 }).2.out = [0x34, 0x12, 1, 2] ∧
    rawProg.uses (fun op => op ≠ .org && op ≠ .pcAssign) = true := by
  decide +kernel

/-! ## C30: a clean pass is a fixed point -/

/-- **C30**: each pass of an assembly that ends with the change counter at zero (in particular the last resolving
pass, which must end so for the final pass to be started, C28) ends with the values it began with: every symbol that
existed when the pass began and is not a variable, macro parameter, macro name or anonymous label when it ends has the
value it had.  The assembly starts without statements in memory and without macros. -/
theorem C30_assemble (f : Nat) (prog : Program) (F : AsmFiles) (s : St) (hn : s.nodes = [])
    (hm : ∀ x ∈ s.syms, x.macroNode = none) :
    ∀ e ∈ (assembleProg f prog F s).passes, e.2.2.symValueChanged = 0 →
      ∀ (i : Nat) (x : Sym), e.2.1.syms[i]? = some x → ∃ x' : Sym, e.2.2.syms[i]? = some x' ∧
        x'.fullname = x.fullname ∧
        (x'.isVar = false → x'.isMacroParam = false → x'.isMacroName = false → x'.isPlusMinus = false →
          x'.value = x.value) := by
  intro e he hc i x hx
  have key := assemble_starts (passSem f prog F.output.isSome) F (fun a => ∃ w, Heap.Good w a) (by
      intro a b hab ⟨w, hw⟩
      obtain ⟨v, _, h, _⟩ := Heap.runPass_good f prog F.output.isSome false a hw
      rw [passSem_parse hab] at h
      exact ⟨v, h⟩) s ⟨[], Heap.Good.start hn hm⟩ e he
  obtain ⟨⟨w, hw⟩, hr⟩ := key
  obtain ⟨v, _, _, h1, h2⟩ := Heap.runPass_good f prog F.output.isSome e.1 e.2.1 hw
  rw [passSem_parse hr] at h1 h2
  obtain ⟨x', hx', _, h3, _⟩ := h1 i x hx
  exact ⟨x', hx', h3, fun a b c d => h2 hc i x x' hx hx' (by simp [Sym.ordinary, a, b, c, d])⟩

/-- The second and third pass over the demo program are clean, and the label `loop` is an ordinary symbol. -/
example : ((assembleProg 30 demoProg { output := some true } {}).passes.map fun e => e.2.2.symValueChanged) = [1, 0, 0] ∧
    ((assembleProg 30 demoProg { output := some true } {}).passes.map
      fun e => e.2.2.syms.any fun x => x.ordinary && x.value == 0x1000) = [true, true, true] := by
  decide +kernel

/-- `.var v = 5` and `lp: .byte v`: with a variable set in every pass. -/
private def varProg : Program := [[
  .stmt [97] 1 (.org (.int 0x1000)),
  .stmt [97] 2 (.var (cstr! "v", some (.int 5)) [(cstr! "w", some (.int 6))]),
  .labelled [97] 3 (cstr! "lp") (.data 1 (.expr (.sym (cstr! "v"))) []) ]]

example : ((assembleProg 30 varProg { output := some true } {}).passes.map fun e => e.2.2.symValueChanged) = [1, 0, 0] ∧
    ((assembleProg 30 varProg { output := some true } {}).passes.map
      fun e => e.2.2.syms.map fun x => (x.isVar, x.ordinary, x.value)) =
        List.replicate 3 [(true, false, 5), (true, false, 6), (false, true, 0x1000)] := by
  decide +kernel

/-! ## C42: `.end` stops assembly -/

/-- **C42**, one node: after `.end` expanding any node does nothing at all. -/
theorem C42_expand (f : Nat) (p : Ptr) (s : St) (h : s.endExpansion = true) :
    expandNode (f + 1) p s = (.ok 0, s) := by
  unfold expandNode
  rw [getS_bind, if_pos h]
  rfl

/-- **C42, part**, everything that follows in any number of files: the output, the location counter, the
listing, the anonymous labels and every symbol stay as they are, except that the lexer may still mark symbols
as macro names. -/
theorem C42_rest_partial (f : Nat) (rest : Program) (s : St) (h : s.endExpansion = true) :
    let t := (forEachM (runFile (expandNode f) (hasUninit f)) rest s).2
    t.out = s.out ∧ t.totalBytes = s.totalBytes ∧ t.pc = s.pc ∧ t.listing = s.listing ∧ t.minusTab = s.minusTab ∧
    t.plusTab = s.plusTab ∧
    t.syms.map (fun x => { x with isMacroName := false }) = s.syms.map (fun x => { x with isMacroName := false }) := by
  have key := Inert.forEachM (Inert.runFile (Inert.expandNode f) (Inert.hasUninit f)) rest s h
  exact ⟨key.out, key.totalBytes, key.pc, key.listing, key.minusTab, key.plusTab, key.syms⟩

private theorem runFile_append (ex : Ptr → M Int) (hu : Ptr → M Bool) : ∀ (a : List Top) (s : St),
    (∃ t, ∀ b, runFile ex hu (a ++ b) s = runFile ex hu b t) ∨
    (∀ b, runFile ex hu (a ++ b) s = runFile ex hu a s)
  | [], s => Or.inl ⟨s, fun _ => rfl⟩
  | x :: a, s => by
    simp only [List.cons_append, runFile, run_bind]
    rcases runTop ex hu x s with ⟨r, s'⟩
    cases r with
    | ok g =>
      cases g with
      | true => exact runFile_append ex hu a s'
      | false => exact Or.inr fun _ => rfl
    | _ => exact Or.inr fun _ => rfl

private theorem runTop_end {f : Nat} {file : Str} {line : Int} {u u' : St} {g : Bool}
    (h : runTop (expandNode (f + 1)) (hasUninit (f + 1)) (.stmt file line .endProg) u = (.ok g, u')) :
    g = true ∧ u'.endExpansion = true := by
  simp only [runTop, modS_bind] at h
  obtain ⟨r, s1, h1, h2⟩ := bind_ok_inv h
  simp only [buildStmt, built, operatorNode, allocNode, run_bind, run_pure] at h1
  cases h1
  simp only at h2
  obtain ⟨v, s2, h3, h4⟩ := bind_ok_inv h2
  cases h4
  refine ⟨rfl, ?_⟩
  unfold expandNode at h3
  rw [getS_bind] at h3
  split at h3
  · cases h3
    assumption
  · obtain ⟨n, s3, h5, h6⟩ := bind_ok_inv h3
    unfold node at h5
    split at h5
    · cases h5
    · simp only [List.getElem?_concat_length] at h5
      cases h5
      simp only [expandKind, expandOperator, modS_bind, run_pure] at h6
      cases h6
      rfl

/-- **C42, part**, whole pass: what comes after `.end` in the same file has no influence on the bytes written, the
location counter and the symbols (up to the macro flag). -/
theorem C42_truncate_partial (f : Nat) (pre post : List Top) (file : Str) (line : Int) (s : St) :
    let t := (runFile (expandNode (f + 1)) (hasUninit (f + 1)) (pre ++ .stmt file line .endProg :: post) s).2
    let t0 := (runFile (expandNode (f + 1)) (hasUninit (f + 1)) (pre ++ [.stmt file line .endProg]) s).2
    t.out = t0.out ∧ t.totalBytes = t0.totalBytes ∧ t.pc = t0.pc ∧
    t.syms.map (fun x => { x with isMacroName := false }) = t0.syms.map (fun x => { x with isMacroName := false }) := by
  intro t t0
  rcases runFile_append (expandNode (f + 1)) (hasUninit (f + 1)) pre s with ⟨u, h⟩ | h
  · have e0 : t0 = _ := congrArg Prod.snd (h [.stmt file line .endProg])
    have e : t = _ := congrArg Prod.snd (h (.stmt file line .endProg :: post))
    rw [e, e0]
    simp only [runFile, run_bind]
    rcases hr : runTop (expandNode (f + 1)) (hasUninit (f + 1)) (.stmt file line .endProg) u with ⟨r, u'⟩
    cases r with
    | ok g =>
      obtain ⟨rfl, hu⟩ := runTop_end hr
      have key := Inert.runFile (Inert.expandNode (f + 1)) (Inert.hasUninit (f + 1)) post u' hu
      exact ⟨key.out, key.totalBytes, key.pc, key.syms⟩
    | _ => exact ⟨rfl, rfl, rfl, rfl⟩
  · have e : t = t0 := by
      show (runFile _ _ _ s).2 = (runFile _ _ _ s).2
      rw [h, h]
    rw [e]
    exact ⟨rfl, rfl, rfl, rfl⟩

/-- After `.end` a call of an unknown word, an instruction and a label are read without effect. -/
example : (runFile (expandNode 20) (hasUninit 20) ([.stmt [97] 1 (.data 1 (.expr (.int 7)) [])] ++
    .stmt [97] 2 .endProg :: [.labelled [97] 3 (cstr! "x") (.data 1 (.expr (.int 8)) [])])
    { finalPass := true, outputOpen := true, origin := 0x1000 }).2.out = [7] := by
  decide +kernel

/-- **C42 does not hold for the macro flag**: after `.end` the name in a `.macro` line still turns an existing
symbol into a macro name, so the next pass reads the lines that define it as macro calls (pasm.l:404-409). -/
theorem C42_flag_false : ∃ (s : St) (rest : List Top), s.endExpansion = true ∧
    (s.syms.map (·.isMacroName)) = [false] ∧
    ((runFile (expandNode 20) (hasUninit 20) rest s).2.syms.map (·.isMacroName)) = [true] :=
  ⟨{ endExpansion := true, syms := [{ name := cstr! "foo", fullname := cstr! "foo", isInit := true, value := 5 }] },
    [.stmt [97] 1 (.macroDef (cstr! "foo") .empty)], rfl, rfl, by decide +kernel⟩

end Verif
