import Verif.Lemmas.Run
import Verif.Lemmas.Names

/-! # Property C24: sections nest -/

namespace Verif

/-- Well-nested source text: `.section name … .ends` blocks with other statements between them. -/
inductive Nest where
  | done
  | other (t : Top) (rest : Nest)
  | sect (file : Str) (line : Int) (name : Str) (inner : Nest) (file' : Str) (line' : Int) (rest : Nest)

/-- The statements of the text. -/
def Nest.tops : Nest → List Top
  | .done => []
  | .other t rest => t :: rest.tops
  | .sect file line name inner file' line' rest =>
    .stmt file line (.sect name) :: (inner.tops ++ .stmt file' line' .endSect :: rest.tops)

/-- The section names of the text. -/
def Nest.names : Nest → List Str
  | .done => []
  | .other _ rest => rest.names
  | .sect _ _ name inner _ _ rest => name :: (inner.names ++ rest.names)

/-- The other statements of the text. -/
def Nest.others : Nest → List Top
  | .done => []
  | .other t rest => t :: rest.others
  | .sect _ _ _ inner _ _ rest => inner.others ++ rest.others

/-- A state in which statements are processed: `.end` was not seen and the node heap is well-formed. -/
def Running (s : St) : Prop := s.endExpansion = false ∧ s.nodeBase ≤ s.nodes.length

/-- A statement that is processed normally and is not concerned with sections. -/
def Neutral (f : Nat) (t : Top) : Prop := ∀ s, Running s → ∃ s',
  runTop (expandNode f) (hasUninit f) t s = (.ok true, s') ∧ Running s' ∧ s'.currentScope = s.currentScope ∧
    s'.errorCount = s.errorCount

/-- Entering a section extends the section path by the name. -/
theorem C24_enter (f : Nat) (file : Str) (line : Int) (name : Str) (s : St) (hs : Running s) :
    ∃ s', runTop (expandNode (f + 1)) (hasUninit (f + 1)) (.stmt file line (.sect name)) s = (.ok true, s') ∧
      Running s' ∧ s'.errorCount = s.errorCount ∧ s'.syms = s.syms ∧ s'.pc = s.pc ∧
      s'.currentScope = some (match s.currentScope with
        | some outer => outer ++ cstr! "." ++ name
        | none => name) := by
  obtain ⟨he, hb⟩ := hs
  let i : Ptr := s.nodes.length
  let s1 : St := { s with file := file, line := line, nodes := (s.nodes ++ [⟨.id .id name none, 0, []⟩]) ++
    [⟨.opr .sect, 1, [i]⟩] }
  have h1 : buildStmt (expandNode (f + 1)) (hasUninit (f + 1)) false (.sect name)
      { s with file := file, line := line } = (.ok (some (s.nodes.length + 1)), s1) := by
    show built _ _ = _
    apply built_run
    unfold idNode operatorNode
    rw [bind_ok (alloc_run _ _ _), alloc_run]
    simp [s1, i]
  have hl : Live s1 (s.nodes.length + 1) ⟨.opr .sect, 1, [i]⟩ := ⟨Nat.le_succ_of_le hb, by simp [s1]⟩
  have hi : Live s1 i ⟨.id .id name none, 0, []⟩ := ⟨hb, by simp [s1, i]⟩
  let s2 : St := { s1 with currentScope := some (match s1.currentScope with
        | some sc => dotted sc name
        | none => name) }
  have h2 : expandNode (f + 1) (s.nodes.length + 1) s1 = (.ok 0, s2) := by
    rw [expandNode_run (s := s1) he hl]
    show expandSection _ _ = _
    unfold expandSection
    rw [bind_ok (opAt_run rfl s1), bind_ok hi.run]
    rfl
  refine ⟨s2, runTop_stmt (fun _ _ _ h => by cases h) h1 h2, ⟨he, ?_⟩, rfl, rfl, rfl, ?_⟩
  · simp [s2, s1]
    omega
  · show some _ = some _
    cases s.currentScope <;> simp [dotted]

/-- Leaving a section cuts the path at its last dot, and reports an error outside all sections. -/
theorem C24_leave (f : Nat) (file : Str) (line : Int) (s : St) (hs : Running s) :
    ∃ s', runTop (expandNode (f + 1)) (hasUninit (f + 1)) (.stmt file line .endSect) s = (.ok true, s') ∧
      Running s' ∧ s'.syms = s.syms ∧ s'.pc = s.pc ∧
      (s.currentScope = none → s'.currentScope = none ∧ s'.errorCount = s.errorCount + 1 ∧
        s'.log = s.log ++ [.endSectionWithoutSection]) ∧
      (∀ outer name, 46 ∉ name → s.currentScope = some (outer ++ cstr! "." ++ name) →
        s'.currentScope = some outer ∧ s'.errorCount = s.errorCount) ∧
      (∀ name, 46 ∉ name → s.currentScope = some name →
        s'.currentScope = none ∧ s'.errorCount = s.errorCount) := by
  obtain ⟨he, hb⟩ := hs
  let s1 : St := { s with file := file, line := line, nodes := s.nodes ++ [⟨.opr .endSect, 0, []⟩] }
  have h1 : buildStmt (expandNode (f + 1)) (hasUninit (f + 1)) false .endSect
      { s with file := file, line := line } = (.ok (some s.nodes.length), s1) := by
    show built _ _ = _
    exact built_run rfl
  have hl : Live s1 s.nodes.length ⟨.opr .endSect, 0, []⟩ := ⟨hb, by simp [s1]⟩
  have h2 : expandNode (f + 1) s.nodes.length s1 = expandEndSection s1 := expandNode_run (s := s1) he hl
  cases hc : s.currentScope with
  | none =>
    have h3 : expandEndSection s1 = (.ok 0, { s1 with
        errorCount := s.errorCount + 1, log := s.log ++ [.endSectionWithoutSection] }) := by
      unfold expandEndSection
      rw [getS_bind]
      have hc1 : s1.currentScope = none := hc
      conv => lhs; rw [hc1]
      rfl
    refine ⟨_, runTop_stmt (fun _ _ _ h => by cases h) h1 (h2.trans h3), ⟨he, ?_⟩, rfl, rfl, ?_, ?_, ?_⟩
    · simp [s1]; omega
    · intro _
      exact ⟨hc, rfl, rfl⟩
    · intro _ _ _ h; cases h
    · intro _ _ h; cases h
  | some sc =>
    have h3 : expandEndSection s1 = (.ok 0, { s1 with currentScope := outerScope sc }) := by
      unfold expandEndSection
      rw [getS_bind]
      have hc1 : s1.currentScope = some sc := hc
      conv => lhs; rw [hc1]
      rfl
    refine ⟨_, runTop_stmt (fun _ _ _ h => by cases h) h1 (h2.trans h3), ⟨he, ?_⟩, rfl, rfl, ?_, ?_, ?_⟩
    · simp [s1]; omega
    · intro h; cases h
    · intro outer name hn h
      cases h
      refine ⟨?_, rfl⟩
      show outerScope _ = _
      unfold outerScope
      rw [show outer ++ [46] ++ name = outer ++ 46 :: name by simp, splitLastDot_dot _ hn]
      rfl
    · intro name hn h
      cases h
      refine ⟨?_, rfl⟩
      show outerScope _ = _
      unfold outerScope
      rw [splitLastDot_none hn]
      rfl

/-- **C24** (for section names without a dot): processing any well-nested text ends with the section path it
started with and without an error. -/
theorem C24_nested (f : Nat) : ∀ (t : Nest) (after : List Top) (s : St), (∀ nm ∈ t.names, 46 ∉ nm) →
    (∀ o ∈ t.others, Neutral (f + 1) o) → Running s →
    ∃ s', runFile (expandNode (f + 1)) (hasUninit (f + 1)) (t.tops ++ after) s =
        runFile (expandNode (f + 1)) (hasUninit (f + 1)) after s' ∧
      Running s' ∧ s'.currentScope = s.currentScope ∧ s'.errorCount = s.errorCount
  | .done, after, s, _, _, hs => ⟨s, rfl, hs, rfl, rfl⟩
  | .other t rest, after, s, hn, ho, hs => by
    obtain ⟨s1, h1, h2, h3, h4⟩ := ho t (by simp [Nest.others]) s hs
    obtain ⟨s2, g1, g2, g3, g4⟩ := C24_nested f rest after s1 hn
      (fun o h => ho o (by simp [Nest.others, h])) h2
    exact ⟨s2, (runFile_cons h1).trans g1, g2, g3.trans h3, g4.trans h4⟩
  | .sect file line name inner file' line' rest, after, s, hn, ho, hs => by
    have hname : 46 ∉ name := hn name (by simp [Nest.names])
    obtain ⟨s1, h1, h2, h3, _, _, h4⟩ := C24_enter f file line name s hs
    obtain ⟨s2, g1, g2, g3, g4⟩ := C24_nested f inner (.stmt file' line' .endSect :: (rest.tops ++ after)) s1
      (fun o h => hn o (by simp [Nest.names, h])) (fun o h => ho o (by simp [Nest.others, h])) h2
    obtain ⟨s3, k1, k2, _, _, _, k3, k4⟩ := C24_leave f file' line' s2 g2
    obtain ⟨s4, l1, l2, l3, l4⟩ := C24_nested f rest after s3
      (fun o h => hn o (by simp [Nest.names, h])) (fun o h => ho o (by simp [Nest.others, h])) k2
    have hk : s3.currentScope = s.currentScope ∧ s3.errorCount = s2.errorCount := by
      rw [h4] at g3
      cases hc : s.currentScope with
      | none => rw [hc] at g3; exact k4 name hname g3
      | some outer => rw [hc] at g3; exact k3 outer name hname g3
    refine ⟨s4, ?_, l2, l3.trans hk.1, l4.trans (hk.2.trans (g4.trans h3))⟩
    simp only [Nest.tops, List.cons_append, List.append_assoc]
    rw [runFile_cons h1, g1, runFile_cons k1, l1]

/-- Statements that meet the hypothesis. -/
example (f : Nat) : Neutral f .setC64 ∧ Neutral f (.setCpu .c65C02) :=
  ⟨fun _ hs => ⟨_, rfl, hs, rfl, rfl⟩, fun _ hs => ⟨_, rfl, hs, rfl, rfl⟩⟩

/-- Two levels of nesting and a second block. -/
example : ∀ nm ∈ (Nest.sect [97] 1 (cstr! "a") (.sect [97] 2 (cstr! "b") (.other .setC64 .done) [97] 3 .done) [97] 4
    (.sect [97] 5 (cstr! "c") .done [97] 6 .done)).names, 46 ∉ nm := by decide

/-- **C24 fails for names with a dot**: after `.section a.b`, `.ends` the assembler is still inside section
`a`. -/
theorem C24_dotted_false :
    let r := runFile (expandNode 5) (hasUninit 5) [.stmt [97] 1 (.sect (cstr! "a.b")), .stmt [97] 2 .endSect] {}
    r.1 = .ok () ∧ r.2.errorCount = 0 ∧ r.2.currentScope = some (cstr! "a") := by decide +kernel

end Verif
