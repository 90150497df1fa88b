import Verif.Lemmas.MacroLocal
import Verif.Props.Text

/-! # Properties: local names in macros -/

namespace Verif

/-- A macro `m` whose text is a loop over the local label `@l`, and two calls. -/
def loopMacro : List Top :=
  [.stmt [97] 1 (.macroDef [109] (.seq (.word true (cstr! "@l") none) (.op Ins._bne .r (some (.sym (cstr! "@l")))))),
    .stmt [97] 2 (.word true [109] none)]

/-- The state after the definition and one call, and after parsing another. -/
def loopState : St :=
  (buildStmt (expandNode 30) (hasUninit 30) false (.word true [109] none) (runFile (expandNode 30) (hasUninit 30) loopMacro {}).2).2

/-- A run that ends well is described by its value and its state. -/
theorem ok_of {m : M Int} {s : St} {v : Int} (h : (match (m s).1 with | .ok v => some v | _ => none) = some v) : m s = (.ok v, (m s).2) := by
  cases e : m s with
  | mk r s' =>
    rw [e] at h
    cases r with
    | ok w => cases h; rfl
    | _ => cases h

/-! ## C56: local names in macros -/

/-- **C56**: a macro call expands the text of the macro once (unless the program has ended or the name has no text), in a
state in which local names belong to the label `name::n`, where `n` is the number of calls so far in eight hexadecimal digits.
After the call the number is larger. -/
theorem C56_call {f : Nat} {p body : Ptr} {name : Str} {params : Option Ptr} {num num' : Nat} {ops ops' : List Ptr} {i : Option SymPtr} {c : Nat}
    {s s' : St} {v : Int} (hL : Live s p ⟨.macroEx name body params, num, ops⟩) (hB : Live s body ⟨.id .macroId name i, num', ops'⟩)
    (he : s.endExpansion = false) (ht : s.finalPass = true → 0 ≤ s.totalBytes) (hm : macroCount s.macroDict name = some c)
    (h : expandNode f p s = (.ok v, s')) :
    ∃ c' u, c ≤ c' ∧ Effects s u ∧ Effects u s' ∧ RunsText u s' body ∧
      (u.endExpansion = false → u.lastLabel = some (name ++ [58, 58] ++ hexStr 8 c')) ∧
      ∃ c'', macroCount s'.macroDict name = some c'' ∧ c' < c'' :=
  macroEx_text hL hB he ht hm h

/-- The state after expanding the call at node 9 once more. -/
def loopState1 : St := (expandNode 20 9 loopState).2

theorem loop_first : expandNode 20 9 loopState = (.ok 0, loopState1) :=
  ok_of (by decide +kernel)

theorem loop_second : expandNode 20 11 loopState1 = (.ok 0, (expandNode 20 11 loopState1).2) :=
  ok_of (by decide +kernel)

/-- The second call of the macro above: its local names belong to `m::00000001` or a later number. -/
example : ∃ c' u, 1 ≤ c' ∧ Effects loopState u ∧ (u.endExpansion = false → u.lastLabel = some ([109, 58, 58] ++ hexStr 8 c')) := by
  obtain ⟨c', u, h1, h2, _, _, h3, _⟩ := C56_call (p := 9) (body := 8) (name := [109]) (params := none) (i := some 1) (c := 1)
    (num := 0) (num' := 0) (ops := []) (ops' := []) ⟨by decide +kernel, by decide +kernel⟩
    ⟨by decide +kernel, by decide +kernel⟩ (by decide +kernel) (by decide +kernel) (by decide +kernel) loop_first
  exact ⟨c', u, h1, h2, h3⟩

/-- **C56**, as far as it holds: two macro calls of one pass, the second begun after the first has ended, keep their
local names apart: what the text of the first call finds or creates under a local name `x` and what the text of the second
finds or creates under a local name `y` differ, also when the case of letters is ignored.  Missing: labels *defined* in the text of
a macro; their name is settled when the macro is read (`C56_definition_false`). -/
theorem C56_apart_partial {f1 f2 : Nat} {p1 p2 b1 b2 : Ptr} {n1 n2 : Str} {q1 q2 : Option Ptr} {m1 m1' m2 m2' : Nat} {o1 o1' o2 o2' : List Ptr}
    {i1 i2 : Option SymPtr} {c1 c2 : Nat} {s1 s1' s2 s2' : St} {v1 v2 : Int}
    (hL1 : Live s1 p1 ⟨.macroEx n1 b1 q1, m1, o1⟩) (hB1 : Live s1 b1 ⟨.id .macroId n1 i1, m1', o1'⟩)
    (he1 : s1.endExpansion = false) (ht1 : s1.finalPass = true → 0 ≤ s1.totalBytes) (hm1 : macroCount s1.macroDict n1 = some c1)
    (h1 : expandNode f1 p1 s1 = (.ok v1, s1')) (hmid : TSteps (fun _ => true) s1' s2)
    (hL2 : Live s2 p2 ⟨.macroEx n2 b2 q2, m2, o2⟩) (hB2 : Live s2 b2 ⟨.id .macroId n2 i2, m2', o2'⟩)
    (he2 : s2.endExpansion = false) (ht2 : s2.finalPass = true → 0 ≤ s2.totalBytes) (hm2 : macroCount s2.macroDict n2 = some c2)
    (h2 : expandNode f2 p2 s2 = (.ok v2, s2')) (hn1 : 58 ∉ n1) (hn2 : 58 ∉ n2) :
    ∃ u1 u2, Effects s1 u1 ∧ RunsText u1 s1' b1 ∧ Effects u1 s1' ∧ Effects s2 u2 ∧ RunsText u2 s2' b2 ∧ Effects u2 s2' ∧
      (u1.endExpansion = false → u2.endExpansion = false → ∀ x y, x.head? = some 64 → y.head? = some 64 →
        Spec.foldCase (addSymbolKey u1 x).2 ≠ Spec.foldCase (addSymbolKey u2 y).2) := by
  obtain ⟨k1, u1, g1, g2, g3, g4, g5, j1, g6, g7⟩ := macroEx_text hL1 hB1 he1 ht1 hm1 h1
  obtain ⟨k2, u2, r1, r2, r3, r4, r5, j2, r6, r7⟩ := macroEx_text hL2 hB2 he2 ht2 hm2 h2
  refine ⟨u1, u2, g2, g4, g3, r2, r4, r3, fun e1 e2 x y hx hy h => ?_⟩
  rw [foldCase_map, foldCase_map] at h
  obtain ⟨hf, rfl⟩ := callLabels_apart (g5 e1) (r5 e2) hn1 hn2 hx hy h
  obtain ⟨j, hj, hle⟩ := hmid.dict _ _ g6
  rw [macroCount_fold hf, hm2] at hj
  cases hj
  omega

/-- Two calls of the macro above: `@l` in one is not `@L` in the other. -/
example : ∃ u1 u2, Effects loopState u1 ∧ Effects loopState1 u2 ∧ (u1.endExpansion = false → u2.endExpansion = false →
    Spec.foldCase (addSymbolKey u1 (cstr! "@l")).2 ≠ Spec.foldCase (addSymbolKey u2 (cstr! "@L")).2) := by
  obtain ⟨u1, u2, h1, _, _, h2, _, _, h3⟩ := C56_apart_partial (p1 := 9) (b1 := 8) (n1 := [109]) (q1 := none) (i1 := some 1) (c1 := 1)
    (p2 := 11) (b2 := 10) (n2 := [109]) (q2 := none) (i2 := none) (c2 := 2) (m1 := 0) (m1' := 0) (m2 := 0) (m2' := 0)
    (o1 := []) (o1' := []) (o2 := []) (o2' := []) ⟨by decide +kernel, by decide +kernel⟩ ⟨by decide +kernel, by decide +kernel⟩
    (by decide +kernel) (by decide +kernel) (by decide +kernel) loop_first (.refl _) ⟨by decide +kernel, by decide +kernel⟩
    ⟨by decide +kernel, by decide +kernel⟩ (by decide +kernel) (by decide +kernel) (by decide +kernel) loop_second (by decide) (by decide)
  exact ⟨u1, u2, h1, h2, fun e1 e2 => h3 e1 e2 _ _ rfl rfl⟩

/-- **C56**: no expansion — macro calls included — changes the label that the caller's local names belong to. -/
theorem C56_restore {f : Nat} {p : Ptr} {s s' : St} {v : Int} (h : expandNode f p s = (.ok v, s')) :
    s'.lastLabel.getD [] = s.lastLabel.getD [] ∧ (s.lastLabel.isSome = true → s'.lastLabel.isSome = true) :=
  ⟨(expandNode_lab f p s v s' h).label, (expandNode_lab f p s v s' h).some⟩

/-- The whole text assembled: calls of a macro with the local label `@l`, and the caller's own `@l`. -/
def loopText : Str := cstr! " .org $1000\n .macro m\n@l\n dex\n bne @l\n .endm\n m\n m\n@l rts\n bne @l\n"

/-- Each branch goes to its own label. -/
example : let r := assembleText 60 [([112], loopText)] { output := some true } {}
    r.status = some 0 ∧ r.passes.getLast?.map (fun x => (x.1, x.2.2.1.out)) = some (true, [202, 208, 253, 202, 208, 253, 96, 208, 253]) := by
  decide +kernel

/-- A parameter has no value while the macro is read; each call picks the shortest form for its own argument. -/
example : let r := assembleText 60 [([112], cstr! " .org $1000\n .macro m\n lda \\1\n .endm\n m 5\n m $1234\n rts\n")] { output := some true } {}
    r.status = some 0 ∧ r.passes.getLast?.map (fun x => (x.1, x.2.2.1.out)) = some (true, [0xA5, 5, 0xAD, 0x34, 0x12, 0x60]) := by
  decide +kernel

/-- The same macro after a label. -/
def afterLabel : Str := cstr! " .org $1000\nstart nop\n .macro m\n@l\n dex\n bne @l\n .endm\n m\n m\n rts\n"

/-- The first and the second pass over it. -/
def afterPass1 : Option (St × LexSt) := (passSemText 40 [([112], afterLabel)] true).parse false ({}, {})
def afterPass2 : Option (St × LexSt) := afterPass1.bind ((passSemText 40 [([112], afterLabel)] true).parse false)

/-- What the driver tests after a pass. -/
def passCounts (p : Option (St × LexSt)) : Option (Int × Int × Nat) :=
  p.map fun x => (x.1.errorCount, x.1.symValueChanged, unresolvedCount x.1.syms)

/-- The symbols after a pass. -/
def passSyms (p : Option (St × LexSt)) : Option (List (Str × Int × Bool)) :=
  p.map fun x => x.1.syms.map fun y => (y.fullname, y.value, y.isInit)

/-- **C56**, negation for definitions: when a label stands before the macro, the label `@l` in its text is
defined as a local name of that label, and the branch in the text looks for it as a local name of the call.  The label has a different value in each call, and the second pass ends with the
symbols of the first, one of them unresolved, so no further pass gets any further, although the text defines everything it
refers to. -/
theorem C56_definition_false :
    passCounts afterPass2 = some (0, 2, 1) ∧ passSyms afterPass2 = some [(cstr! "start", 0x1000, true), (cstr! "start__@l", 0x1004, true),
      (cstr! "m", 0x1001, true), (cstr! "m::00000000__@l", 0, false)] ∧ passSyms afterPass2 = passSyms afterPass1 := by
  have h1 : passSyms afterPass1 = some [(cstr! "start", 0x1000, true), (cstr! "start__@l", 0x1004, true),
      (cstr! "m", 0x1001, true), (cstr! "m::00000000__@l", 0, false)] := by decide +kernel
  have h2 : passSyms afterPass2 = some [(cstr! "start", 0x1000, true), (cstr! "start__@l", 0x1004, true),
      (cstr! "m", 0x1001, true), (cstr! "m::00000000__@l", 0, false)] := by decide +kernel
  exact ⟨by decide +kernel, h2, by rw [h1, h2]⟩

end Verif
