import Verif.Lemmas.PassInv
import Verif.Lemmas.Names
import Verif.Props.Driver

/-! # Properties C22, C23, C48: symbol values, name lookup and unresolved symbols -/

namespace Verif

/-! ## C22: symbol values -/

/-- **C22**, rejected values: an ordinary symbol that would receive a value outside `0..65535` is left as it is,
together with the whole rest of the state; one error is reported. -/
theorem C22_reject (i : SymPtr) (x : Sym) (v : Int) (s : St) (hx : s.syms[i]? = some x) (hv : InInt v)
    (hvar : x.isVar = false) (hout : v < 0 ∨ 65535 < v) (hne : x.value ≠ v) :
    setSymbolValue i v s =
      (.ok (), { s with errorCount := s.errorCount + 1, log := s.log ++ [.valueOutOfRange] }) := by
  have hs : sym i s = (.ok x, s) := by unfold sym; rw [hx]
  unfold setSymbolValue
  rw [bind_ok hs, if_pos hne, if_pos ⟨fun h => by have := (cand_not_ffff hv).1 h; omega, hvar⟩]
  rfl

example : ∃ s : St, s.syms[0]? = some { value := 7, isInit := true, name := [120], fullname := [120] } ∧
    setSymbolValue 0 70000 s =
      (.ok (), { s with errorCount := s.errorCount + 1, log := s.log ++ [.valueOutOfRange] }) :=
  ⟨{ syms := [{ value := 7, isInit := true, name := [120], fullname := [120] }] }, rfl,
    C22_reject 0 _ _ _ rfl (by decide) rfl (by decide) (by decide)⟩

/-- **C22**, accepted values: the value is stored in this symbol, no other symbol and no error counter changes,
and the change counter is incremented exactly when the stored value of a symbol that is neither a `.var`
nor a macro parameter changes. -/
theorem C22_store (i : SymPtr) (x : Sym) (v : Int) (s : St) (hx : s.syms[i]? = some x) (hv : InInt v)
    (hok : x.isVar = true ∨ (0 ≤ v ∧ v ≤ 65535)) :
    setSymbolValue i v s = (.ok (), { s with
      syms := s.syms.set i { x with value := v }
      symValueChanged := s.symValueChanged +
        (if x.value ≠ v ∧ x.isVar = false ∧ x.isMacroParam = false then 1 else 0) }) := by
  have hs : sym i s = (.ok x, s) := by unfold sym; rw [hx]
  have hl : i < s.syms.length := by
    rcases Nat.lt_or_ge i s.syms.length with h | h
    · exact h
    · rw [List.getElem?_eq_none h] at hx; cases hx
  have hxi : s.syms[i] = x := by rw [List.getElem?_eq_getElem hl] at hx; exact Option.some.inj hx
  unfold setSymbolValue
  rw [bind_ok hs]
  by_cases hne : x.value ≠ v
  · rw [if_pos hne, if_neg (fun h => by
      rcases hok with h' | h'
      · rw [h'] at h; exact absurd h.2 (by decide)
      · exact h.1 ((cand_not_ffff hv).2 (by omega)))]
    have hm : modSym i (fun x => { x with value := v }) s =
        (.ok (), { s with syms := s.syms.set i { x with value := v } }) := by
      unfold modSym
      rw [if_pos hl]
      congr 2
      exact modify_of_get hx _
    rw [bind_ok hm]
    by_cases hc : x.isMacroParam = false ∧ x.isVar = false
    · rw [if_pos hc, if_pos ⟨hne, hc.2, hc.1⟩]
      rfl
    · rw [if_neg hc, if_neg (fun h => hc ⟨h.2.2, h.2.1⟩)]
      rfl
  · have he : x.value = v := Decidable.not_not.1 hne
    rw [if_neg hne, if_neg (fun h => hne h.1)]
    have : s.syms.set i { x with value := v } = s.syms := by
      subst he
      have : ({ x with value := x.value } : Sym) = x := rfl
      rw [this, ← hxi, List.set_getElem_self]
    rw [this]
    rfl

example : let s : St := { syms := [{ value := 7, isInit := true, name := [120], fullname := [120] }] };
    (setSymbolValue 0 8 s).2.symValueChanged = 1 ∧ (setSymbolValue 0 7 s).2.symValueChanged = 0 ∧
    (setSymbolValue 0 8 s).2.syms.map (·.value) = [8] := by decide +kernel

/-- **C22**, negation at statement level: `x = 70000` is rejected, but the symbol is marked as defined all the
same (`is_initialized = true` follows unconditionally, expand.cc:1744-1745). -/
theorem C22_statement_false :
    let r := runFile (expandNode 9) (hasUninit 9) [.stmt [97] 1 (.assign [120] (.int 70000))] {}
    r.1 = .ok () ∧ r.2.log = [.valueOutOfRange] ∧
      r.2.syms.map (fun x => (x.fullname, x.value, x.isInit)) = [([120], 0, true)] := by decide +kernel

/-! ## C23: name lookup -/

/-- The name under which a symbol of the current section is stored. -/
def qualified (scope : Option Str) (name : Str) : Str :=
  match scope with
  | some sc => sc ++ cstr! "." ++ name
  | none => name

/-- **C23**, successful lookup: the symbol found bears the name qualified with the current section, or it
bears the plain name and no symbol with the qualified name exists. -/
theorem C23_found (scope : Option Str) (syms : List Sym) (name : Str) (i : SymPtr)
    (hq : CStr (qualified scope name)) (hs : ∀ x ∈ syms, CStr x.fullname)
    (h : lookUpSymbol scope syms name = some i) :
    ∃ x, syms[i]? = some x ∧
      (Spec.foldCase x.fullname = Spec.foldCase (qualified scope name) ∨
        (Spec.foldCase x.fullname = Spec.foldCase name ∧
          ∀ y ∈ syms, Spec.foldCase y.fullname ≠ Spec.foldCase (qualified scope name))) := by
  unfold lookUpSymbol at h
  cases scope with
  | none =>
    obtain ⟨x, hx, he⟩ := symFind_some h
    exact ⟨x, hx, Or.inl ((stricmp_fold (hs x (List.mem_of_getElem? hx)) hq).1 he)⟩
  | some sc =>
    have hd : dotted sc name = qualified (some sc) name := by simp [dotted, qualified]
    have hn : CStr name := fun c hc => hq c (by simp [qualified, hc])
    simp only [hd] at h
    split at h
    · rename_i j hj
      cases h
      obtain ⟨x, hx, he⟩ := symFind_some hj
      exact ⟨x, hx, Or.inl ((stricmp_fold (hs x (List.mem_of_getElem? hx)) hq).1 he)⟩
    · rename_i hj
      obtain ⟨x, hx, he⟩ := symFind_some h
      exact ⟨x, hx, Or.inr ⟨(stricmp_fold (hs x (List.mem_of_getElem? hx)) hn).1 he, fun y hy e =>
        symFind_none hj y hy ((stricmp_fold (hs y hy) hq).2 e)⟩⟩

/-- **C23**, failing lookup: neither the qualified nor the plain name exists. -/
theorem C23_not_found (scope : Option Str) (syms : List Sym) (name : Str)
    (hq : CStr (qualified scope name)) (hs : ∀ x ∈ syms, CStr x.fullname)
    (h : lookUpSymbol scope syms name = none) :
    ∀ y ∈ syms, Spec.foldCase y.fullname ≠ Spec.foldCase (qualified scope name) ∧
      Spec.foldCase y.fullname ≠ Spec.foldCase name := by
  intro y hy
  unfold lookUpSymbol at h
  cases scope with
  | none =>
    have := fun e => symFind_none h y hy ((stricmp_fold (hs y hy) hq).2 e)
    exact ⟨this, this⟩
  | some sc =>
    have hd : dotted sc name = qualified (some sc) name := by simp [dotted, qualified]
    have hn : CStr name := fun c hc => hq c (by simp [qualified, hc])
    simp only [hd] at h
    split at h
    · cases h
    · rename_i hj
      exact ⟨fun e => symFind_none hj y hy ((stricmp_fold (hs y hy) hq).2 e),
        fun e => symFind_none h y hy ((stricmp_fold (hs y hy) hn).2 e)⟩

/-- **C23**, privacy: a symbol `sec.n` that is found under a name without a dot is found only because `sec` is
the current section (and `n` is that name). -/
theorem C23_private (scope : Option Str) (syms : List Sym) (name : Str) (i : SymPtr) (x : Sym) (sec n : Str)
    (hq : CStr (qualified scope name)) (hs : ∀ x ∈ syms, CStr x.fullname)
    (hdot : 46 ∉ name) (hn : 46 ∉ n) (hx : syms[i]? = some x) (hf : x.fullname = sec ++ cstr! "." ++ n)
    (h : lookUpSymbol scope syms name = some i) :
    ∃ sc, scope = some sc ∧ Spec.foldCase sec = Spec.foldCase sc ∧ Spec.foldCase n = Spec.foldCase name := by
  obtain ⟨x', hx', hc⟩ := C23_found scope syms name i hq hs h
  rw [hx] at hx'
  cases hx'
  have hplain : Spec.foldCase x.fullname ≠ Spec.foldCase name := by
    intro e
    have : 46 ∈ Spec.foldCase name := by
      rw [← e, hf, foldCase_append, foldCase_append]
      simp [Spec.foldCase]
    exact hdot ((foldCase_dot _).1 this)
  rcases hc with hc | hc
  · cases scope with
    | none => exact absurd hc hplain
    | some sc =>
      refine ⟨sc, rfl, ?_⟩
      rw [hf] at hc
      simp only [qualified, foldCase_append] at hc
      exact append_dot_inj (mt (foldCase_dot _).1 hn) (mt (foldCase_dot _).1 hdot) (by simpa [Spec.foldCase] using hc)
  · exact absurd hc.1 hplain

/-- Two sections with the same local name, and a global one: each is found from its own section only. -/
example :
    let syms : List Sym := [{ name := [120], fullname := [120] }, { name := [120], fullname := cstr! "a.x" },
      { name := [120], fullname := cstr! "b.x" }]
    lookUpSymbol none syms [120] = some 0 ∧ lookUpSymbol (some (cstr! "A")) syms [120] = some 1 ∧
    lookUpSymbol (some (cstr! "b")) syms [88] = some 2 ∧ lookUpSymbol (some (cstr! "c")) syms [120] = some 0 ∧
    lookUpSymbol (some (cstr! "c")) syms [121] = none := by decide +kernel

/-! ## C48: unresolved symbols -/

/-- **C48.** If the final pass of an assembly was started, or its output file opened, then in the state from
which the final pass starts every symbol is defined, or is a macro name, a macro parameter, a `.var` or an
anonymous label. -/
theorem C48_resolved (f : Nat) (prog : Program) (F : AsmFiles) (s : St)
    (h : (assembleProg f prog F s).calls.2 ≠ 0 ∨ (assembleProg f prog F s).opened = true) :
    ∃ pre s0 s1 fin, (assembleProg f prog F s).passes = pre ++ (false, s0, s1) :: fin ∧
      (∀ e ∈ fin, e.1 = true ∧ e.2.1 = s1) ∧
      ∀ x ∈ s1.syms, x.isInit = true ∨ x.isMacroName = true ∨ x.isMacroParam = true ∨ x.isVar = true ∨
        x.isPlusMinus = true := by
  obtain ⟨pre, s0, s1, fin, h1, _, _, _, h5, _, h7⟩ :=
    C28_final_after_clean (passSem f prog F.output.isSome) F s h
  refine ⟨pre, s0, s1, fin, h1, ?_, ?_⟩
  · rcases h7 with ⟨h7, _⟩ | ⟨s2, h7, _⟩
    · simp [h7]
    · simp [h7]
  · intro x hx
    have h5 : unresolvedCount s1.syms = 0 := h5
    unfold unresolvedCount at h5
    rw [List.length_eq_zero_iff, List.filter_eq_nil_iff] at h5
    have := h5 x hx
    revert this
    cases x.isInit <;> cases x.isMacroName <;> cases x.isMacroParam <;> cases x.isVar <;>
      cases x.isPlusMinus <;> simp

/-- **C48**, the other direction: the count that the driver tests is zero for every table in which each symbol is resolved in this
sense; nothing else holds back the final pass. -/
theorem C48_count (syms : List Sym) : unresolvedCount syms = 0 ↔
    ∀ x ∈ syms, x.isInit = true ∨ x.isMacroName = true ∨ x.isMacroParam = true ∨ x.isVar = true ∨ x.isPlusMinus = true := by
  unfold unresolvedCount
  rw [List.length_eq_zero_iff, List.filter_eq_nil_iff]
  constructor <;> intro h x hx <;> have := h x hx <;> revert this <;>
    cases x.isInit <;> cases x.isMacroName <;> cases x.isMacroParam <;> cases x.isVar <;> cases x.isPlusMinus <;> simp

/-- A variable without a value does not hold back the final pass. -/
example : let r := (assembleProg 20 [[.stmt [97] 1 (.var (cstr! "v", none) []), .stmt [97] 2 (.op Ins._nop .i none)]]
      { output := some true } {})
    r.calls.2 = 1 ∧ r.status = some 0 := by decide +kernel

/-- A program with a symbol that is never defined: no final pass, failure. -/
example : let r := (assembleProg 20 [[.stmt [97] 1 (.op Ins._lda .a (some (.sym (cstr! "nope"))))]]
      { output := some true } {})
    r.calls.2 = 0 ∧ r.opened = false ∧ r.status = some (-1) := by decide +kernel

/-- A program where it is defined: the final pass runs. -/
example : let r := (assembleProg 20 [[.stmt [97] 1 (.assign (cstr! "nope") (.int 5)),
      .stmt [97] 2 (.op Ins._lda .a (some (.sym (cstr! "nope"))))]] { output := some true } {})
    r.calls.2 = 1 ∧ r.opened = true := by decide +kernel

end Verif
