import Verif.Lemmas.StepsParse

/-! # Consequences of the effect sequences for passes and assemblies -/

namespace Verif

variable {T : Opr → Bool}

/-- A reflexive and transitive relation that contains all elementary effects contains all sequences. -/
theorem Steps.rel {R : St → St → Prop} (hr : ∀ s, R s s) (ht : ∀ s t u, R s t → R t u → R s u)
    (h : ∀ s t, Step T s t → R s t) {s t : St} (hs : Steps T s t) : R s t := by
  induction hs with
  | refl => exact hr _
  | tail _ h' ih => exact ht _ _ _ ih (h _ _ h')

theorem TSteps.rel {R : St → St → Prop} (hr : ∀ s, R s s) (ht : ∀ s t u, R s t → R t u → R s u)
    (h : ∀ s t, Step T s t → R s t) (h1 : ∀ s c, R s { s with cpu := c })
    (h2 : ∀ s c, R s { s with allowIllegal := c }) (h3 : ∀ s, R s { s with format := .c64 }) {s t : St}
    (hs : TSteps T s t) : R s t := by
  induction hs with
  | refl => exact hr _
  | steps _ h' ih => exact ht _ _ _ ih (h'.rel hr ht h)
  | cpu _ c ih => exact ht _ _ _ ih (h1 _ c)
  | illegal _ c ih => exact ht _ _ _ ih (h2 _ c)
  | c64 _ ih => exact ht _ _ _ ih (h3 _)

/-- A pass is: reset, effects, and (when it returns normally) the final cleanup. -/
theorem runPass_tsteps [TOk T] (f : Nat) (prog : Program) (hp : prog.uses T = true) (output final : Bool) (s : St)
    (h : final = true → 0 ≤ s.totalBytes)
    (hd : T .org = false → ∀ n ∈ s.nodes, n.kind ≠ .opr .org := by exact fun h => absurd h (by decide)) :
    ∃ t, TSteps T (resetSt { s with finalPass := final, outputOpen := final && output }) t ∧
      ((runPass f prog output final s).2 = t ∨
       (runPass f prog output final s).2 = { t with nodeBase := t.nodes.length, currentScope := none }) := by
  have hb := passBody_tsteps (T := T) f prog hp (resetSt { s with finalPass := final, outputOpen := final && output }) h
    (fun hT => .inr (hd hT))
  unfold runPass
  rcases parsePass_cases f prog { s with finalPass := final, outputOpen := final && output } with
    ⟨t, h1, h2⟩ | ⟨r, t, h1, _, h2⟩
  · rw [h1] at hb
    exact ⟨t, hb, Or.inr (by rw [h2])⟩
  · rw [h1] at hb
    exact ⟨t, hb, Or.inl (by rw [h2])⟩

/-- The cleanup touches only two fields. -/
theorem tail_proj {γ : Type} {r t : St}
    (h : r = t ∨ r = { t with nodeBase := t.nodes.length, currentScope := none }) (g : St → γ)
    (hg : g { t with nodeBase := t.nodes.length, currentScope := none } = g t) : g r = g t := by
  rcases h with h | h
  · rw [h]
  · rw [h, hg]

/-- An invariant of the resolving passes holds whenever a pass starts; and each recorded pass is a run of
`parse`. -/
theorem passLoop_starts {σ : Type} (P : PassSem σ) (I : σ → Prop) (hI : ∀ a b, P.parse false a = some b → I a → I b) :
    ∀ (fuel pass : Nat) (s : σ) (tr : List (Bool × σ × σ)), I s →
    (∀ e ∈ tr, e.1 = false ∧ I e.2.1 ∧ P.parse e.1 e.2.1 = some e.2.2) →
    (∀ e ∈ (passLoop P fuel pass s tr).2.2, e.1 = false ∧ I e.2.1 ∧ P.parse e.1 e.2.1 = some e.2.2) ∧
    (∀ s', (passLoop P fuel pass s tr).1 = some s' → I s') := by
  intro fuel
  induction fuel with
  | zero =>
    intro pass s tr hs htr
    exact ⟨htr, fun s' h => by cases h; exact hs⟩
  | succ fuel ih =>
    intro pass s tr hs htr
    unfold passLoop
    rcases hq : P.parse false s with _ | s'
    · exact ⟨htr, fun s' h => by cases h⟩
    · have htr' : ∀ e ∈ tr ++ [(false, s, s')], e.1 = false ∧ I e.2.1 ∧ P.parse e.1 e.2.1 = some e.2.2 := by
        intro e he
        rcases List.mem_append.mp he with he | he
        · exact htr e he
        · rw [List.mem_singleton.mp he]
          exact ⟨rfl, hs, hq⟩
      simp only
      split
      · exact ih _ _ _ (hI _ _ hq hs) htr'
      · exact ⟨htr', fun s'' h => by cases h; exact hI _ _ hq hs⟩

theorem assemble_starts {σ : Type} (P : PassSem σ) (F : AsmFiles) (I : σ → Prop)
    (hI : ∀ a b, P.parse false a = some b → I a → I b) (s : σ) (hs : I s) :
    ∀ e ∈ (assemble P F s).passes, I e.2.1 ∧ P.parse e.1 e.2.1 = some e.2.2 := by
  have key := passLoop_starts P I hI maxPasses 1 s [] hs (by simp)
  unfold assemble
  split
  · intro e he; cases he
  · rcases h : passLoop P maxPasses 1 s [] with ⟨r, pass, tr⟩
    rw [h] at key
    cases r with
    | none => exact fun e he => (key.1 e he).2
    | some s1 =>
      simp only
      split
      · exact fun e he => (key.1 e he).2
      · split
        · exact fun e he => (key.1 e he).2
        · split
          · exact fun e he => (key.1 e he).2
          · rcases hq : P.parse true s1 with _ | s2
            · exact fun e he => (key.1 e he).2
            · intro e he
              rcases List.mem_append.mp he with he | he
              · exact (key.1 e he).2
              · rw [List.mem_singleton.mp he]
                exact ⟨key.2 s1 rfl, hq⟩

/-- What a recorded pass is. -/
theorem passSem_parse {f : Nat} {prog : Program} {o fin : Bool} {a b : St}
    (h : (passSem f prog o).parse fin a = some b) : runPass f prog o fin a = (.ok (), b) := by
  simp only [passSem] at h
  split at h
  · rename_i e
    cases h
    exact e
  · cases h

/-! ## What does not change before the final pass -/

/-- No output. -/
def NoOut (s t : St) : Prop :=
  t.finalPass = s.finalPass ∧ (s.finalPass = false →
    t.out = s.out ∧ t.totalBytes = s.totalBytes ∧ t.byteDelta = s.byteDelta ∧ t.listing = s.listing)

theorem NoOut.trans {s t u : St} (h : NoOut s t) (h' : NoOut t u) : NoOut s u := by
  refine ⟨h'.1.trans h.1, fun hf => ?_⟩
  have h1 := h.2 hf
  have h2 := h'.2 (h.1.trans hf)
  exact ⟨h2.1.trans h1.1, h2.2.1.trans h1.2.1, h2.2.2.1.trans h1.2.2.1, h2.2.2.2.trans h1.2.2.2⟩

theorem Step.noOut {s t : St} (h : Step T s t) : NoOut s t := by
  cases h with
  | quiet h => exact ⟨h.finalPass, fun _ => ⟨h.out, h.totalBytes, h.byteDelta, h.listing⟩⟩
  | header hf => exact ⟨rfl, fun h => by rw [hf] at h; cases h⟩
  | payload bs hf => exact ⟨rfl, fun h => by rw [hf] at h; cases h⟩
  | list e hf => exact ⟨rfl, fun h => by rw [hf] at h; cases h⟩
  | _ => exact ⟨rfl, fun _ => ⟨rfl, rfl, rfl, rfl⟩⟩

theorem Steps.noOut {s t : St} (h : Steps T s t) : NoOut s t :=
  h.rel (R := NoOut) (fun _ => ⟨rfl, fun _ => ⟨rfl, rfl, rfl, rfl⟩⟩) (fun _ _ _ => NoOut.trans) fun _ _ => Step.noOut

theorem TSteps.noOut {s t : St} (h : TSteps T s t) : NoOut s t :=
  h.rel (R := NoOut) (fun _ => ⟨rfl, fun _ => ⟨rfl, rfl, rfl, rfl⟩⟩) (fun _ _ _ => NoOut.trans) (fun _ _ => Step.noOut)
    (fun _ _ => ⟨rfl, fun _ => ⟨rfl, rfl, rfl, rfl⟩⟩) (fun _ _ => ⟨rfl, fun _ => ⟨rfl, rfl, rfl, rfl⟩⟩)
    (fun _ => ⟨rfl, fun _ => ⟨rfl, rfl, rfl, rfl⟩⟩)

/-! ## Symbols stay -/

/-- Every symbol stays in its place, with the same names, and stays defined. -/
def SymsLe (a b : List Sym) : Prop :=
  ∀ (i : Nat) (x : Sym), a[i]? = some x → ∃ x' : Sym, b[i]? = some x' ∧ x'.name = x.name ∧ x'.fullname = x.fullname ∧
    x'.scope = x.scope ∧ x'.isMacroParam = x.isMacroParam ∧ (x.isInit = true → x'.isInit = true) ∧
    (x.isMacroName = true → x'.isMacroName = true) ∧ (x.isVar = true → x'.isVar = true) ∧
    (x.isPlusMinus = true → x'.isPlusMinus = true)

theorem SymsLe.refl (a : List Sym) : SymsLe a a := fun _ x h => ⟨x, h, rfl, rfl, rfl, rfl, id, id, id, id⟩

theorem SymsLe.trans {a b c : List Sym} (h : SymsLe a b) (h' : SymsLe b c) : SymsLe a c := by
  intro i x hx
  obtain ⟨y, hy, a1, a2, a3, a4, a5, a6, a7, a8⟩ := h i x hx
  obtain ⟨z, hz, b1, b2, b3, b4, b5, b6, b7, b8⟩ := h' i y hy
  exact ⟨z, hz, b1.trans a1, b2.trans a2, b3.trans a3, b4.trans a4, fun h => b5 (a5 h), fun h => b6 (a6 h),
    fun h => b7 (a7 h), fun h => b8 (a8 h)⟩

theorem SymsLe.append (a b : List Sym) : SymsLe a (a ++ b) := by
  intro i x hx
  refine ⟨x, ?_, rfl, rfl, rfl, rfl, id, id, id, id⟩
  rw [List.getElem?_append_left (List.getElem?_eq_some_iff.mp hx).1]
  exact hx

theorem SymsLe.set {a : List Sym} {i : Nat} {x x' : Sym} (hx : a[i]? = some x) (h1 : x'.name = x.name)
    (h2 : x'.fullname = x.fullname) (h3 : x'.scope = x.scope) (h4 : x'.isMacroParam = x.isMacroParam)
    (h5 : x.isInit = true → x'.isInit = true) (h6 : x.isMacroName = true → x'.isMacroName = true)
    (h7 : x.isVar = true → x'.isVar = true) (h8 : x.isPlusMinus = true → x'.isPlusMinus = true) :
    SymsLe a (a.set i x') := by
  intro j y hy
  rw [List.getElem?_set]
  by_cases hij : i = j
  · subst hij
    have hl := (List.getElem?_eq_some_iff.mp hx).1
    rw [hx] at hy
    cases hy
    exact ⟨x', by simp [hl], h1, h2, h3, h4, h5, h6, h7, h8⟩
  · exact ⟨y, by simp [hij, hy], rfl, rfl, rfl, rfl, id, id, id, id⟩

theorem Step.symsLe {s t : St} (h : Step T s t) : SymsLe s.syms t.syms := by
  cases h with
  | quiet h => rw [h.syms]; exact .refl _
  | newSym x h => exact .append _ _
  | symUpd i x x' hx h _ =>
    exact .set hx h.name h.fullname h.scope h.isMacroParam h.isInit h.isMacroName h.isVar h.isPlusMinus
  | symSet i x v hx => exact .set hx rfl rfl rfl rfl id id id id
  | varReset i x v hx ht => exact .set hx rfl rfl rfl rfl (fun _ => rfl) id id id
  | _ => exact .refl _

theorem TSteps.symsLe {s t : St} (h : TSteps T s t) : SymsLe s.syms t.syms :=
  h.rel (R := fun s t => SymsLe s.syms t.syms) (fun _ => .refl _) (fun _ _ _ => SymsLe.trans) (fun _ _ => Step.symsLe)
    (fun _ _ => .refl _) (fun _ _ => .refl _) (fun _ => .refl _)

theorem Steps.symsLe {s t : St} (h : Steps T s t) : SymsLe s.syms t.syms :=
  h.rel (R := fun s t => SymsLe s.syms t.syms) (fun _ => .refl _) (fun _ _ _ => SymsLe.trans) (fun _ _ => Step.symsLe)

/-! ## Symbol values in a pass without changes -/

/-- Is the symbol an ordinary one? -/
def Sym.ordinary (x : Sym) : Bool := !x.isVar && !x.isMacroParam && !x.isMacroName && !x.isPlusMinus

/-- No `.var` so far. -/
def NoVar (s : St) : Prop := s.expansionType ≠ .symbol ∧ ∀ n ∈ s.nodes, n.kind ≠ .opr .var

theorem NoVar.step (hT : T .var = false) {s t : St} (h : Step T s t) (hs : NoVar s) : NoVar t := by
  cases h with
  | quiet h => exact ⟨by rw [h.expansionType]; exact hs.1, by rw [h.nodes]; exact hs.2⟩
  | alloc n h =>
    refine ⟨hs.1, fun m hm => ?_⟩
    rcases List.mem_append.mp hm with hm | hm
    · exact hs.2 m hm
    · rw [List.mem_singleton.mp hm]
      intro hk
      rw [hk] at h
      exact absurd (h.symm.trans hT) (by decide)
  | setNode p n n' hn h =>
    refine ⟨hs.1, fun m hm => ?_⟩
    rcases List.mem_or_eq_of_mem_set hm with hm | rfl
    · exact hs.2 m hm
    · intro hk
      rw [hk] at h
      have := hs.2 n (List.mem_of_getElem? hn)
      cases hk' : n.kind <;> rw [hk'] at h <;> first | (cases h; done) | (cases h; exact this hk')
  | expType e h =>
    refine ⟨fun he => ?_, hs.2⟩
    obtain ⟨n, hn, hk⟩ := h he
    exact hs.2 n hn hk
  | _ => exact ⟨hs.1, hs.2⟩

theorem NoVar.steps (hT : T .var = false) {s t : St} (h : Steps T s t) (hs : NoVar s) : NoVar t := by
  induction h with
  | refl => exact hs
  | tail _ h' ih => exact ih.step hT h'

theorem NoVar.tsteps (hT : T .var = false) {s t : St} (h : TSteps T s t) (hs : NoVar s) : NoVar t := by
  induction h with
  | refl => exact hs
  | steps _ h' ih => exact ih.steps hT h'
  | _ => assumption

/-- Ordinary symbols keep their value. -/
def ValLe (a b : List Sym) : Prop :=
  ∀ (i : Nat) (x x' : Sym), a[i]? = some x → b[i]? = some x' → x'.ordinary = true → x'.value = x.value

theorem ValLe.refl (a : List Sym) : ValLe a a := by
  intro i x x' h h' _
  rw [h] at h'
  cases h'
  rfl

theorem ValLe.trans {a b c : List Sym} (h : ValLe a b) (hb : SymsLe a b) (h' : ValLe b c) (hc : SymsLe b c) :
    ValLe a c := by
  intro i x z hx hz ho
  obtain ⟨y, hy, _, _, _, b4, _, b6, b7, b8⟩ := hb i x hx
  obtain ⟨z', hz', _, _, _, c4, _, c6, c7, c8⟩ := hc i y hy
  rw [hz] at hz'
  cases hz'
  rw [h' i y z hy hz ho]
  refine h i x y hx hy ?_
  simp only [Sym.ordinary, Bool.and_eq_true, Bool.not_eq_true'] at ho ⊢
  refine ⟨⟨⟨?_, ?_⟩, ?_⟩, ?_⟩
  · cases e : y.isVar
    · rfl
    · rw [c7 e] at ho; exact absurd ho.1.1.1 (by decide)
  · rw [← c4]; exact ho.1.1.2
  · cases e : y.isMacroName
    · rfl
    · rw [c6 e] at ho; exact absurd ho.1.2 (by decide)
  · cases e : y.isPlusMinus
    · rfl
    · rw [c8 e] at ho; exact absurd ho.2 (by decide)

theorem ValLe.set {a : List Sym} {i : Nat} {x x' : Sym} (hx : a[i]? = some x)
    (h : x'.ordinary = true → x'.value = x.value) : ValLe a (a.set i x') := by
  intro j y y' hy hy' ho
  rw [List.getElem?_set] at hy'
  by_cases hij : i = j
  · subst hij
    have hl := (List.getElem?_eq_some_iff.mp hx).1
    rw [hx] at hy
    cases hy
    simp [hl] at hy'
    subst hy'
    exact h ho
  · simp [hij, hy] at hy'
    rw [← hy']

theorem Step.valLe {s t : St} (h : Step T s t) (hv : NoVar s) (hc : t.symValueChanged = s.symValueChanged) :
    ValLe s.syms t.syms := by
  cases h with
  | quiet h => rw [h.syms]; exact .refl _
  | newSym x h =>
    intro i x x' hx hx' _
    simp only at hx'
    rw [List.getElem?_append_left (List.getElem?_eq_some_iff.mp hx).1, hx] at hx'
    cases hx'
    rfl
  | symUpd i x x' hx h _ =>
    refine .set hx fun ho => ?_
    simp only [Sym.ordinary, Bool.and_eq_true, Bool.not_eq_true'] at ho
    rcases h.value with h | h | h | h | h
    · exact h
    · rw [h] at ho; exact absurd ho.1.1.1 (by decide)
    · rw [h] at ho; exact absurd ho.1.1.2 (by decide)
    · rw [h] at ho; exact absurd ho.1.2 (by decide)
    · rw [h] at ho; exact absurd ho.2 (by decide)
  | symSet i x v hx => simp only at hc; omega
  | varReset i x v hx ht => exact absurd ht hv.1
  | _ => exact .refl _

theorem TSteps.svc_mono {s t : St} (h : TSteps T s t) : s.symValueChanged ≤ t.symValueChanged :=
  h.rel (R := fun s t => s.symValueChanged ≤ t.symValueChanged) (fun _ => Nat.le_refl _)
    (fun _ _ _ => Nat.le_trans) (fun _ _ h => h.frame.symValueChanged) (fun _ _ => Nat.le_refl _)
    (fun _ _ => Nat.le_refl _) (fun _ => Nat.le_refl _)

theorem TSteps.valLe (hT : T .var = false) {s t : St} (h : TSteps T s t) (hv : NoVar s)
    (hc : t.symValueChanged = s.symValueChanged) : ValLe s.syms t.syms := by
  have steps : ∀ {s t : St}, Steps T s t → NoVar s → t.symValueChanged = s.symValueChanged →
      ValLe s.syms t.syms := by
    intro s t h hv
    induction h with
    | refl => exact fun _ => .refl _
    | tail h h' ih =>
      intro hc
      have m1 := h.frame.symValueChanged
      have m2 := h'.frame.symValueChanged
      exact (ih (by omega)).trans h.symsLe (h'.valLe (hv.steps hT h) (by omega)) h'.symsLe
  induction h with
  | refl => exact .refl _
  | steps h h' ih =>
    have m1 := h.svc_mono
    have m2 := h'.frame.symValueChanged
    exact (ih (by omega)).trans h.symsLe (steps h' (hv.tsteps hT h) (by omega)) h'.symsLe
  | cpu _ _ ih => exact ih hc
  | illegal _ _ ih => exact ih hc
  | c64 _ ih => exact ih hc

/-! ## Anonymous labels in a pass without changes -/

/-- The tables only grow. -/
def PmLe (s t : St) : Prop := s.plusTab.Sublist t.plusTab ∧ s.minusTab.Sublist t.minusTab

theorem Step.pmLe {s t : St} (h : Step T s t) (hc : t.symValueChanged = s.symValueChanged) : PmLe s t := by
  cases h with
  | quiet h => exact ⟨h.plusTab, h.minusTab⟩
  | pmMinus | pmPlus => simp only at hc; omega
  | _ => exact ⟨.refl _, .refl _⟩

theorem TSteps.pmLe {s t : St} (h : TSteps T s t) (hc : t.symValueChanged = s.symValueChanged) : PmLe s t := by
  have tr : ∀ {a b c : St}, PmLe a b → PmLe b c → PmLe a c := fun h h' => ⟨h.1.trans h'.1, h.2.trans h'.2⟩
  have steps : ∀ {s t : St}, Steps T s t → t.symValueChanged = s.symValueChanged → PmLe s t := by
    intro s t h
    induction h with
    | refl => exact fun _ => ⟨.refl _, .refl _⟩
    | tail h h' ih =>
      intro hc
      have m1 := h.frame.symValueChanged
      have m2 := h'.frame.symValueChanged
      exact tr (ih (by omega)) (h'.pmLe (by omega))
  induction h with
  | refl => exact ⟨.refl _, .refl _⟩
  | steps h h' ih =>
    have m1 := h.svc_mono
    have m2 := h'.frame.symValueChanged
    exact tr (ih (by omega)) (steps h' (by omega))
  | cpu _ _ ih => exact ih hc
  | illegal _ _ ih => exact ih hc
  | c64 _ ih => exact ih hc

/-! ## Lookups -/

theorem symFindAux_some {key : Str} : ∀ {l : List Sym} {k i : Nat}, symFindAux key l k = some i →
    k ≤ i ∧ ∃ x, l[i - k]? = some x ∧ stricmp x.fullname key = 0
  | [], _, _, h => by cases h
  | x :: xs, k, i, h => by
    unfold symFindAux at h
    split at h
    · rename_i j hj
      cases h
      obtain ⟨h1, y, hy, e⟩ := symFindAux_some hj
      refine ⟨by omega, y, ?_, e⟩
      have : i - k = (i - (k + 1)) + 1 := by omega
      rw [this, List.getElem?_cons_succ]
      exact hy
    · split at h
      · cases h
        rename_i e
        exact ⟨Nat.le_refl _, x, by simp, e⟩
      · cases h

theorem symFindAux_of_mem {key : Str} : ∀ {l : List Sym} {k i : Nat} {x : Sym}, l[i]? = some x →
    stricmp x.fullname key = 0 → ∃ j, symFindAux key l k = some j ∧ k + i ≤ j
  | [], _, _, _, h, _ => by cases h
  | y :: ys, k, 0, x, h, e => by
    simp at h
    subst h
    unfold symFindAux
    rcases hj : symFindAux key ys (k + 1) with _ | j
    · exact ⟨k, by simp [e], by omega⟩
    · exact ⟨j, rfl, by have := (symFindAux_some hj).1; omega⟩
  | y :: ys, k, i + 1, x, h, e => by
    rw [List.getElem?_cons_succ] at h
    obtain ⟨j, hj, hle⟩ := symFindAux_of_mem (k := k + 1) h e
    unfold symFindAux
    exact ⟨j, by rw [hj], by omega⟩

theorem symFind_some {key : Str} {l : List Sym} {i : Nat} (h : symFind l key = some i) :
    ∃ x, l[i]? = some x ∧ stricmp x.fullname key = 0 := by
  obtain ⟨_, x, hx, e⟩ := symFindAux_some h
  exact ⟨x, by simpa using hx, e⟩

theorem symFind_mono {a b : List Sym} (h : SymsLe a b) {key : Str} {i : Nat} (hi : symFind a key = some i) :
    ∃ j, symFind b key = some j ∧ i ≤ j := by
  obtain ⟨x, hx, e⟩ := symFind_some hi
  obtain ⟨x', hx', _, e', _⟩ := h i x hx
  obtain ⟨j, hj, hle⟩ := symFindAux_of_mem (k := 0) hx' (by rw [e']; exact e)
  exact ⟨j, hj, by omega⟩

/-! ## Header -/

/-- The byte counter counts the bytes of the file, and the file starts with a load address (stated for C64
format). -/
def HdrInv (org : Int → Prop) (s : St) : Prop :=
  s.format = .c64 ∧ s.totalBytes = s.out.length ∧ org s.origin ∧
  (s.out = [] ∨ ∃ o rest, org o ∧ s.out = (o % 256).toNat :: (o % 65536 / 256).toNat :: rest)

theorem HdrInv.step {org : Int → Prop} {s t : St} (h : Step T s t)
    (hn : (∀ v, org v) ∨ T .org = false ∧ ∀ n ∈ s.nodes, n.kind ≠ .opr .pcAssign)
    (hs : HdrInv org s) : HdrInv org t := by
  obtain ⟨h1, h2, h3, h4⟩ := hs
  cases h with
  | quiet h =>
    refine ⟨h.format.trans h1, by rw [h.totalBytes, h.out]; exact h2, by rw [h.origin]; exact h3, ?_⟩
    rw [h.out]
    exact h4
  | header hf ho' h0 hs' =>
    refine ⟨h1, ?_, h3, Or.inr ⟨s.origin, [], h3, ?_⟩⟩
    · simp only [List.length_append]; omega
    · have : s.out = [] := by
        have : (s.out.length : Int) = 0 := by omega
        exact List.length_eq_zero_iff.mp (by omega)
      simp only [this, headerBytes, h1, List.nil_append]
  | payload bs hf ho' hb hc hs' =>
    refine ⟨h1, by simp only [List.length_append]; omega, h3, ?_⟩
    have := hc h1
    rcases h4 with h4 | ⟨v, rest, hv, h4⟩
    · rw [h4] at h2
      simp at h2
      omega
    · exact Or.inr ⟨v, rest ++ bs, hv, by simp only [h4, List.cons_append]⟩
  | origin v h =>
    refine ⟨h1, h2, ?_, h4⟩
    rcases hn with hn | ⟨hT, hn⟩
    · exact hn v
    · rcases h with ⟨n, hm, hk⟩ | h
      · exact absurd hk (hn n hm)
      · exact absurd (h.symm.trans hT) (by decide)
  | _ => exact ⟨h1, h2, h3, h4⟩

/-- No node is a `*=`. -/
def NoStar (s : St) : Prop := ∀ n ∈ s.nodes, n.kind ≠ .opr .pcAssign

theorem NoStar.step (hT : T .pcAssign = false) {s t : St} (h : Step T s t) (hs : NoStar s) : NoStar t := by
  cases h with
  | quiet h => unfold NoStar; rw [h.nodes]; exact hs
  | alloc n h =>
    intro m hm
    rcases List.mem_append.mp hm with hm | hm
    · exact hs m hm
    · rw [List.mem_singleton.mp hm]
      intro hk
      rw [hk] at h
      exact absurd (h.symm.trans hT) (by decide)
  | setNode p n n' hn h =>
    intro m hm
    rcases List.mem_or_eq_of_mem_set hm with hm | rfl
    · exact hs m hm
    · have := hs n (List.mem_of_getElem? hn)
      intro hk
      rw [hk] at h
      cases hk' : n.kind <;> rw [hk'] at h <;> first | (cases h; done) | (cases h; exact this hk')
  | _ => exact hs

theorem HdrInv.tsteps {s t : St} (h : TSteps T s t) (hs : HdrInv (fun _ => True) s) : HdrInv (fun _ => True) t := by
  have steps : ∀ {s t : St}, Steps T s t → HdrInv (fun _ => True) s → HdrInv (fun _ => True) t := by
    intro s t h hs
    induction h with
    | refl => exact hs
    | tail _ h' ih => exact ih.step h' (Or.inl fun _ => trivial)
  induction h with
  | refl => exact hs
  | steps _ h' ih => exact steps h' ih
  | cpu _ _ ih => exact ih
  | illegal _ _ ih => exact ih
  | c64 _ ih => exact ⟨rfl, ih.2⟩

theorem HdrInv.tsteps_org {org : Int → Prop} (hT : T .org = false ∧ T .pcAssign = false) {s t : St}
    (h : TSteps T s t) (hn : NoStar s) (hs : HdrInv org s) : HdrInv org t := by
  have steps : ∀ {s t : St}, Steps T s t → NoStar s → HdrInv org s → NoStar t ∧ HdrInv org t := by
    intro s t h hn hs
    induction h with
    | refl => exact ⟨hn, hs⟩
    | tail _ h' ih => exact ⟨ih.1.step hT.2 h', ih.2.step h' (Or.inr ⟨hT.1, ih.1⟩)⟩
  have key : NoStar t ∧ HdrInv org t := by
    induction h with
    | refl => exact ⟨hn, hs⟩
    | steps _ h' ih => exact steps h' ih.1 ih.2
    | cpu _ _ ih => exact ih
    | illegal _ _ ih => exact ih
    | c64 _ ih => exact ⟨ih.1, rfl, ih.2.2⟩
  exact key.2

end Verif
