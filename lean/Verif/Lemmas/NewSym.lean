import Verif.Lemmas.BlockState
import Verif.Lemmas.Names

/-! # Insertion of a symbol by `add_symbol` -/

namespace Verif

theorem symFindAux_append (key : Str) (x : Sym) : ∀ (l : List Sym) (i : Nat),
    symFindAux key (l ++ [x]) i = if stricmp x.fullname key = 0 then some (i + l.length) else symFindAux key l i
  | [], i => by simp [symFindAux]
  | y :: l, i => by
    simp only [List.cons_append, symFindAux, symFindAux_append key x l (i + 1), List.length_cons]
    by_cases h : stricmp x.fullname key = 0
    · simp only [if_pos h]
      rw [show i + 1 + l.length = i + (l.length + 1) by omega]
    · simp only [if_neg h]

theorem symFind_append (key : Str) (x : Sym) (l : List Sym) :
    symFind (l ++ [x]) key = if stricmp x.fullname key = 0 then some l.length else symFind l key := by
  unfold symFind
  rw [symFindAux_append, Nat.zero_add]

theorem symFind_congr {a b : Str} (ha : CStr a) (hb : CStr b) (h : stricmp a b = 0) {l : List Sym}
    (hl : ∀ x ∈ l, CStr x.fullname) : symFind l a = symFind l b := by
  have hab := (stricmp_fold ha hb).1 h
  have : ∀ (l : List Sym) (i : Nat), (∀ x ∈ l, CStr x.fullname) → symFindAux a l i = symFindAux b l i := by
    intro l
    induction l with
    | nil => exact fun _ _ => rfl
    | cons y l ih =>
      intro i hl
      simp only [symFindAux, ih (i + 1) (fun x hx => hl x (List.mem_cons_of_mem _ hx))]
      have hy := hl y (List.mem_cons_self ..)
      have : (stricmp y.fullname a = 0) = (stricmp y.fullname b = 0) := by
        rw [stricmp_fold hy ha, stricmp_fold hy hb, hab]
      simp only [this]
  exact this l 0 hl

theorem CStr.dotted {a b : Str} (ha : CStr a) (hb : CStr b) : CStr (dotted a b) := by
  intro c hc
  unfold Verif.dotted at hc
  rcases List.mem_append.1 hc with h | h
  · exact ha c h
  · rcases List.mem_cons.1 h with h | h
    · omega
    · exact hb c h

theorem CStr.dropDot {a : Str} (ha : CStr a) : CStr (dropDot a) := by
  unfold Verif.dropDot
  split
  · exact fun c hc => ha c (List.mem_cons_of_mem _ hc)
  · exact ha

theorem CStr.key {s : St} {name : Str} (hll : Spec.CLabel s.lastLabel) (hn : CStr name) : CStr (addSymbolKey s name).2 := by
  have strip : ∀ {a : Str}, CStr a → CStr (stripColon a) := by
    intro a ha
    unfold stripColon
    split
    · exact fun c hc => ha c (List.dropLast_subset _ hc)
    · exact ha
  unfold addSymbolKey
  apply strip
  split
  · rename_i l heq hl
    intro c hc
    unfold formatLocal at hc
    rcases List.mem_append.1 hc with h | h
    · rcases List.mem_append.1 h with h | h
      · intro h0
        subst h0
        exact hll _ hl h
      · simp at h
        omega
    · exact hn.dropDot c h
  · exact hn.dropDot

/-- The symbol that `add_symbol` inserts. -/
def newSym (s : St) (name : Str) : Sym := sanitizeSym {
  isMacroParam := (dropDot name).head? = some 92
  isInit := (addSymbolKey s name).2.head? = some 64
  scope := (addSymbolKey s name).1
  name := (addSymbolKey s name).2
  fullname := match (addSymbolKey s name).1 with
    | some sc => dotted sc (addSymbolKey s name).2
    | none => (addSymbolKey s name).2 }

theorem sanitizeSym_fullname (x : Sym) : (sanitizeSym x).fullname = x.fullname := by
  unfold sanitizeSym
  split
  · rfl
  · split <;> rfl

theorem addSymbol_new {s : St} {name : Str} (hp : plainName name = true) (hl : look s name = none) :
    addSymbol name s = (.ok (some s.syms.length), { s with syms := s.syms ++ [newSym s name] }) := by
  simp only [plainName, Bool.and_eq_true, bne_iff_ne, ne_eq] at hp
  obtain ⟨⟨⟨h1, h2⟩, h3⟩, h4⟩ := hp
  unfold addSymbol
  rw [if_neg h2]
  split
  · simp [isPmName] at h1
  · simp [isPmName] at h1
  · rw [getS_bind, if_neg (fun h => h.elim h3 h4)]
    unfold look at hl
    unfold newSym
    cases hk : addSymbolKey s name with
    | mk sc key =>
      rw [hk] at hl
      simp only at hl ⊢
      rw [hl]
      rfl

/-- All names in the table are C strings. -/
structure CNames (s : St) : Prop where
  syms : ∀ x ∈ s.syms, CStr x.fullname
  label : Spec.CLabel s.lastLabel
  scope : ∀ sc, s.currentScope = some sc → CStr sc

theorem stricmp_refl (a : Str) : stricmp a a = 0 := by
  induction a with
  | nil => rfl
  | cons c a ih => simp [stricmp, ih]

/-- The name refers to the new symbol. -/
theorem look_new {s : St} (name : Str) (y : Sym) (hy : y.fullname = (newSym s name).fullname) :
    look { s with syms := s.syms ++ [y] } name = some s.syms.length := by
  show lookUpSymbol (addSymbolKey s name).1 (s.syms ++ [y]) (addSymbolKey s name).2 = _
  unfold newSym at hy
  rw [sanitizeSym_fullname] at hy
  cases hk : addSymbolKey s name with
  | mk sc key =>
    rw [hk] at hy
    unfold lookUpSymbol
    cases sc with
    | none =>
      simp only at hy ⊢
      rw [symFind_append, hy, if_pos (stricmp_refl _)]
    | some sc =>
      simp only at hy ⊢
      rw [symFind_append, hy, if_pos (stricmp_refl _)]

theorem addSymbolKey_scope {s : St} {name : Str} (h : 46 ∉ name) : (addSymbolKey s name).1 = s.currentScope := by
  unfold addSymbolKey
  rw [if_neg h]

/-- Other names keep their meaning. -/
theorem look_old {s : St} {name n : Str} (y : Sym) (hy : y.fullname = (newSym s name).fullname) (hs : CNames s)
    (hn : CStr name) (hn' : CStr n) (hd : 46 ∉ name) (h0 : look s name = none) {j : SymPtr} (hj : look s n = some j) :
    look { s with syms := s.syms ++ [y] } n = some j := by
  show lookUpSymbol (addSymbolKey s n).1 (s.syms ++ [y]) (addSymbolKey s n).2 = _
  unfold look at h0 hj
  have hkn := CStr.key hs.label hn
  have hkn' := CStr.key hs.label hn'
  have hsc := addSymbolKey_scope (s := s) hd
  have hsc' : (addSymbolKey s n).1 = none ∨ (addSymbolKey s n).1 = s.currentScope := by
    unfold addSymbolKey
    split
    · exact Or.inl rfl
    · exact Or.inr rfl
  unfold newSym at hy
  rw [sanitizeSym_fullname] at hy
  cases hk : addSymbolKey s name with
  | mk sc key =>
    cases hk' : addSymbolKey s n with
    | mk sc' key' =>
      rw [hk] at h0 hy hkn hsc
      rw [hk'] at hj hkn' hsc'
      simp only at h0 hj hy hkn hsc hkn' hsc' ⊢
      have hfull : CStr y.fullname := by
        rw [hy]
        cases sc with
        | none => exact hkn
        | some sc => exact CStr.dotted (hs.scope sc hsc.symm) hkn
      have hnone : symFind s.syms y.fullname = none := by
        rw [hy]
        unfold lookUpSymbol at h0
        cases sc with
        | none => exact h0
        | some sc =>
          simp only at h0 ⊢
          split at h0
          · cases h0
          · assumption
      have miss : ∀ {k : Str} {j : SymPtr}, CStr k → symFind s.syms k = some j → stricmp y.fullname k ≠ 0 := by
        intro k j hk hf h
        rw [← symFind_congr hfull hk h hs.syms, hnone] at hf
        cases hf
      unfold lookUpSymbol at hj ⊢
      cases sc' with
      | none =>
        simp only at hj ⊢
        rw [symFind_append, if_neg (miss hkn' hj), hj]
      | some c =>
        have hc : s.currentScope = some c := by
          rcases hsc' with h | h
          · cases h
          · exact h.symm
        have hcd : CStr (dotted c key') := CStr.dotted (hs.scope c hc) hkn'
        simp only at hj ⊢
        rw [symFind_append, symFind_append]
        cases h1 : symFind s.syms (dotted c key') with
        | some i =>
          rw [if_neg (miss hcd h1)]
          rw [h1] at hj
          exact hj
        | none =>
          rw [h1] at hj
          simp only at hj
          rw [if_neg (miss hkn' hj)]
          have : stricmp y.fullname (dotted c key') ≠ 0 := by
            intro h
            rw [hc] at hsc
            subst hsc
            simp only at hy
            rw [hy] at h
            rw [stricmp_fold (hy ▸ hfull) hcd] at h
            have hkk : stricmp key key' = 0 := by
              rw [stricmp_fold hkn hkn']
              unfold dotted at h
              rw [foldCase_append, foldCase_append] at h
              have := List.append_cancel_left h
              simp only [Spec.foldCase, List.map_cons, List.cons.injEq] at this
              exact this.2
            have e2 := symFind_congr hkn hkn' hkk hs.syms
            unfold lookUpSymbol at h0
            simp only at h0
            split at h0
            · cases h0
            · rw [e2, hj] at h0
              cases h0
          rw [if_neg this]
          exact hj

theorem symFind_names (key : Str) : ∀ {a b : List Sym} (i : Nat), a.map (·.fullname) = b.map (·.fullname) →
    symFindAux key a i = symFindAux key b i
  | [], [], _, _ => rfl
  | [], _ :: _, _, h => by simp at h
  | _ :: _, [], _, h => by simp at h
  | x :: a, y :: b, i, h => by
    simp only [List.map_cons, List.cons.injEq] at h
    simp only [symFindAux, symFind_names key (i + 1) h.2, h.1]

/-- The meaning of names depends only on the full names in the table. -/
theorem look_names {s : St} {ys : List Sym} (h : ys.map (·.fullname) = s.syms.map (·.fullname)) :
    look { s with syms := ys } = look s := by
  funext n
  show lookUpSymbol (addSymbolKey s n).1 ys (addSymbolKey s n).2 = lookUpSymbol (addSymbolKey s n).1 s.syms (addSymbolKey s n).2
  have e : ∀ k, symFind ys k = symFind s.syms k := fun k => symFind_names k 0 h
  unfold lookUpSymbol
  cases (addSymbolKey s n).1 with
  | none => exact e _
  | some sc => simp only [e]

theorem names_set {ys : List Sym} {i : Nat} {x y : Sym} (hx : ys[i]? = some x) (h : y.fullname = x.fullname) :
    (ys.set i y).map (·.fullname) = ys.map (·.fullname) := by
  rw [List.map_set, h]
  apply List.ext_getElem?
  intro j
  rw [List.getElem?_set]
  split
  · subst_vars
    split
    · rw [List.getElem?_map, hx]
      rfl
    · rename_i hlt
      rw [List.getElem?_eq_none (by omega)]
  · rfl

theorem symFindAux_lt {key : Str} : ∀ {l : List Sym} {i j : Nat}, symFindAux key l i = some j → j < i + l.length
  | [], _, _, h => by cases h
  | x :: l, i, j, h => by
    simp only [symFindAux] at h
    split at h
    · rename_i j' hj
      have := symFindAux_lt hj
      cases h
      simp only [List.length_cons]
      omega
    · split at h
      · cases h
        simp only [List.length_cons]
        omega
      · cases h

theorem look_lt {s : St} {n : Str} {j : SymPtr} (h : look s n = some j) : j < s.syms.length := by
  have e : ∀ {k : Str} {j : Nat}, symFind s.syms k = some j → j < s.syms.length := by
    intro k j h
    have := symFindAux_lt h
    omega
  unfold look lookUpSymbol at h
  split at h
  · split at h
    · rename_i h'
      cases h
      exact e h'
    · exact e h
  · exact e h

end Verif
