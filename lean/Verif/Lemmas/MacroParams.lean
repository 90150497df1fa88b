import Verif.Lemmas.Balance
import Verif.Lemmas.Names

/-! # Saving and restoring macro parameters -/

namespace Verif

/-- The value of the macro parameter `\k`, if there is such a symbol. -/
def paramOf (s : St) (k : Nat) : Option Int :=
  (symFind s.syms (92 :: decStr k)).bind fun i => s.syms[i]?.map (·.value)

/-! ## The names `\k` -/

theorem tolower_digit {c : Char} (h : c.isDigit = true) : tolower c.toNat = c.toNat ∧ c.toNat ≠ 0 := by
  have : 48 ≤ c.toNat ∧ c.toNat ≤ 57 := by
    simp only [Char.isDigit, Bool.and_eq_true, decide_eq_true_eq] at h
    exact ⟨UInt32.le_iff_toNat_le.1 h.1, UInt32.le_iff_toNat_le.1 h.2⟩
  unfold tolower
  rw [if_neg (by omega)]
  exact ⟨rfl, by omega⟩

theorem decStr_digits {n c : Nat} (h : c ∈ decStr n) : tolower c = c ∧ c ≠ 0 := by
  unfold decStr at h
  obtain ⟨d, hd, rfl⟩ := List.mem_map.1 h
  exact tolower_digit (Nat.isDigit_of_mem_toDigits (by decide) (by decide) hd)

theorem decStr_inj {m n : Nat} (h : decStr m = decStr n) : m = n := by
  unfold decStr at h
  have : Nat.toDigits 10 m = Nat.toDigits 10 n := by
    refine (List.map_inj_right ?_).1 h
    intro a b e
    exact Char.toNat_inj.1 e
  rw [← Nat.ofDigitChars_ten_toDigits (n := m), this, Nat.ofDigitChars_ten_toDigits]

theorem stricmp_two (x : Str) : ∀ {a b : Str}, (∀ c ∈ a, c ≠ 0) → (∀ c ∈ b, c ≠ 0) → stricmp x a = 0 → stricmp x b = 0 →
    a.map tolower = b.map tolower := by
  have nz : ∀ {d : Nat}, d ≠ 0 → tolower d ≠ 0 := fun h e => h (tolower_eq_zero.1 e)
  induction x with
  | nil =>
    intro a b ha hb h1 h2
    cases a with
    | cons d a =>
      have := nz (ha d (List.mem_cons_self ..))
      simp only [stricmp] at h1
      omega
    | nil =>
      cases b with
      | nil => rfl
      | cons e b =>
        have := nz (hb e (List.mem_cons_self ..))
        simp only [stricmp] at h2
        omega
  | cons c x ih =>
    intro a b ha hb h1 h2
    cases a with
    | nil =>
      cases b with
      | nil => rfl
      | cons e b =>
        have := nz (hb e (List.mem_cons_self ..))
        simp only [stricmp] at h1 h2
        split at h2 <;> omega
    | cons d a =>
      cases b with
      | nil =>
        have := nz (ha d (List.mem_cons_self ..))
        simp only [stricmp] at h1 h2
        split at h1 <;> omega
      | cons e b =>
        simp only [stricmp] at h1 h2
        split at h1
        · omega
        · split at h2
          · omega
          · rw [List.map_cons, List.map_cons, ih (fun c hc => ha c (List.mem_cons_of_mem _ hc))
              (fun c hc => hb c (List.mem_cons_of_mem _ hc)) h1 h2]
            congr 1
            omega

theorem map_decStr (n : Nat) : (92 :: decStr n).map tolower = 92 :: decStr n := by
  rw [List.map_cons]
  congr 1
  conv => rhs; rw [← List.map_id (decStr n)]
  exact List.map_congr_left fun c hc => (decStr_digits hc).1

theorem CStr.param (n : Nat) : ∀ c ∈ (92 :: decStr n), c ≠ 0 := by
  intro c hc
  rcases List.mem_cons.1 hc with rfl | hc
  · decide
  · exact (decStr_digits hc).2

/-- Different parameters are different symbols. -/
theorem param_ne {l : List Sym} {j k : Nat} {i : SymPtr} (hj : symFind l (92 :: decStr j) = some i)
    (hk : symFind l (92 :: decStr k) = some i) : j = k := by
  obtain ⟨x, hx, h1⟩ := symFind_some hj
  obtain ⟨y, hy, h2⟩ := symFind_some hk
  rw [hx] at hy
  cases hy
  have := stricmp_two _ (CStr.param j) (CStr.param k) h1 h2
  rw [map_decStr, map_decStr] at this
  exact decStr_inj (List.cons.inj this).2

/-! ## Assigning to a symbol -/

theorem symFind_set {l : List Sym} {i : Nat} {x y : Sym} (hx : l[i]? = some x) (hy : y.fullname = x.fullname) (key : Str) :
    symFind (l.set i y) key = symFind l key := by
  have : ∀ (l : List Sym) (i k : Nat), l[i]? = some x → symFindAux key (l.set i y) k = symFindAux key l k := by
    intro l
    induction l with
    | nil => intro i k h; cases h
    | cons z l ih =>
      intro i k h
      cases i with
      | zero =>
        cases h
        simp only [List.set_cons_zero, symFindAux, hy]
      | succ i =>
        simp only [List.set_cons_succ, symFindAux, ih i (k + 1) h]
  exact this l i 0 hx

theorem setSymbolValue_inv {s s' : St} {i : SymPtr} {v : Int} (h : setSymbolValue i v s = (.ok (), s'))
    (he : s'.errorCount = s.errorCount) :
    ∃ x, s.syms[i]? = some x ∧ s'.syms = s.syms.set i { x with value := v } := by
  unfold setSymbolValue at h
  obtain ⟨x, s1, h1, h⟩ := bind_ok_inv h
  unfold sym at h1
  split at h1 <;> cases h1
  rename_i hx
  refine ⟨x, hx, ?_⟩
  have hi := (List.getElem?_eq_some_iff.1 hx).1
  split at h
  · split at h
    · cases h
      exact absurd he (Nat.succ_ne_self _)
    · obtain ⟨_, s2, h2, h⟩ := bind_ok_inv h
      unfold modSym at h2
      rw [if_pos hi] at h2
      cases h2
      have : s.syms.modify i (fun x => { x with value := v }) = s.syms.set i { x with value := v } := by
        apply List.ext_getElem?
        intro j
        rw [List.getElem?_modify, List.getElem?_set]
        by_cases e : i = j
        · subst e
          rw [if_pos rfl, if_pos hi, hx]
          exact congrArg some (if_pos rfl)
        · simp [e]
      split at h <;> cases h <;> exact this
  · rename_i hv
    cases h
    have : x.value = v := by omega
    subst this
    refine (List.ext_getElem? fun j => ?_)
    rw [List.getElem?_set]
    split
    · rename_i e; rw [← e, hx]
    · rfl

theorem setParam {s s' : St} {i : SymPtr} {v : Int} {k : Nat} (hi : symFind s.syms (92 :: decStr k) = some i)
    (h : setSymbolValue i v s = (.ok (), s')) (he : s'.errorCount = s.errorCount) :
    paramOf s' k = some v ∧ ∀ j, j ≠ k → paramOf s' j = paramOf s j := by
  obtain ⟨x, hx, hs⟩ := setSymbolValue_inv h he
  have hlt := (List.getElem?_eq_some_iff.1 hx).1
  have hf : ∀ key, symFind s'.syms key = symFind s.syms key := by
    intro key
    rw [hs]
    exact symFind_set (y := { x with value := v }) hx rfl key
  constructor
  · unfold paramOf
    rw [hf, hi, hs]
    simp [hlt]
  · intro j hj
    unfold paramOf
    rw [hf, hs]
    cases hji : symFind s.syms (92 :: decStr j) with
    | none => rfl
    | some m =>
      have hm : i ≠ m := by
        rintro rfl
        exact hj (param_ne hji hi)
      simp [List.getElem?_set, hm]

/-! ## Save and restore -/

theorem paramValues_get {l : List Sym} : ∀ {n k : Nat} {vs : List Int}, paramValues l k n = some vs →
    vs.length = n ∧ ∀ j, j < n → (symFind l (92 :: decStr (k + j))).bind (fun i => l[i]?.map (·.value)) = vs[j]?
  | 0, _, _, h => by
    cases h
    exact ⟨rfl, fun j hj => absurd hj (Nat.not_lt_zero _)⟩
  | n + 1, k, vs, h => by
    unfold paramValues at h
    cases hi : lookUpMacroParam l k with
    | none => simp [hi] at h
    | some i =>
      rw [hi] at h
      dsimp only at h
      split at h
      · rename_i x ws hx hw
        cases h
        obtain ⟨h1, h2⟩ := paramValues_get hw
        refine ⟨by rw [List.length_cons, h1], fun j hj => ?_⟩
        cases j with
        | zero =>
          unfold lookUpMacroParam at hi
          rw [Nat.add_zero, hi]
          simp [hx]
        | succ j =>
          have := h2 j (by omega)
          rw [show k + 1 + j = k + (j + 1) by omega] at this
          rw [this]
          rfl
      · cases h

theorem restore_run : ∀ {vs : List Int} {k : Nat} {t s' : St}, restoreParams k vs t = (.ok (), s') →
    s'.errorCount = t.errorCount → (∀ j, j < vs.length → paramOf s' (k + j) = vs[j]?) ∧
      ∀ j, j < k → paramOf s' j = paramOf t j
  | [], k, t, s', h, _ => by
    cases h
    exact ⟨fun j hj => absurd hj (Nat.not_lt_zero _), fun _ _ => rfl⟩
  | v :: vs, k, t, s', h, he => by
    unfold restoreParams at h
    obtain ⟨_, _, ⟨⟩, h⟩ := bind_ok_inv h
    cases hi : lookUpMacroParam t.syms k with
    | none =>
      simp only [hi] at h
      cases h
      exact absurd he (Nat.succ_ne_self _)
    | some i =>
      simp only [hi] at h
      obtain ⟨⟨⟩, t1, h1, h2⟩ := bind_ok_inv h
      have e1 := (Bal.setSymbolValue _ _ _ _ _ h1).errors
      have e2 := (Bal.restoreParams _ _ _ _ _ h2).errors
      have e1' : t1.errorCount = t.errorCount := by omega
      obtain ⟨p1, p2⟩ := setParam hi h1 e1'
      obtain ⟨q1, q2⟩ := restore_run h2 (by omega)
      constructor
      · intro j hj
        cases j with
        | zero => rw [Nat.add_zero, q2 k (by omega), p1]; rfl
        | succ j =>
          have := q1 j (by simpa using hj)
          rw [show k + 1 + j = k + (j + 1) by omega] at this
          rw [this]
          rfl
      · intro j hj
        rw [q2 j (by omega), p2 j (by omega)]

/-- A macro call without errors gives the parameters in use their values back. -/
theorem macroEx_params {ex : Ptr → M Int} (hex : ∀ p, Bal (ex p)) {name : Str} {body : Ptr} {params : Option Ptr} {s s' : St}
    {v : Int} (h : expandMacroEx ex name body params s = (.ok v, s')) (he : s'.errorCount = s.errorCount) {k : Nat} (h1 : 1 ≤ k)
    (hk : k ≤ s.maxMacroParam) : (paramOf s k).isSome = true ∧ paramOf s' k = paramOf s k := by
  obtain ⟨t, vs, hv, _, he', hr⟩ := (macroEx_inv hex h).2 he
  obtain ⟨hl, hg⟩ := paramValues_get hv
  obtain ⟨q, _⟩ := restore_run hr (by omega)
  have a := hg (k - 1) (by omega)
  have b := q (k - 1) (by omega)
  rw [show 1 + (k - 1) = k by omega] at a b
  have e : paramOf s k = vs[k - 1]? := a
  rw [e, b]
  exact ⟨by simp; omega, rfl⟩

end Verif
