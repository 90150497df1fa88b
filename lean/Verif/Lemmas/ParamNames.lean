import Verif.Lemmas.NewSym
import Verif.Lemmas.MacroParams

/-! # Names of macro parameters -/

namespace Verif

/-- The name of a macro parameter. -/
abbrev paramName (k : Nat) : Str := 92 :: decStr k

theorem decStr_range {n c : Nat} (h : c ∈ decStr n) : 48 ≤ c ∧ c ≤ 57 := by
  unfold decStr at h
  obtain ⟨d, hd, rfl⟩ := List.mem_map.1 h
  have h := Nat.isDigit_of_mem_toDigits (b := 10) (by decide) (by decide) hd
  simp only [Char.isDigit, Bool.and_eq_true, decide_eq_true_eq] at h
  exact ⟨UInt32.le_iff_toNat_le.1 h.1, UInt32.le_iff_toNat_le.1 h.2⟩

theorem paramName_plain (k : Nat) : plainName (paramName k) = true := by
  have h : stricmp (paramName k) [65] ≠ 0 := by
    simp [stricmp, tolower]
  simp only [plainName, Bool.and_eq_true, bne_iff_ne, ne_eq]
  exact ⟨⟨⟨rfl, h⟩, by intro c; cases c⟩, by intro c; cases c⟩

theorem paramName_dot (k : Nat) : 46 ∉ paramName k := by
  intro h
  rcases List.mem_cons.1 h with h | h
  · cases h
  · have := decStr_range h
    omega

theorem cnames_set {ys : List Sym} {i : Nat} {x y : Sym} (hx : ys[i]? = some x) (hy : y.fullname = x.fullname)
    (hys : ∀ x ∈ ys, CStr x.fullname) : ∀ z ∈ ys.set i y, CStr z.fullname := by
  intro z hz
  rcases List.mem_or_eq_of_mem_set hz with h | h
  · exact hys z h
  · rw [h, hy]
    exact hys x (List.mem_of_getElem? hx)

/-- Assigning a value of 16 bits. -/
theorem setSym_run {s : St} {i : SymPtr} {x : Sym} (hx : s.syms[i]? = some x) {v : Int} (h0 : 0 ≤ v) (h1 : v ≤ 65535) :
    ∃ c, setSymbolValue i v s = (.ok (), { s with syms := s.syms.set i { x with value := v }, symValueChanged := c }) := by
  have hlt : i < s.syms.length := (List.getElem?_eq_some_iff.1 hx).1
  have hs : sym i s = (.ok x, s) := by
    unfold sym
    rw [hx]
  unfold setSymbolValue
  rw [bind_ok hs]
  by_cases hv : x.value = v
  · rw [if_neg (by omega)]
    refine ⟨s.symValueChanged, ?_⟩
    show (Res.ok _, _) = _
    have : s.syms.set i { x with value := v } = s.syms := by
      subst hv
      apply List.ext_getElem?
      intro j
      rw [List.getElem?_set]
      split
      · rename_i e; subst e; rw [hx]
      · rfl
    rw [this]
  · have hm : cand v (cnot 0xFFFF) = 0 := (cand_not_ffff ⟨by omega, by omega⟩).2 ⟨h0, by omega⟩
    rw [if_pos (by omega), if_neg (by rw [hm]; simp), bind_ok (modSym_run hlt _)]
    have e := modify_set hx (fun x => { x with value := v })
    rw [e]
    split
    · exact ⟨_, rfl⟩
    · exact ⟨_, rfl⟩

theorem paramKey (s : St) (k : Nat) : addSymbolKey s (paramName k) = (s.currentScope, paramName k) := by
  unfold addSymbolKey
  rw [if_neg (paramName_dot k)]
  have hs : stripColon (paramName k) = paramName k := by
    unfold stripColon
    split
    · rename_i h
      have : (58 : Nat) ∈ paramName k := List.mem_of_getLast? (by simpa using h)
      rcases List.mem_cons.1 this with h | h
      · cases h
      · have := decStr_range h
        omega
    · rfl
  show (_, stripColon (paramName k)) = _
  rw [hs]

theorem look_param {s : St} {k : Nat} {i : SymPtr} (h : look s (paramName k) = some i) :
    ∃ x, s.syms[i]? = some x ∧ (stricmp x.fullname (paramName k) = 0 ∨
      ∃ sc, s.currentScope = some sc ∧ stricmp x.fullname (dotted sc (paramName k)) = 0) := by
  unfold look lookUpSymbol at h
  rw [paramKey] at h
  cases hsc : s.currentScope with
  | none =>
    simp only [hsc] at h
    obtain ⟨x, hx, he⟩ := symFind_some h
    exact ⟨x, hx, Or.inl he⟩
  | some sc =>
    simp only [hsc] at h
    split at h
    · rename_i j hj
      cases h
      obtain ⟨x, hx, he⟩ := symFind_some hj
      exact ⟨x, hx, Or.inr ⟨sc, rfl, he⟩⟩
    · obtain ⟨x, hx, he⟩ := symFind_some h
      exact ⟨x, hx, Or.inl he⟩

/-- Different parameters are different symbols. -/
theorem look_param_inj {s : St} (hs : CNames s) {j k : Nat} {i : SymPtr} (hj : look s (paramName j) = some i)
    (hk : look s (paramName k) = some i) : j = k := by
  obtain ⟨x, hx, h1⟩ := look_param hj
  obtain ⟨y, hy, h2⟩ := look_param hk
  rw [hx] at hy
  cases hy
  have dot : ∀ (sc : Str) (a b : Nat), (dotted sc (paramName a)).map tolower ≠ (paramName b).map tolower := by
    intro sc a b e
    have h46 : 46 ∈ (dotted sc (paramName a)).map tolower := by
      rw [← foldCase_map, foldCase_dot]
      simp [dotted]
    rw [e, ← foldCase_map, foldCase_dot] at h46
    exact paramName_dot b h46
  rcases h1 with h1 | ⟨sc, hsc, h1⟩ <;> rcases h2 with h2 | ⟨sc', hsc', h2⟩
  · have := stricmp_two _ (CStr.param j) (CStr.param k) h1 h2
    rw [map_decStr, map_decStr] at this
    exact decStr_inj (List.cons.inj this).2
  · exact absurd (stricmp_two _ (CStr.dotted (hs.scope _ hsc') (CStr.param k)) (CStr.param j) h2 h1) (dot _ _ _)
  · exact absurd (stricmp_two _ (CStr.dotted (hs.scope _ hsc) (CStr.param j)) (CStr.param k) h1 h2) (dot _ _ _)
  · rw [hsc] at hsc'
    cases hsc'
    have := stricmp_two _ (CStr.dotted (hs.scope _ hsc) (CStr.param j)) (CStr.dotted (hs.scope _ hsc) (CStr.param k)) h1 h2
    unfold dotted at this
    rw [List.map_append, List.map_append] at this
    have := List.append_cancel_left this
    have := (List.cons.inj (show tolower 46 :: (paramName j).map tolower = tolower 46 :: (paramName k).map tolower from this)).2
    rw [map_decStr, map_decStr] at this
    exact decStr_inj (List.cons.inj this).2

/-- All parameters in use can be saved. -/
theorem paramValues_some {l : List Sym} : ∀ {n k : Nat},
    (∀ j, k ≤ j → j < k + n → ((symFind l (92 :: decStr j)).bind fun i => l[i]?.map (·.value)).isSome = true) →
    ∃ vs, paramValues l k n = some vs
  | 0, _, _ => ⟨[], rfl⟩
  | n + 1, k, h => by
    obtain ⟨vs, hvs⟩ := paramValues_some (l := l) (n := n) (k := k + 1) fun j h1 h2 => h j (by omega) (by omega)
    have h0 := h k (Nat.le_refl _) (by omega)
    unfold paramValues lookUpMacroParam
    rw [hvs]
    cases hi : symFind l (92 :: decStr k) with
    | none => rw [hi] at h0; cases h0
    | some i =>
      rw [hi] at h0
      cases hx : l[i]? with
      | none => rw [Option.bind_some, hx] at h0; cases h0
      | some x => exact ⟨x.value :: vs, by simp only [hx]⟩

theorem hex_range (w n c : Nat) (h : c ∈ hexStr w n) : c ≠ 58 ∧ c ≠ 95 ∧ c ≠ 0 := by
  unfold hexStr at h
  rcases List.mem_append.1 h with h | h
  · rw [(List.mem_replicate.1 h).2]
    decide
  · have key : ∀ n : Nat, ∀ c ∈ Nat.toDigits 16 n, ∃ d, d < 16 ∧ c = d.digitChar := by
      intro n
      induction n using Nat.strongRecOn with
      | ind n ih =>
        intro c hc
        rw [Nat.toDigits_eq_if (by decide)] at hc
        split at hc
        · rename_i hn
          exact ⟨n, hn, List.mem_singleton.1 hc⟩
        · rcases List.mem_append.1 hc with hc | hc
          · exact ih (n / 16) (by omega) c hc
          · exact ⟨n % 16, Nat.mod_lt _ (by decide), List.mem_singleton.1 hc⟩
    obtain ⟨ch, hc, rfl⟩ := List.mem_map.1 h
    obtain ⟨d, hd, rfl⟩ := key n ch hc
    have : ∀ d : Fin 16, let c := d.val.digitChar.toNat
      (if 97 ≤ c ∧ c ≤ 102 then c - 32 else c) ≠ 58 ∧ (if 97 ≤ c ∧ c ≤ 102 then c - 32 else c) ≠ 95 ∧
        (if 97 ≤ c ∧ c ≤ 102 then c - 32 else c) ≠ 0 := by decide
    exact this ⟨d, hd⟩

end Verif
