import Verif.Model.SanitizeString

/-! An induction-friendly form of `sanitizeString`. -/

namespace Verif

theorem hexPairs_length (s : Str) : (hexPairs s).2.length ≤ s.length := by
  fun_induction hexPairs s with
  | case1 a b rest h r ih =>
    have : r = hexPairs rest := rfl
    simp only [this, List.length_cons]; omega
  | case2 => simp
  | case3 => simp

/-- `sanitizeString` by recursion on the length. -/
def sanitizeWF : Str → Option (List Nat × Nat)
  | [] => some ([], 0)
  | c :: rest =>
    if c = 92 then
      match rest with
      | [] => none
      | e :: rest =>
        match escapeChar e with
        | some (v, bad) =>
          (sanitizeWF rest).map fun r => (v :: r.1, r.2 + (if bad then 1 else 0))
        | none =>
          match rest with
          | [] => none
          | d :: rest =>
            let h := hexPairs (d :: rest)
            (sanitizeWF h.2).map fun r => (h.1 ++ r.1, r.2)
    else (sanitizeWF rest).map fun r => (c :: r.1, r.2)
termination_by s => s.length
decreasing_by
  all_goals simp_wf
  · omega
  · have := hexPairs_length (d :: rest)
    simp only [List.length_cons] at this ⊢
    show (hexPairs (d :: rest)).2.length < _
    omega

theorem sanitizeF_eq (n : Nat) : ∀ s : Str, s.length ≤ n → sanitizeF n s = sanitizeWF s := by
  induction n with
  | zero =>
    intro s h
    match s, h with
    | [], _ => rw [sanitizeWF.eq_def, sanitizeF]
  | succ n ih =>
    intro s h
    match s, h with
    | [], _ => rw [sanitizeWF.eq_def, sanitizeF]
    | c :: rest, h =>
      rw [sanitizeWF.eq_def, sanitizeF.eq_def]
      simp only [List.length_cons] at h
      by_cases hc : c = 92
      · simp only [hc, if_true]
        match rest, h with
        | [], _ => rfl
        | e :: rest, h =>
          simp only [List.length_cons] at h
          cases he : escapeChar e with
          | some p =>
            obtain ⟨v, bad⟩ := p
            simp only [he, ih rest (by omega)]
          | none =>
            match rest, h with
            | [], _ => simp only [he]
            | d :: rest, h =>
              have := hexPairs_length (d :: rest)
              simp only [List.length_cons] at this h
              simp only [he, ih (hexPairs (d :: rest)).2 (by omega)]
      · simp only [hc, if_false, ih rest (by omega)]

theorem sanitizeString_eq (s : Str) : sanitizeString s = sanitizeWF s :=
  sanitizeF_eq _ s (Nat.le_refl _)

end Verif
