import Verif.Lemmas.Names
import Verif.Lemmas.Run

/-! # Order of C strings, sorted tables of anonymous labels -/

namespace Verif

theorem stricmp_neg (a b : Str) : stricmp a b = - stricmp b a := by
  induction a generalizing b with
  | nil => cases b <;> simp [stricmp]
  | cons c a ih =>
    cases b with
    | nil => simp [stricmp]
    | cons d b =>
      simp only [stricmp]
      by_cases h : (tolower c : Int) - (tolower d : Int) = 0
      · rw [if_neg (by omega), if_neg (by omega), ih]
      · rw [if_pos h, if_pos (by omega)]
        omega

theorem stricmp_self (a : Str) : stricmp a a = 0 := by
  have := stricmp_neg a a
  omega

theorem tolower_pos {c : Nat} (h : c ≠ 0) : (0 : Int) < tolower c := by
  have := mt tolower_eq_zero.1 h
  omega

theorem CStr.head {c : Nat} {a : Str} (h : CStr (c :: a)) : c ≠ 0 := h c (by simp)
theorem CStr.tail {c : Nat} {a : Str} (h : CStr (c :: a)) : CStr a := fun x hx => h x (by simp [hx])

theorem stricmp_le_trans {a b c : Str} (ha : CStr a) (hb : CStr b) (hc : CStr c) (h1 : stricmp a b ≤ 0)
    (h2 : stricmp b c ≤ 0) : stricmp a c ≤ 0 ∧ (stricmp a c = 0 → stricmp a b = 0 ∧ stricmp b c = 0) := by
  induction a generalizing b c with
  | nil =>
    cases c with
    | nil =>
      refine ⟨by simp [stricmp], fun _ => ?_⟩
      cases b with
      | nil => simp [stricmp]
      | cons d b =>
        have := tolower_pos hb.head
        simp only [stricmp] at h2
        omega
    | cons e c =>
      have := tolower_pos hc.head
      simp only [stricmp]
      omega
  | cons x a ih =>
    cases b with
    | nil =>
      have := tolower_pos ha.head
      simp only [stricmp] at h1
      omega
    | cons y b =>
      cases c with
      | nil =>
        have := tolower_pos hb.head
        simp only [stricmp] at h2
        omega
      | cons z c =>
        have ih := ih ha.tail hb.tail hc.tail
        simp only [stricmp] at h1 h2 ⊢
        by_cases hxy : (tolower x : Int) - (tolower y : Int) = 0
        · rw [if_neg (by omega)] at h1
          rw [if_neg (by omega : ¬ ((tolower x : Int) - (tolower y : Int) ≠ 0))]
          by_cases hyz : (tolower y : Int) - (tolower z : Int) = 0
          · rw [if_neg (by omega)] at h2
            rw [if_neg (by omega), if_neg (by omega)]
            exact ih h1 h2
          · rw [if_pos hyz] at h2
            rw [if_pos (by omega), if_pos hyz]
            omega
        · rw [if_pos hxy] at h1
          rw [if_pos hxy]
          by_cases hyz : (tolower y : Int) - (tolower z : Int) = 0
          · rw [if_neg (by omega)] at h2
            rw [if_pos (by omega)]
            omega
          · rw [if_pos hyz] at h2
            rw [if_pos (by omega)]
            omega

/-- The order of the tables: by file, then by line. -/
def PmLt (a b : PmSym) : Prop := stricmp a.file b.file < 0 ∨ (stricmp a.file b.file = 0 ∧ a.line < b.line)

/-- A sorted table whose file names are C strings. -/
def PmSorted (t : List PmSym) : Prop := t.Pairwise PmLt ∧ ∀ e ∈ t, CStr e.file

theorem PmLt.le {a b : PmSym} (h : PmLt a b) : stricmp a.file b.file ≤ 0 := by
  rcases h with h | h <;> omega

theorem PmLt.trans {a b c : PmSym} (ha : CStr a.file) (hb : CStr b.file) (hc : CStr c.file) (h : PmLt a b)
    (h' : PmLt b c) : PmLt a c := by
  have := stricmp_le_trans ha hb hc h.le h'.le
  unfold PmLt at *
  omega

/-- A part of a sorted table that is convex for the order is contiguous. -/
theorem convex_split {α : Type} {R : α → α → Prop} {P : α → Bool} : ∀ {t : List α}, t.Pairwise R →
    (∀ x y z, R x y → R y z → x ∈ t → y ∈ t → z ∈ t → P x = true → P z = true → P y = true) →
    ∃ a m b, t = a ++ m ++ b ∧ (∀ x ∈ a, P x = false) ∧ (∀ x ∈ m, P x = true) ∧ (∀ x ∈ b, P x = false)
  | [], _, _ => ⟨[], [], [], rfl, by simp, by simp, by simp⟩
  | x :: xs, h, hc => by
    rw [List.pairwise_cons] at h
    obtain ⟨a, m, b, e, h1, h2, h3⟩ := convex_split h.2 (fun x y z hxy hyz hx hy hz =>
      hc x y z hxy hyz (by simp [hx]) (by simp [hy]) (by simp [hz]))
    by_cases hP : P x = true
    · cases hm : m with
      | nil =>
        refine ⟨[], [x], a ++ b, by simp [e, hm], by simp, by simpa using hP, ?_⟩
        intro y hy
        rcases List.mem_append.1 hy with hy | hy
        · exact h1 y hy
        · exact h3 y hy
      | cons z ms =>
        have ha : a = [] := by
          cases a with
          | nil => rfl
          | cons y as =>
            exfalso
            have hy : y ∈ xs := by simp [e]
            have hz : z ∈ xs := by simp [e, hm]
            have hyz : R y z := by
              have := h.2
              rw [e, hm, List.append_assoc, List.cons_append, List.pairwise_cons] at this
              exact this.1 z (by simp)
            have := hc x y z (h.1 y hy) hyz (by simp) (by simp [hy]) (by simp [hz]) hP (h2 z (by simp [hm]))
            rw [h1 y (by simp)] at this
            cases this
        refine ⟨[], x :: m, b, by simp [e, ha], by simp, ?_, h3⟩
        intro y hy
        rcases List.mem_cons.1 hy with hy | hy
        · rw [hy]; exact hP
        · exact h2 y hy
    · refine ⟨x :: a, m, b, by simp [e], ?_, h2, h3⟩
      intro y hy
      rcases List.mem_cons.1 hy with hy | hy
      · rw [hy]; simpa using hP
      · exact h1 y hy

theorem lastIdx_none {α : Type} {P : α → Bool} {b : List α} (h : ∀ x ∈ b, P x = false) : lastIdx P b = none := by
  induction b with
  | nil => rfl
  | cons x xs ih =>
    simp only [lastIdx]
    rw [ih fun y hy => h y (by simp [hy])]
    simp [h x (by simp)]

theorem lastIdx_append {α : Type} {P : α → Bool} (a m : List α) {b : List α} (hm : ∀ x ∈ m, P x = true)
    (hne : m ≠ []) (hb : ∀ x ∈ b, P x = false) : lastIdx P (a ++ m ++ b) = some (a.length + m.length - 1) := by
  induction a with
  | nil =>
    induction m with
    | nil => exact absurd rfl hne
    | cons x xs ih =>
      simp only [List.nil_append, List.cons_append, lastIdx]
      cases xs with
      | nil => simp [lastIdx_none hb, hm x (by simp)]
      | cons y ys =>
        have := ih (fun z hz => hm z (by simp [hz])) (by simp)
        simp only [List.nil_append, List.length_nil, Nat.zero_add] at this
        rw [this]
        simp
  | cons x xs ih =>
    simp only [List.cons_append, lastIdx]
    rw [ih]
    have : 0 < m.length := List.length_pos_iff.2 hne
    simp
    omega

theorem findIdx_append {α : Type} {P : α → Bool} {a : List α} (m b : List α) (ha : ∀ x ∈ a, P x = false)
    (hm : ∀ x ∈ m, P x = true) (hne : m ≠ []) : (a ++ m ++ b).findIdx? P = some a.length := by
  induction a with
  | nil =>
    cases m with
    | nil => exact absurd rfl hne
    | cons x xs => simp [List.findIdx?_cons, hm x (by simp)]
  | cons x xs ih =>
    have := ih fun y hy => ha y (by simp [hy])
    simp only [List.cons_append, List.findIdx?_cons, ha x (by simp), this, Bool.false_eq_true, if_false,
      Option.map_some, List.length_cons]

/-- Elements above the `k`-th in a strictly increasing list. -/
theorem count_above {α : Type} (g : α → Int) : ∀ (m : List α) (k : Nat) (e : α), m.Pairwise (fun a b => g a < g b) →
    m[k]? = some e → (m.filter fun x => decide (g e < g x)).length = m.length - 1 - k ∧
      (m.filter fun x => decide (g x < g e)).length = k
  | [], _, _, _, h => by cases h
  | x :: xs, 0, e, hp, h => by
    rw [List.pairwise_cons] at hp
    simp at h
    subst h
    constructor
    · rw [List.filter_cons_of_neg (by simp), List.filter_eq_self.2 (by
        intro y hy
        simpa using hp.1 y hy)]
      simp
    · rw [List.filter_cons_of_neg (by simp), List.filter_eq_nil_iff.2 (by
        intro y hy
        have := hp.1 y hy
        simp only [decide_eq_true_eq]
        omega)]
      rfl
  | x :: xs, k + 1, e, hp, h => by
    rw [List.pairwise_cons] at hp
    rw [List.getElem?_cons_succ] at h
    obtain ⟨h1, h2⟩ := count_above g xs k e hp.2 h
    have hxe := hp.1 e (List.mem_of_getElem? h)
    constructor
    · rw [List.filter_cons_of_neg (by simp only [decide_eq_true_eq]; omega), h1]
      simp only [List.length_cons]
      omega
    · rw [List.filter_cons_of_pos (by simpa using hxe), List.length_cons, h2]

end Verif
