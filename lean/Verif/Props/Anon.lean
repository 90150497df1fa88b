import Verif.Lemmas.Anon

/-! # Property C25: anonymous labels

The tables of `-` and `+` labels are sorted by file and line (`PmSorted`, kept by definitions, see
`C25_define_minus`). -/

namespace Verif

/-- The entry belongs to this file (file names are compared without regard to case). -/
def inFile (file : Str) (e : PmSym) : Bool := Spec.foldCase e.file == Spec.foldCase file

private theorem stricmp_inFile {file : Str} {e : PmSym} (hf : CStr file) (he : CStr e.file) :
    (stricmp file e.file == 0) = inFile file e := by
  unfold inFile
  rw [Bool.eq_iff_iff, beq_iff_eq, beq_iff_eq, stricmp_fold hf he]
  exact eq_comm

private theorem same_file {file : Str} {a b : PmSym} (ha : CStr a.file) (hb : CStr b.file)
    (h1 : inFile file a = true) (h2 : inFile file b = true) : stricmp a.file b.file = 0 := by
  unfold inFile at h1 h2
  rw [beq_iff_eq] at h1 h2
  exact (stricmp_fold ha hb).2 (h1.trans h2.symm)

private theorem between_file {file : Str} {a b c : PmSym} (ha : CStr a.file) (hb : CStr b.file) (hc : CStr c.file)
    (h1 : PmLt a b) (h2 : PmLt b c) (h3 : inFile file a = true) (h4 : inFile file c = true) :
    inFile file b = true := by
  have := stricmp_le_trans ha hb hc h1.le h2.le
  have e := this.2 (same_file ha hc h3 h4)
  unfold inFile at h3 ⊢
  rw [beq_iff_eq] at h3 ⊢
  rw [← h3]
  exact ((stricmp_fold ha hb).1 e.1).symm

private theorem filter_mid {P Q : PmSym → Bool} {a m b : List PmSym} (ha : ∀ x ∈ a, P x = false)
    (hm : ∀ x ∈ m, P x = true) (hb : ∀ x ∈ b, P x = false) :
    (a ++ m ++ b).filter (fun x => P x && Q x) = m.filter Q := by
  have e1 : a.filter (fun x => P x && Q x) = [] := List.filter_eq_nil_iff.2 fun x hx => by simp [ha x hx]
  have e2 : b.filter (fun x => P x && Q x) = [] := List.filter_eq_nil_iff.2 fun x hx => by simp [hb x hx]
  rw [List.filter_append, List.filter_append, e1, e2, List.nil_append, List.append_nil]
  exact List.filter_congr fun x hx => by rw [hm x hx, Bool.true_and]

private theorem sorted_lines {file : Str} {t a m b : List PmSym} (ht : PmSorted t) (e : t = a ++ m ++ b)
    (hm : ∀ x ∈ m, inFile file x = true) : m.Pairwise fun x y => x.line < y.line := by
  have h1 : (a ++ m ++ b).Pairwise PmLt := e ▸ ht.1
  have h2 := (List.pairwise_append.1 (List.pairwise_append.1 h1).1).2.1
  have hcs : ∀ x ∈ m, CStr x.file := fun x hx => ht.2 x (by rw [e]; simp [hx])
  refine List.Pairwise.imp_of_mem ?_ h2
  intro x y hx hy hxy
  have := same_file (hcs x hx) (hcs y hy) (hm x hx) (hm y hy)
  unfold PmLt at hxy
  omega

/-- **C25**, `-` repeated `n` times: when the file has at least `n` such labels at or before the line, the
reference finds one of them, and exactly `n - 1` lie between it and the line. -/
theorem C25_minus (t : List PmSym) (n : Nat) (file : Str) (line : Int) (ht : PmSorted t) (hf : CStr file)
    (hn : 1 ≤ n) (hc : n ≤ (t.filter fun e => inFile file e && decide (e.line ≤ line)).length) :
    ∃ ix e, findMinus t n file line = some ix ∧ t[ix]? = some e ∧ inFile file e = true ∧ e.line ≤ line ∧
      (t.filter fun x => inFile file x && decide (x.line ≤ line) && decide (e.line < x.line)).length = n - 1 := by
  obtain ⟨a, m, b, e, h1, h2, h3⟩ := convex_split (P := fun e => inFile file e && decide (e.line ≤ line)) ht.1 (by
    intro x y z hxy hyz hx hy hz px pz
    simp only [Bool.and_eq_true, decide_eq_true_eq] at px pz ⊢
    have hy' := between_file (ht.2 x hx) (ht.2 y hy) (ht.2 z hz) hxy hyz px.1 pz.1
    refine ⟨hy', ?_⟩
    have := same_file (ht.2 y hy) (ht.2 z hz) hy' pz.1
    unfold PmLt at hyz
    omega)
  have hlen : n ≤ m.length := by
    have := filter_mid (Q := fun _ => true) h1 h2 h3
    rw [← e] at this
    simp only [Bool.and_true] at this
    rw [this, List.filter_eq_self.2 fun _ _ => rfl] at hc
    exact hc
  have hmf : ∀ x ∈ m, inFile file x = true := fun x hx => by
    have := h2 x hx
    simp only [Bool.and_eq_true] at this
    exact this.1
  have hl : lastIdx (fun e => stricmp file e.file == 0 && decide (e.line ≤ line)) t = some (a.length + m.length - 1) := by
    rw [e]
    refine lastIdx_append a m ?_ (by intro h; rw [h] at hlen; simp at hlen; omega) ?_
    · intro x hx
      rw [stricmp_inFile hf (ht.2 x (by rw [e]; simp [hx]))]
      exact h2 x hx
    · intro x hx
      rw [stricmp_inFile hf (ht.2 x (by rw [e]; simp [hx]))]
      exact h3 x hx
  obtain ⟨y, hy⟩ : ∃ y, m[m.length - n]? = some y :=
    ⟨m[m.length - n]'(by omega), List.getElem?_eq_getElem (by omega)⟩
  refine ⟨a.length + (m.length - n), y, ?_, ?_, hmf y (List.mem_of_getElem? hy), ?_, ?_⟩
  · unfold findMinus
    rw [hl]
    simp only
    rw [if_neg (by omega)]
    congr 1
    omega
  · rw [e, List.append_assoc, List.getElem?_append_right (by omega), Nat.add_sub_cancel_left,
      List.getElem?_append_left (by omega)]
    exact hy
  · have := h2 y (List.mem_of_getElem? hy)
    simp only [Bool.and_eq_true, decide_eq_true_eq] at this
    exact this.2
  · have := filter_mid (Q := fun x => decide (y.line < x.line)) h1 h2 h3
    rw [← e] at this
    rw [this, (count_above PmSym.line m _ y (sorted_lines ht e hmf) hy).1]
    omega

/-- **C25**, `+` repeated `n` times: when the file has at least `n` such labels after the line, the reference finds
one of them, and exactly `n - 1` lie between the line and it. -/
theorem C25_plus (t : List PmSym) (n : Nat) (file : Str) (line : Int) (ht : PmSorted t) (hf : CStr file)
    (hn : 1 ≤ n) (hc : n ≤ (t.filter fun e => inFile file e && decide (line < e.line)).length) :
    ∃ ix e, findPlus t n file line = some ix ∧ t[ix]? = some e ∧ inFile file e = true ∧ line < e.line ∧
      (t.filter fun x => inFile file x && decide (line < x.line) && decide (x.line < e.line)).length = n - 1 := by
  obtain ⟨a, m, b, e, h1, h2, h3⟩ := convex_split (P := fun e => inFile file e && decide (line < e.line)) ht.1 (by
    intro x y z hxy hyz hx hy hz px pz
    simp only [Bool.and_eq_true, decide_eq_true_eq] at px pz ⊢
    have hy' := between_file (ht.2 x hx) (ht.2 y hy) (ht.2 z hz) hxy hyz px.1 pz.1
    refine ⟨hy', ?_⟩
    have := same_file (ht.2 x hx) (ht.2 y hy) px.1 hy'
    unfold PmLt at hxy
    omega)
  have hlen : n ≤ m.length := by
    have := filter_mid (Q := fun _ => true) h1 h2 h3
    rw [← e] at this
    simp only [Bool.and_true] at this
    rw [this, List.filter_eq_self.2 fun _ _ => rfl] at hc
    exact hc
  have hmf : ∀ x ∈ m, inFile file x = true := fun x hx => by
    have := h2 x hx
    simp only [Bool.and_eq_true] at this
    exact this.1
  have hl : t.findIdx? (fun e => stricmp file e.file == 0 && decide (line < e.line)) = some a.length := by
    rw [e]
    refine findIdx_append m b ?_ ?_ (by intro h; rw [h] at hlen; simp at hlen; omega)
    · intro x hx
      rw [stricmp_inFile hf (ht.2 x (by rw [e]; simp [hx]))]
      exact h1 x hx
    · intro x hx
      rw [stricmp_inFile hf (ht.2 x (by rw [e]; simp [hx]))]
      exact h2 x hx
  obtain ⟨y, hy⟩ : ∃ y, m[n - 1]? = some y := ⟨m[n - 1]'(by omega), List.getElem?_eq_getElem (by omega)⟩
  refine ⟨a.length + (n - 1), y, ?_, ?_, hmf y (List.mem_of_getElem? hy), ?_, ?_⟩
  · unfold findPlus
    rw [hl]
    simp only
    rw [if_neg (by omega)]
    congr 1
    omega
  · rw [e, List.append_assoc, List.getElem?_append_right (by omega), Nat.add_sub_cancel_left,
      List.getElem?_append_left (by omega)]
    exact hy
  · have := h2 y (List.mem_of_getElem? hy)
    simp only [Bool.and_eq_true, decide_eq_true_eq] at this
    exact this.2
  · have := filter_mid (Q := fun x => decide (x.line < y.line)) h1 h2 h3
    rw [← e] at this
    rw [this, (count_above PmSym.line m _ y (sorted_lines ht e hmf) hy).2]

/-- A table with two files. -/
def twoFiles : List PmSym := [⟨[97], 3, 100⟩, ⟨[97], 7, 200⟩, ⟨[98], 2, 300⟩, ⟨[98], 5, 400⟩, ⟨[98], 9, 500⟩]

theorem twoFiles_sorted : PmSorted twoFiles := by
  refine ⟨?_, ?_⟩
  · unfold twoFiles PmLt
    decide
  · unfold twoFiles CStr
    decide

example : PmSorted twoFiles ∧ findMinus twoFiles 2 [66] 6 = some 2 ∧
    2 ≤ (twoFiles.filter fun e => inFile [66] e && decide (e.line ≤ 6)).length ∧
    findPlus twoFiles 2 [98] 2 = some 4 ∧
    2 ≤ (twoFiles.filter fun e => inFile [98] e && decide (2 < e.line)).length :=
  ⟨twoFiles_sorted, by decide⟩

/-- **C25**, too few labels (`_partial`: only when no label of another file precedes them).  With all labels in one
file, `-` repeated more often than there are labels at or before the line is unresolved. -/
theorem C25_minus_none_partial (t : List PmSym) (n : Nat) (file : Str) (line : Int) (ht : PmSorted t)
    (hf : CStr file) (h1 : ∀ e ∈ t, inFile file e = true)
    (hc : (t.filter fun e => inFile file e && decide (e.line ≤ line)).length < n) :
    findMinus t n file line = none := by
  unfold findMinus
  split
  · rename_i i hi
    rw [if_pos]
    have hcong : lastIdx (fun e => stricmp file e.file == 0 && decide (e.line ≤ line)) t = some i := hi
    have key : ∀ (l : List PmSym) (i : Nat), (∀ e ∈ l, inFile file e = true ∧ CStr e.file) →
        l.Pairwise (fun x y => x.line < y.line) →
        lastIdx (fun e => stricmp file e.file == 0 && decide (e.line ≤ line)) l = some i →
        i + 1 ≤ (l.filter fun e => inFile file e && decide (e.line ≤ line)).length := by
      intro l
      induction l with
      | nil => intro i _ _ h; cases h
      | cons x xs ih =>
        intro i hl hp h
        rw [List.pairwise_cons] at hp
        simp only [lastIdx] at h
        have hx := hl x (by simp)
        split at h
        · rename_i j hj
          cases h
          have := ih j (fun e he => hl e (by simp [he])) hp.2 hj
          have hmem : ∃ y ∈ xs, y.line ≤ line := by
            rcases hfl : xs.filter fun e => inFile file e && decide (e.line ≤ line) with _ | ⟨y, ys⟩
            · rw [hfl] at this; simp at this
            · have hy : y ∈ xs.filter fun e => inFile file e && decide (e.line ≤ line) := by rw [hfl]; simp
              rw [List.mem_filter] at hy
              simp only [Bool.and_eq_true, decide_eq_true_eq] at hy
              exact ⟨y, hy.1, hy.2.2⟩
          obtain ⟨y, hy, hyl⟩ := hmem
          have := hp.1 y hy
          rw [List.filter_cons_of_pos (by simp [hx.1]; omega), List.length_cons]
          omega
        · split at h
          · rename_i hpx
            cases h
            rw [stricmp_inFile hf hx.2] at hpx
            rw [List.filter_cons_of_pos (by simpa using hpx), List.length_cons]
            omega
          · cases h
    have := key t i (fun e he => ⟨h1 e he, ht.2 e he⟩) (sorted_lines (a := []) (b := []) ht (by simp) h1) hcong
    omega
  · rfl

example : PmSorted (twoFiles.take 2) ∧ (∀ e ∈ twoFiles.take 2, inFile [97] e = true) ∧
    findMinus (twoFiles.take 2) 3 [97] 9 = none ∧ findMinus (twoFiles.take 2) 2 [97] 9 = some 0 := by
  refine ⟨⟨?_, ?_⟩, by decide⟩
  · unfold twoFiles PmLt
    decide
  · unfold twoFiles CStr
    decide

/-- **C25**, no label on the required side at all: unresolved, for both directions and every table. -/
theorem C25_no_label (t : List PmSym) (n : Nat) (file : Str) (line : Int) (hf : CStr file)
    (ht : ∀ e ∈ t, CStr e.file) :
    ((∀ e ∈ t, inFile file e = true → line < e.line) → findMinus t n file line = none) ∧
    ((∀ e ∈ t, inFile file e = true → e.line ≤ line) → findPlus t n file line = none) := by
  constructor
  · intro h
    unfold findMinus
    rw [lastIdx_none]
    intro x hx
    rw [stricmp_inFile hf (ht x hx), Bool.and_eq_false_iff]
    cases hi : inFile file x with
    | false => exact Or.inl rfl
    | true =>
      have := h x hx hi
      exact Or.inr (by simp only [decide_eq_false_iff_not]; omega)
  · intro h
    unfold findPlus
    rw [List.findIdx?_eq_none_iff.2]
    intro x hx
    rw [stricmp_inFile hf (ht x hx), Bool.and_eq_false_iff]
    cases hi : inFile file x with
    | false => exact Or.inl rfl
    | true =>
      have := h x hx hi
      exact Or.inr (by simp only [decide_eq_false_iff_not]; omega)

/-- **C25 fails when there are too few labels**: `---` with two labels in file `b` finds a label of file `a`;
`++` with one label after the line in file `a` finds a label of file `b`. -/
theorem C25_other_file_false :
    PmSorted twoFiles ∧
    (twoFiles.filter fun e => inFile [98] e && decide (e.line ≤ 6)).length = 2 ∧
    findMinus twoFiles 3 [98] 6 = some 1 ∧ twoFiles[1]? = some ⟨[97], 7, 200⟩ ∧
    (twoFiles.filter fun e => inFile [97] e && decide (4 < e.line)).length = 1 ∧
    findPlus twoFiles 2 [97] 4 = some 2 ∧ twoFiles[2]? = some ⟨[98], 2, 300⟩ :=
  ⟨twoFiles_sorted, by decide⟩

/-- **C25 fails when there are too few labels**: with a single `+` label, `++` reads behind the table. -/
theorem C25_past_end_false :
    findPlus [⟨[97], 3, 100⟩] 2 [97] 1 = some 1 ∧
    (runFile (expandNode 9) (hasUninit 9) [.stmt [97] 1 (.op Ins._jmp .a (some (.sym [43, 43])))]
      { plusTab := [⟨[97], 3, 100⟩] }).1 = .ub := by decide +kernel

/-! ## Definitions keep the table sorted -/

theorem insertPm_mem (e : PmSym) : ∀ (t : List PmSym) (x : PmSym), x ∈ insertPm e t ↔ x = e ∨ x ∈ t
  | [], x => by simp [insertPm]
  | y :: ys, x => by
    unfold insertPm
    split
    · simp
    · simp only [List.mem_cons, insertPm_mem e ys x]
      constructor
      · rintro (h | h | h)
        · exact Or.inr (Or.inl h)
        · exact Or.inl h
        · exact Or.inr (Or.inr h)
      · rintro (h | h | h)
        · exact Or.inr (Or.inl h)
        · exact Or.inl h
        · exact Or.inr (Or.inr h)

private theorem comparePm_lt {a b : PmSym} : comparePm a b < 0 ↔ PmLt a b := by
  unfold comparePm PmLt
  split <;> omega

private theorem comparePm_gt {a b : PmSym} : 0 < comparePm a b ↔ PmLt b a := by
  unfold comparePm PmLt
  have := stricmp_neg a.file b.file
  split <;> omega

/-- Inserting a label at a new position keeps the table sorted. -/
theorem C25_insert_sorted (e : PmSym) (he : CStr e.file) : ∀ (t : List PmSym), PmSorted t →
    (∀ x ∈ t, ¬ (inFile e.file x = true ∧ x.line = e.line)) → PmSorted (insertPm e t)
  | [], _, _ => ⟨by simp [insertPm], by simpa [insertPm] using he⟩
  | y :: ys, ht, hn => by
    obtain ⟨hp, hc⟩ := ht
    rw [List.pairwise_cons] at hp
    have hy : CStr y.file := hc y (by simp)
    unfold insertPm
    split
    · rename_i hlt
      have hlt := comparePm_lt.1 hlt
      refine ⟨?_, ?_⟩
      · rw [List.pairwise_cons, List.pairwise_cons]
        refine ⟨?_, hp⟩
        intro z hz
        rcases List.mem_cons.1 hz with hz | hz
        · rw [hz]; exact hlt
        · exact hlt.trans he hy (hc z (by simp [hz])) (hp.1 z hz)
      · intro z hz
        rcases List.mem_cons.1 hz with hz | hz
        · rw [hz]; exact he
        · exact hc z hz
    · rename_i hge
      have hgt : PmLt y e := by
        refine comparePm_gt.1 ?_
        have h0 : comparePm e y ≠ 0 := by
          intro h0
          apply hn y (by simp)
          unfold comparePm at h0
          split at h0
          · rename_i h1; exact absurd h0 h1
          · rename_i h1
            have h1 : stricmp e.file y.file = 0 := Decidable.not_not.1 h1
            refine ⟨?_, by omega⟩
            rw [← stricmp_inFile he hy, h1]
            rfl
        omega
      have ih := C25_insert_sorted e he ys ⟨hp.2, fun z hz => hc z (by simp [hz])⟩
        (fun z hz => hn z (by simp [hz]))
      refine ⟨?_, ?_⟩
      · rw [List.pairwise_cons]
        refine ⟨?_, ih.1⟩
        intro z hz
        rcases (insertPm_mem e ys z).1 hz with hz | hz
        · rw [hz]; exact hgt
        · exact hp.1 z hz
      · intro z hz
        rcases List.mem_cons.1 hz with hz | hz
        · rw [hz]; exact hy
        · exact ih.2 z hz

/-- The label of this file and line. -/
def atPos (file : Str) (line : Int) (e : PmSym) : Prop := inFile file e = true ∧ e.line = line

private theorem findPmDef_none {t : List PmSym} {file : Str} {line : Int} (hf : CStr file)
    (ht : ∀ e ∈ t, CStr e.file) : findPmDef t file line = none ↔ ∀ e ∈ t, ¬ atPos file line e := by
  unfold findPmDef
  rw [List.findIdx?_eq_none_iff]
  refine forall_congr' fun e => forall_congr' fun he => ?_
  unfold comparePm atPos
  rw [← stricmp_inFile hf (ht e he)]
  have := stricmp_neg file e.file
  by_cases h : stricmp e.file file = 0
  · simp [h, show stricmp file e.file = 0 by omega]
    omega
  · simp [h, show stricmp file e.file ≠ 0 by omega]

private theorem set_sorted {t : List PmSym} {ix : Nat} {e : PmSym} (ht : PmSorted t) (hx : t[ix]? = some e) (v : Int) :
    PmSorted (t.set ix { e with value := v }) := by
  have key : (t.set ix { e with value := v }).map (fun e => (e.file, e.line)) = t.map fun e => (e.file, e.line) := by
    apply List.ext_getElem?
    intro j
    rw [List.getElem?_map, List.getElem?_map, List.getElem?_set]
    by_cases hij : ix = j
    · subst hij
      have hlt : ix < t.length := by
        rcases Nat.lt_or_ge ix t.length with h | h
        · exact h
        · rw [List.getElem?_eq_none h] at hx; cases hx
      rw [if_pos rfl, if_pos hlt, hx]
      rfl
    · rw [if_neg hij]
  have toPair : ∀ l : List PmSym, PmSorted l ↔ (l.map fun e => (e.file, e.line)).Pairwise
      (fun a b => stricmp a.1 b.1 < 0 ∨ (stricmp a.1 b.1 = 0 ∧ a.2 < b.2)) ∧
      ∀ q ∈ l.map fun e => (e.file, e.line), CStr q.1 := by
    intro l
    unfold PmSorted PmLt
    rw [List.pairwise_map]
    simp
  rw [toPair, key, ← toPair]
  exact ht

private theorem set_mem {t : List PmSym} {ix : Nat} {e : PmSym} (ht : PmSorted t) (hx : t[ix]? = some e) (v : Int)
    {file : Str} {line : Int} (he : atPos file line e) : ({ e with value := v } : PmSym) ∈ t.set ix { e with value := v } ∧
      ∀ x, ¬ atPos file line x → (x ∈ t.set ix { e with value := v } ↔ x ∈ t) := by
  have hlt : ix < t.length := by
    rcases Nat.lt_or_ge ix t.length with h | h
    · exact h
    · rw [List.getElem?_eq_none h] at hx; cases hx
  refine ⟨List.mem_set hlt _, fun x hn => ?_⟩
  constructor
  · intro h
    rcases List.mem_or_eq_of_mem_set h with h | h
    · exact h
    · exact absurd (h ▸ he : atPos file line x) hn
  · intro h
    obtain ⟨j, hj⟩ := List.mem_iff_getElem?.1 h
    refine List.mem_of_getElem? (i := j) ?_
    rw [List.getElem?_set]
    by_cases hij : ix = j
    · subst hij
      rw [hx] at hj
      cases hj
      exact absurd he hn
    · rw [if_neg hij]
      exact hj

/-- **C25**, definition of `-`: afterwards the table is sorted and has the value for this file and line; the other
labels are as before. -/
theorem C25_define_minus (op : Int) (s : St) (ht : PmSorted s.minusTab) (hf : CStr s.file) (hp : s.paramStack = []) :
    ∃ s', equMinus op s = (.ok op, s') ∧ PmSorted s'.minusTab ∧
      (∃ e ∈ s'.minusTab, atPos s.file s.line e ∧ e.value = op) ∧
      (∀ x, ¬ atPos s.file s.line x → (x ∈ s'.minusTab ↔ x ∈ s.minusTab)) ∧
      s'.plusTab = s.plusTab ∧ s'.syms = s.syms ∧ s'.pc = s.pc ∧ s'.errorCount = s.errorCount := by
  let t1 := if findPmDef s.minusTab s.file s.line = none then insertPm ⟨s.file, s.line, op⟩ s.minusTab else s.minusTab
  let s1 : St := { s with minusTab := t1 }
  have h1 : (if findPmDef s.minusTab s.file s.line = none then addMinus op else M.pure ()) s = (.ok (), s1) := by
    by_cases h : findPmDef s.minusTab s.file s.line = none
    · rw [if_pos h]
      unfold addMinus
      rw [getS_bind, if_neg (fun c => c hp)]
      simp only [s1, t1, if_pos h]
      rfl
    · rw [if_neg h]
      simp only [s1, t1, if_neg h]
      rfl
  have hs1 : PmSorted t1 ∧ (∃ e ∈ t1, atPos s.file s.line e) ∧
      ∀ x, ¬ atPos s.file s.line x → (x ∈ t1 ↔ x ∈ s.minusTab) := by
    by_cases h : findPmDef s.minusTab s.file s.line = none
    · have hno := (findPmDef_none hf ht.2).1 h
      simp only [t1, if_pos h]
      refine ⟨C25_insert_sorted _ hf _ ht hno, ⟨⟨s.file, s.line, op⟩, (insertPm_mem _ _ _).2 (Or.inl rfl),
        by unfold inFile; simp, rfl⟩, fun x hx => ?_⟩
      rw [insertPm_mem]
      constructor
      · rintro (h | h)
        · exact absurd (by rw [h]; exact ⟨by unfold inFile; simp, rfl⟩) hx
        · exact h
      · exact Or.inr
    · simp only [t1, if_neg h]
      refine ⟨ht, ?_, fun _ _ => by first | exact Iff.rfl | trivial⟩
      rw [findPmDef_none hf ht.2] at h
      simpa using h
  obtain ⟨hs, ⟨e0, he0, hp0⟩, hrest⟩ := hs1
  obtain ⟨ix, e, hfind, hget, hin, hle, hcnt⟩ := C25_minus t1 1 s.file s.line hs hf (Nat.le_refl 1) (by
    apply List.length_pos_iff.2
    intro h
    have : e0 ∈ t1.filter fun e => inFile s.file e && decide (e.line ≤ s.line) := by
      rw [List.mem_filter]
      refine ⟨he0, ?_⟩
      rw [hp0.1, decide_eq_true (by rw [hp0.2]; exact Int.le_refl _)]
      rfl
    rw [h] at this
    cases this)
  have hpos : atPos s.file s.line e := by
    refine ⟨hin, ?_⟩
    have h0 := List.length_eq_zero_iff.1 hcnt
    have := List.filter_eq_nil_iff.1 h0 e0 he0
    have h2 := hp0.2
    simp only [hp0.1, Bool.true_and, Bool.and_eq_true, decide_eq_true_eq] at this
    omega
  have h2 : equMinus op s = (match findMinus t1 1 s.file s.line with
      | some ix => (liftO t1[ix]? >>= fun e => (if e.value ≠ op then
          modS fun s => { s with
            minusTab := s.minusTab.set ix { e with value := op }
            symValueChanged := s.symValueChanged + 1 }
        else M.pure ()) >>= fun _ => M.pure op)
      | none => M.pure op) s1 := by
    unfold equMinus
    rw [getS_bind, bind_ok h1, getS_bind]
    rfl
  rw [hfind] at h2
  simp only at h2
  rw [hget, bind_ok (run_liftO_some e s1)] at h2
  by_cases hv : e.value ≠ op
  · rw [if_pos hv] at h2
    refine ⟨_, h2, set_sorted hs hget op, ⟨_, (set_mem hs hget op hpos).1, hpos, rfl⟩, fun x hx => ?_, rfl, rfl, rfl, rfl⟩
    exact ((set_mem hs hget op hpos).2 x hx).trans (hrest x hx)
  · rw [if_neg hv] at h2
    exact ⟨_, h2, hs, ⟨e, List.mem_of_getElem? hget, hpos, Decidable.not_not.1 hv⟩, hrest, rfl, rfl, rfl, rfl⟩

/-- **C25**, definition of `+`, as for `-`. -/
theorem C25_define_plus (op : Int) (s : St) (ht : PmSorted s.plusTab) (hf : CStr s.file) (hp : s.paramStack = []) :
    ∃ s', equPlus op s = (.ok op, s') ∧ PmSorted s'.plusTab ∧
      (∃ e ∈ s'.plusTab, atPos s.file s.line e ∧ e.value = op) ∧
      (∀ x, ¬ atPos s.file s.line x → (x ∈ s'.plusTab ↔ x ∈ s.plusTab)) ∧
      s'.minusTab = s.minusTab ∧ s'.syms = s.syms ∧ s'.pc = s.pc ∧ s'.errorCount = s.errorCount := by
  let t1 := if findPmDef s.plusTab s.file s.line = none then insertPm ⟨s.file, s.line, op⟩ s.plusTab else s.plusTab
  let s1 : St := { s with plusTab := t1 }
  have h1 : (if findPmDef s.plusTab s.file s.line = none then addPlus op else M.pure ()) s = (.ok (), s1) := by
    by_cases h : findPmDef s.plusTab s.file s.line = none
    · rw [if_pos h]
      unfold addPlus
      rw [getS_bind, if_neg (fun c => c hp)]
      simp only [s1, t1, if_pos h]
      rfl
    · rw [if_neg h]
      simp only [s1, t1, if_neg h]
      rfl
  have hs1 : PmSorted t1 ∧ (∃ e ∈ t1, atPos s.file s.line e) ∧
      ∀ x, ¬ atPos s.file s.line x → (x ∈ t1 ↔ x ∈ s.plusTab) := by
    by_cases h : findPmDef s.plusTab s.file s.line = none
    · have hno := (findPmDef_none hf ht.2).1 h
      simp only [t1, if_pos h]
      refine ⟨C25_insert_sorted _ hf _ ht hno, ⟨⟨s.file, s.line, op⟩, (insertPm_mem _ _ _).2 (Or.inl rfl),
        by unfold inFile; simp, rfl⟩, fun x hx => ?_⟩
      rw [insertPm_mem]
      constructor
      · rintro (h | h)
        · exact absurd (by rw [h]; exact ⟨by unfold inFile; simp, rfl⟩) hx
        · exact h
      · exact Or.inr
    · simp only [t1, if_neg h]
      refine ⟨ht, ?_, fun _ _ => by first | exact Iff.rfl | trivial⟩
      rw [findPmDef_none hf ht.2] at h
      simpa using h
  obtain ⟨hs, ⟨e0, he0, hp0⟩, hrest⟩ := hs1
  obtain ⟨ix, e, hfind, hget, hin, hle, hcnt⟩ := C25_plus t1 1 s.file (s.line - 1) hs hf (Nat.le_refl 1) (by
    apply List.length_pos_iff.2
    intro h
    have : e0 ∈ t1.filter fun e => inFile s.file e && decide (s.line - 1 < e.line) := by
      rw [List.mem_filter]
      refine ⟨he0, ?_⟩
      rw [hp0.1, decide_eq_true (by rw [hp0.2]; omega)]
      rfl
    rw [h] at this
    cases this)
  have hpos : atPos s.file s.line e := by
    refine ⟨hin, ?_⟩
    have h0 := List.length_eq_zero_iff.1 hcnt
    have := List.filter_eq_nil_iff.1 h0 e0 he0
    have h2 := hp0.2
    simp only [hp0.1, Bool.true_and, Bool.and_eq_true, decide_eq_true_eq] at this
    omega
  have h2 : equPlus op s = (match findPlus t1 1 s.file (s.line - 1) with
      | some ix => (liftO t1[ix]? >>= fun e => (if e.value ≠ op then
          modS fun s => { s with
            plusTab := s.plusTab.set ix { e with value := op }
            symValueChanged := s.symValueChanged + 1 }
        else M.pure ()) >>= fun _ => M.pure op)
      | none => M.pure op) s1 := by
    unfold equPlus
    rw [getS_bind, bind_ok h1, getS_bind]
    rfl
  rw [hfind] at h2
  simp only at h2
  rw [hget, bind_ok (run_liftO_some e s1)] at h2
  by_cases hv : e.value ≠ op
  · rw [if_pos hv] at h2
    refine ⟨_, h2, set_sorted hs hget op, ⟨_, (set_mem hs hget op hpos).1, hpos, rfl⟩, fun x hx => ?_, rfl, rfl, rfl, rfl⟩
    exact ((set_mem hs hget op hpos).2 x hx).trans (hrest x hx)
  · rw [if_neg hv] at h2
    exact ⟨_, h2, hs, ⟨e, List.mem_of_getElem? hget, hpos, Decidable.not_not.1 hv⟩, hrest, rfl, rfl, rfl, rfl⟩

example : PmSorted ({ minusTab := twoFiles, file := [98], line := 6 } : St).minusTab ∧ CStr [98] ∧
    (equMinus 450 { minusTab := twoFiles, file := [98], line := 6 }).2.minusTab.map (·.value) =
      [100, 200, 300, 400, 450, 500] :=
  ⟨twoFiles_sorted, by unfold CStr; decide, by decide +kernel⟩

/-- **C25**, value of a reference: the operand `-`…`-` or `+`…`+` evaluates to the value of the label found. -/
theorem C25_value (p : Ptr) (k : IdKind) (n c : Nat) (cache : Option SymPtr) (no : Nat) (ops : List Ptr) (ix : Nat)
    (e : PmSym) (s : St) (hl : Live s p ⟨.id k (List.replicate (n + 1) c) cache, no, ops⟩)
    (hc : c = 45 ∧ findMinus s.minusTab (n + 1) s.file s.line = some ix ∧ s.minusTab[ix]? = some e ∨
      c = 43 ∧ findPlus s.plusTab (n + 1) s.file s.line = some ix ∧ s.plusTab[ix]? = some e)
    (hcache : ∀ i, cache = some i → i < s.syms.length) :
    (expandPlusMinus p s).1 = .ok e.value := by
  have hname : List.replicate (n + 1) c = c :: List.replicate n c := List.replicate_succ
  have hc' : c = 45 ∨ c = 43 := hc.imp (·.1) (·.1)
  have hres : ∃ i s1, resolveId false p s = (.ok (some i), s1) ∧ i < s1.syms.length := by
    unfold resolveId
    rw [bind_ok hl.run]
    cases cache with
    | some i => exact ⟨i, s, rfl, hcache i rfl⟩
    | none =>
      have ha : ∃ s1, addSymbol (List.replicate (n + 1) c) s = (.ok (some s.syms.length), s1) ∧
          s1.syms.length = s.syms.length + 1 ∧ s1.nodes = s.nodes ∧ s1.nodeBase = s.nodeBase := by
        unfold addSymbol
        rw [hname, if_neg (by rcases hc' with h | h <;> rw [h] <;> simp [stricmp, tolower])]
        rcases hc' with h | h <;> (subst h; exact ⟨_, rfl, by simp, rfl, rfl⟩)
      obtain ⟨s1, ha, h1, h2, h3⟩ := ha
      have hl1 : Live s1 p ⟨.id k (List.replicate (n + 1) c) none, no, ops⟩ := by
        unfold Live
        rw [h2, h3]
        exact hl
      let m : Node := ⟨.id k (List.replicate (n + 1) c) (some s.syms.length), no, ops⟩
      refine ⟨s.syms.length, { s1 with nodes := s1.nodes.set p m }, ?_, ?_⟩
      · show (addSymbol (List.replicate (n + 1) c) >>= _) s = _
        rw [bind_ok ha, bind_ok (hl1.set _)]
        rfl
      · show s.syms.length < s1.syms.length
        omega
  obtain ⟨i, s1, hr, hi⟩ := hres
  have hval : pmNameValid (List.replicate (n + 1) c) = true := by
    unfold pmNameValid
    rw [List.all_eq_true]
    intro x hx
    rw [List.eq_of_mem_replicate hx, hname]
    simp
  have hfin : ∀ (s2 : St), i < s2.syms.length → ((((liftO (some e) >>= fun e =>
      modSym i fun x => { x with value := e.value, isInit := true }) : M Unit) >>= fun _ =>
      sym i >>= fun x => M.pure x.value) s2).1 = .ok e.value := by
    intro s2 hi2
    have h1 : (liftO (some e) >>= fun e : PmSym => modSym i fun x => { x with value := e.value, isInit := true }) s2 = _ :=
      (bind_ok (run_liftO_some e s2)).trans (modSym_run hi2 _)
    rw [bind_ok h1, bind_ok (sym_run (x := { s2.syms[i] with value := e.value, isInit := true }) (by
      simp [hi2]))]
    rfl
  unfold expandPlusMinus
  rw [bind_ok hl.run]
  simp only [hval, if_true]
  rw [getS_bind, bind_ok hr, bind_ok (run_liftO_some i s1), bind_ok (modSym_run hi _)]
  have hlen : (List.replicate (n + 1) c).length = n + 1 := List.length_replicate
  rcases hc with ⟨h, h1, h2⟩ | ⟨h, h1, h2⟩
  · have hh : ((List.replicate (n + 1) c).head? == some 45) = true := by rw [hname, h]; rfl
    simp only [hh, if_true, hlen, h1, h2]
    exact hfin _ (by simpa using hi)
  · have hh : ((List.replicate (n + 1) c).head? == some 45) = false := by rw [hname, h]; rfl
    simp only [hh, Bool.false_eq_true, if_false, hlen, h1, h2]
    exact hfin _ (by simpa using hi)

/-- `--` at line 6 of file `b` evaluates to the label of line 2. -/
example : (expandPlusMinus 0 { minusTab := twoFiles, file := [98], line := 6, nodes := [⟨.id .id [45, 45] none, 0, []⟩] }).1 =
    .ok 300 :=
  C25_value 0 .id 1 45 none 0 [] 2 ⟨[98], 2, 300⟩ _ ⟨by decide, by decide⟩ (Or.inl ⟨rfl, by decide, by decide⟩)
    (by intro i h; cases h)

end Verif
