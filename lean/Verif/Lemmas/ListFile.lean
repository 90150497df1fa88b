import Verif.Model.ListFile
import Verif.Spec.ListFile

/-! # Lemmas on the list file -/

namespace Verif

open Spec (LstRow column srcLine lineText linesText)

theorem indentFormat_eq (l r : Str) : indentFormat l r = column l ++ r := rfl

/-- A source line with its mark. -/
def flag (d : Int → Bool) (l : SrcLine) : SrcLine := { l with displayed := d l.number }

/-- The lines `ts`, numbered from `n`, with the marks `d`. -/
def flagged (d : Int → Bool) (n : Int) (ts : List Str) : List SrcLine := (numberLines n ts).map (flag d)

@[simp] theorem flagged_nil (d : Int → Bool) (n : Int) : flagged d n [] = [] := rfl

@[simp] theorem flagged_cons (d : Int → Bool) (n : Int) (t : Str) (ts : List Str) :
    flagged d n (t :: ts) = ⟨t, n, d n⟩ :: flagged d (n + 1) ts := rfl

theorem flagged_append (d : Int → Bool) : ∀ (n : Int) (as bs : List Str),
    flagged d n (as ++ bs) = flagged d n as ++ flagged d (n + as.length) bs
  | n, [], bs => by simp
  | n, a :: as, bs => by
    simp only [List.cons_append, flagged_cons, flagged_append d (n + 1) as bs, List.length_cons]
    congr 3
    omega

theorem flagged_length (d : Int → Bool) : ∀ (n : Int) (ts : List Str), (flagged d n ts).length = ts.length
  | _, [] => rfl
  | n, t :: ts => by simp [flagged_length d (n + 1) ts]

theorem flagged_congr {d d' : Int → Bool} : ∀ {n : Int} {ts : List Str},
    (∀ m, n ≤ m → m < n + ts.length → d m = d' m) → flagged d n ts = flagged d' n ts
  | _, [], _ => rfl
  | n, t :: ts, h => by
    simp only [flagged_cons]
    rw [h n (Int.le_refl _) (by simp only [List.length_cons]; omega),
      flagged_congr (d := d) (d' := d') (n := n + 1) (ts := ts) (fun m h1 h2 => h m (by omega) (by
        simp only [List.length_cons]; omega))]

theorem flagged_none (n : Int) : ∀ (ts : List Str), flagged (fun _ => false) n ts = numberLines n ts := by
  intro ts
  induction ts generalizing n with
  | nil => rfl
  | cons t ts ih => rw [flagged_cons, ih]; rfl

/-- The search for a line. -/
theorem findLine_flagged {d : Int → Bool} {line : Int} : ∀ {n : Int} {as : List Str} {t : Str} {bs : List Str},
    line ≤ n + as.length → (as = [] ∨ line = n + as.length) →
    findLine (flagged d n (as ++ t :: bs)) line = some as.length
  | n, [], t, bs, h, _ => by
    simp only [List.nil_append, flagged_cons, findLine, List.findIdx?_cons]
    rw [if_pos (by simpa using h)]
    rfl
  | n, a :: as, t, bs, h, h2 => by
    have h2 := h2.resolve_left (List.cons_ne_nil _ _)
    simp only [List.length_cons] at h h2
    have ih := findLine_flagged (d := d) (line := line) (n := n + 1) (as := as) (t := t) (bs := bs) (by omega) (Or.inr (by omega))
    simp only [List.cons_append, flagged_cons, findLine, List.findIdx?_cons] at ih ⊢
    rw [if_neg (by simp only [decide_eq_true_eq]; omega), ih]
    rfl

theorem findLine_beyond {d : Int → Bool} {line : Int} : ∀ {n : Int} {ts : List Str},
    n + ts.length ≤ line → findLine (flagged d n ts) line = none
  | _, [], _ => rfl
  | n, t :: ts, h => by
    simp only [List.length_cons] at h
    have ih := findLine_beyond (d := d) (line := line) (n := n + 1) (ts := ts) (by omega)
    simp only [flagged_cons, findLine, List.findIdx?_cons] at ih ⊢
    rw [if_neg (by simp only [decide_eq_true_eq]; omega), ih]
    rfl

/-- The rows of the lines that follow an entry. -/
def fillRows (f : Str) (d : Int → Bool) (E : Int) : Int → List Str → List LstRow
  | _, [] => []
  | n, _ :: ts => if n ≤ E then .row [] (if d n then none else some (f, n)) :: fillRows f d E (n + 1) ts else []

theorem fillLines_flagged {T : Str → List Str} {f : Str} {d : Int → Bool} {E : Int} : ∀ {n : Int} {ts : List Str},
    (∀ k : Nat, ∀ h : k < ts.length, srcLine T f (n + k) = ts[k]) →
    fillLines E (flagged d n ts) =
      (flagged (fun m => d m || (decide (n ≤ m) && decide (m ≤ E))) n ts, (fillRows f d E n ts).flatMap (LstRow.text (srcLine T)))
  | _, [], _ => rfl
  | n, t :: ts, hT => by
    simp only [flagged_cons, fillLines, fillRows]
    by_cases hE : n ≤ E
    · rw [if_pos hE, if_pos hE, fillLines_flagged (T := T) (f := f) (d := d) (n := n + 1) (ts := ts) (fun k h => by
        have := hT (k + 1) (by simp only [List.length_cons]; omega)
        simp only [List.getElem_cons_succ] at this
        rw [← this]
        congr 1
        omega)]
      have e1 : flagged (fun m => d m || (decide (n + 1 ≤ m) && decide (m ≤ E))) (n + 1) ts =
          flagged (fun m => d m || (decide (n ≤ m) && decide (m ≤ E))) (n + 1) ts := by
        apply flagged_congr
        intro m h1 _
        have : decide (n + 1 ≤ m) = decide (n ≤ m) := by simp; omega
        rw [this]
      have t0 := hT 0 (by simp)
      simp only [List.getElem_cons_zero] at t0
      rw [show n + ((0 : Nat) : Int) = n by omega] at t0
      simp only [List.flatMap_cons]
      congr 1
      · rw [e1]
        simp [hE]
      · congr 1
        cases d n with
        | true => rfl
        | false =>
          show _ = column [] ++ srcLine T f n
          rw [t0]
          rfl
    · rw [if_neg hE, if_neg hE]
      congr 1
      rw [← flagged_cons]
      show _ = flagged (fun m => d m || decide (n ≤ m) && decide (m ≤ E)) n (t :: ts)
      apply flagged_congr
      intro m h1 _
      simp
      omega

/-- The lines shown in these rows: unmarked ones, each once. -/
theorem fillRows_src {f : Str} {d : Int → Bool} {E : Int} : ∀ {n : Int} {ts : List Str},
    ((fillRows f d E n ts).filterMap LstRow.src).Nodup ∧
    (∀ g m, (g, m) ∈ (fillRows f d E n ts).filterMap LstRow.src ↔
      g = f ∧ n ≤ m ∧ m ≤ E ∧ m < n + ts.length ∧ d m = false) ∧
    (fillRows f d E n ts).filterMap LstRow.left = []
  | n, [] => by
    refine ⟨List.nodup_nil, fun g m => ⟨fun h => (by cases h), fun h => ?_⟩, rfl⟩
    simp only [List.length_nil] at h
    omega
  | n, t :: ts => by
    obtain ⟨h1, h2, h3⟩ := fillRows_src (f := f) (d := d) (E := E) (n := n + 1) (ts := ts)
    unfold fillRows
    by_cases hE : n ≤ E
    · rw [if_pos hE]
      cases hd : d n with
      | true =>
        simp only [if_true, List.filterMap_cons, LstRow.src, LstRow.left]
        refine ⟨h1, fun g m => ?_, h3⟩
        rw [h2]
        simp only [List.length_cons]
        constructor
        · rintro ⟨rfl, a, b, c, e⟩; exact ⟨rfl, by omega, b, by omega, e⟩
        · rintro ⟨rfl, a, b, c, e⟩
          have : m ≠ n := fun h => by rw [h, hd] at e; cases e
          exact ⟨rfl, by omega, b, by omega, e⟩
      | false =>
        simp only [Bool.false_eq_true, if_false, List.filterMap_cons, LstRow.src, LstRow.left, if_true]
        refine ⟨List.nodup_cons.2 ⟨fun h => ?_, h1⟩, fun g m => ?_, h3⟩
        · have := (h2 _ _).1 h
          omega
        · simp only [List.mem_cons, Prod.mk.injEq, h2, List.length_cons]
          constructor
          · rintro (⟨rfl, rfl⟩ | ⟨rfl, a, b, c, e⟩)
            · exact ⟨rfl, by omega, hE, by omega, hd⟩
            · exact ⟨rfl, by omega, b, by omega, e⟩
          · rintro ⟨rfl, a, b, c, e⟩
            by_cases hm : m = n
            · exact Or.inl ⟨rfl, hm⟩
            · exact Or.inr ⟨rfl, by omega, b, by omega, e⟩
    · rw [if_neg hE]
      refine ⟨List.nodup_nil, fun g m => ⟨fun h => (by cases h), fun h => ?_⟩, rfl⟩
      omega

/-! ## The table of source files -/

/-- The table of source files: the files `names` have been read, the lines with mark `D` have been shown. -/
def cacheOf (T : Str → List Str) (D : Str → Int → Bool) (names : List Str) : SrcFiles :=
  names.map fun nm => (nm, flagged (D nm) 1 (T nm))

/-- The result of reading a file of these lines. -/
def readOf (T : Str → List Str) (f : Str) : List SrcLine := numberLines 1 (T f)

theorem stricmp_self : ∀ s : Str, stricmp s s = 0
  | [] => rfl
  | c :: s => by simp only [stricmp]; rw [if_neg (by omega)]; exact stricmp_self s

/-- Names that are equal but for their case are equal. -/
def Distinct (names : List Str) : Prop := ∀ a ∈ names, ∀ b ∈ names, stricmp a b = 0 → a = b

theorem getFile_cache {T : Str → List Str} {D : Str → Int → Bool} {names : List Str} {f : Str}
    (hd : Distinct (f :: names)) (hD : f ∉ names → ∀ n, D f n = false) (hn : names.Nodup) :
    ∃ names' i, getFile (readOf T) (cacheOf T D names) f = (cacheOf T D names', i) ∧ names'[i]? = some f ∧
      names'.Nodup ∧ (∀ g, g ∈ names' ↔ g ∈ names ∨ g = f) ∧ (f ∈ names → names' = names) := by
  have key : ∀ (l : List Str), (∀ g ∈ l, g ∈ names) →
      (cacheOf T D l).findIdx? (fun e => stricmp e.1 f == 0) = l.findIdx? (fun g => decide (g = f)) := by
    intro l hl
    induction l with
    | nil => rfl
    | cons g l ih =>
      simp only [cacheOf, List.map_cons, List.findIdx?_cons]
      have e1 : (stricmp g f == 0) = decide (g = f) := by
        by_cases h : g = f
        · subst h; simp [stricmp_self]
        · have : stricmp g f ≠ 0 := fun h' => h (hd _ (List.mem_cons_of_mem _ (hl g (List.mem_cons_self ..))) _
            (List.mem_cons_self ..) h')
          simp [h, this]
      rw [e1]
      have := ih (fun g hg => hl g (List.mem_cons_of_mem _ hg))
      unfold cacheOf at this
      rw [this]
  unfold getFile
  rw [key names (fun _ h => h)]
  cases hi : names.findIdx? (fun g => decide (g = f)) with
  | some i =>
    have h1 := List.findIdx?_eq_some_iff_getElem.1 hi
    obtain ⟨hlt, h2, _⟩ := h1
    have h2 : names[i] = f := by simpa using h2
    refine ⟨names, i, rfl, by rw [List.getElem?_eq_getElem hlt, h2], hn, fun g => ⟨Or.inl, ?_⟩, fun _ => rfl⟩
    rintro (h | h)
    · exact h
    · rw [h, ← h2]; exact List.getElem_mem hlt
  | none =>
    have hnot : f ∉ names := by
      intro h
      have := List.findIdx?_eq_none_iff.1 hi f h
      simp at this
    refine ⟨names ++ [f], names.length, ?_, by simp, ?_, by simp, fun h => absurd h hnot⟩
    · simp only [cacheOf, List.map_append, List.map_cons, List.map_nil, List.length_map]
      congr 3
      congr 1
      show numberLines 1 (T f) = flagged (D f) 1 (T f)
      rw [← flagged_none]
      apply flagged_congr
      intro m _ _
      rw [hD hnot]
    · rw [List.nodup_append]
      refine ⟨hn, by simp, ?_⟩
      intro a ha b hb hab
      simp only [List.mem_cons, List.not_mem_nil, or_false] at hb
      exact hnot (by rw [← hb, ← hab]; exact ha)

/-- Changing the marks of one file. -/
theorem cacheOf_set {T : Str → List Str} {D : Str → Int → Bool} {names : List Str} {i : Nat} {f : Str} {d : Int → Bool}
    (hn : names.Nodup) (hi : names[i]? = some f) :
    (cacheOf T D names).set i (f, flagged d 1 (T f)) = cacheOf T (fun g => if g = f then d else D g) names := by
  induction names generalizing i with
  | nil => cases hi
  | cons g names ih =>
    have hn' := List.nodup_cons.1 hn
    cases i with
    | zero =>
      simp only [List.getElem?_cons_zero, Option.some.injEq] at hi
      subst hi
      simp only [cacheOf, List.map_cons, List.set_cons_zero, if_true]
      congr 1
      apply List.map_congr_left
      intro h hh
      have : h ≠ g := fun e => hn'.1 (by rw [← e]; exact hh)
      simp only [this, if_false]
    | succ i =>
      simp only [List.getElem?_cons_succ] at hi
      have hgf : g ≠ f := by
        rintro rfl
        exact hn'.1 (List.mem_of_getElem? hi)
      have := ih hn'.2 hi
      simp only [cacheOf, List.map_cons, List.set_cons_succ, hgf, if_false] at this ⊢
      rw [this]

/-- What has been shown: the rows, with the state before and after. -/
structure Shown (T : Str → List Str) (D D' : Str → Int → Bool) (rows : List LstRow) : Prop where
  nodup : (rows.filterMap LstRow.src).Nodup
  fresh : ∀ g m, (g, m) ∈ rows.filterMap LstRow.src → D g m = false ∧ 1 ≤ m ∧ m ≤ (T g).length
  marks : ∀ g m, D' g m = true ↔ D g m = true ∨ (g, m) ∈ rows.filterMap LstRow.src

theorem Shown.nil {T : Str → List Str} {D : Str → Int → Bool} : Shown T D D [] :=
  ⟨List.nodup_nil, fun _ _ h => (by cases h), fun _ _ => by simp⟩

theorem Shown.append {T : Str → List Str} {D D1 D2 : Str → Int → Bool} {r1 r2 : List LstRow} (h1 : Shown T D D1 r1)
    (h2 : Shown T D1 D2 r2) : Shown T D D2 (r1 ++ r2) := by
  refine ⟨?_, ?_, ?_⟩
  · rw [List.filterMap_append, List.nodup_append]
    refine ⟨h1.nodup, h2.nodup, ?_⟩
    rintro ⟨g, m⟩ ha b hb rfl
    have e1 := (h1.marks g m).2 (Or.inr ha)
    rw [(h2.fresh g m hb).1] at e1
    cases e1
  · intro g m h
    rw [List.filterMap_append, List.mem_append] at h
    rcases h with h | h
    · exact h1.fresh g m h
    · have := h2.fresh g m h
      refine ⟨?_, this.2⟩
      cases hD : D g m with
      | false => rfl
      | true =>
        have e1 := (h1.marks g m).2 (Or.inl hD)
        rw [this.1] at e1
        cases e1
  · intro g m
    rw [h2.marks, h1.marks, List.filterMap_append, List.mem_append]
    grind

theorem lineOf_at {T : Str → List Str} {f : Str} {as bs : List Str} (h : T f = as ++ bs) (k : Nat) (hk : k < bs.length) :
    srcLine T f (1 + as.length + k) = bs[k] := by
  unfold srcLine
  rw [h, show (1 + (as.length : Int) + k - 1).toNat = as.length + k by omega, List.getElem?_append_right (by omega)]
  simp [hk]

/-- Printing one entry. -/
theorem printEntry_rows {T : Str → List Str} {D : Str → Int → Bool} {names : List Str} {e : ListEntry}
    {next : Option ListEntry} (hd : Distinct (e.file :: names)) (hD : ∀ g, g ∉ names → ∀ n, D g n = false)
    (hn : names.Nodup) (h0 : 0 ≤ e.line) (h1 : e.line ≤ (T e.file).length) (hz : e.line = 0 → e.output = [])
    (hfit : ∀ x ∈ T e.file, (column e.output).length + x.length < maxLineLen)
    (hfit1 : (column e.output).length + 1 < maxLineLen) :
    ∃ D' names' rows, printEntry (readOf T) e next (cacheOf T D names) =
        some (cacheOf T D' names', rows.flatMap (LstRow.text (srcLine T))) ∧
      names'.Nodup ∧ (∀ g ∈ names', g ∈ names ∨ g = e.file) ∧ (∀ g, g ∉ names' → ∀ n, D' g n = false) ∧
      rows.filterMap LstRow.left = (if e.output = [] then [] else [e.output]) ∧ Shown T D D' rows ∧
      (∀ g m, (g, m) ∈ rows.filterMap LstRow.src → g = e.file) ∧
      (1 ≤ e.line → D' e.file e.line = true) ∧ (e.file ∈ names → names' = names) ∧
      (lstEndLine e next ≠ 0 → (e.line - 1).toNat < (T e.file).length →
        rows = .row e.output (if D e.file (1 + (e.line - 1).toNat) then none else some (e.file, 1 + ((e.line - 1).toNat : Int)))
          :: fillRows e.file (D e.file) (lstEndLine e next) (1 + (((e.line - 1).toNat + 1 : Nat) : Int))
            ((T e.file).drop ((e.line - 1).toNat + 1))) := by
  have hend : lstEndLine e next = 0 → e.line = 0 := by
    unfold lstEndLine
    intro h
    split at h
    · exact h
    · split at h <;> omega
  have hend' : e.line ≤ lstEndLine e next := by
    unfold lstEndLine
    split
    · exact Int.le_refl _
    · split <;> omega
  unfold printEntry
  by_cases hE : lstEndLine e next = 0
  · rw [if_pos hE]
    refine ⟨D, names, [], rfl, hn, fun g h => Or.inl h, hD, ?_, .nil, fun _ _ h => (by cases h), fun h => ?_, fun _ => rfl,
      fun h => absurd hE h⟩
    · rw [if_pos (hz (hend hE))]; rfl
    · have := hend hE
      omega
  · rw [if_neg hE]
    obtain ⟨names', i, g1, g2, g3, g4, g5⟩ := getFile_cache (T := T) (D := D) hd (hD _) hn
    have hD' : ∀ g, g ∉ names' → ∀ n, D g n = false := fun g hg => hD g (fun h => hg ((g4 g).2 (Or.inl h)))
    simp only [g1]
    have hci : (cacheOf T D names')[i]? = some (e.file, flagged (D e.file) 1 (T e.file)) := by
      unfold cacheOf
      rw [List.getElem?_map, g2]
      rfl
    simp only [hci]
    by_cases ha : (e.line - 1).toNat < (T e.file).length
    · obtain ⟨as, t, bs, hT, hlen⟩ : ∃ as t bs, T e.file = as ++ t :: bs ∧ as.length = (e.line - 1).toNat := by
        refine ⟨(T e.file).take (e.line - 1).toNat, (T e.file)[(e.line - 1).toNat], (T e.file).drop ((e.line - 1).toNat + 1),
          ?_, ?_⟩
        · rw [← List.drop_eq_getElem_cons ha, List.take_append_drop]
        · rw [List.length_take]; omega
      have hfl : findLine (flagged (D e.file) 1 (T e.file)) e.line = some as.length := by
        rw [hT]
        apply findLine_flagged
        · omega
        · by_cases h : as = []
          · exact Or.inl h
          · right
            have : as.length ≠ 0 := by simpa using h
            omega
      simp only [hfl]
      have hm : 1 + (as.length : Int) ≤ lstEndLine e next := by omega
      have hget : (flagged (D e.file) 1 (T e.file))[as.length]? = some ⟨t, 1 + as.length, D e.file (1 + as.length)⟩ := by
        rw [hT, flagged_append, List.getElem?_append_right (by rw [flagged_length]; exact Nat.le_refl _), flagged_length]
        simp
      simp only [hget]
      have htake : (flagged (D e.file) 1 (T e.file)).take as.length = flagged (D e.file) 1 as := by
        rw [hT, flagged_append]
        have := flagged_length (D e.file) 1 as
        rw [List.take_append_of_le_length (by omega), List.take_of_length_le (by omega)]
      have hdrop : (flagged (D e.file) 1 (T e.file)).drop (as.length + 1) = flagged (D e.file) (1 + (as.length + 1 : Nat)) bs := by
        rw [hT, show as ++ t :: bs = (as ++ [t]) ++ bs by simp, flagged_append]
        have := flagged_length (D e.file) 1 (as ++ [t])
        rw [List.drop_append_of_le_length (by rw [this]; simp), List.drop_eq_nil_of_le (by rw [this]; simp)]
        simp
      rw [htake, hdrop]
      have hfill := fillLines_flagged (T := T) (f := e.file) (d := D e.file) (E := lstEndLine e next)
        (n := 1 + ((as.length + 1 : Nat) : Int)) (ts := bs) (by
          intro k hk
          have := lineOf_at (T := T) (f := e.file) (as := as ++ [t]) (bs := bs) (by rw [hT]; simp) k hk
          rw [List.length_append] at this
          exact this)
      have htext : srcLine T e.file (1 + as.length) = t := by
        have := lineOf_at (T := T) (f := e.file) (as := as) (bs := t :: bs) hT 0 (by simp)
        simpa using this
      have hbuf : indentBuf e.output (if D e.file (1 + as.length) then [10] else t) =
          some ((LstRow.row e.output (if D e.file (1 + as.length) then none else some (e.file, 1 + (as.length : Int)))).text (srcLine T)) := by
        unfold indentBuf
        rw [indentFormat_eq]
        have ht := hfit t (by rw [hT]; simp)
        cases D e.file (1 + as.length) with
        | true =>
          simp only [if_true]
          rw [if_pos (by rw [List.length_append]; exact hfit1)]
          rfl
        | false =>
          simp only [Bool.false_eq_true, if_false]
          rw [if_pos (by rw [List.length_append]; exact ht)]
          simp only [LstRow.text, htext]
      simp only [hbuf]
      rw [hfill]
      let d' : Int → Bool := fun n => D e.file n || (decide (1 + (as.length : Int) ≤ n) && decide (n ≤ lstEndLine e next) &&
        decide (n ≤ (T e.file).length))
      have hnew : flagged (D e.file) 1 as ++ (⟨t, 1 + as.length, true⟩ ::
          flagged (fun m => D e.file m || (decide (1 + ((as.length + 1 : Nat) : Int) ≤ m) && decide (m ≤ lstEndLine e next)))
            (1 + ((as.length + 1 : Nat) : Int)) bs) = flagged d' 1 (T e.file) := by
        have hl : (T e.file).length = as.length + (bs.length + 1) := by rw [hT]; simp
        rw [hT, flagged_append, flagged_cons]
        congr 1
        · apply flagged_congr
          intro m _ h2
          have : decide (1 + (as.length : Int) ≤ m) = false := by simp; omega
          simp only [d', this, Bool.false_and, Bool.or_false]
        · congr 1
          · have : d' (1 + as.length) = true := by
              simp only [d', Bool.or_eq_true, Bool.and_eq_true, decide_eq_true_eq]
              right
              omega
            rw [this]
          · rw [show (1 : Int) + as.length + 1 = 1 + ((as.length + 1 : Nat) : Int) by omega]
            apply flagged_congr
            intro m q1 q2
            have c1 : decide (1 + ((as.length + 1 : Nat) : Int) ≤ m) = true := by simp; omega
            have c2 : decide (1 + (as.length : Int) ≤ m) = true := by simp; omega
            have c3 : decide (m ≤ (T e.file).length) = true := by simp; omega
            simp only [d', c1, c2, c3, Bool.true_and, Bool.and_true]
      obtain ⟨f1, f2, f3⟩ := fillRows_src (f := e.file) (d := D e.file) (E := lstEndLine e next)
        (n := 1 + ((as.length + 1 : Nat) : Int)) (ts := bs)
      have hl : (T e.file).length = as.length + (bs.length + 1) := by rw [hT]; simp
      have hsrc : ∀ g m, (g, m) ∈ (LstRow.row e.output (if D e.file (1 + as.length) then none
            else some (e.file, 1 + (as.length : Int))) :: fillRows e.file (D e.file) (lstEndLine e next)
              (1 + ((as.length + 1 : Nat) : Int)) bs).filterMap LstRow.src ↔
          g = e.file ∧ 1 + (as.length : Int) ≤ m ∧ m ≤ lstEndLine e next ∧ m ≤ (T e.file).length ∧ D e.file m = false := by
        intro g m
        rw [List.filterMap_cons]
        cases hdm : D e.file (1 + as.length) with
        | true =>
          simp only [if_true, LstRow.src, f2]
          constructor
          · rintro ⟨a, b, c, q, r⟩; exact ⟨a, by omega, c, by omega, r⟩
          · rintro ⟨a, b, c, q, r⟩
            have : m ≠ 1 + (as.length : Int) := fun h => by rw [h, hdm] at r; cases r
            exact ⟨a, by omega, c, by omega, r⟩
        | false =>
          simp only [Bool.false_eq_true, if_false, LstRow.src, List.mem_cons, Prod.mk.injEq, f2]
          constructor
          · rintro (⟨a, b⟩ | ⟨a, b, c, q, r⟩)
            · exact ⟨a, by omega, by omega, by omega, by rw [b]; exact hdm⟩
            · exact ⟨a, by omega, c, by omega, r⟩
          · rintro ⟨a, b, c, q, r⟩
            by_cases hm' : m = 1 + (as.length : Int)
            · exact Or.inl ⟨a, hm'⟩
            · exact Or.inr ⟨a, by omega, c, by omega, r⟩
      refine ⟨fun g => if g = e.file then d' else D g, names', .row e.output (if D e.file (1 + as.length) then none
        else some (e.file, 1 + (as.length : Int))) :: fillRows e.file (D e.file) (lstEndLine e next)
          (1 + ((as.length + 1 : Nat) : Int)) bs, ?_, g3, fun g h => (g4 g).1 h, ?_, ?_, ⟨?_, ?_, ?_⟩, ?_, ?_, g5, ?_⟩
      · simp only [hnew, cacheOf_set g3 g2, List.flatMap_cons]
      · intro g hg n
        have hgf : g ≠ e.file := fun h => hg ((g4 g).2 (Or.inr h))
        show (if g = e.file then d' else D g) n = false
        rw [if_neg hgf]
        exact hD' g hg n
      · rw [List.filterMap_cons, f3]
        by_cases ho : e.output = []
        · simp only [LstRow.left, ho, if_true]
        · simp only [LstRow.left, if_neg ho]
      · rw [List.filterMap_cons]
        cases D e.file (1 + as.length) with
        | true => exact f1
        | false =>
          simp only [Bool.false_eq_true, if_false, LstRow.src]
          refine List.nodup_cons.2 ⟨fun h => ?_, f1⟩
          have := (f2 _ _).1 h
          omega
      · intro g m h
        obtain ⟨rfl, q1, q2, q3, q4⟩ := (hsrc g m).1 h
        exact ⟨q4, by omega, q3⟩
      · intro g m
        rw [hsrc]
        by_cases hg : g = e.file
        · subst hg
          simp only [if_true, d', Bool.or_eq_true, Bool.and_eq_true, decide_eq_true_eq, true_and]
          cases D e.file m <;> simp [and_assoc]
        · simp only [hg, if_false, false_and, or_false]
      · intro g m h
        exact ((hsrc g m).1 h).1
      · intro h1
        simp only [if_true, d', Bool.or_eq_true, Bool.and_eq_true, decide_eq_true_eq]
        right
        omega
      · intro _ _
        have : bs = (T e.file).drop ((e.line - 1).toNat + 1) := by
          rw [← hlen, hT, show as ++ t :: bs = (as ++ [t]) ++ bs by simp, List.drop_append_of_le_length (by simp),
            List.drop_eq_nil_of_le (by simp)]
          rfl
        rw [← this, ← hlen]
    · have hempty : T e.file = [] := by
        have : (T e.file).length = 0 := by omega
        exact List.eq_nil_of_length_eq_zero this
      have hl0 : e.line = 0 := by rw [hempty] at h1; simp at h1; omega
      rw [hempty]
      refine ⟨D, names', [], ?_, g3, fun g h => (g4 g).1 h, hD', ?_, .nil, fun _ _ h => (by cases h), fun h => (by omega), g5,
        fun _ h => by simp at h⟩
      · rfl
      · rw [if_pos (hz hl0)]; rfl

/-- The lines before the first entry. -/
theorem leadLines_rows {T : Str → List Str} {f : Str} : ∀ {k : Nat} {line : Int} {D : Str → Int → Bool},
    1 ≤ line → line + k ≤ (T f).length + 1 → (∀ x ∈ T f, (column []).length + x.length < maxLineLen) →
    (∀ g, g ∉ [f] → ∀ n, D g n = false) →
    ∃ D' rows, leadLines 0 k line (cacheOf T D [f]) = some (cacheOf T D' [f], rows.flatMap (LstRow.text (srcLine T))) ∧
      (∀ g, g ∉ [f] → ∀ n, D' g n = false) ∧ rows.filterMap LstRow.left = [] ∧ Shown T D D' rows ∧
      (∀ g m, (g, m) ∈ rows.filterMap LstRow.src → g = f)
  | 0, line, D, _, _, _, hD => ⟨D, [], rfl, hD, rfl, .nil, fun _ _ h => by cases h⟩
  | k + 1, line, D, h1, h2, hfit, hD => by
    have step : ∃ D1 r1, leadLine 0 line (cacheOf T D [f]) = some (cacheOf T D1 [f], r1.flatMap (LstRow.text (srcLine T))) ∧
        (∀ g, g ∉ [f] → ∀ n, D1 g n = false) ∧ r1.filterMap LstRow.left = [] ∧ Shown T D D1 r1 ∧
        (∀ g m, (g, m) ∈ r1.filterMap LstRow.src → g = f) := by
      have ha : (line - 1).toNat < (T f).length := by omega
      obtain ⟨as, t, bs, hT, hlen⟩ : ∃ as t bs, T f = as ++ t :: bs ∧ as.length = (line - 1).toNat := by
        refine ⟨(T f).take (line - 1).toNat, (T f)[(line - 1).toNat], (T f).drop ((line - 1).toNat + 1), ?_, ?_⟩
        · rw [← List.drop_eq_getElem_cons ha, List.take_append_drop]
        · rw [List.length_take]; omega
      have hline : line = 1 + (as.length : Int) := by omega
      have hfl : findLine (flagged (D f) 1 (T f)) line = some as.length := by
        rw [hT]
        exact findLine_flagged (by omega) (Or.inr hline)
      have hget : (flagged (D f) 1 (T f))[as.length]? = some ⟨t, 1 + as.length, D f (1 + as.length)⟩ := by
        rw [hT, flagged_append, List.getElem?_append_right (by rw [flagged_length]; exact Nat.le_refl _), flagged_length]
        simp
      have htext : srcLine T f (1 + as.length) = t := by
        have := lineOf_at (T := T) (f := f) (as := as) (bs := t :: bs) hT 0 (by simp)
        simpa using this
      unfold leadLine
      have hci : (cacheOf T D [f])[0]? = some (f, flagged (D f) 1 (T f)) := rfl
      simp only [hci, hfl, hget]
      cases hdm : D f (1 + as.length) with
      | true =>
        simp only [if_true]
        exact ⟨D, [], rfl, hD, rfl, .nil, fun _ _ h => by cases h⟩
      | false =>
        simp only [Bool.false_eq_true, if_false]
        have hbuf : indentBuf [] t = some ((LstRow.row [] (some (f, 1 + (as.length : Int)))).text (srcLine T)) := by
          unfold indentBuf
          rw [indentFormat_eq, if_pos (by rw [List.length_append]; exact hfit t (by rw [hT]; simp))]
          simp only [LstRow.text, htext]
        simp only [hbuf]
        let d' : Int → Bool := fun n => D f n || decide (n = 1 + (as.length : Int))
        have hnew : (flagged (D f) 1 (T f)).set as.length ⟨t, 1 + as.length, true⟩ = flagged d' 1 (T f) := by
          rw [hT, flagged_append, flagged_append, List.set_append_right _ _ (by rw [flagged_length]; exact Nat.le_refl _),
            flagged_length, Nat.sub_self]
          simp only [flagged_cons, List.set_cons_zero]
          congr 1
          · apply flagged_congr
            intro m _ q
            have : decide (m = 1 + (as.length : Int)) = false := by simp; omega
            simp only [d', this, Bool.or_false]
          · congr 1
            · simp [d']
            · apply flagged_congr
              intro m q _
              have : decide (m = 1 + (as.length : Int)) = false := by simp; omega
              simp only [d', this, Bool.or_false]
        rw [hnew, cacheOf_set (by simp) rfl]
        refine ⟨fun g => if g = f then d' else D g, [.row [] (some (f, 1 + (as.length : Int)))], ?_, ?_, rfl, ⟨?_, ?_, ?_⟩, ?_⟩
        · simp
        · intro g hg n
          have : g ≠ f := fun h => hg (by simp [h])
          show (if g = f then d' else D g) n = false
          rw [if_neg this]
          exact hD g hg n
        · simp [LstRow.src]
        · intro g m h
          simp only [List.filterMap_cons, LstRow.src, List.filterMap_nil, List.mem_cons, Prod.mk.injEq, List.not_mem_nil,
            or_false] at h
          obtain ⟨rfl, rfl⟩ := h
          exact ⟨hdm, by omega, by omega⟩
        · intro g m
          simp only [List.filterMap_cons, LstRow.src, List.filterMap_nil, List.mem_cons, Prod.mk.injEq, List.not_mem_nil,
            or_false]
          by_cases hg : g = f
          · subst hg
            simp [d']
          · simp [hg]
        · intro g m h
          simp only [List.filterMap_cons, LstRow.src, List.filterMap_nil, List.mem_cons, Prod.mk.injEq, List.not_mem_nil,
            or_false] at h
          exact h.1
    obtain ⟨D1, r1, e1, e2, e3, e4, e5⟩ := step
    obtain ⟨D2, r2, f1, f2, f3, f4, f5⟩ := leadLines_rows (T := T) (f := f) (k := k) (line := line + 1) (D := D1) (by omega)
      (by omega) hfit e2
    refine ⟨D2, r1 ++ r2, ?_, f2, ?_, e4.append f4, ?_⟩
    · simp only [leadLines, e1, f1, List.flatMap_append]
    · rw [List.filterMap_append, e3, f3]; rfl
    · intro g m h
      rw [List.filterMap_append, List.mem_append] at h
      exact h.elim (e5 g m) (f5 g m)

/-- What is asked of the entries: they are printed, they lie within their files, an entry in front of the first line is
empty, and the rows fit into the buffer. -/
structure Listed (T : Str → List Str) (e : ListEntry) : Prop where
  on : e.printState = true
  notDirective : e.directive = false
  low : 0 ≤ e.line
  high : e.line ≤ (T e.file).length
  empty : e.line = 0 → e.output = []
  fits : ∀ x ∈ T e.file, (column e.output).length + x.length < maxLineLen
  fits1 : (column e.output).length + 1 < maxLineLen

/-- The entries that are shown. -/
abbrev keptOf (prev : Bool) (es : List ListEntry) : List ListEntry :=
  Spec.kept (·.printState) (·.directive) prev es

theorem kept_mem {prev : Bool} : ∀ {es : List ListEntry} {x : ListEntry}, x ∈ keptOf prev es → x ∈ es
  | [], _, h => h
  | e :: es, x, h => by
    unfold keptOf Spec.kept at h
    rw [List.mem_append] at h
    rcases h with h | h
    · split at h
      · rw [List.mem_singleton] at h
        rw [h]
        exact List.mem_cons_self ..
      · cases h
    · exact List.mem_cons_of_mem _ (kept_mem h)

theorem kept_on {prev : Bool} : ∀ {es : List ListEntry} {x : ListEntry}, x ∈ keptOf prev es →
    x.printState = true ∧ x.directive = false
  | [], _, h => by cases h
  | e :: es, x, h => by
    unfold keptOf Spec.kept at h
    rw [List.mem_append] at h
    rcases h with h | h
    · split at h
      · rename_i hc
        rw [List.mem_singleton] at h
        rw [h]
        simp only [Bool.and_eq_true, Bool.not_eq_true'] at hc
        exact ⟨hc.1.2, hc.2⟩
      · cases h
    · exact kept_on h

/-- The main loop. -/
theorem listEntries_rows {T : Str → List Str} : ∀ {es : List ListEntry} {cur : Str} {state : Bool} {D : Str → Int → Bool}
    {names : List Str}, (∀ e ∈ keptOf state es, Listed T e) → Distinct (es.map (·.file) ++ names) →
    (∀ g, g ∉ names → ∀ n, D g n = false) → names.Nodup →
    ∃ fs D' rows, listEntries (readOf T) es cur state (cacheOf T D names) =
        some (fs, rows.flatMap (LstRow.text (srcLine T))) ∧
      rows.filterMap LstRow.left = ((keptOf state es).map (·.output)).filter (· ≠ []) ∧ Shown T D D' rows ∧
      (∀ g m, (g, m) ∈ rows.filterMap LstRow.src → g ∈ (keptOf state es).map (·.file)) ∧
      (∀ e ∈ keptOf state es, 1 ≤ e.line → D' e.file e.line = true)
  | [], cur, state, D, names, _, _, _, _ => ⟨_, D, [], rfl, rfl, .nil, fun _ _ h => (by cases h), fun _ h => by cases h⟩
  | e :: es, cur, state, D, names, hL, hd, hD, hn => by
    have hhead : ∃ r0 : List LstRow, (if stricmp cur e.file ≠ 0 then processing e.file else []) =
        r0.flatMap (LstRow.text (srcLine T)) ∧ r0.filterMap LstRow.left = [] ∧ r0.filterMap LstRow.src = [] := by
      split
      · exact ⟨[.file e.file], by simp [LstRow.text, processing], rfl, rfl⟩
      · exact ⟨[], rfl, rfl, rfl⟩
    obtain ⟨r0, z1, z2, z3⟩ := hhead
    have s0 : Shown T D D r0 := ⟨by rw [z3]; exact List.nodup_nil, fun g m h => (by rw [z3] at h; cases h),
      fun g m => by rw [z3]; simp⟩
    by_cases hk : state = true ∧ e.printState = true ∧ e.directive = false
    · obtain ⟨rfl, hon, hdir⟩ := hk
      have hks : keptOf true (e :: es) = e :: keptOf true es := by
        unfold keptOf
        rw [Spec.kept]
        simp [hon, hdir]
      rw [hks] at hL ⊢
      have he := hL e (List.mem_cons_self ..)
      obtain ⟨D1, names1, r1, p1, p2, p3, p4, p5, p6, p7, p8, _, _⟩ := printEntry_rows (T := T) (D := D) (names := names) (e := e)
        (next := es.head?) (fun a ha b hb => hd a (by
          simp only [List.map_cons, List.cons_append, List.mem_cons, List.mem_append] at ha ⊢
          exact ha.imp id Or.inr) b (by
          simp only [List.map_cons, List.cons_append, List.mem_cons, List.mem_append] at hb ⊢
          exact hb.imp id Or.inr)) hD hn he.low he.high he.empty he.fits he.fits1
      have hd1 : Distinct (es.map (·.file) ++ names1) := by
        have aux : ∀ a ∈ es.map (·.file) ++ names1, a ∈ (e :: es).map (·.file) ++ names := by
          intro a ha
          rw [List.mem_append] at ha
          rw [List.map_cons, List.cons_append, List.mem_cons, List.mem_append]
          rcases ha with ha | ha
          · exact Or.inr (Or.inl ha)
          · rcases p3 a ha with h | h
            · exact Or.inr (Or.inr h)
            · exact Or.inl h
        exact fun a ha b hb => hd a (aux a ha) b (aux b hb)
      have ih := fun cur => listEntries_rows (T := T) (es := es) (cur := cur) (state := true) (D := D1) (names := names1)
        (fun x hx => hL x (List.mem_cons_of_mem _ hx)) hd1 p4 p2
      obtain ⟨fs, D2, r2, q1, q2, q3, q4, q5⟩ := ih (if stricmp cur e.file ≠ 0 then e.file else cur)
      have hkeep : 1 ≤ e.line → D2 e.file e.line = true := fun h => (q3.marks _ _).2 (Or.inl (p8 h))
      refine ⟨fs, D2, r0 ++ r1 ++ r2, ?_, ?_, ?_, ?_, ?_⟩
      · unfold listEntries
        simp only [hon, hdir, ne_eq, not_true_eq_false, if_false, Bool.false_eq_true, Bool.true_eq_false, or_self,
          p1]
        simp only [ne_eq] at q1 z1
        rw [q1, z1]
        simp
      · rw [List.filterMap_append, List.filterMap_append, z2, p5, q2, List.map_cons, List.filter_cons]
        by_cases ho : e.output = [] <;> simp [ho]
      · exact (s0.append p6).append q3
      · intro g m h
        rw [List.filterMap_append, List.filterMap_append, z3, List.nil_append, List.mem_append] at h
        rw [List.map_cons, List.mem_cons]
        exact h.imp (p7 g m) (q4 g m)
      · intro x hx h
        rw [List.mem_cons] at hx
        rcases hx with rfl | hx
        · exact hkeep h
        · exact q5 x hx h
    · have hks : keptOf state (e :: es) = keptOf e.printState es := by
        unfold keptOf
        rw [Spec.kept]
        have : (state && e.printState && !e.directive) = false := by
          revert hk
          cases state <;> cases e.printState <;> cases e.directive <;> simp
        rw [this]
        rfl
      rw [hks] at hL ⊢
      obtain ⟨fs, D2, r2, q1, q2, q3, q4, q5⟩ := listEntries_rows (T := T) (es := es)
        (cur := if stricmp cur e.file ≠ 0 then e.file else cur) (state := e.printState) (D := D) (names := names) hL
        (fun a ha b hb => hd a (List.mem_cons_of_mem _ ha) b (List.mem_cons_of_mem _ hb)) hD hn
      refine ⟨fs, D2, r0 ++ r2, ?_, ?_, s0.append q3, ?_, q5⟩
      · unfold listEntries
        by_cases hst : e.printState = state
        · have hx : e.directive = true ∨ e.printState = false := by
            revert hk
            rw [hst]
            cases state <;> cases e.directive <;> simp
          simp only [ne_eq, hst, not_true_eq_false, if_false] at hx q1 z1 ⊢
          rw [if_pos hx, q1, z1]
          simp
        · simp only [ne_eq, hst, not_false_eq_true, if_true] at q1 z1 ⊢
          rw [q1, z1]
          simp
      · rw [List.filterMap_append, z2, q2]; rfl
      · intro g m h
        rw [List.filterMap_append, z3, List.nil_append] at h
        exact q4 g m h

/-! ## One file, in the order of its lines -/

theorem linesText_append (outs : Int → List Str) : ∀ (k : Int) (as bs : List Str),
    linesText outs k (as ++ bs) = linesText outs k as ++ linesText outs (k + as.length) bs
  | k, [], bs => by simp [linesText]
  | k, a :: as, bs => by
    simp only [List.cons_append, linesText, linesText_append outs (k + 1) as bs, List.length_cons, List.append_assoc]
    rw [show k + 1 + (as.length : Int) = k + ((as.length + 1 : Nat) : Int) by omega]

theorem linesText_congr {o o' : Int → List Str} : ∀ {k : Int} {ls : List Str}, (∀ n, k ≤ n → n < k + ls.length → o n = o' n) →
    linesText o k ls = linesText o' k ls
  | _, [], _ => rfl
  | k, l :: ls, h => by
    simp only [linesText]
    rw [h k (Int.le_refl _) (by simp only [List.length_cons]; omega),
      linesText_congr (o := o) (o' := o') (k := k + 1) (ls := ls) (fun n h1 h2 => h n (by omega) (by
        simp only [List.length_cons]; omega))]

theorem fillRows_text {T : Str → List Str} {f : Str} {d : Int → Bool} {E : Int} : ∀ {n : Int} {ts : List Str},
    (∀ k : Nat, ∀ h : k < ts.length, srcLine T f (n + k) = ts[k]) → (∀ m, n ≤ m → d m = false) →
    (fillRows f d E n ts).flatMap (LstRow.text (srcLine T)) = linesText (fun _ => []) n (ts.take (E + 1 - n).toNat)
  | _, [], _, _ => by simp [fillRows, linesText]
  | n, t :: ts, hT, hd => by
    unfold fillRows
    by_cases hE : n ≤ E
    · rw [if_pos hE, hd n (Int.le_refl _)]
      obtain ⟨j, hj⟩ : ∃ j, (E + 1 - n).toNat = j + 1 := ⟨(E - n).toNat, by omega⟩
      have t0 := hT 0 (by simp)
      simp only [List.getElem_cons_zero] at t0
      rw [show n + ((0 : Nat) : Int) = n by omega] at t0
      rw [hj, List.take_succ_cons]
      have ih := fillRows_text (T := T) (f := f) (d := d) (E := E) (n := n + 1) (ts := ts) (fun k h => by
        have := hT (k + 1) (by simp only [List.length_cons]; omega)
        simp only [List.getElem_cons_succ] at this
        rw [← this]
        congr 1
        omega) (fun m h => hd m (by omega))
      rw [show (E + 1 - (n + 1)).toNat = j by omega] at ih
      simp only [List.flatMap_cons, ih, linesText, LstRow.text, lineText, t0, Bool.false_eq_true, if_false]
    · rw [if_neg hE, show (E + 1 - n).toNat = 0 by omega]
      simp [linesText]

/-- The outputs that belong to a line. -/
def outsAt (es : List ListEntry) (k : Int) : List Str := (es.filter fun e => decide (e.line = k)).map (·.output)

theorem outsAt_cons (e : ListEntry) (es : List ListEntry) (k : Int) :
    outsAt (e :: es) k = (if e.line = k then [e.output] else []) ++ outsAt es k := by
  unfold outsAt
  by_cases h : e.line = k <;> simp [h]

theorem outsAt_none {es : List ListEntry} {k : Int} (h : ∀ e ∈ es, k < e.line) : outsAt es k = [] := by
  unfold outsAt
  rw [List.filter_eq_nil_iff.2 (fun e he => by have := h e he; simp; omega)]
  rfl

theorem getLast_line {x : ListEntry} {e : ListEntry} {es : List ListEntry} (h : List.Pairwise (fun a b : ListEntry => a.line ≤ b.line) (e :: es))
    (hx : x ∈ e :: es) : x.line ≤ ((e :: es).getLast (List.cons_ne_nil _ _)).line := by
  induction es generalizing e x with
  | nil => simp only [List.mem_cons, List.not_mem_nil, or_false] at hx; subst hx; exact Int.le_refl _
  | cons n es ih =>
    have h' := List.pairwise_cons.1 h
    rw [List.getLast_cons (List.cons_ne_nil _ _)]
    rw [List.mem_cons] at hx
    rcases hx with rfl | hx
    · have := ih h'.2 (List.mem_cons_self ..)
      have := h'.1 n (List.mem_cons_self ..)
      omega
    · exact ih h'.2 hx

/-- One entry, in a file whose later lines have not been shown. -/
theorem printEntry_flat {T : Str → List Str} {f : Str} {e : ListEntry} {next : Option ListEntry} {D : Str → Int → Bool}
    (hL : Listed T e) (hf : e.file = f) (hE : lstEndLine e next ≠ 0) (hlen : (e.line - 1).toNat < (T f).length)
    (hg : ∀ g, g ∉ [f] → ∀ n, D g n = false) (hD : ∀ n, 1 + ((e.line - 1).toNat : Int) < n → D f n = false) :
    ∃ D', printEntry (readOf T) e next (cacheOf T D [f]) = some (cacheOf T D' [f],
        column e.output ++ (if D f (1 + (e.line - 1).toNat) then [10] else srcLine T f (1 + (e.line - 1).toNat)) ++
          linesText (fun _ => []) (1 + ((e.line - 1).toNat : Int) + 1)
            (((T f).take (lstEndLine e next).toNat).drop ((e.line - 1).toNat + 1))) ∧
      (∀ g, g ∉ [f] → ∀ n, D' g n = false) ∧
      (∀ n, D' f n = true ↔ D f n = true ∨ (1 + ((e.line - 1).toNat : Int) ≤ n ∧ n ≤ lstEndLine e next ∧ n ≤ (T f).length)) := by
  subst hf
  obtain ⟨D', names', rows, p1, _, _, p4, _, p6, _, _, p9, p10⟩ := printEntry_rows (T := T) (D := D) (names := [e.file])
    (e := e) (next := next) (fun a ha b hb _ => by
      simp only [List.mem_cons, List.not_mem_nil, or_false, or_self] at ha hb
      rw [ha, hb]) hg (by simp) hL.low hL.high hL.empty hL.fits hL.fits1
  have hend' : e.line ≤ lstEndLine e next := by
    unfold lstEndLine
    split
    · exact Int.le_refl _
    · split <;> omega
  have hlow := hL.low
  rw [p9 (by simp)] at p1 p4
  have hr := p10 hE hlen
  generalize hk : (e.line - 1).toNat = k at *
  refine ⟨D', ?_, p4, ?_⟩
  · rw [p1, hr, List.flatMap_cons]
    rw [fillRows_text (fun j hj => by
        have := lineOf_at (T := T) (f := e.file) (as := (T e.file).take (k + 1)) (bs := (T e.file).drop (k + 1))
          (by rw [List.take_append_drop]) j hj
        rw [List.length_take, Nat.min_eq_left (by omega)] at this
        exact this) (fun m hm => hD m (by omega))]
    rw [List.drop_take]
    have e1 : (lstEndLine e next + 1 - (1 + ((k + 1 : Nat) : Int))).toNat = (lstEndLine e next).toNat - (k + 1) := by omega
    have e2 : (1 : Int) + ((k + 1 : Nat) : Int) = 1 + (k : Int) + 1 := by omega
    rw [e1, e2]
    cases D e.file (1 + k) <;> simp [LstRow.text]
  · intro n
    rw [p6.marks, hr, List.filterMap_cons]
    obtain ⟨_, f2, _⟩ := fillRows_src (f := e.file) (d := D e.file) (E := lstEndLine e next)
      (n := 1 + ((k + 1 : Nat) : Int)) (ts := (T e.file).drop (k + 1))
    rw [List.length_drop] at f2
    have hx : (e.file, n) ∈ (fillRows e.file (D e.file) (lstEndLine e next) (1 + ((k + 1 : Nat) : Int))
        ((T e.file).drop (k + 1))).filterMap LstRow.src ↔
          (1 + (k : Int) < n ∧ n ≤ lstEndLine e next ∧ n ≤ (T e.file).length) := by
      rw [f2]
      constructor
      · rintro ⟨_, a, b, c, _⟩; exact ⟨by omega, b, by omega⟩
      · rintro ⟨a, b, c⟩; exact ⟨rfl, by omega, b, by omega, hD n a⟩
    cases hd : D e.file (1 + k) with
    | true =>
      simp only [if_true, LstRow.src]
      rw [hx]
      constructor
      · rintro (h | h)
        · exact Or.inl h
        · exact Or.inr ⟨by omega, h.2⟩
      · rintro (h | ⟨a, b, c⟩)
        · exact Or.inl h
        · by_cases hn : n = 1 + (k : Int)
          · rw [hn]; exact Or.inl hd
          · exact Or.inr ⟨by omega, b, c⟩
    | false =>
      simp only [Bool.false_eq_true, if_false, LstRow.src, List.mem_cons, Prod.mk.injEq, true_and]
      rw [hx]
      constructor
      · rintro (h | h | h)
        · exact Or.inl h
        · exact Or.inr ⟨by omega, by omega, by omega⟩
        · exact Or.inr ⟨by omega, h.2⟩
      · rintro (h | ⟨a, b, c⟩)
        · exact Or.inl h
        · by_cases hn : n = 1 + (k : Int)
          · exact Or.inr (Or.inl hn)
          · exact Or.inr (Or.inr ⟨by omega, b, c⟩)

/-- The main loop for entries of one file in the order of its lines.  `same`: the line of the first entry has been shown
already. -/
theorem listEntries_flat {T : Str → List Str} {f : Str} : ∀ {es : List ListEntry} {e : ListEntry} {D : Str → Int → Bool}
    {same : Bool}, (∀ x ∈ e :: es, Listed T x) → (∀ x ∈ e :: es, x.file = f) →
    List.Pairwise (fun a b : ListEntry => a.line ≤ b.line) (e :: es) → 1 ≤ e.line →
    (∀ g, g ∉ [f] → ∀ n, D g n = false) →
    (∀ n, 1 ≤ n → (D f n = true ↔ n ≤ (T f).length ∧ n ≤ if same then e.line else e.line - 1)) →
    ∃ fs, listEntries (readOf T) (e :: es) f true (cacheOf T D [f]) = some (fs,
      column e.output ++ (if same then [10] else srcLine T f e.line) ++
        (outsAt es e.line).flatMap (fun x => column x ++ [10]) ++
        linesText (outsAt es) (e.line + 1)
          (((T f).take (((e :: es).getLast (List.cons_ne_nil _ _)).line.toNat)).drop e.line.toNat)) := by
  intro es
  induction es with
  | nil =>
    intro e D same hL hf hs h1 hg hD
    have he := hL e (List.mem_cons_self ..)
    have hfe := hf e (List.mem_cons_self ..)
    have hhigh := he.high
    rw [hfe] at hhigh
    obtain ⟨D', p1, _, _⟩ := printEntry_flat (next := none) (D := D) he hfe (by show e.line ≠ 0; omega) (by omega) hg
      (fun n hn => by
        cases h : D f n with
        | false => rfl
        | true =>
          have := (hD n (by omega)).1 h
          split at this <;> omega)
    have hsame : D f (1 + ((e.line - 1).toNat : Int)) = same := by
      rw [Bool.eq_iff_iff, hD _ (by omega)]
      cases same <;> simp <;> omega
    refine ⟨cacheOf T D' [f], ?_⟩
    unfold listEntries
    simp only [he.on, he.notDirective, ne_eq, not_true_eq_false, if_false, Bool.false_eq_true, Bool.true_eq_false, or_self,
      List.head?_nil, hfe, stricmp_self, listEntries, p1, Option.map_some, hsame, List.nil_append, List.append_nil]
    rw [show (lstEndLine e none) = e.line from rfl]
    congr 2
    rw [show (1 : Int) + ((e.line - 1).toNat : Int) = e.line by omega, show (e.line - 1).toNat + 1 = e.line.toNat by omega,
      List.getLast_singleton]
    rw [List.drop_eq_nil_of_le (by rw [List.length_take]; omega)]
    simp [outsAt, linesText]
  | cons n es ih =>
    intro e D same hL hf hs h1 hg hD
    have he := hL e (List.mem_cons_self ..)
    have hfe := hf e (List.mem_cons_self ..)
    have hnL := hL n (by simp)
    have hfn := hf n (by simp)
    have hhigh := he.high
    rw [hfe] at hhigh
    have hs' := List.pairwise_cons.1 hs
    have hle := hs'.1 n (List.mem_cons_self ..)
    have hnhigh := hnL.high
    rw [hfn] at hnhigh
    have hendv : lstEndLine e (some n) = if e.line < n.line then n.line - 1 else e.line := by
      unfold lstEndLine
      simp only [hfe, hfn, stricmp_self, true_and]
    obtain ⟨D', p1, p2, p3⟩ := printEntry_flat (next := some n) (D := D) he hfe (by rw [hendv]; split <;> omega) (by omega) hg
      (fun n hn => by
        cases h : D f n with
        | false => rfl
        | true =>
          have := (hD n (by omega)).1 h
          split at this <;> omega)
    have hsame : D f (1 + ((e.line - 1).toNat : Int)) = same := by
      rw [Bool.eq_iff_iff, hD _ (by omega)]
      cases same <;> simp <;> omega
    obtain ⟨fs, q⟩ := ih (e := n) (D := D') (same := decide (n.line = e.line)) (fun x hx => hL x (List.mem_cons_of_mem _ hx))
      (fun x hx => hf x (List.mem_cons_of_mem _ hx)) hs'.2 (by omega) p2 (by
        intro m hm
        rw [p3, hD m hm, hendv]
        by_cases hne : n.line = e.line
        · rw [if_neg (show ¬ e.line < n.line by omega)]
          simp only [hne, decide_true, if_true]
          cases same <;> simp <;> omega
        · rw [if_pos (show e.line < n.line by omega)]
          simp only [hne, decide_false, Bool.false_eq_true, if_false]
          cases same <;> simp <;> omega)
    refine ⟨fs, ?_⟩
    unfold listEntries
    simp only [he.on, he.notDirective, ne_eq, not_true_eq_false, if_false, Bool.false_eq_true, Bool.true_eq_false, or_self,
      List.head?_cons, hfe, stricmp_self, p1, Option.map_some, hsame, List.nil_append, q]
    congr 2
    rw [show (1 : Int) + ((e.line - 1).toNat : Int) = e.line by omega, show (e.line - 1).toNat + 1 = e.line.toNat by omega,
      List.getLast_cons (List.cons_ne_nil _ _), hendv]
    have hlast : n.line ≤ ((n :: es).getLast (List.cons_ne_nil _ _)).line := getLast_line hs'.2 (List.mem_cons_self ..)
    generalize ((n :: es).getLast (List.cons_ne_nil _ _)).line = last at *
    rw [outsAt_cons]
    by_cases hne : n.line = e.line
    · rw [if_neg (show ¬ e.line < n.line by omega), if_pos hne, List.drop_eq_nil_of_le (by rw [List.length_take]; omega)]
      simp only [hne, decide_true, if_true, linesText, List.append_nil, List.append_assoc, List.flatMap_cons,
        List.cons_append, List.nil_append]
      congr 5
      apply linesText_congr
      intro m hm _
      rw [outsAt_cons, if_neg (by omega)]
      rfl
    · rw [if_pos (show e.line < n.line by omega), if_neg hne]
      simp only [hne, decide_false, Bool.false_eq_true, if_false, List.nil_append]
      rw [outsAt_none (k := e.line) (es := es) (fun x hx => by
        have := (List.pairwise_cons.1 hs'.2).1 x hx
        omega)]
      simp only [List.flatMap_nil, List.append_nil]
      have hsplit : ((T f).take last.toNat).drop e.line.toNat =
          ((T f).take (n.line - 1).toNat).drop e.line.toNat ++ srcLine T f n.line :: ((T f).take last.toNat).drop n.line.toNat := by
        have hlt : (n.line - 1).toNat < ((T f).take last.toNat).length := by rw [List.length_take]; omega
        have e1 : ((T f).take last.toNat) = ((T f).take (n.line - 1).toNat) ++ (srcLine T f n.line :: ((T f).take last.toNat).drop n.line.toNat) := by
          have a1 := (List.take_append_drop (n.line - 1).toNat ((T f).take last.toNat)).symm
          rw [List.drop_eq_getElem_cons hlt, List.take_take, Nat.min_eq_left (by omega),
            show (n.line - 1).toNat + 1 = n.line.toNat by omega] at a1
          have a2 : ((T f).take last.toNat)[(n.line - 1).toNat] = srcLine T f n.line := by
            unfold srcLine
            rw [List.getElem_take, List.getElem?_eq_getElem (by rw [List.length_take] at hlt; omega)]
            rfl
          rw [a2] at a1
          exact a1
        conv => lhs; rw [e1]
        rw [List.drop_append_of_le_length (by rw [List.length_take]; omega)]
      rw [hsplit, linesText_append, List.length_drop, List.length_take, Nat.min_eq_left (by omega)]
      simp only [linesText]
      have k1 : e.line + 1 + (((n.line - 1).toNat - e.line.toNat : Nat) : Int) = n.line := by omega
      rw [k1]
      have k2 : linesText (outsAt (n :: es)) (e.line + 1) (((T f).take (n.line - 1).toNat).drop e.line.toNat) =
          linesText (fun _ => []) (e.line + 1) (((T f).take (n.line - 1).toNat).drop e.line.toNat) := by
        apply linesText_congr
        intro m m1 m2
        rw [List.length_drop, List.length_take, Nat.min_eq_left (by omega)] at m2
        apply outsAt_none
        intro x hx
        rw [List.mem_cons] at hx
        rcases hx with rfl | hx
        · omega
        · have := (List.pairwise_cons.1 hs'.2).1 x hx
          omega
      have k3 : linesText (outsAt (n :: es)) (n.line + 1) (((T f).take last.toNat).drop n.line.toNat) =
          linesText (outsAt es) (n.line + 1) (((T f).take last.toNat).drop n.line.toNat) := by
        apply linesText_congr
        intro m m1 _
        rw [outsAt_cons, if_neg (by omega)]
        rfl
      rw [k2, k3, outsAt_cons, if_pos rfl]
      simp only [lineText, List.cons_append, List.nil_append, List.append_assoc]

/-! ## Reading the source -/

theorem splitLF_ne : ∀ {s l : Str}, l ∈ Spec.splitLF s → l ≠ []
  | [], _, h => by cases h
  | c :: cs, l, h => by
    unfold Spec.splitLF at h
    split at h
    · rw [List.mem_cons] at h
      rcases h with rfl | h
      · simp
      · exact splitLF_ne h
    · split at h
      · simp only [List.mem_cons, List.not_mem_nil, or_false] at h
        subst h
        simp
      · rename_i l' ls hl
        rw [List.mem_cons] at h
        rcases h with rfl | h
        · simp
        · exact splitLF_ne (s := cs) (by rw [hl]; exact List.mem_cons_of_mem _ h)

theorem splitLF_nil {s : Str} (h : Spec.splitLF s = []) : s = [] := by
  cases s with
  | nil => rfl
  | cons c cs =>
    unfold Spec.splitLF at h
    split at h
    · cases h
    · split at h <;> cases h

theorem fgetsAll_split : ∀ {s cur : Str} {room : Nat}, room + cur.length = maxLineLen - 1 → 1 ≤ room →
    (∀ l ∈ Spec.splitLF s, l.length ≤ maxLineLen - 1) → (∀ l, (Spec.splitLF s).head? = some l → cur.length + l.length ≤ maxLineLen - 1) →
    fgetsAll room cur s = (match Spec.splitLF s with
      | [] => if cur = [] then [] else [cur]
      | l :: ls => (cur ++ l) :: ls)
  | [], cur, room, _, _, _, _ => rfl
  | c :: cs, cur, room, hr, h1, hl, hh => by
    have start : ∀ (hcs : ∀ l ∈ Spec.splitLF cs, l.length ≤ maxLineLen - 1), fgetsAll (maxLineLen - 1) [] cs = Spec.splitLF cs := by
      intro hcs
      rw [fgetsAll_split (s := cs) (cur := []) (room := maxLineLen - 1) rfl (by decide) hcs
        (fun l hl => by simpa using hcs l (List.mem_of_mem_head? hl))]
      cases Spec.splitLF cs with
      | nil => rfl
      | cons l ls => rfl
    unfold fgetsAll
    unfold Spec.splitLF at hl hh ⊢
    by_cases hc : c = 10
    · rw [if_pos hc] at hl hh
      rw [if_pos (Or.inl hc), if_pos hc, start (fun l h => hl l (List.mem_cons_of_mem _ h)), hc]
    · rw [if_neg hc] at hl hh
      rw [if_neg hc]
      cases hs : Spec.splitLF cs with
      | nil =>
        have := splitLF_nil hs
        subst this
        by_cases hroom : room ≤ 1
        · rw [if_pos (Or.inr hroom)]
          rfl
        · rw [if_neg (by simp [hc]; omega)]
          simp [fgetsAll]
      | cons l ls =>
        rw [hs] at hl hh
        have hlen := hh (c :: l) rfl
        have hne : l ≠ [] := splitLF_ne (s := cs) (by rw [hs]; exact List.mem_cons_self ..)
        have : 1 ≤ l.length := by
          cases l with
          | nil => exact absurd rfl hne
          | cons _ _ => simp
        simp only [List.length_cons] at hlen
        rw [if_neg (by simp [hc]; omega), fgetsAll_split (s := cs) (cur := cur ++ [c]) (room := room - 1)
          (by simp; omega) (by omega) (fun x hx => by
            rw [hs, List.mem_cons] at hx
            rcases hx with rfl | hx
            · have := hl (c :: x) (List.mem_cons_self ..)
              simp only [List.length_cons] at this
              omega
            · exact hl x (List.mem_cons_of_mem _ hx))
          (fun x hx => by
            rw [hs] at hx
            simp only [List.head?_cons, Option.some.injEq] at hx
            subst hx
            simp
            omega), hs]
        simp

theorem readFileLines_eq {s : Str} (h : ∀ l ∈ Spec.splitLF s, l.length ≤ maxLineLen - 1) :
    readFileLines s = numberLines 1 (Spec.splitLF s) := by
  unfold readFileLines
  rw [fgetsAll_split rfl (by decide) h (fun l hl => by simpa using h l (List.mem_of_mem_head? hl))]
  cases Spec.splitLF s with
  | nil => rfl
  | cons l ls => rfl

end Verif
