import Verif.Lemmas.ListFile

/-! # Property C57: the list file -/

namespace Verif

open Spec (kept LstRow column srcLine splitLF linesText)

/-- The lines of the source files. -/
def linesIn (content : Str → Str) (f : Str) : List Str := splitLF (content f)

/-- What is asked of a listing entry: its line exists, or it is an empty entry in front of line 1, and its row fits into
the line buffer. -/
def Listable (content : Str → Str) (e : ListEntry) : Prop :=
  0 ≤ e.line ∧ e.line ≤ (linesIn content e.file).length ∧
  (e.line = 0 → e.output = []) ∧ e.output.length ≤ 2000 ∧
  ∀ x ∈ linesIn content e.file, max 45 e.output.length + x.length < 2048

theorem column_length (t : Str) : (column t).length = max 45 t.length := by
  unfold column
  rw [List.length_append, List.length_replicate]
  omega

theorem Listable.listed {content : Str → Str} {e : ListEntry} (h : Listable content e) (h1 : e.printState = true)
    (h2 : e.directive = false) : Listed (linesIn content) e := by
  obtain ⟨h3, h4, h5, h6, h7⟩ := h
  refine ⟨h1, h2, h3, h4, h5, fun x hx => ?_, ?_⟩
  · rw [column_length]; exact h7 x hx
  · rw [column_length]
    show _ < 2048
    omega

theorem read_eq {content : Str → Str} (hlen : ∀ f, ∀ l ∈ linesIn content f, l.length ≤ 2047) :
    (fun f => readFileLines (content f)) = readOf (linesIn content) := by
  funext f
  exact readFileLines_eq (hlen f)

/-- **C57** (any number of files, entries in any order, as loops and macros make them; the first entry is not hidden).
The list file is an empty line and then a sequence of rows in which
* the left column shows the outputs of the entries that are not hidden, each once and in their order;
* no line of a source file is shown twice, and what is shown as line `n` of a file is that line;
* the line of every entry that is not hidden is shown.

Hidden are the entries made while printing is off and the first entry after that, which `.print on` makes for this
purpose (`C57_print`). -/
theorem C57_table {content : Str → Str} {e : ListEntry} {es : List ListEntry}
    (hp : ∀ x ∈ e :: kept (·.printState) (·.directive) true es, Listable content x)
    (hon : e.printState = true) (hdir : e.directive = false)
    (hlen : ∀ f, ∀ l ∈ linesIn content f, l.length ≤ 2047)
    (hdist : ∀ a ∈ e :: es, ∀ b ∈ e :: es, stricmp a.file b.file = 0 → a.file = b.file) :
    ∃ rows : List LstRow, generateListFile (fun f => readFileLines (content f)) (e :: es) =
        some ([10] ++ (LstRow.file e.file :: rows).flatMap (LstRow.text (srcLine (linesIn content)))) ∧
      rows.filterMap LstRow.left =
        ((kept (·.printState) (·.directive) true (e :: es)).map (·.output)).filter (· ≠ []) ∧
      (rows.filterMap LstRow.src).Nodup ∧
      (∀ f n, (f, n) ∈ rows.filterMap LstRow.src →
        f ∈ (kept (·.printState) (·.directive) true (e :: es)).map (·.file) ∧ 1 ≤ n ∧ n ≤ (linesIn content f).length) ∧
      ∀ x ∈ kept (·.printState) (·.directive) true (e :: es), 1 ≤ x.line →
        (x.file, x.line) ∈ rows.filterMap LstRow.src := by
  have hks : kept (·.printState) (·.directive) true (e :: es) = e :: kept (·.printState) (·.directive) true es := by
    rw [kept]
    simp [hon, hdir]
  rw [hks]
  rw [read_eq hlen]
  have hL : ∀ x ∈ keptOf true (e :: es), Listed (linesIn content) x := fun x hx => by
    obtain ⟨k1, k2⟩ := kept_on hx
    exact (hp x (hks ▸ hx)).listed k1 k2
  have he := (hp e (List.mem_cons_self ..)).listed hon hdir
  have hdist' : ∀ names : List Str, (∀ g ∈ names, g = e.file) → Distinct ((e :: es).map (·.file) ++ names) := by
    intro names hn
    have aux : ∀ a ∈ (e :: es).map (·.file) ++ names, ∃ x ∈ e :: es, x.file = a := by
      intro a ha
      rw [List.mem_append, List.mem_map] at ha
      rcases ha with ha | ha
      · exact ha
      · exact ⟨e, List.mem_cons_self .., (hn a ha).symm⟩
    intro a ha b hb h
    obtain ⟨x, hx, rfl⟩ := aux a ha
    obtain ⟨y, hy, rfl⟩ := aux b hb
    exact hdist x hx y hy h
  have lead : ∃ (D : Str → Int → Bool) (names : List Str) (r0 : List LstRow), leadLines 0 (e.line - 1).toNat 1
        (if e.line > 1 then [(e.file, readOf (linesIn content) e.file)] else []) =
          some (cacheOf (linesIn content) D names, r0.flatMap (LstRow.text (srcLine (linesIn content)))) ∧
      (∀ g, g ∉ names → ∀ n, D g n = false) ∧ names.Nodup ∧ (∀ g ∈ names, g = e.file) ∧ r0.filterMap LstRow.left = [] ∧
      Shown (linesIn content) (fun _ _ => false) D r0 ∧ (∀ g m, (g, m) ∈ r0.filterMap LstRow.src → g = e.file) := by
    by_cases h1 : e.line > 1
    · rw [if_pos h1]
      have hc : [(e.file, readOf (linesIn content) e.file)] = cacheOf (linesIn content) (fun _ _ => false) [e.file] := by
        unfold cacheOf
        rw [List.map_cons, List.map_nil, flagged_none]
        rfl
      have hhigh := he.high
      obtain ⟨D', rows, l1, l2, l3, l4, l5⟩ := leadLines_rows (T := linesIn content) (f := e.file)
        (k := (e.line - 1).toNat) (line := 1) (D := fun _ _ => false) (by omega) (by omega)
        (fun x hx => by
          have := he.fits x hx
          rw [column_length] at this ⊢
          simp only [List.length_nil]
          omega)
        (fun _ _ _ => rfl)
      rw [hc]
      exact ⟨D', [e.file], rows, l1, l2, by simp, by simp, l3, l4, l5⟩
    · rw [if_neg h1, show (e.line - 1).toNat = 0 by omega]
      exact ⟨fun _ _ => false, [], [], rfl, fun _ _ _ => rfl, List.nodup_nil, by simp, rfl, .nil, fun _ _ h => by cases h⟩
  obtain ⟨D, names, r0, l1, l2, l3, l4, l5, l6, l7⟩ := lead
  obtain ⟨fs, D', rows, q1, q2, q3, q4, q5⟩ := listEntries_rows (T := linesIn content) (es := e :: es) (cur := e.file) (state := true) hL
    (hdist' names l4) l2 l3
  rw [show keptOf true (e :: es) = _ from hks] at q2 q4 q5
  have hsh := l6.append q3
  refine ⟨r0 ++ rows, ?_, ?_, hsh.nodup, ?_, ?_⟩
  · unfold generateListFile
    have hg : (if e.line > 1 then getFile (readOf (linesIn content)) [] e.file else ([], 0)) =
        ((if e.line > 1 then [(e.file, readOf (linesIn content) e.file)] else []), 0) := by
      by_cases h1 : e.line > 1
      · rw [if_pos h1, if_pos h1]; rfl
      · rw [if_neg h1, if_neg h1]
    simp only [hg, he.notDirective, Bool.false_eq_true, if_false, l1, q1, Option.map_some]
    simp [LstRow.text, processing]
  · rw [List.filterMap_append, l5, q2]; rfl
  · intro f n h
    have hr := (hsh.fresh f n h).2
    rw [List.filterMap_append, List.mem_append] at h
    refine ⟨?_, hr⟩
    rcases h with h | h
    · rw [l7 f n h]; simp
    · exact q4 f n h
  · intro x hx h1
    have := (hsh.marks x.file x.line).1 (q5 x hx h1)
    rcases this with h | h
    · cases h
    · exact h

/-- Two source files and the entries of a loop: line 2 of the first file is listed twice. -/
private def demoContent (f : Str) : Str :=
  if f = cstr! "a" then cstr! " .repeat\n nop\n .until 1\n .print off\n nop\n" else cstr! ";b\n rts"

private def demoEntries : List ListEntry :=
  [⟨2, cstr! "a", cstr! "$1000: $EA", true, false⟩,
   ⟨2, cstr! "a", cstr! "$1001: $EA", true, false⟩, ⟨3, cstr! "a", [], true, false⟩,
   ⟨2, cstr! "b", cstr! "$1002: $60", true, false⟩, ⟨1, cstr! "a", [], true, false⟩,
   ⟨4, cstr! "a", [], false, true⟩, ⟨5, cstr! "a", cstr! "$1003: $EA", false, false⟩]

example : (∀ x ∈ ⟨0, cstr! "a", [], true, false⟩ :: kept (·.printState) (·.directive) true demoEntries,
      Listable demoContent x) ∧
    (∀ a ∈ ⟨0, cstr! "a", [], true, false⟩ :: demoEntries, ∀ b ∈ ⟨0, cstr! "a", [], true, false⟩ :: demoEntries,
      stricmp a.file b.file = 0 → a.file = b.file) ∧
    ∀ f, ∀ l ∈ linesIn demoContent f, l.length ≤ 2047 := by
  refine ⟨by unfold Listable; decide +kernel, by decide +kernel, fun f => ?_⟩
  unfold linesIn demoContent
  split
  · decide +kernel
  · decide +kernel

/-- The entries asked for while printing is on. -/
def shownActs : Bool → List LstAct → List (Str × Int × Str)
  | _, [] => []
  | on, .entry f n o :: as => (if on then [(f, n, o)] else []) ++ shownActs on as
  | _, .print b _ _ :: as => shownActs b as

/-- Where an action stands, and what it writes. -/
def LstAct.place : LstAct → ListEntry
  | .entry f n o => ⟨n, f, o, true, false⟩
  | .print _ f n => ⟨n, f, [], true, false⟩

theorem lstTable_place {x : ListEntry} : ∀ {st : Bool} {as : List LstAct}, x ∈ lstTable st as →
    ∃ a ∈ as, x.file = a.place.file ∧ x.line = a.place.line ∧ x.output = a.place.output
  | _, [], h => by cases h
  | st, .entry f n o :: as, h => by
    rw [lstTable, List.mem_cons] at h
    rcases h with rfl | h
    · exact ⟨_, List.mem_cons_self .., rfl, rfl, rfl⟩
    · obtain ⟨a, ha, h⟩ := lstTable_place h
      exact ⟨a, List.mem_cons_of_mem _ ha, h⟩
  | st, .print b f n :: as, h => by
    rw [lstTable, List.mem_append, List.mem_append] at h
    rcases h with (h | h) | h
    · split at h
      · rw [List.mem_singleton] at h
        exact ⟨_, List.mem_cons_self .., by rw [h]; exact ⟨rfl, rfl, rfl⟩⟩
      · cases h
    · split at h
      · rw [List.mem_singleton] at h
        exact ⟨_, List.mem_cons_self .., by rw [h]; exact ⟨rfl, rfl, rfl⟩⟩
      · cases h
    · obtain ⟨a, ha, h⟩ := lstTable_place h
      exact ⟨a, List.mem_cons_of_mem _ ha, h⟩

/-- **C57**, `.print`: of the entries in the table, exactly those asked for while printing is on are not hidden (and some
empty ones). -/
theorem C57_print : ∀ (st : Bool) (as : List LstAct),
    ((kept (·.printState) (·.directive) st (lstTable st as)).map (·.output)).filter (· ≠ []) =
      ((shownActs st as).map (·.2.2)).filter (· ≠ []) ∧
    ∀ a ∈ shownActs st as, ∃ x ∈ kept (·.printState) (·.directive) st (lstTable st as),
      x.file = a.1 ∧ x.line = a.2.1 ∧ x.output = a.2.2
  | _, [] => ⟨rfl, fun _ h => by cases h⟩
  | st, .entry f n o :: as => by
    obtain ⟨h1, h2⟩ := C57_print st as
    rw [lstTable, kept, shownActs]
    cases st
    · exact ⟨h1, h2⟩
    · simp only [Bool.and_self, Bool.not_false, if_true, List.singleton_append, List.map_cons, List.filter_cons]
      refine ⟨by rw [h1], fun a ha => ?_⟩
      rw [List.mem_cons] at ha
      rcases ha with rfl | ha
      · exact ⟨_, List.mem_cons_self .., rfl, rfl, rfl⟩
      · obtain ⟨x, hx, h⟩ := h2 a ha
        exact ⟨x, List.mem_cons_of_mem _ hx, h⟩
  | st, .print b f n :: as => by
    obtain ⟨h1, h2⟩ := C57_print b as
    rw [lstTable, shownActs]
    cases st <;> cases b
    · exact ⟨h1, h2⟩
    · exact ⟨h1, h2⟩
    · exact ⟨h1, h2⟩
    · refine ⟨h1, fun a ha => ?_⟩
      obtain ⟨x, hx, h⟩ := h2 a ha
      exact ⟨x, List.mem_cons_of_mem _ hx, h⟩

/-- **C57**, from the requests of the final pass to the list file.  The list file is an empty line and then a sequence of
rows in which
* the left column shows the outputs asked for while printing was on, each once and in their order;
* no line of a source file is shown twice, and what is shown as line `n` of a file is that line;
* the line of every output asked for while printing was on is shown. -/
theorem C57_rows {content : Str → Str} {f : Str} {n : Int} {o : Str} {as : List LstAct}
    (hp : ∀ a ∈ .entry f n o :: as, Listable content a.place)
    (hlen : ∀ f, ∀ l ∈ linesIn content f, l.length ≤ 2047)
    (hdist : ∀ a ∈ .entry f n o :: as, ∀ b ∈ .entry f n o :: as,
      stricmp a.place.file b.place.file = 0 → a.place.file = b.place.file) :
    ∃ rows : List LstRow, generateListFile (fun f => readFileLines (content f)) (lstTable true (.entry f n o :: as)) =
        some ([10] ++ (LstRow.file f :: rows).flatMap (LstRow.text (srcLine (linesIn content)))) ∧
      rows.filterMap LstRow.left = ((shownActs true (.entry f n o :: as)).map (·.2.2)).filter (· ≠ []) ∧
      (rows.filterMap LstRow.src).Nodup ∧
      (∀ f n, (f, n) ∈ rows.filterMap LstRow.src → 1 ≤ n ∧ n ≤ (linesIn content f).length) ∧
      ∀ a ∈ shownActs true (.entry f n o :: as), 1 ≤ a.2.1 → (a.1, a.2.1) ∈ rows.filterMap LstRow.src := by
  have hpl : ∀ x ∈ lstTable true (.entry f n o :: as), Listable content x := by
    intro x hx
    obtain ⟨a, ha, e1, e2, e3⟩ := lstTable_place hx
    have := hp a ha
    unfold Listable at this ⊢
    rw [e1, e2, e3]
    exact this
  obtain ⟨rows, r1, r2, r3, r4, r5⟩ := C57_table (content := content) (e := ⟨n, f, o, true, false⟩) (es := lstTable true as)
    (fun x hx => by
      rw [List.mem_cons] at hx
      rcases hx with rfl | hx
      · exact hpl _ (List.mem_cons_self ..)
      · exact hpl x (List.mem_cons_of_mem _ (kept_mem hx))) rfl rfl hlen
    (fun x hx y hy h => by
      obtain ⟨a, ha, e1, _, _⟩ := lstTable_place (st := true) (as := .entry f n o :: as) hx
      obtain ⟨b, hb, e2, _, _⟩ := lstTable_place (st := true) (as := .entry f n o :: as) hy
      rw [e1, e2] at h ⊢
      exact hdist a ha b hb h)
  obtain ⟨k1, k2⟩ := C57_print true (.entry f n o :: as)
  refine ⟨rows, r1, r2.trans k1, r3, fun g m h => (r4 g m h).2, fun a ha h => ?_⟩
  obtain ⟨x, hx, e1, e2, _⟩ := k2 a ha
  rw [← e1, ← e2]
  exact r5 x hx (by rw [e2]; exact h)

private def demoActs : List LstAct :=
  [.entry (cstr! "a") 2 (cstr! "$1000: $EA"), .print false (cstr! "a") 4, .entry (cstr! "a") 5 (cstr! "$1001: $EA"),
   .print true (cstr! "b") 1, .entry (cstr! "b") 2 (cstr! "$1002: $60")]

example : (∀ a ∈ .entry (cstr! "a") 0 [] :: demoActs, Listable demoContent a.place) ∧
    (∀ a ∈ .entry (cstr! "a") 0 [] :: demoActs, ∀ b ∈ .entry (cstr! "a") 0 [] :: demoActs,
      stricmp a.place.file b.place.file = 0 → a.place.file = b.place.file) ∧
    (shownActs true demoActs).map (·.2.2) = [cstr! "$1000: $EA", cstr! "$1002: $60"] := by
  refine ⟨by unfold Listable; decide +kernel, by decide +kernel, by decide +kernel⟩

theorem printEntry_start {T : Str → List Str} {e : ListEntry} {next : Option ListEntry} (h : lstEndLine e next ≠ 0) :
    printEntry (readOf T) e next [] = printEntry (readOf T) e next (cacheOf T (fun _ _ => false) [e.file]) := by
  have hc : cacheOf T (fun _ _ => false) [e.file] = [(e.file, readOf T e.file)] := by
    unfold cacheOf
    rw [List.map_cons, List.map_nil, flagged_none]
    rfl
  unfold printEntry
  rw [if_neg h, if_neg h, hc]
  have g1 : getFile (readOf T) [] e.file = ([(e.file, readOf T e.file)], 0) := rfl
  have g2 : getFile (readOf T) [(e.file, readOf T e.file)] e.file = ([(e.file, readOf T e.file)], 0) := by
    unfold getFile
    simp [List.findIdx?_cons, stricmp_self]
  rw [g1, g2]

/-- **C57** for one file whose entries come in the order of its lines (a program without loops, macros and included
files; `parse_pass` puts an empty entry at the beginning).  The list file shows all lines up to the one of the last entry,
each once and in order, next to the first output that belongs to it; further outputs of the same line follow it. -/
theorem C57_in_order {content : Str → Str} {f : Str} {e : ListEntry} {es : List ListEntry}
    (hp : ∀ x ∈ e :: es, Listable content x ∧ x.printState = true ∧ x.directive = false)
    (hlen : ∀ f, ∀ l ∈ linesIn content f, l.length ≤ 2047)
    (hfile : ∀ x ∈ e :: es, x.file = f) (hsort : List.Pairwise (fun a b : ListEntry => a.line ≤ b.line) (e :: es))
    (h1 : 1 ≤ e.line) :
    generateListFile (fun f => readFileLines (content f)) (⟨0, f, [], true, false⟩ :: e :: es) =
      some ([10] ++ cstr! "; Processing " ++ f ++ [10] ++
        linesText (fun k => ((e :: es).filter fun x => decide (x.line = k)).map (·.output)) 1
          ((linesIn content f).take ((e :: es).getLast (List.cons_ne_nil _ _)).line.toNat)) := by
  rw [read_eq hlen]
  have hL : ∀ x ∈ e :: es, Listed (linesIn content) x := fun x hx => (hp x hx).1.listed (hp x hx).2.1 (hp x hx).2.2
  have he := hL e (List.mem_cons_self ..)
  have hfe := hfile e (List.mem_cons_self ..)
  have hhigh := he.high
  rw [hfe] at hhigh
  have hlast := getLast_line hsort (List.mem_cons_self ..)
  let z : ListEntry := ⟨0, f, [], true, false⟩
  have hz : Listed (linesIn content) z := by
    refine ⟨rfl, rfl, Int.le_refl _, Int.natCast_nonneg _, fun _ => rfl, fun x hx => ?_, (by show (column []).length + 1 < maxLineLen; decide)⟩
    have := he.fits x (by rw [hfe]; exact hx)
    rw [column_length] at this ⊢
    show max 45 0 + _ < _
    omega
  have hendz : lstEndLine z (some e) = e.line - 1 := by
    unfold lstEndLine
    simp only [z, hfe, stricmp_self, true_and]
    rw [if_pos (by omega)]
  have houts : ∀ k, k < e.line → outsAt (e :: es) k = [] := by
    intro k hk
    apply outsAt_none
    intro x hx
    rw [List.mem_cons] at hx
    rcases hx with rfl | hx
    · exact hk
    · have := (List.pairwise_cons.1 hsort).1 x hx
      omega
  have final : ∀ (rest : Str) (n : Nat), n = ((e :: es).getLast (List.cons_ne_nil _ _)).line.toNat →
      column e.output ++ srcLine (linesIn content) f e.line ++ (outsAt es e.line).flatMap (fun x => column x ++ [10]) ++
        linesText (outsAt es) (e.line + 1) (((linesIn content f).take n).drop e.line.toNat) = rest →
      linesText (outsAt (e :: es)) 1 ((linesIn content f).take n) =
        linesText (fun _ => []) 1 ((linesIn content f).take (e.line - 1).toNat) ++ rest := by
    intro rest n hn hrest
    have hlt : (e.line - 1).toNat < ((linesIn content f).take n).length := by rw [List.length_take]; omega
    have e1 : (linesIn content f).take n = ((linesIn content f).take (e.line - 1).toNat) ++
        (srcLine (linesIn content) f e.line :: ((linesIn content f).take n).drop e.line.toNat) := by
      have a1 := (List.take_append_drop (e.line - 1).toNat ((linesIn content f).take n)).symm
      rw [List.drop_eq_getElem_cons hlt, List.take_take, Nat.min_eq_left (by omega),
        show (e.line - 1).toNat + 1 = e.line.toNat by omega] at a1
      have a2 : ((linesIn content f).take n)[(e.line - 1).toNat] = srcLine (linesIn content) f e.line := by
        unfold srcLine
        rw [List.getElem_take, List.getElem?_eq_getElem (by rw [List.length_take] at hlt; omega)]
        rfl
      rw [a2] at a1
      exact a1
    conv => lhs; rw [e1]
    rw [linesText_append, List.length_take, Nat.min_eq_left (by omega), ← hrest]
    simp only [linesText]
    rw [show (1 : Int) + ((e.line - 1).toNat : Int) = e.line by omega]
    congr 1
    · apply linesText_congr
      intro m _ h2
      rw [List.length_take, Nat.min_eq_left (by omega)] at h2
      exact houts m (by omega)
    · rw [outsAt_cons, if_pos rfl]
      simp only [Spec.lineText, List.cons_append, List.nil_append]
      congr 1
      apply linesText_congr
      intro m h2 _
      rw [outsAt_cons, if_neg (by omega)]
      rfl
  unfold generateListFile
  simp only [show ¬ ((0 : Int) > 1) by omega, if_false, Bool.false_eq_true,
    show ((0 : Int) - 1).toNat = 0 from rfl, leadLines]
  have hstep : listEntries (readOf (linesIn content)) (z :: e :: es) f true [] = (match printEntry (readOf (linesIn content)) z (some e) [] with
      | none => none
      | some (fs, t) => (listEntries (readOf (linesIn content)) (e :: es) f true fs).map fun r => (r.1, t ++ r.2)) := by
    conv => lhs; unfold listEntries
    simp only [z, ne_eq, not_true_eq_false, if_false, Bool.false_eq_true, Bool.true_eq_false, or_self, stricmp_self,
      List.head?_cons, List.nil_append]
    rfl
  by_cases hone : e.line = 1
  · have hp0 : printEntry (readOf (linesIn content)) z (some e) [] = some ([], []) := by
      unfold printEntry
      rw [if_pos (by rw [hendz]; omega)]
    have hne0 : lstEndLine e es.head? ≠ 0 := by
      unfold lstEndLine
      split
      · omega
      · split <;> omega
    have hsw : listEntries (readOf (linesIn content)) (e :: es) f true [] =
        listEntries (readOf (linesIn content)) (e :: es) f true (cacheOf (linesIn content) (fun _ _ => false) [f]) := by
      have := printEntry_start (T := linesIn content) hne0
      rw [hfe] at this
      unfold listEntries
      simp only [he.on, he.notDirective, ne_eq, not_true_eq_false, if_false, Bool.false_eq_true, Bool.true_eq_false, or_self,
        this]
    obtain ⟨fs, q⟩ := listEntries_flat (T := linesIn content) (f := f) (D := fun _ _ => false) (same := false) hL hfile hsort h1
      (fun _ _ _ => rfl) (fun n hn => by
        simp only [Bool.false_eq_true, if_false, false_iff]
        omega)
    rw [show ({ line := 0, file := f, output := [], printState := true, directive := false } : ListEntry) = z from rfl, hstep,
      hp0]
    simp only [hsw, q, Option.map_some, Bool.false_eq_true, if_false]
    have := final _ _ rfl rfl
    rw [show (e.line - 1).toNat = 0 by omega, List.take_zero] at this
    simp only [linesText, List.nil_append] at this
    unfold outsAt at this
    rw [this]
    simp [processing, outsAt]
    rfl
  · have hnz : lstEndLine z (some e) ≠ 0 := by rw [hendz]; omega
    obtain ⟨D', p1, p2, p3⟩ := printEntry_flat (T := linesIn content) (f := f) (next := some e) (D := fun _ _ => false) hz rfl
      hnz (by show (0 - 1 : Int).toNat < _; simp; omega) (fun _ _ _ => rfl) (fun _ _ => rfl)
    obtain ⟨fs, q⟩ := listEntries_flat (T := linesIn content) (f := f) (D := D') (same := false) hL hfile hsort h1 p2
      (fun n hn => by
        rw [p3, hendz]
        simp only [z, Bool.false_eq_true, if_false, false_or, show ((0 : Int) - 1).toNat = 0 from rfl]
        omega)
    rw [show ({ line := 0, file := f, output := [], printState := true, directive := false } : ListEntry) = z from rfl, hstep,
      printEntry_start hnz, p1]
    simp only [q, Option.map_some, Bool.false_eq_true, if_false]
    have := final _ _ rfl rfl
    unfold outsAt at this
    rw [this]
    obtain ⟨t, ts, hts⟩ : ∃ t ts, linesIn content f = t :: ts := by
      cases h : linesIn content f with
      | nil => rw [h] at hhigh; simp at hhigh; omega
      | cons t ts => exact ⟨t, ts, rfl⟩
    obtain ⟨j, hj⟩ : ∃ j, (e.line - 1).toNat = j + 1 := ⟨(e.line - 2).toNat, by omega⟩
    rw [hendz, show (z.line - 1).toNat = 0 from rfl]
    have hl1 : srcLine (linesIn content) f (1 + ((0 : Nat) : Int)) = t := by
      unfold srcLine
      rw [hts]
      rfl
    rw [hl1, hts, hj, List.take_succ_cons]
    simp [processing, outsAt, linesText, Spec.lineText, z]
    rfl

example : ∃ e : ListEntry, ∃ es, (∀ x ∈ e :: es, Listable demoContent x ∧ x.printState = true ∧ x.directive = false) ∧
    (∀ x ∈ e :: es, x.file = cstr! "a") ∧ List.Pairwise (fun a b : ListEntry => a.line ≤ b.line) (e :: es) ∧
    1 ≤ e.line ∧ es.length = 2 :=
  ⟨⟨2, cstr! "a", cstr! "$1000: $EA", true, false⟩,
    [⟨2, cstr! "a", cstr! "$1001: $EA", true, false⟩, ⟨4, cstr! "a", [], true, false⟩],
    by unfold Listable; decide +kernel, by decide +kernel, by decide +kernel, by decide, rfl⟩

/-- **C57**, reading of a source file: nothing is lost or added … -/
theorem C57_read_all (s : Str) : (readFileLines s).flatMap (·.text) = s := by
  have num : ∀ (ts : List Str) (n : Int), (numberLines n ts).flatMap (·.text) = ts.flatten := by
    intro ts
    induction ts with
    | nil => intro n; rfl
    | cons t ts ih => intro n; simp only [numberLines, List.flatMap_cons, ih, List.flatten_cons]
  have get : ∀ (s : Str) (room : Nat) (cur : Str), (fgetsAll room cur s).flatten = cur ++ s := by
    intro s
    induction s with
    | nil =>
      intro room cur
      simp only [fgetsAll]
      split <;> simp_all
    | cons c cs ih =>
      intro room cur
      simp only [fgetsAll]
      split
      · rw [List.flatten_cons, ih]; simp
      · rw [ih]; simp
  unfold readFileLines
  rw [num, get]
  rfl

/-- … and if no line has more than 2047 characters, the entry with number `n` is the `n`-th line. -/
theorem C57_read_lines {s : Str} (h : ∀ l ∈ splitLF s, l.length ≤ 2047) (n : Nat) :
    (readFileLines s)[n]? = (splitLF s)[n]?.map fun l => ⟨l, n + 1, false⟩ := by
  have num : ∀ (ts : List Str) (k : Int) (n : Nat), (numberLines k ts)[n]? = ts[n]?.map fun l => ⟨l, k + n, false⟩ := by
    intro ts
    induction ts with
    | nil => intro k n; rfl
    | cons t ts ih =>
      intro k n
      cases n with
      | zero => simp [numberLines]
      | succ n =>
        simp only [numberLines, List.getElem?_cons_succ, ih]
        congr
        funext l
        rw [show k + 1 + (n : Int) = k + ((n + 1 : Nat) : Int) by omega]
  rw [readFileLines_eq h, num]
  congr
  funext l
  rw [Int.add_comm]

example : (∀ l ∈ splitLF (cstr! " nop\n\n rts"), l.length ≤ 2047) ∧
    splitLF (cstr! " nop\n\n rts") = [cstr! " nop\n", cstr! "\n", cstr! " rts"] := by decide +kernel

/-- A line of 2003 characters or more next to which an entry stands overflows `internal_buffer`. -/
theorem C57_long_line_false {s o f : Str} (hs : 10 ∉ s) (h1 : 2002 ≤ s.length) (h2 : s.length ≤ 2046) :
    generateListFile (fun _ => readFileLines (s ++ [10])) [⟨1, f, o, true, false⟩] = none := by
  have hsplit : ∀ s : Str, 10 ∉ s → splitLF (s ++ [10]) = [s ++ [10]] := by
    intro s
    induction s with
    | nil => intro _; rfl
    | cons c cs ih =>
      intro h
      rw [List.mem_cons, not_or] at h
      rw [List.cons_append, splitLF, if_neg (fun hc => h.1 hc.symm), ih h.2]
  have hread : readFileLines (s ++ [10]) = [⟨s ++ [10], 1, false⟩] := by
    rw [readFileLines_eq (by
      rw [hsplit s hs]
      intro l hl
      rw [List.mem_singleton] at hl
      rw [hl, List.length_append, List.length_singleton]
      unfold maxLineLen
      omega), hsplit s hs]
    rfl
  have hbuf : indentBuf o (s ++ [10]) = none := by
    unfold indentBuf indentFormat
    rw [if_neg]
    simp only [List.length_append, List.length_replicate, List.length_singleton, maxLineLen]
    omega
  unfold generateListFile
  simp only [show ¬ ((1 : Int) > 1) by omega, if_false, Bool.false_eq_true, show ((1 : Int) - 1).toNat = 0 from rfl,
    leadLines, listEntries, stricmp_self, ne_eq, not_true_eq_false, Bool.true_eq_false, or_self, List.head?_nil]
  unfold printEntry
  have g1 : getFile (fun _ => readFileLines (s ++ [10])) [] f = ([(f, [⟨s ++ [10], 1, false⟩])], 0) := by
    unfold getFile
    rw [hread]
    rfl
  simp only [lstEndLine, show ¬ ((1 : Int) = 0) by omega, if_false, g1, List.getElem?_cons_zero]
  have g2 : findLine [⟨s ++ [10], 1, false⟩] 1 = some 0 := rfl
  simp only [g2, List.getElem?_cons_zero, Bool.false_eq_true, if_false, hbuf, Option.map_none]

example : (10 : Nat) ∉ (List.replicate 2010 59 : Str) ∧ 2002 ≤ (List.replicate 2010 59 : Str).length := by
  refine ⟨fun h => ?_, by rw [List.length_replicate]; omega⟩
  have := List.eq_of_mem_replicate h
  omega

/-- A line of more than 2047 characters is read as two lines; from there on the entries stand beside wrong lines: here
the output of line 3 stands beside the rest of line 2, and line 3 is not shown. -/
theorem C57_split_line_false {s : Str} (hs : 10 ∉ s) (hl : s.length = 2047) :
    generateListFile (fun _ => readFileLines (cstr! ";\n" ++ (s ++ cstr! ";;;\n nop\n")))
      [⟨0, cstr! "a", [], true, false⟩, ⟨3, cstr! "a", cstr! "$1000: $EA", true, false⟩] =
    some (cstr! "\n; Processing a\n" ++ column [] ++ cstr! ";\n" ++ column [] ++ s ++
      column (cstr! "$1000: $EA") ++ cstr! ";;;\n") := by
  have piece : ∀ (s : Str) (room : Nat) (cur t : Str), 10 ∉ s → s.length = room + 1 →
      fgetsAll (room + 1) cur (s ++ t) = (cur ++ s) :: fgetsAll 2047 [] t := by
    intro s
    induction s with
    | nil => intro room cur t _ h; cases h
    | cons c cs ih =>
      intro room cur t h hr
      rw [List.mem_cons, not_or] at h
      rw [List.cons_append, fgetsAll]
      cases room with
      | zero =>
        rw [if_pos (Or.inr (Nat.le_refl _))]
        cases cs with
        | nil => rfl
        | cons _ _ => simp at hr
      | succ room =>
        rw [if_neg (by
          intro hc
          rcases hc with hc | hc
          · exact h.1 hc.symm
          · omega), show room + 1 + 1 - 1 = room + 1 from rfl, ih room (cur ++ [c]) t h.2 (by simpa using hr)]
        simp
  have hread : readFileLines (cstr! ";\n" ++ (s ++ cstr! ";;;\n nop\n")) =
      [⟨cstr! ";\n", 1, false⟩, ⟨s, 2, false⟩, ⟨cstr! ";;;\n", 3, false⟩, ⟨cstr! " nop\n", 4, false⟩] := by
    unfold readFileLines
    have : fgetsAll (maxLineLen - 1) [] (cstr! ";\n" ++ (s ++ cstr! ";;;\n nop\n")) =
        cstr! ";\n" :: fgetsAll (2046 + 1) [] (s ++ cstr! ";;;\n nop\n") := rfl
    rw [this, piece s 2046 [] _ hs hl]
    rfl
  rw [hread]
  have assoc : ∀ a b c d e f : Str, a ++ b ++ c ++ d ++ s ++ e ++ f = (a ++ b ++ c ++ d) ++ ((s ++ []) ++ (e ++ f)) := by simp
  rw [assoc]
  rfl

example : (10 : Nat) ∉ (List.replicate 2047 59 : Str) ∧ (List.replicate 2047 59 : Str).length = 2047 := by
  refine ⟨fun h => ?_, List.length_replicate ..⟩
  have := List.eq_of_mem_replicate h
  omega

/-- Files whose names differ only in the case of letters share one text: the line shown for `A` is that of `a`. -/
theorem C57_case_false :
    generateListFile (fun f => readFileLines (if f = cstr! "a" then cstr! " nop\n \n" else cstr! " rts\n clc\n"))
      [⟨1, cstr! "a", cstr! "$1000: $EA", true, false⟩, ⟨2, cstr! "A", cstr! "$1001: $18", true, false⟩] =
    some (cstr! "\n; Processing a\n" ++ column (cstr! "$1000: $EA") ++ cstr! " nop\n" ++
      column (cstr! "$1001: $18") ++ cstr! " \n") := by decide +kernel

/-- Without any entry the null pointer `list_head` is used. -/
theorem C57_empty_false (rd : Str → List SrcLine) : generateListFile rd [] = none := rfl

/-- A last line without line feed: the next row begins in the same line of the list file. -/
theorem C57_last_line_false :
    generateListFile (fun _ => readFileLines (cstr! " .byte 1,2"))
      [⟨1, cstr! "a", cstr! "$1000: $01", true, false⟩, ⟨1, cstr! "a", cstr! "$1001: $02", true, false⟩] =
    some (cstr! "\n; Processing a\n" ++ column (cstr! "$1000: $01") ++ cstr! " .byte 1,2" ++
      column (cstr! "$1001: $02") ++ [10]) := by decide +kernel

end Verif
