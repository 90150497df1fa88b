import Verif.Lemmas.SymFile

/-! # Property C62: the symbol file -/

namespace Verif

open Spec

/-- **C62.**  The symbol file, for every symbol table whose names are words and whose values have 16 bits, and every `qsort`.
Read as names and numbers in turn, it lists exactly the symbols that belong into it (`Spec.listed`), each one once, with its
value, in ascending order of the values.  It has one line for every five of them, and one line, possibly empty, for the
rest. -/
theorem C62_listed {qs : List SymEntry → List SymEntry} (hq : IsQsort qs) (pass : Int) (tab : List TabSym)
    (hn : ∀ x ∈ tab, listed pass x = true → Word x.key ∧ 0 ≤ x.sym.value ∧ x.sym.value ≤ 65535) :
    ∃ es : List (Str × Nat), readSymbols (dumpSymbols qs pass tab) = some es ∧
      es.Perm ((tab.filter (listed pass)).map fun x => (x.key, x.sym.value.toNat)) ∧
      es.Pairwise (fun a b => a.2 ≤ b.2) ∧
      (splitLF (dumpSymbols qs pass tab)).map readSymbols =
        (List.range (es.length / 5 + 1)).map fun i => some ((es.drop (5 * i)).take 5) := by
  have hsel : dumpSelects pass = listed pass := by
    funext x
    have hl : isLocalSym x.sym.name = x.sym.name.contains 64 := by
      unfold isLocalSym
      rw [List.contains_eq_any_beq]
      congr 1
      funext c
      exact Bool.beq_comm
    simp only [dumpSelects, listed, hl, show pass * 2 ≤ x.times ↔ 2 * pass ≤ x.times by omega]
    cases x.sym.isVar <;> cases x.sym.isMacroParam <;> cases x.sym.isMacroName <;> cases x.sym.isPlusMinus <;> cases x.isLocal <;>
      cases x.sym.name.contains 64 <;> simp
  have hok : ∀ e ∈ collect (dumpSelects pass) tab, EntryOk e := by
    intro e he
    obtain ⟨x, hx, rfl⟩ := List.mem_map.1 he
    obtain ⟨hx, hs⟩ := List.mem_filter.1 hx
    rw [hsel] at hs
    exact hn x hx hs
  obtain ⟨h1, h2⟩ := qsort_table hq fun e he => (hok e he).2
  have hok' : ∀ e ∈ qs (collect (dumpSelects pass) tab), EntryOk e := fun e he => hok e (h1.mem_iff.1 he)
  refine ⟨(qs (collect (dumpSelects pass) tab)).map SymEntry.seen, read_cells hok' 1, ?_, ?_, ?_⟩
  · refine (h1.map SymEntry.seen).trans (List.Perm.of_eq ?_)
    unfold collect
    rw [List.map_map, hsel]
    rfl
  · rw [List.pairwise_map]
    refine h2.imp_of_mem fun {a b} ha hb h => ?_
    have := hok' a ha
    simp only [SymEntry.seen]
    omega
  · unfold dumpSymbols
    rw [cells_lines _ rfl hok', List.map_map, List.length_map]
    refine List.map_congr_left fun i _ => ?_
    simp only [Function.comp]
    rw [read_row fun e he => hok' e (List.mem_of_mem_drop (List.mem_of_mem_take he)), List.map_take, List.map_drop]

/-- **C62.**  If the names have at most 15 characters, all columns are aligned: a line with `k` entries has `23 * k` characters
before its end. -/
theorem C62_aligned {qs : List SymEntry → List SymEntry} (hq : IsQsort qs) (pass : Int) (tab : List TabSym)
    (hn : ∀ x ∈ tab, Word x.key ∧ x.key.length ≤ 15 ∧ 0 ≤ x.sym.value ∧ x.sym.value ≤ 65535) :
    ∀ l ∈ splitLF (dumpSymbols qs pass tab), ∃ es, readSymbols l = some es ∧ es.length ≤ 5 ∧ l.length = 23 * es.length + 1 := by
  have hok : ∀ e ∈ collect (dumpSelects pass) tab, EntryOk e ∧ e.name.length ≤ 15 := by
    intro e he
    obtain ⟨x, hx, rfl⟩ := List.mem_map.1 he
    have := hn x (List.mem_filter.1 hx).1
    exact ⟨⟨this.1, this.2.2⟩, this.2.1⟩
  obtain ⟨h1, _⟩ := qsort_table hq fun e he => (hok e he).1.2
  have hok' : ∀ e ∈ qs (collect (dumpSelects pass) tab), EntryOk e ∧ e.name.length ≤ 15 := fun e he => hok e (h1.mem_iff.1 he)
  intro l hl
  unfold dumpSymbols at hl
  rw [cells_lines _ rfl fun e he => (hok' e he).1] at hl
  obtain ⟨i, _, rfl⟩ := List.mem_map.1 hl
  have hrow : ∀ e ∈ ((qs (collect (dumpSelects pass) tab)).drop (5 * i)).take 5, EntryOk e ∧ e.name.length ≤ 15 :=
    fun e he => hok' e (List.mem_of_mem_drop (List.mem_of_mem_take he))
  refine ⟨_, read_row fun e he => (hrow e he).1, by simp; omega, ?_⟩
  have key : ∀ {es : List SymEntry}, (∀ e ∈ es, EntryOk e ∧ e.name.length ≤ 15) → (rowText es).length = 23 * es.length := by
    intro es h
    induction es with
    | nil => rfl
    | cons e es ih =>
      rw [rowText, List.flatMap_cons, List.length_append, cell_length (h e (by simp)).1.2.1 (h e (by simp)).1.2.2 (h e (by simp)).2,
        show List.flatMap dumpCell es = rowText es from rfl, ih fun x hx => h x (by simp [hx]), List.length_cons]
      omega
  rw [List.length_append, key hrow, List.length_map]
  rfl

/-- **C62, part.**  The list of unresolved symbols shows every symbol that `unresolved_symbol_count` counts, the reason why no
pass is clean; when no macro name and no macro parameter is without value, it shows no others. -/
theorem C62_unresolved_partial {qs : List SymEntry → List SymEntry} (hq : IsQsort qs) (tab : List TabSym)
    (hn : ∀ x ∈ tab, Word x.key ∧ 0 ≤ x.sym.value ∧ x.sym.value ≤ 65535) :
    ∃ es : List (Str × Nat), readSymbols (dumpUnresolved qs tab) = some es ∧ unresolvedCount (tab.map (·.sym)) ≤ es.length ∧
      (∀ x ∈ tab, x.sym.isInit = false → x.sym.isMacroName = false → x.sym.isVar = false → x.sym.isPlusMinus = false →
        x.sym.isMacroParam = false → (x.key, x.sym.value.toNat) ∈ es) ∧
      ((∀ x ∈ tab, x.sym.isInit = false → x.sym.isMacroName = false ∧ x.sym.isMacroParam = false) →
        unresolvedCount (tab.map (·.sym)) = es.length) := by
  have hok : ∀ e ∈ collect unresolvedSelects tab, EntryOk e := by
    intro e he
    obtain ⟨x, hx, rfl⟩ := List.mem_map.1 he
    exact hn x (List.mem_filter.1 hx).1
  obtain ⟨h1, _⟩ := qsort_table hq fun e he => (hok e he).2
  have hlen : ((qs (collect unresolvedSelects tab)).map SymEntry.seen).length = (tab.filter unresolvedSelects).length := by
    rw [List.length_map, h1.length_eq, collect, List.length_map]
  have hcount : unresolvedCount (tab.map (·.sym)) = (tab.filter fun x => !x.sym.isInit && !x.sym.isMacroName && !x.sym.isVar &&
      !x.sym.isPlusMinus && !x.sym.isMacroParam).length := by
    unfold unresolvedCount
    rw [List.filter_map, List.length_map]
    rfl
  refine ⟨(qs (collect unresolvedSelects tab)).map SymEntry.seen, read_cells (fun e he => hok e (h1.mem_iff.1 he)) 1, ?_, ?_, ?_⟩
  · rw [hlen, hcount, ← List.countP_eq_length_filter, ← List.countP_eq_length_filter]
    refine List.countP_mono_left fun x _ h => ?_
    simp only [Bool.and_eq_true, Bool.not_eq_true'] at h
    simp [unresolvedSelects, h.1.1.2, h.1.2, h.1.1.1.1]
  · intro x hx g1 g2 g3 g4 g5
    refine List.mem_map.2 ⟨⟨x.key, x.sym.value⟩, h1.mem_iff.2 (List.mem_map.2 ⟨x, List.mem_filter.2 ⟨hx, ?_⟩, rfl⟩), rfl⟩
    simp [unresolvedSelects, g1, g3, g4]
  · intro hm
    rw [hlen, hcount]
    congr 1
    refine List.filter_congr fun x hx => ?_
    have := hm x hx
    unfold unresolvedSelects
    cases hi : x.sym.isInit
    · rw [(this hi).1, (this hi).2]
      cases x.sym.isVar <;> cases x.sym.isPlusMinus <;> rfl
    · cases x.sym.isVar <;> cases x.sym.isPlusMinus <;> simp

/-- **C62**, negation for the unresolved symbols: a macro parameter without argument is listed among them although the number printed
with the list does not count it. -/
theorem C62_unresolved_false {qs : List SymEntry → List SymEntry} (hq : IsQsort qs) :
    ∃ tab : List TabSym, (∀ x ∈ tab, Word x.key ∧ 0 ≤ x.sym.value ∧ x.sym.value ≤ 65535) ∧
      unresolvedCount (tab.map (·.sym)) = 0 ∧ ∃ es, readSymbols (dumpUnresolved qs tab) = some es ∧ (cstr! "\\1", 0) ∈ es := by
  let tab : List TabSym := [{ key := cstr! "\\1", sym := { name := cstr! "\\1", fullname := cstr! "\\1", isMacroParam := true } }]
  have hn : ∀ x ∈ tab, Word x.key ∧ 0 ≤ x.sym.value ∧ x.sym.value ≤ 65535 := by
    intro x hx
    rw [List.mem_singleton.1 hx]
    exact ⟨⟨by decide, by decide, by decide⟩, by decide, by decide⟩
  have hok : ∀ e ∈ collect unresolvedSelects tab, EntryOk e := by
    intro e he
    obtain ⟨x, hx, rfl⟩ := List.mem_map.1 he
    exact hn x (List.mem_filter.1 hx).1
  obtain ⟨h1, _⟩ := qsort_table hq fun e he => (hok e he).2
  refine ⟨tab, hn, by decide, _, read_cells (fun e he => hok e (h1.mem_iff.1 he)) 1, ?_⟩
  exact List.mem_map.2 ⟨⟨cstr! "\\1", 0⟩, h1.mem_iff.2 (by decide), rfl⟩

/-- **C62.**  The symbols whose values changed in the last pass, shown when the passes do not end: the name of each and the value it
was given, in the order of the changes, once for each change. -/
theorem C62_changed (changed : List Sym) (hn : ∀ x ∈ changed, Word x.name ∧ 0 ≤ x.value ∧ x.value ≤ 65535) :
    readSymbols (dumpChanged changed) = some (changed.map fun x => (x.name, x.value.toNat)) := by
  have hok : ∀ e ∈ changed.map (fun x => (⟨x.name, x.value⟩ : SymEntry)), EntryOk e := by
    intro e he
    obtain ⟨x, hx, rfl⟩ := List.mem_map.1 he
    exact hn x hx
  have h := read_cells hok 1
  unfold dumpChanged
  have hend : ∀ (t : Str), fields (t ++ [10]) = fields t := by
    intro t
    induction t with
    | nil => rfl
    | cons c cs ih =>
      rw [List.cons_append, fields.eq_def, fields.eq_def (c :: cs)]
      simp only
      by_cases hc : c = 32 ∨ c = 10
      · rw [if_pos hc, if_pos hc, ih]
      · rw [if_neg hc, if_neg hc]
        cases cs with
        | nil => simp [fields]
        | cons d ds =>
          simp only [List.cons_append] at ih ⊢
          rw [ih]
  unfold readSymbols at h ⊢
  rw [hend, h, List.map_map]
  rfl

/-! ## Examples -/

/-- Insertion sort is a `qsort`. -/
private def ins (e : SymEntry) : List SymEntry → List SymEntry
  | [] => [e]
  | x :: xs => if e.value ≤ x.value then e :: x :: xs else x :: ins e xs

private theorem ins_perm (e : SymEntry) (l : List SymEntry) : (ins e l).Perm (e :: l) := by
  induction l with
  | nil => exact .refl _
  | cons x xs ih =>
    unfold ins
    split
    · exact .refl _
    · exact (ih.cons x).trans (.swap e x xs)

private theorem ins_sorted (e : SymEntry) : ∀ {l : List SymEntry}, l.Pairwise (fun a b => a.value ≤ b.value) →
    (ins e l).Pairwise fun a b => a.value ≤ b.value
  | [], _ => by simp [ins]
  | x :: xs, h => by
    unfold ins
    obtain ⟨h1, h2⟩ := List.pairwise_cons.1 h
    split
    · refine List.pairwise_cons.2 ⟨fun y hy => ?_, h⟩
      rcases List.mem_cons.1 hy with rfl | hy
      · assumption
      · have := h1 y hy
        omega
    · refine List.pairwise_cons.2 ⟨fun y hy => ?_, ins_sorted e h2⟩
      rcases List.mem_cons.1 ((ins_perm e xs).mem_iff.1 hy) with rfl | hy
      · omega
      · exact h1 y hy

private def isort (l : List SymEntry) : List SymEntry := l.foldr ins []

private theorem isort_qsort : IsQsort isort := by
  intro l h
  have hp : ∀ l : List SymEntry, (isort l).Perm l := by
    intro l
    induction l with
    | nil => exact .refl _
    | cons x xs ih => exact (ins_perm x _).trans (ih.cons x)
  have hs : ∀ l : List SymEntry, (isort l).Pairwise fun a b => a.value ≤ b.value := by
    intro l
    induction l with
    | nil => exact .nil
    | cons x xs ih => exact ins_sorted x ih
  refine ⟨hp l, (hs l).imp_of_mem fun {a b} ha hb hab => ?_⟩
  have hne := h a ((hp l).mem_iff.1 ha) b ((hp l).mem_iff.1 hb)
  unfold symbolCompare at hne ⊢
  simp only at hne ⊢
  split
  · exact ⟨_, rfl, by omega⟩
  · rename_i h'
    rw [if_neg h'] at hne
    exact absurd rfl hne

private def symTab : List TabSym :=
  [{ key := cstr! "loop", sym := { name := cstr! "loop", fullname := cstr! "loop", value := 0x1003 }, times := 9 },
   { key := cstr! "start", sym := { name := cstr! "start", fullname := cstr! "start", value := 0x1000 }, times := 9 },
   { key := cstr! "unused", sym := { name := cstr! "unused", fullname := cstr! "unused", value := 5 }, times := 3 },
   { key := cstr! "i", sym := { name := cstr! "i", fullname := cstr! "i", value := 5, isVar := true }, times := 9 }]

/-- The hypotheses are met, and what the file looks like. -/
example : IsQsort isort ∧ (∀ x ∈ symTab, Word x.key ∧ x.key.length ≤ 15 ∧ 0 ≤ x.sym.value ∧ x.sym.value ≤ 65535) ∧
    dumpSymbols isort 3 symTab = cstr! "          start $1000             loop $1003  \n" ∧
    readSymbols (dumpSymbols isort 3 symTab) = some [(cstr! "start", 0x1000), (cstr! "loop", 0x1003)] := by
  refine ⟨isort_qsort, ?_, by decide +kernel, by decide +kernel⟩
  intro x hx
  simp only [symTab, List.mem_cons, List.not_mem_nil, or_false] at hx
  rcases hx with rfl | rfl | rfl | rfl <;> exact ⟨⟨by decide, by decide, by decide⟩, by decide, by decide, by decide⟩

end Verif
