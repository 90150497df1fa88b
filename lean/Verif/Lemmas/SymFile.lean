import Verif.Spec.SymFile
import Verif.Spec.Print

/-! # Lemmas about the symbol file -/

namespace Verif

open Spec

theorem toDigits_step {n : Nat} (h : 16 ≤ n) : Nat.toDigits 16 n = Nat.toDigits 16 (n / 16) ++ [Nat.digitChar (n % 16)] :=
  Nat.toDigits_of_base_le (by decide) h

theorem hexStr_step (w n : Nat) : hexStr (w + 2) n = hexStr (w + 1) (n / 16) ++ [hexDig (n % 16)] := by
  have hd : ∀ k : Fin 16, (if 97 ≤ (Nat.digitChar k.val).toNat ∧ (Nat.digitChar k.val).toNat ≤ 102 then (Nat.digitChar k.val).toNat - 32
      else (Nat.digitChar k.val).toNat) = hexDig k.val := by decide +kernel
  by_cases h : 16 ≤ n
  · unfold hexStr
    rw [toDigits_step h]
    have := hd ⟨n % 16, Nat.mod_lt _ (by decide)⟩
    simp only [List.map_append, List.map_cons, List.map_nil, List.length_append, List.length_map, List.length_cons, List.length_nil]
    simp only at this
    rw [this, ← List.append_assoc]
    congr 3
    omega
  · have hn : ∀ k : Fin 16, hexStr 1 k.val = [hexDig k.val] ∧ (Nat.toDigits 16 k.val).length = 1 := by decide +kernel
    obtain ⟨h1, h2⟩ := hn ⟨n, by omega⟩
    have h0 : n / 16 = 0 := by omega
    have h3 : n % 16 = n := by omega
    have hz : hexStr (w + 1) 0 = List.replicate (w + 1) 48 := by
      unfold hexStr
      rw [show (Nat.toDigits 16 0).map (fun c => if 97 ≤ c.toNat ∧ c.toNat ≤ 102 then c.toNat - 32 else c.toNat) = [48] by decide +kernel]
      simp [List.replicate_succ']
    rw [h0, h3, hz, ← show hexStr 1 n = [hexDig n] from h1]
    unfold hexStr
    simp only [List.length_map]
    simp only at h2
    rw [h2]
    simp

/-- Four digits. -/
theorem hexStr_four {n : Nat} (h : n < 65536) :
    hexStr 4 n = [hexDig (n / 4096), hexDig (n / 256 % 16), hexDig (n / 16 % 16), hexDig (n % 16)] := by
  have h1 : ∀ k : Fin 16, hexStr 1 k.val = [hexDig k.val] := by decide +kernel
  rw [hexStr_step 2, hexStr_step 1, hexStr_step 0]
  have : n / 16 / 16 / 16 < 16 := by omega
  rw [show hexStr (0 + 1) (n / 16 / 16 / 16) = _ from h1 ⟨_, this⟩]
  simp only [List.cons_append, List.nil_append]
  rw [show n / 16 / 16 / 16 = n / 4096 by omega, show n / 16 / 16 % 16 = n / 256 % 16 by omega]

theorem fmtX_four {v : Int} (h0 : 0 ≤ v) (h1 : v ≤ 65535) : fmtX 4 v =
    [hexDig (v.toNat / 4096), hexDig (v.toNat / 256 % 16), hexDig (v.toNat / 16 % 16), hexDig (v.toNat % 16)] := by
  unfold fmtX
  rw [show (v % 4294967296).toNat = v.toNat by omega]
  exact hexStr_four (by omega)

theorem digitOf_hexDig {k : Nat} (h : k < 16) : digitOf (hexDig k) = some k := by
  have : ∀ k : Fin 16, digitOf (hexDig k.val) = some k.val := by decide
  exact this ⟨k, h⟩

theorem hexDig_range {k : Nat} (h : k < 16) : hexDig k ≠ 32 ∧ hexDig k ≠ 10 := by
  have : ∀ k : Fin 16, hexDig k.val ≠ 32 ∧ hexDig k.val ≠ 10 := by decide
  exact this ⟨k, h⟩

/-! ## Words -/

theorem fields_skip {c : Nat} (h : c = 32 ∨ c = 10) (s : Str) : fields (c :: s) = fields s := by
  rw [fields.eq_def]
  simp only
  rw [if_pos h]

theorem fields_blanks (n : Nat) (s : Str) : fields (List.replicate n 32 ++ s) = fields s := by
  induction n with
  | zero => rfl
  | succ n ih => rw [List.replicate_succ, List.cons_append, fields_skip (Or.inl rfl), ih]

/-- A word and what follows. -/
theorem fields_word {c : Nat} (hc : c = 32 ∨ c = 10) (s : Str) : ∀ {w : Str}, w ≠ [] → (∀ x ∈ w, x ≠ 32 ∧ x ≠ 10) →
    fields (w ++ c :: s) = w :: fields s
  | [], h, _ => absurd rfl h
  | [a], _, h => by
    have ha := h a (by simp)
    rw [List.cons_append, List.nil_append, fields.eq_def]
    simp only
    rw [if_neg (by omega), if_pos hc, fields_skip hc]
  | a :: b :: w, _, h => by
    have ha := h a (by simp)
    have hb := h b (by simp)
    have ih := fields_word hc s (w := b :: w) (by simp) (fun x hx => h x (by simp [hx]))
    rw [List.cons_append, List.cons_append, fields.eq_def]
    simp only
    rw [if_neg (by omega), if_neg (by omega)]
    rw [List.cons_append] at ih
    rw [ih]

/-- What is required of an entry. -/
def EntryOk (e : SymEntry) : Prop := Word e.name ∧ 0 ≤ e.value ∧ e.value ≤ 65535

theorem word_chars {n : Str} (h : Word n) : ∀ x ∈ n, x ≠ 32 ∧ x ≠ 10 :=
  fun x hx => ⟨by rintro rfl; exact h.2.1 hx, by rintro rfl; exact h.2.2 hx⟩

theorem cell_fields {e : SymEntry} (h : EntryOk e) (s : Str) : fields (dumpCell e ++ s) = e.name :: (36 :: fmtX 4 e.value) :: fields s := by
  unfold dumpCell
  simp only [List.append_assoc, List.cons_append, List.nil_append]
  rw [fields_blanks, fields_word (Or.inl rfl) _ h.1.1 (word_chars h.1)]
  rw [← List.cons_append, fields_word (Or.inl rfl) _ (by simp), fields_skip (Or.inl rfl)]
  intro x hx
  rw [fmtX_four h.2.1 h.2.2] at hx
  have r : ∀ k, k < 16 → hexDig k ≠ 32 ∧ hexDig k ≠ 10 := fun k hk => hexDig_range hk
  have hv := h.2
  simp only [List.mem_cons, List.not_mem_nil, or_false] at hx
  rcases hx with rfl | rfl | rfl | rfl | rfl
  · decide
  · exact r _ (by omega)
  · exact r _ (by omega)
  · exact r _ (by omega)
  · exact r _ (by omega)

theorem four_read {v : Int} (h0 : 0 ≤ v) (h1 : v ≤ 65535) : fourDigits (36 :: fmtX 4 v) = some v.toNat := by
  rw [fmtX_four h0 h1]
  simp only [fourDigits]
  rw [digitOf_hexDig (by omega), digitOf_hexDig (by omega), digitOf_hexDig (by omega), digitOf_hexDig (by omega)]
  show some _ = some _
  congr 1
  omega

/-- The entry as the reader sees it. -/
def SymEntry.seen (e : SymEntry) : Str × Nat := (e.name, e.value.toNat)

theorem read_cell {e : SymEntry} (h : EntryOk e) (s : Str) :
    readSymbols (dumpCell e ++ s) = (readSymbols s).map (e.seen :: ·) := by
  unfold readSymbols
  rw [cell_fields h, symbolsOf, four_read h.2.1 h.2.2]
  simp only [Option.bind_eq_bind, Option.bind_some]
  cases symbolsOf (fields s) <;> rfl

theorem read_cells : ∀ {es : List SymEntry}, (∀ e ∈ es, EntryOk e) → ∀ c, readSymbols (dumpCells c es) = some (es.map SymEntry.seen)
  | [], _, c => by
    show readSymbols [10] = some []
    rfl
  | e :: es, h, c => by
    have hskip : ∀ s, readSymbols (10 :: s) = readSymbols s := fun s => by
      unfold readSymbols
      rw [fields_skip (Or.inr rfl)]
    rw [dumpCells, read_cell (h e (by simp))]
    have ih := fun c => read_cells (es := es) (fun x hx => h x (by simp [hx])) c
    split
    · rw [hskip, ih]
      rfl
    · rw [ih]
      rfl

/-! ## Lines -/

theorem splitLF_line : ∀ {w : Str} (s : Str), (10 ∉ w) → splitLF (w ++ 10 :: s) = (w ++ [10]) :: splitLF s
  | [], s, _ => by
    rw [List.nil_append, splitLF.eq_def]
    simp
  | a :: w, s, h => by
    have ih := splitLF_line (w := w) s (fun h' => h (by simp [h']))
    have ha : a ≠ 10 := fun e => h (by simp [e])
    rw [List.cons_append, splitLF.eq_def]
    simp only
    rw [if_neg ha, ih]
    rfl

theorem cell_noLF {e : SymEntry} (h : EntryOk e) : 10 ∉ dumpCell e := by
  unfold dumpCell
  have hf : 10 ∉ fmtX 4 e.value := by
    rw [fmtX_four h.2.1 h.2.2]
    have hv := h.2
    have r : ∀ k, k < 16 → 10 ≠ hexDig k := fun k hk => (hexDig_range hk).2.symm
    simp only [List.mem_cons, List.not_mem_nil, or_false, not_or]
    exact ⟨r _ (by omega), r _ (by omega), r _ (by omega), r _ (by omega)⟩
  simp [hf, h.1.2.2]

/-- The cells of one line. -/
def rowText (es : List SymEntry) : Str := es.flatMap dumpCell

theorem row_noLF {es : List SymEntry} (h : ∀ e ∈ es, EntryOk e) : 10 ∉ rowText es := by
  intro hm
  obtain ⟨e, he, hm⟩ := List.mem_flatMap.1 hm
  exact cell_noLF (h e he) hm

/-- The text is divided into lines after every fifth entry. -/
theorem cells_row : ∀ (k : Nat) (c : Nat), c + k = 6 → 0 < k → ∀ (es : List SymEntry), dumpCells c es =
    rowText (es.take k) ++ 10 :: (if k ≤ es.length then dumpCells 1 (es.drop k) else [])
  | 0, _, _, h, _ => absurd h (by omega)
  | k + 1, c, hc, _, [] => by simp [dumpCells, rowText]
  | k + 1, c, hc, _, e :: es => by
    rw [dumpCells]
    by_cases h5 : c = 5
    · rw [if_pos h5]
      obtain rfl : k = 0 := by omega
      simp [rowText]
    · rw [if_neg h5, cells_row k (c + 1) (by omega) (by omega) es]
      simp [rowText, List.append_assoc]

theorem cells_lines : ∀ (n : Nat) {es : List SymEntry}, es.length / 5 = n → (∀ e ∈ es, EntryOk e) →
    splitLF (dumpCells 1 es) = (List.range (n + 1)).map fun i => rowText ((es.drop (5 * i)).take 5) ++ [10]
  | 0, es, hn, h => by
    rw [cells_row 5 1 rfl (by decide) es, if_neg (by omega), splitLF_line _ (row_noLF fun e he => h e (List.mem_of_mem_take he))]
    rfl
  | n + 1, es, hn, h => by
    rw [cells_row 5 1 rfl (by decide) es, if_pos (by omega), splitLF_line _ (row_noLF fun e he => h e (List.mem_of_mem_take he)),
      cells_lines n (by rw [List.length_drop]; omega) (fun e he => h e (List.mem_of_mem_drop he)), List.range_succ_eq_map (n := n + 1)]
    simp only [List.map_cons, List.map_map, Nat.mul_zero, List.drop_zero]
    congr 1
    refine List.map_congr_left fun i _ => ?_
    simp only [Function.comp, List.drop_drop]
    rw [show 5 * (i + 1) = 5 + 5 * i by omega]

theorem read_row {es : List SymEntry} (h : ∀ e ∈ es, EntryOk e) : readSymbols (rowText es ++ [10]) = some (es.map SymEntry.seen) := by
  induction es with
  | nil => rfl
  | cons e es ih =>
    rw [rowText, List.flatMap_cons, List.append_assoc, read_cell (h e (by simp))]
    rw [show List.flatMap dumpCell es = rowText es from rfl, ih fun x hx => h x (by simp [hx])]
    rfl

theorem cell_length {e : SymEntry} (h0 : 0 ≤ e.value) (h1 : e.value ≤ 65535) (hl : e.name.length ≤ 15) : (dumpCell e).length = 23 := by
  unfold dumpCell
  rw [fmtX_four h0 h1]
  simp only [List.length_append, List.length_replicate, List.length_cons, List.length_nil]
  omega

theorem qsort_table {qs : List SymEntry → List SymEntry} (hq : IsQsort qs) {l : List SymEntry}
    (hv : ∀ e ∈ l, 0 ≤ e.value ∧ e.value ≤ 65535) : (qs l).Perm l ∧ (qs l).Pairwise fun a b => a.value ≤ b.value := by
  obtain ⟨h1, h2⟩ := hq l (by
    intro a ha b hb
    have := hv a ha
    have := hv b hb
    unfold symbolCompare
    simp only
    rw [if_pos (by omega)]
    simp)
  refine ⟨h1, h2.imp ?_⟩
  rintro a b ⟨d, hd, h0⟩
  unfold symbolCompare at hd
  simp only at hd
  split at hd
  · cases hd
    omega
  · cases hd

end Verif
