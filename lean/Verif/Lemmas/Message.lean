import Verif.Model.Message
import Verif.Spec.Message

/-! # Lemmas: messages -/

namespace Verif

open Spec

theorem decInt_nat (n : Nat) : decInt (n : Int) = numeral n := by
  unfold decInt decStr numeral Nat.repr
  rw [if_neg (by omega), Int.natAbs_natCast, String.toList_ofList]

theorem fmtLine_nat (n : Nat) (l : Str) : fmtLine (n : Int) ++ l = shownLine n l := by
  unfold fmtLine shownLine
  rw [decInt_nat]

theorem edLines_ne (t : Str) : edLines t ≠ [] := by
  cases t with
  | nil => simp [edLines]
  | cons c cs =>
    unfold edLines
    split
    · simp
    · split <;> simp

theorem fgetsTake_line : ∀ {t l : Str} {ls : List Str} {room : Nat}, edLines t = l :: ls → l.length < room →
    fgetsTake room t = (l ++ (if ls = [] then [] else [10]), decide (ls = [])) ∧
      (ls ≠ [] → edLines (t.drop (l.length + 1)) = ls)
  | [], l, ls, room + 1, h, hr => by
    simp only [edLines, List.cons.injEq, List.nil_eq] at h
    obtain ⟨rfl, rfl⟩ := h
    simp [fgetsTake]
  | c :: cs, l, ls, room + 1, h, hr => by
    unfold edLines at h
    by_cases hc : c = 10
    · rw [if_pos hc, List.cons.injEq] at h
      obtain ⟨rfl, rfl⟩ := h
      subst hc
      rw [if_neg (edLines_ne cs)]
      simp [fgetsTake, edLines_ne cs]
    · rw [if_neg hc] at h
      cases hs : edLines cs with
      | nil => exact absurd hs (edLines_ne cs)
      | cons m ms =>
        simp only [hs, List.cons.injEq] at h
        obtain ⟨rfl, rfl⟩ := h
        simp only [List.length_cons] at hr
        obtain ⟨h1, h2⟩ := fgetsTake_line (room := room) hs (by omega)
        unfold fgetsTake
        rw [if_neg hc, h1]
        simpa using h2
  | _, _, _, 0, _, hr => by omega

/-- The file stands at the beginning of line `j + 1`, or its end has been met. -/
def AtLine (src : Str) (j : Nat) (f : Stream) : Prop :=
  f.content = src ∧
    if j < (edLines src).length then f.eof = false ∧ edLines (src.drop f.pos) = (edLines src).drop j else f.eof = true

theorem AtLine.fgets {src : Str} {j : Nat} {f : Stream} (hlen : ∀ l ∈ edLines src, l.length + 1 < maxLineLen) (h : AtLine src j f)
    (buf : Str) :
    AtLine src (j + 1) (f.fgets buf).2 ∧ (∀ l, (edLines src)[j]? = some l →
      (f.fgets []).1 = l ++ (if j + 1 < (edLines src).length then [10] else [])) := by
  obtain ⟨h1, h2⟩ := h
  unfold Stream.fgets
  simp only [h1]
  by_cases hj : j < (edLines src).length
  · rw [if_pos hj] at h2
    obtain ⟨he, hd⟩ := h2
    rw [List.drop_eq_getElem_cons hj] at hd
    obtain ⟨g1, g2⟩ := fgetsTake_line (room := maxLineLen - 1) hd (by
      have := hlen _ (List.getElem_mem hj)
      omega)
    have hnil : (edLines src).drop (j + 1) = [] ↔ ¬ j + 1 < (edLines src).length := by
      rw [List.drop_eq_nil_iff]
      omega
    rw [g1, he]
    refine ⟨⟨rfl, ?_⟩, ?_⟩
    · by_cases hj' : j + 1 < (edLines src).length
      · rw [if_pos hj', if_neg fun h => hnil.1 h hj']
        refine ⟨by simp [hj'], ?_⟩
        rw [← g2 fun h => hnil.1 h hj', List.drop_drop]
        simp
      · rw [if_neg hj']
        simp
        omega
    · intro l hl
      rw [List.getElem?_eq_getElem hj, Option.some.injEq] at hl
      subst hl
      have : (if (edLines src).drop (j + 1) = [] then ([] : Str) else [10]) = if j + 1 < (edLines src).length then [10] else [] := by
        by_cases hj' : j + 1 < (edLines src).length
        · rw [if_pos hj', if_neg fun h => hnil.1 h hj']
        · rw [if_neg hj', if_pos (hnil.2 hj')]
      rw [this]
      simp only
      by_cases h0 : (edLines src)[j] ++ (if j + 1 < (edLines src).length then ([10] : Str) else []) = []
      · rw [if_pos h0, h0]
      · rw [if_neg h0]
  · rw [if_neg hj] at h2
    refine ⟨⟨rfl, ?_⟩, ?_⟩
    · rw [if_neg (by omega)]
      simp [h2]
    · intro l hl
      rw [List.getElem?_eq_none (by omega)] at hl
      cases hl

theorem skipLines_at {src : Str} (hlen : ∀ l ∈ edLines src, l.length + 1 < maxLineLen) : ∀ {n j : Nat} {x : Str × Stream},
    AtLine src j x.2 → AtLine src (j + n) (skipLines n x).2
  | 0, _, _, h => h
  | n + 1, j, x, h => by
    unfold skipLines
    have := skipLines_at hlen (n := n) (x := x.2.fgets x.1) (h.fgets hlen x.1).1
    rw [Nat.add_assoc, Nat.add_comm 1 n] at this
    exact this

theorem showLines_rows {src : Str} (hlen : ∀ l ∈ edLines src, l.length + 1 < maxLineLen) : ∀ {n j : Nat} {x : Str × Stream},
    AtLine src j x.2 → (showLines n ((j : Int) + 1) x).1 =
        ((((edLines src).drop j).take n).zipIdx (j + 1)).flatMap (fun p => rowOf src (p.2, p.1)) ∧
      (showLines n ((j : Int) + 1) x).2.2.content = src
  | 0, _, _, h => by simpa [showLines] using h.1
  | n + 1, j, x, h => by
    unfold showLines
    by_cases hj : j < (edLines src).length
    · have he : x.2.eof = false := by
        have := h.2
        rw [if_pos hj] at this
        exact this.1
      rw [if_neg (by simp [he])]
      obtain ⟨g1, g2⟩ := h.fgets hlen []
      obtain ⟨i1, i2⟩ := showLines_rows hlen (n := n) (x := x.2.fgets []) g1
      simp only
      rw [show (j : Int) + 1 + 1 = ((j + 1 : Nat) : Int) + 1 by omega, i1, g2 _ (List.getElem?_eq_getElem hj)]
      refine ⟨?_, i2⟩
      rw [List.drop_eq_getElem_cons hj, List.take_succ_cons, List.zipIdx_cons, List.flatMap_cons]
      unfold rowOf
      simp only
      rw [← fmtLine_nat]
      simp
    · have he : x.2.eof = true := by
        have := h.2
        rw [if_neg hj] at this
        exact this
      rw [if_pos he]
      have hat : AtLine src (j + 1) x.2 := ⟨h.1, by rw [if_neg (by omega)]; exact he⟩
      obtain ⟨i1, i2⟩ := showLines_rows hlen (n := n) hat
      rw [show (j : Int) + 1 + 1 = ((j + 1 : Nat) : Int) + 1 by omega, i1]
      refine ⟨?_, i2⟩
      rw [List.drop_eq_nil_of_le (by omega), List.drop_eq_nil_of_le (by omega), List.take_nil, List.take_nil]
      rfl

theorem filter_upto {b : Nat} : ∀ {ls : List Str} {a s : Nat}, a ≤ s →
    ((ls.zipIdx s).filterMap fun p => if a ≤ p.2 ∧ p.2 ≤ b then some (p.2, p.1) else none) =
      ((ls.take (b + 1 - s)).zipIdx s).map fun p => (p.2, p.1)
  | [], _, _, _ => by simp
  | l :: ls, a, s, h => by
    rw [List.zipIdx_cons, List.filterMap_cons]
    by_cases hb : s ≤ b
    · rw [show b + 1 - s = (b + 1 - (s + 1)) + 1 by omega, List.take_succ_cons, List.zipIdx_cons, List.map_cons,
        ← filter_upto (a := a) (b := b) (ls := ls) (s := s + 1) (by omega)]
      simp [h, hb]
    · have := filter_upto (a := a) (b := b) (ls := ls) (s := s + 1) (by omega)
      rw [show b + 1 - (s + 1) = 0 by omega] at this
      rw [show b + 1 - s = 0 by omega, this]
      simp [hb]

theorem filter_from {a b : Nat} : ∀ {ls : List Str} {s : Nat}, s ≤ a →
    ((ls.zipIdx s).filterMap fun p => if a ≤ p.2 ∧ p.2 ≤ b then some (p.2, p.1) else none) =
      (((ls.drop (a - s)).take (b + 1 - a)).zipIdx a).map fun p => (p.2, p.1)
  | [], _, _ => by simp
  | l :: ls, s, h => by
    by_cases hs : s = a
    · subst hs
      rw [filter_upto (Nat.le_refl s), Nat.sub_self, List.drop_zero]
    · rw [List.zipIdx_cons, List.filterMap_cons, filter_from (ls := ls) (s := s + 1) (by omega),
        show a - s = (a - (s + 1)) + 1 by omega, List.drop_succ_cons]
      simp [show ¬ a ≤ s by omega]

theorem linesBetween_eq {a b : Nat} (ha : 1 ≤ a) (t : Str) :
    linesBetween a b t = ((((edLines t).drop (a - 1)).take (b + 1 - a)).zipIdx a).map fun p => (p.2, p.1) := filter_from ha

theorem linesBetween_one {a b : Nat} (ha : a ≤ 1) (t : Str) : linesBetween a b t = linesBetween 1 b t := by
  unfold linesBetween
  rw [filter_upto ha, filter_upto (Nat.le_refl 1)]

theorem linesBetween_mem {a b n : Nat} {t l : Str} (h1 : a ≤ n) (h2 : n ≤ b) (h0 : 1 ≤ n) (h : (edLines t)[n - 1]? = some l) :
    (n, l) ∈ linesBetween a b t := by
  refine List.mem_filterMap.2 ⟨(l, n), ?_, by simp [h1, h2]⟩
  rw [List.mk_mem_zipIdx_iff_le_and_getElem?_sub]
  exact ⟨h0, h⟩

theorem yymessage_eq (s : Str) {c : Con} {f : Stream} {name buf : Str} (L : Nat) (hf : c.yyin = some f) (hn : c.fileName = some name)
    (hb : c.buffer = some buf) (hl : c.yylineno = L) (hlen : ∀ l ∈ edLines f.content, l.length + 1 < maxLineLen) :
    (yymessage s c).console = c.console ++ message s name L f.content ∧
      (yymessage s c).yyin = some { f with eof := false } ∧ (yymessage s c).fileName = c.fileName ∧ (yymessage s c).yylineno = c.yylineno ∧
      (∃ b, (yymessage s c).buffer = some b) ∧ (yymessage s c).errorCount = c.errorCount ∧ (yymessage s c).warningCount = c.warningCount := by
  have h0 : AtLine f.content 0 { f with pos := 0, eof := false } := by
    refine ⟨rfl, ?_⟩
    rw [if_pos (by
      have := edLines_ne f.content
      exact List.length_pos_iff.2 this)]
    simp
  have h1 := skipLines_at hlen (n := ((L : Int) - 3).toNat) (x := (buf, { f with pos := 0, eof := false })) h0
  have hfirst : max 1 ((L : Int) - 2) = ((((L : Int) - 3).toNat : Nat) : Int) + 1 := by omega
  obtain ⟨h2, h3⟩ := showLines_rows hlen (n := ((L : Int) + 3 - max 1 ((L : Int) - 2)).toNat) h1
  rw [Nat.zero_add] at h2 h3
  have hrows : ((linesBetween (L - 2) (L + 2) f.content).flatMap (rowOf f.content)) =
      (showLines ((L : Int) + 3 - max 1 ((L : Int) - 2)).toNat (max 1 ((L : Int) - 2))
        (skipLines ((L : Int) - 3).toNat (buf, { f with pos := 0, eof := false }))).1 := by
    rw [hfirst, hfirst] at *
    rw [h2]
    have hlb : linesBetween (L - 2) (L + 2) f.content = linesBetween (((L : Int) - 3).toNat + 1) (L + 2) f.content := by
      by_cases h : L - 2 ≤ 1
      · rw [linesBetween_one h, show ((L : Int) - 3).toNat + 1 = 1 by omega]
      · rw [show ((L : Int) - 3).toNat + 1 = L - 2 by omega]
    rw [hlb, linesBetween_eq (by omega), List.flatMap_map, Nat.add_sub_cancel]
    congr 3
    omega
  unfold yymessage
  simp only [hf, hn, hb, hl]
  refine ⟨?_, ?_, trivial, trivial, ⟨_, rfl⟩, trivial, trivial⟩
  · rw [← hrows, show (L : Int) + 1 = ((L + 1 : Nat) : Int) by omega, decInt_nat]
    simp only [message, List.append_assoc]
  · rw [hfirst] at *
    rw [h3]

end Verif
