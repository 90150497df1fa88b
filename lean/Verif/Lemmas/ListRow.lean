import Verif.Spec.Listing
import Verif.Lemmas.CInt

/-! # Rows of the listing -/

namespace Verif

theorem hexStr_byte {n : Nat} (h : n < 256) : 32 :: 36 :: hexStr 2 n = Spec.shownByte n := by
  have : ∀ n : Fin 256, 32 :: 36 :: hexStr 2 n.val = Spec.shownByte n.val := by decide +kernel
  exact this ⟨n, h⟩

theorem fmtX_byte {n : Nat} (h : n < 256) : 32 :: 36 :: fmtX 2 ((n : Nat) : Int) = Spec.shownByte n := by
  unfold fmtX
  rw [show (((n : Nat) : Int) % 4294967296).toNat = n by omega]
  exact hexStr_byte h

theorem rowStart_eq {bs : List Nat} (h : ∀ b ∈ bs, b < 256) (pc : Int) :
    rowStart (pc % 65536) (bs.map Int.ofNat) = (let a := (pc % 65536).toNat
      [36, Spec.hexDig (a / 4096), Spec.hexDig (a / 256 % 16), Spec.hexDig (a / 16 % 16), Spec.hexDig (a % 16), 58] ++
        bs.flatMap Spec.shownByte) := by
  have h1 : ∀ n : Nat, n < 256 → fmtX 2 (n : Int) = [Spec.hexDig (n / 16), Spec.hexDig (n % 16)] := by
    intro n hn
    have := fmtX_byte hn
    simp only [Spec.shownByte, List.cons.injEq, true_and] at this
    exact this
  have h2 : (bs.map Int.ofNat).flatMap (fun b => 32 :: 36 :: fmtX 2 b) = bs.flatMap Spec.shownByte := by
    clear pc
    induction bs with
    | nil => rfl
    | cons b bs ih =>
      simp only [List.map_cons, List.flatMap_cons]
      rw [ih (fun x hx => h x (by simp [hx])), ← fmtX_byte (h b (by simp))]
      rfl
  unfold rowStart
  rw [h2, cand_ff]
  have e1 : pc % 65536 / 256 = (((pc % 65536).toNat / 256 : Nat) : Int) := by omega
  have e2 : pc % 65536 % 256 = (((pc % 65536).toNat % 256 : Nat) : Int) := by omega
  rw [e1, e2, h1 _ (by omega), h1 _ (by omega)]
  simp only [List.cons_append, List.nil_append]
  rw [show (pc % 65536).toNat / 256 / 16 = (pc % 65536).toNat / 4096 by omega,
    show (pc % 65536).toNat % 256 / 16 = (pc % 65536).toNat / 16 % 16 by omega,
    show (pc % 65536).toNat % 256 % 16 = (pc % 65536).toNat % 16 by omega]

theorem rowHead_eq {bs : List Nat} (h : ∀ b ∈ bs, b < 256) (pc : Int) :
    rowHead (pc % 65536) (bs.map Int.ofNat) = Spec.leftPart pc bs := by
  unfold rowHead Spec.leftPart
  rw [rowStart_eq h]

/-- A row shows its bytes. -/
theorem shows_row {s : St} {bs : List Nat} (h : ∀ b ∈ bs, b < 256) (pc : Int) (column : Str) :
    Spec.Shows s.file s.line pc bs (listRow s (rowHead (pc % 65536) (bs.map Int.ofNat) ++ column)) :=
  ⟨rfl, rfl, column, by rw [rowHead_eq h]; rfl⟩

theorem commaList_eq : ∀ ts : List Str, commaList ts = List.intercalate [44, 32] ts
  | [] => rfl
  | [x] => by simp [commaList, List.intercalate]
  | x :: y :: xs => by
    have ih := commaList_eq (y :: xs)
    simp only [commaList, ih, List.intercalate, List.intersperse_cons_cons, List.flatten_cons, List.append_assoc]

theorem fmtX_text {q : Nat → Prop} {n : Nat} (h : n < 256) : Spec.ByteText q n (36 :: fmtX 2 (n : Nat)) := by
  have := fmtX_byte h
  simp only [Spec.shownByte, List.cons.injEq, true_and] at this
  exact Or.inl (by rw [this])

theorem showChar_text {q : Nat → Prop} {c : Nat} (h : q (c % 256)) : Spec.ByteText q (c % 256) (showChar c) := by
  unfold showChar
  split
  · exact Or.inr ⟨rfl, h⟩
  · exact fmtX_text (by omega)

/-- A row of data shows its bytes. -/
theorem showsData_row {q : Nat → Prop} {s : St} {bs : List Nat} {ts : List Str} (h : ∀ b ∈ bs, b < 256) (ht : Spec.ByteTexts q bs ts) (pc : Int) :
    Spec.ShowsData q s.file s.line pc bs (listRow s (rowHead (pc % 65536) (bs.map Int.ofNat) ++ dbWord ++ commaList ts)) :=
  ⟨rfl, rfl, ts, ht, by rw [rowHead_eq h, commaList_eq, List.append_assoc]; rfl⟩

end Verif
