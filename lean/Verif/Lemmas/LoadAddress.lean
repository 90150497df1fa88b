import Verif.Lemmas.PassInv

/-! # Programs that do not change the origin -/

namespace Verif

/-- Neither `.org` nor `*=`. -/
def keepsOrigin (op : Opr) : Bool := op ≠ .org && op ≠ .pcAssign

instance : TOk keepsOrigin := ⟨rfl, rfl, rfl, fun op => by cases op <;> rfl, fun op => by cases op <;> rfl⟩

theorem NoStar.tsteps {T : Opr → Bool} (hT : T .pcAssign = false) {s t : St} (h : TSteps T s t) (hs : NoStar s) :
    NoStar t := by
  have steps : ∀ {s t : St}, Steps T s t → NoStar s → NoStar t := by
    intro s t h hs
    induction h with
    | refl => exact hs
    | tail _ h' ih => exact ih.step hT h'
  induction h with
  | refl => exact hs
  | steps _ h' ih => exact steps h' ih
  | _ => assumption

theorem Stmt.uses_mono {T T' : Opr → Bool} (h : ∀ op, T op = true → T' op = true) (st : Stmt) (hs : st.uses T = true) :
    st.uses T' = true := by
  induction st <;> simp only [Stmt.uses, Bool.and_eq_true] at hs ⊢ <;> grind

theorem Top.uses_mono {T T' : Opr → Bool} (h : ∀ op, T op = true → T' op = true) (t : Top) (hs : t.uses T = true) :
    t.uses T' = true := by
  cases t <;> simp only [Top.uses] at hs ⊢ <;> exact Stmt.uses_mono h _ hs

end Verif
