import Verif.Lemmas.PassInv
import Verif.Spec.Text

/-! # Programs without macros -/

namespace Verif

open Spec

/-- No symbol is the name of a macro and no macro definition has been parsed. -/
def NoMacro (s : St) : Prop :=
  (∀ x ∈ s.syms, x.isMacroName = false) ∧ ∀ n ∈ s.nodes, n.kind ≠ .opr .macroDef

/-- All directives but `.macro`. -/
def noMacroT (op : Opr) : Bool := op != .macroDef

instance : TOk noMacroT where
  exprList := rfl
  equ := rfl
  statement := rfl
  un op := by cases op <;> rfl
  bin op := by cases op <;> rfl

theorem NoMacro.step {s t : St} (h : NoMacro s) (hs : Step noMacroT s t) : NoMacro t := by
  obtain ⟨h1, h2⟩ := h
  have set : ∀ {i : Nat} {x x' : Sym}, s.syms[i]? = some x → x'.isMacroName = x.isMacroName →
      ∀ y ∈ s.syms.set i x', y.isMacroName = false := by
    intro i x x' hx hm y hy
    rcases List.mem_or_eq_of_mem_set hy with hy | rfl
    · exact h1 y hy
    · rw [hm]; exact h1 x (List.mem_of_getElem? hx)
  cases hs with
  | quiet h =>
    exact ⟨by rw [h.syms]; exact h1, by rw [h.nodes]; exact h2⟩
  | newSym x h =>
    refine ⟨fun y hy => ?_, h2⟩
    rcases List.mem_append.mp hy with hy | hy
    · exact h1 y hy
    · rw [List.mem_singleton.mp hy]; exact h.isMacroName
  | symUpd i x x' hx h hm =>
    refine ⟨set hx ?_, h2⟩
    rcases hm with hm | hm | ⟨n, hn, hk⟩
    · exact hm
    · cases hm
    · exact absurd hk (h2 n hn)
  | symSet i x v hx => exact ⟨set hx rfl, h2⟩
  | varReset i x v hx ht => exact ⟨set hx rfl, h2⟩
  | alloc n hn =>
    refine ⟨h1, fun m hm => ?_⟩
    rcases List.mem_append.mp hm with hm | hm
    · exact h2 m hm
    · rw [List.mem_singleton.mp hm]
      intro hk
      rw [hk] at hn
      cases hn
  | setNode p n n' hn ht =>
    refine ⟨h1, fun m hm => ?_⟩
    rcases List.mem_or_eq_of_mem_set hm with hm | rfl
    · exact h2 m hm
    · intro hk
      have := h2 n (List.mem_of_getElem? hn)
      rw [hk] at ht
      cases hn' : n.kind with
      | opr op => rw [hn'] at ht this; simp only [Kind.tag] at ht; cases ht; exact this rfl
      | _ => rw [hn'] at ht; cases ht
  | _ => exact ⟨h1, h2⟩

theorem NoMacro.steps {s t : St} (h : NoMacro s) (hs : Steps noMacroT s t) : NoMacro t := by
  induction hs with
  | refl => exact h
  | tail _ h2 ih => exact ih.step h2

theorem NoMacro.tsteps {s t : St} (h : NoMacro s) (hs : TSteps noMacroT s t) : NoMacro t := by
  induction hs with
  | refl => exact h
  | steps _ h2 ih => exact ih.steps h2
  | cpu _ c ih => exact ih
  | illegal _ c ih => exact ih
  | c64 _ ih => exact ih

theorem NoMacro.word {s : St} (h : NoMacro s) : isMacroWord s = fun _ => false := by
  funext name
  unfold isMacroWord
  split
  · rename_i i _
    cases hx : s.syms[i]? with
    | none => rfl
    | some x => simp [h.1 x (List.mem_of_getElem? hx)]
  · rfl

theorem macroFree_uses {st : Stmt} (h : MacroFree st) : st.uses noMacroT = true := by
  induction st <;> simp_all [MacroFree, Stmt.uses, noMacroT]
  case forReg isX _ _ _ _ _ => cases isX <;> simp
  case print a _ => cases a <;> simp

theorem macroFreeTop_uses {t : Top} (h : MacroFreeTop t) : t.uses noMacroT = true := by
  cases t <;> first | rfl | exact macroFree_uses h

end Verif
