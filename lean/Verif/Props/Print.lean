import Verif.Lemmas.Print
import Verif.Lemmas.Assembled

/-! # Texts and numbers shown by `.print` and `.printall` -/

namespace Verif

/-- **C59** (console).  A `.print` directive whose items all have values writes the items, in order, and a line feed to the
console in the final pass and nothing in the other passes; `.printall` writes them in every pass.  Neither emits bytes, moves the
location counter, changes a symbol or reports anything. -/
theorem C59_print {s : St} {f : Nat} {all : Bool} {items : Option (Item × List Item)} {t : Str} (file : Str) (line : Int)
    (hs : Ready s) (hf : ∀ x ∈ listOf items, x.depth + (listOf items).length < f)
    (hv : Spec.shownItems textOf (envOf s) s.pc (listOf items) = some t) :
    ∃ s', runTop (expandNode (f + 1)) (hasUninit (f + 1)) (.stmt file line (.print all items)) s = (.ok true, s') ∧
      s'.console = s.console ++ (if s.finalPass = true ∨ all = true then t ++ [10] else []) ∧
      s'.out = s.out ∧ s'.totalBytes = s.totalBytes ∧ s'.listing = s.listing ∧ s'.pc = s.pc ∧ s'.syms = s.syms ∧ s'.log = s.log ∧
      s'.errorCount = s.errorCount ∧ s'.symValueChanged = s.symValueChanged := by
  obtain ⟨ns, _, r⟩ := showStmt_run (all := all) file line hf hs.running hs.heap hv
  refine ⟨_, r, ?_, rfl, rfl, rfl, rfl, rfl, rfl, rfl, rfl⟩
  show s.console ++ _ = _
  simp only [Bool.or_eq_true]

/-- The first pass, at $1234. -/
private def sp : St := { pc := 0x1234, originSpecified := true }

/-- `.printall "a", 7, * + 1` in the first pass shows ` a $07 $12 $35`. -/
example : Ready sp ∧ sp.finalPass = false ∧
    Spec.shownItems textOf (envOf sp) sp.pc (listOf (some (.str [34, 97, 34], [.expr (.int 7), .expr (.bin .add .pc (.int 1))]))) =
      some (cstr! " a $07 $12 $35") :=
  ⟨⟨rfl, by decide, fun h => by cases h⟩, rfl, by decide +kernel⟩

/-- **C59** (numbers).  The text shown for a number determines its last 16 bits, so a number from 0 to 65535 can be read back
from it. -/
theorem C59_number {v w : Int} (h : Spec.shownNumber v = Spec.shownNumber w) : v % 65536 = w % 65536 := by
  have hd : ∀ a b : Nat, a < 16 → b < 16 → Spec.hexDig a = Spec.hexDig b → a = b := by
    intro a b ha hb hab
    have : ∀ a b : Fin 16, Spec.hexDig a.val = Spec.hexDig b.val → a = b := by decide
    exact congrArg Fin.val (this ⟨a, ha⟩ ⟨b, hb⟩ hab)
  have hbyte : ∀ a b : Nat, a < 256 → b < 256 → Spec.shownByte a = Spec.shownByte b → a = b := by
    intro a b ha hb hab
    simp only [Spec.shownByte, List.cons.injEq, and_true, true_and] at hab
    have h1 := hd _ _ (by omega) (by omega) hab.1
    have h2 := hd _ _ (by omega) (by omega) hab.2
    omega
  have hl : ∀ b, (Spec.shownByte b).length = 4 := fun _ => rfl
  unfold Spec.shownNumber at h
  have hlen := congrArg List.length h
  have h1 : (Spec.shownByte (v % 256).toNat) = Spec.shownByte (w % 256).toNat := (List.append_inj' h (by rw [hl, hl])).2
  have h2 := (List.append_inj' h (by rw [hl, hl])).1
  have e1 := hbyte _ _ (by omega) (by omega) h1
  by_cases hv : v / 256 % 256 = 0 <;> by_cases hw : w / 256 % 256 = 0
  · omega
  · rw [if_pos hv, if_neg hw] at h2; cases h2
  · rw [if_neg hv, if_pos hw] at h2; cases h2
  · rw [if_neg hv, if_neg hw] at h2
    have e2 := hbyte _ _ (by omega) (by omega) h2
    omega

example : Spec.shownNumber 0x1234 = Spec.shownNumber (0x1234 - 65536) ∧ (0x1234 : Int) % 65536 = (0x1234 - 65536) % 65536 := by
  decide

/-- **C59**, limits: numbers outside of 16 bits are cut without a message; 65541 and 5 look the same. -/
theorem C59_large_false :
    let r := runTop (expandNode 9) (hasUninit 9) (.stmt [120] 1 (.print true (some (.expr (.int 65541), [])))) sp
    r.1 = .ok true ∧ r.2.log = [] ∧ r.2.console = cstr! " $05\n" := by decide +kernel

end Verif
