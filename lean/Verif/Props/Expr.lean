import Verif.Lemmas.Eval

/-! # Property theorems: expressions (C40) -/

namespace Verif

open Spec

/-- More known names do not change a value. -/
theorem eval_mono {env env' : Str → Option Int} (hm : ∀ n v, env n = some v → env' n = some v) {pc : Int} :
    ∀ {e : Expr} {r : Int × Bool}, Spec.eval env pc e = some r → Spec.eval env' pc e = some r := by
  intro e
  induction e with
  | int v => exact fun h => h
  | pc => exact fun h => h
  | sym name =>
    intro r h
    simp only [Spec.eval, Option.map_eq_some_iff, Option.bind_eq_some_iff] at h ⊢
    obtain ⟨a, ⟨b, h1, h2⟩, h3⟩ := h
    exact ⟨a, ⟨b, hm _ _ h1, h2⟩, h3⟩
  | un op e ih =>
    intro r h
    simp only [Spec.eval] at h ⊢
    cases he : Spec.eval env pc e with
    | none => rw [he] at h; cases h
    | some x => rw [he] at h; rw [ih he]; exact h
  | bin op a b iha ihb =>
    intro r h
    cases ha : Spec.eval env pc a with
    | none =>
      cases hb : Spec.eval env pc b with
      | none => cases op <;> simp only [Spec.eval, ha, hb] at h <;> cases h
      | some y => cases op <;> simp only [Spec.eval, ha, hb, ihb hb] at h ⊢ <;> first | cases h; done | skip
                  split at h
                  · rename_i h0; rw [if_pos h0]; exact h
                  · cases h
    | some x =>
      cases hb : Spec.eval env pc b with
      | none =>
        cases op <;> simp only [Spec.eval, ha, hb, iha ha] at h ⊢ <;> first | cases h; done | skip
        · split at h
          · rename_i h0; rw [if_pos h0]; exact h
          · cases h
        · split at h
          · rename_i h0; rw [if_pos h0]; exact h
          · cases h
      | some y => cases op <;> simp only [Spec.eval, ha, hb, iha ha, ihb hb] at h ⊢ <;> exact h

/-- **C40**: in any state between statements, an expression written in the source is built and evaluated to its
specified value; apart from the heap nothing changes except that divisions by zero are reported, and there is at
least one such report exactly when the specification meets a division by zero.  `env` lists values of defined
names; it may be empty, which covers the constant expressions. -/
theorem C40_value (env : Str → Option Int) (e : Expr) (s : St) (v : Int) (z : Bool) (f : Nat)
    (hb : s.nodeBase ≤ s.nodes.length) (he : s.endExpansion = false) (hf : e.depth < f)
    (henv : ∀ n x, env n = some x → envOf s n = some x) (hv : Spec.eval env s.pc e = some (v, z)) :
    ∃ p s1 ns k, buildExpr e s = (.ok p, s1) ∧
      expandNode f p s1 = (.ok v, { s with
        nodes := ns
        errorCount := s.errorCount + k
        log := s.log ++ List.replicate k .divideByZero }) ∧ (k = 0 ↔ z = false) := by
  obtain ⟨l, p, h1, h2⟩ := buildExpr_run (lk := look s) e s hb
  obtain ⟨ns, k, h3, _, h4, _⟩ := expand_eval (s := { s with nodes := s.nodes ++ l }) hf he h2 (eval_mono henv hv)
  exact ⟨p, _, ns, k, h1, h3, h4⟩

/-- Evaluating the same tree again, whatever other trees have been evaluated in between, gives the same value. -/
theorem C40_again (e e' : Expr) (s : St) (p p' : Ptr) (v v' : Int) (z z' : Bool) (f : Nat)
    (he : s.endExpansion = false) (hf : e.depth < f) (hf' : e'.depth < f)
    (hp : ExprAt (look s) s.nodeBase s.nodes e p) (hp' : ExprAt (look s) s.nodeBase s.nodes e' p')
    (hv : Spec.eval (envOf s) s.pc e = some (v, z)) (hv' : Spec.eval (envOf s) s.pc e' = some (v', z')) :
    ∃ s1 s2 s3, expandNode f p s = (.ok v, s1) ∧ expandNode f p' s1 = (.ok v', s2) ∧
      expandNode f p s2 = (.ok v, s3) := by
  obtain ⟨n1, k1, h1, g1, _⟩ := expand_eval hf he hp hv
  obtain ⟨n2, k2, h2, g2, _⟩ := expand_eval (s := evalSt s n1 k1) hf' he (hp'.sim g1) hv'
  obtain ⟨n3, k3, h3, g3, _⟩ := expand_eval (s := evalSt (evalSt s n1 k1) n2 k2) hf he
    ((hp.sim g1).sim g2) hv
  exact ⟨_, _, _, h1, h2, h3⟩

/-- **C40**, bytes: low + 256·high is the value modulo 65536, in every environment. -/
theorem C40_bytes (env : Str → Option Int) (pc : Int) (e : Expr) (v : Int) (z : Bool)
    (hv : Spec.eval env pc e = some (v, z)) :
    ∃ l h, Spec.eval env pc (.un .lo e) = some (l, z) ∧ Spec.eval env pc (.un .hi e) = some (h, z) ∧
      0 ≤ l ∧ l < 256 ∧ 0 ≤ h ∧ h < 256 ∧ l + 256 * h = v % 65536 := by
  refine ⟨v % 256, v % 65536 / 256, ?_, ?_, by omega, by omega, by omega, by omega, by omega⟩
  · simp only [Spec.eval, hv, Spec.unop, Option.map_some]
  · simp only [Spec.eval, hv, Spec.unop, Option.map_some]

/-- Outside the 32-bit range the evaluation is undefined in the code: `$7FFFFFFF + 1`. -/
theorem C40_overflow : ((buildExpr (.bin .add (.int 2147483647) (.int 1)) >>= expandNode 5) {}).1 = .ub := by
  decide +kernel

-- (7 / -2) << 4 | lo($1234) : hypotheses met with an empty environment
example : Spec.eval (fun _ => none) 0 (.bin .bitOr (.bin .shl (.bin .sub (.int 0) (.bin .div (.int 7) (.int (-2))))
    (.int 4)) (.un .lo (.int 0x1234))) = some (0x34, false) := by decide +kernel
-- x = 5, `1/0 + x` : one division by zero
example : let s : St := { syms := [{ name := [120], fullname := [120], isInit := true, value := 5 }] }
    Spec.eval (envOf s) s.pc (.bin .add (.bin .div (.int 1) (.int 0)) (.sym [120])) = some (5, true) ∧
    (Expr.bin .add (.bin .div (.int 1) (.int 0)) (.sym [120])).depth < 3 ∧ s.endExpansion = false := by
  decide +kernel
-- the right operand of `||` is not looked at: no report for `1 || 1/0`
example : Spec.eval (fun _ => none) 0 (.bin .lor (.int 1) (.bin .div (.int 1) (.int 0))) = some (1, false) := by
  decide +kernel

end Verif
