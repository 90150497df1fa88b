import Verif.Spec.Layout
import Verif.Spec.FinMap

/-! # Specification: assembly in one go

Reading a program from the top to the bottom and keeping a table of names is enough when each name is defined, once, before it is
used, or is used where only its value and not its size matters.  `Straight` is that assembly: it has no passes. -/

namespace Verif.Spec

/-- Global names: letters, digits and `_`, and not the accumulator. -/
def Simple (n : Str) : Prop := n ≠ [] ∧ n.all wordChar = true ∧ foldCase n ≠ foldCase [65]

/-- The table with one more name. -/
def define (env : Str → Option Int) (x : Str) (v : Int) : Str → Option Int :=
  fun n => if foldCase n = foldCase x then some v else env n

/-- A name that may be used: one defined before, or the accumulator. -/
def Usable (env : Str → Option Int) (n : Str) : Prop :=
  (Simple n ∧ (env n).isSome = true) ∨ n = [65] ∨ n = [97]

/-- All names in the statement may be used.  Assignments are not meant here. -/
def AllUsable (env : Str → Option Int) : Stmt → Prop
  | .op _ _ (some e) => ∀ n ∈ e.names, Usable env n
  | .data _ hd tl => ∀ x ∈ hd :: tl, ∀ n ∈ x.names, Usable env n
  | .fill v n => (∀ m ∈ v.names, Usable env m) ∧ ∀ m ∈ n.names, Usable env m
  | .assign _ _ => False
  | _ => True

/-- The table, with 0 for the names that have no value yet. -/
def soFar (env : Str → Option Int) (n : Str) : Option Int := some ((env n).getD 0)

/-- Expressions all of whose parts are evaluated whatever the values are: no logical operators, and divisions only by numbers. -/
def Strict : Expr → Prop
  | .int _ | .pc | .sym _ => True
  | .un _ e => Strict e
  | .bin op a b => (op = .div → ∃ k, k ≠ 0 ∧ b = .int k) ∧ op ≠ .lor ∧ op ≠ .land ∧ Strict a ∧ Strict b

/-- A statement with a name in its operand that has no value yet and gets one on its line or below; `envF` is the table at the end, `env` the one
before the line and `env1` the one with the label of the line.  With 0 for the missing values the operand must have a value, too.
An instruction must be one that has the same size for all operands: a branch, say, or `jmp`, or `lda` of a name that ends up outside
the zero page.  Bytes and words have their sizes. -/
def Forward (C : Context) (envF env env1 : Str → Option Int) (pc : Int) (bs : List Nat) : Stmt → Prop
  | .op ins mode (some e) => Strict e ∧ (∀ n ∈ e.names, Simple n ∧ (envF n).isSome = true) ∧ (∃ n ∈ e.names, env n = none) ∧
      (eval (soFar env) pc e).isSome = true ∧ ∃ form v, mode = Form.mode form ∧ eval envF pc e = some (v, false) ∧
      Shortest C.cpu ins form pc v bs ∧
      ∀ v' bs', Encodes (decodeOf C.cpu) (mnemonic ins) form pc v' bs' → bs'.length ≤ bs.length
  | .data size hd tl => (size = 1 ∨ size = 2) ∧ (∀ e, .expr e ∈ hd :: tl → Strict e ∧ (∀ n ∈ e.names, Simple n ∧ (envF n).isSome = true) ∧
      ∀ a, pc ≤ a → a ≤ pc + bs.length → (eval (soFar env1) a e).isSome = true) ∧ items C.text envF size pc (hd :: tl) = some bs
  | _ => False

/-- One line at the address `pc`: the table after it and its bytes. -/
def Direct1 (C : Context) (envF env : Str → Option Int) (pc : Int) (fresh : Bool) : Top → (Str → Option Int) → List Nat → Prop
  | .stmt _ _ (.word true x none), env', bs => Simple x ∧ env x = none ∧ 0 ≤ pc ∧ pc < 65536 ∧ env' = define env x pc ∧ bs = []
  | .labelled _ _ x st, env', bs => Simple x ∧ env x = none ∧ 0 ≤ pc ∧ pc < 65536 ∧ env' = define env x pc ∧
      (AllUsable env st ∧ (Emits C env pc fresh bs st ∨ Far C env pc bs st) ∨ Forward C envF env env' pc bs st)
  | .stmt _ _ (.assign x e), env', bs => Simple x ∧ env x = none ∧ (∀ n ∈ e.names, Usable env n) ∧
      ∃ v, eval env pc e = some (v, false) ∧ 0 ≤ v ∧ v < 65536 ∧ env' = define env x v ∧ bs = []
  | .stmt _ _ st, env', bs => env' = env ∧ (AllUsable env st ∧ Placed C env pc fresh bs st ∨ Forward C envF env env pc bs st)
  | _, _, _ => False

/-- The lines one after the other. -/
def Straight (C : Context) : (Str → Option Int) → Int → Bool → List Top → (Str → Option Int) → List Nat → Prop
  | env, _, _, [], env', bs => env' = env ∧ bs = []
  | env, pc, fresh, t :: ts, env', bs => ∃ env1 b1 b2, Direct1 C env' env pc fresh t env1 b1 ∧
      Straight C env1 (pc + b1.length) (fresh && b1.isEmpty) ts env' b2 ∧ bs = b1 ++ b2

end Verif.Spec
