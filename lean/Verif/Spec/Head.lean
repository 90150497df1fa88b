import Verif.Spec.Draft

/-! # The lines before `.org` or `*=`: empty lines, settings and assignments -/

namespace Verif.Spec

/-- The processor after the settings among the lines. -/
def cpuAfter (c : Cpu) : List Top → Cpu
  | [] => c
  | .setCpu d :: ts => cpuAfter d ts
  | _ :: ts => cpuAfter c ts

/-- `.c64` is among the lines. -/
def asksC64 : List Top → Bool
  | [] => false
  | .setC64 :: _ => true
  | _ :: ts => asksC64 ts

/-- The processor and the format after the lines. -/
def settle (C : Context) (ts : List Top) : Context := { C with cpu := cpuAfter C.cpu ts, raw := C.raw && !asksC64 ts }

/-- A line before `.org` or `*=`.  An assigned symbol has the value of its expression; the address is still the initial one. -/
def HeadLine (C : Context) : Top → Prop
  | .setCpu _ => True
  | .setIllegal _ => True
  | .setC64 => True
  | .stmt _ _ .empty => True
  | .stmt _ _ (.assign name e) => ∃ v, eval (C.env none) 0x1000 e = some (v, false) ∧ C.env none name = some v
  | _ => False

/-- A line before `.org` or `*=`.  Nothing is said about the value of an assigned symbol. -/
def HeadDraft (C : Context) : Top → Prop
  | .setCpu _ => True
  | .setIllegal _ => True
  | .setC64 => True
  | .stmt _ _ .empty => True
  | .stmt _ _ (.assign name e) => (∃ v, eval (C.env none) 0x1000 e = some (v, false)) ∧ ∃ w, C.env none name = some w
  | _ => False

/-- The statements that set the address at the start of a program to `e`. -/
def SetsOrigin (e : Expr) (st : Stmt) : Prop := st = .org e ∨ st = .pcAssign e

end Verif.Spec
