import Verif.Spec.Expr
import Verif.Spec.Bytes
import Verif.Model.Parse

/-! # Specification: the bytes of a data directive

`size` is 1 for `.byte`, 2 for `.word`, 0 for `.str`.  Items are evaluated from left to right, each at the address
where its bytes will be placed.  `none`: the directive is in error or uses an unknown symbol. -/

namespace Verif

/-- The names in an expression. -/
def Expr.names : Expr → List Str
  | .int _ | .pc => []
  | .sym name => [name]
  | .un _ e => e.names
  | .bin _ a b => a.names ++ b.names

/-- The names in an item. -/
def Item.names : Item → List Str
  | .expr e => e.names
  | .str _ => []

end Verif

namespace Verif.Spec

/-- The bytes of a number. -/
def number (size v : Int) : Option (List Nat) :=
  if size = 1 then (if -254 ≤ v ∧ v ≤ 255 then some [(v % 256).toNat] else none)
  else if size = 2 then
    (if -65534 ≤ v ∧ v ≤ 65535 then some [(v % 256).toNat, (v / 256 % 256).toNat] else none)
  else (if 0 ≤ v ∧ v ≤ 255 then some [v.toNat] else none)

/-- The bytes of a text; texts in `.word` are padded to an even length. -/
def text (size : Int) (v : Str) : List Nat :=
  v.map (· % 256) ++ if size = 2 ∧ v.length % 2 = 1 then [0] else []

/-- Direct subexpressions. -/
def kids : Expr → List Expr
  | .int _ | .sym _ | .pc => []
  | .un _ e => [e]
  | .bin _ a b => [a, b]

/-- The value of an expression that is an item of a list: the direct subexpressions must have values, too, and their
evaluation must reach all symbols. -/
def itemValue (env : Str → Option Int) (pc : Int) (e : Expr) : Option Int :=
  if (kids e).all (fun k => ((eval env pc k).any fun r => !r.2) && k.complete env pc) then
    match eval env pc e with
    | some (v, false) => some v
    | _ => none
  else none

/-- The bytes of one item.  `txt` is the reading of quoted texts. -/
def item (txt : Str → Option Str) (env : Str → Option Int) (size pc : Int) : Item → Option (List Nat)
  | .str raw => (txt raw).map (text size)
  | .expr e => (itemValue env pc e).bind (number size)

/-- The bytes of a list of items. -/
def items (txt : Str → Option Str) (env : Str → Option Int) (size : Int) : Int → List Item → Option (List Nat)
  | _, [] => some []
  | pc, x :: xs =>
    (item txt env size pc x).bind fun b => (items txt env size (pc + b.length) xs).map (b ++ ·)

end Verif.Spec
