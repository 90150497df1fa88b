import Verif.Spec.Layout

/-! # Specification: structured statements

Big-step meaning of blocks with conditionals, loops and variables.  A configuration holds the values of the symbols, the
address and whether anything has been emitted yet.  The rules for loops list the configurations at the start of the rounds.
Numbers are checked after each round: a loop whose address has passed `$FFFF` has no meaning. -/

namespace Verif.Spec

/-- Values of the symbols, location counter, nothing emitted so far. -/
structure Cfg where
  env : Str → Option Int
  pc : Int
  fresh : Bool

/-- After the bytes `bs`. -/
def Cfg.emit (k : Cfg) (bs : List Nat) : Cfg := ⟨k.env, k.pc + bs.length, k.fresh && bs.isEmpty⟩

/-- The variable in slot `c` gets the value `v`. -/
def Cfg.set (slot : Str → Option Nat) (k : Cfg) (c : Nat) (v : Int) : Cfg :=
  { k with env := fun n => if slot n = some c then some v else k.env n }

/-- The value of an expression. -/
def Cfg.value (k : Cfg) (e : Expr) (v : Int) : Prop := eval k.env k.pc e = some (v, false)

/-- `.var`: the names are variables already.  Each becomes 0 and then gets the value of its initialiser, which must not be
just a name. -/
def Declare (slot : Str → Option Nat) : List (Str × Option Expr) → Cfg → Cfg → Prop
  | [], k, k' => k' = k
  | (name, none) :: xs, k, k' => ∃ c, slot name = some c ∧ Declare slot xs (k.set slot c 0) k'
  | (name, some e) :: xs, k, k' => ∃ c v, slot name = some c ∧ (∀ n, e ≠ .sym n) ∧
      itemValue (k.set slot c 0).env k.pc e = some v ∧ Declare slot xs ((k.set slot c 0).set slot c v) k'

/-- The arguments of a macro call, from parameter `i` on.  Each is bound before the next one is evaluated. -/
def Bind (param : Str → Option Nat) (pc : Int) : Nat → List Item → (Str → Option Int) → (Str → Option Int) → Prop
  | _, [], env, env' => env' = env
  | i, .expr e :: xs, env, env' => ∃ v, itemValue env pc e = some v ∧ 0 ≤ v ∧ v ≤ 65535 ∧
      Bind param pc (i + 1) xs (fun n => if param n = some i then some v else env n) env'
  | _, .str _ :: _, _, _ => False

/-- The arguments as a list. -/
def argList : Option (Item × List Item) → List Item
  | none => []
  | some (hd, tl) => hd :: tl

/-- The step of a loop, 1 if none is given. -/
def stepOf (k : Cfg) : Option Expr → Int → Prop
  | none, v => v = 1
  | some e, v => k.value e v

/-- The loop variable has passed the end. -/
def past (step stop x : Int) : Prop := (step > 0 ∧ x > stop) ∨ (step < 0 ∧ x < stop)

/-- The statement leads from the first to the second configuration and has the given bytes.  `slot` tells which names are
variables, and which names are the same variable. -/
inductive Runs (C : Context) (slot : Str → Option Nat) : Stmt → Cfg → Cfg → List Nat → Prop
  /-- a plain statement -/
  | plain {st : Stmt} {k : Cfg} {bs : List Nat} (h : Emits C k.env k.pc k.fresh bs st) : Runs C slot st k (k.emit bs) bs
  /-- `name = e` for a variable -/
  | assign {name : Str} {e : Expr} {k : Cfg} {v : Int} {c : Nat} (hv : k.value e v) (hc : slot name = some c) :
    Runs C slot (.assign name e) k (k.set slot c v) []
  /-- `.var` -/
  | var {hd : Str × Option Expr} {tl : List (Str × Option Expr)} {k k' : Cfg} (h : Declare slot (hd :: tl) k k') :
    Runs C slot (.var hd tl) k k' []
  | seq {a b : Stmt} {k k1 k2 : Cfg} {b1 b2 : List Nat} (h1 : Runs C slot a k k1 b1) (h2 : Runs C slot b k1 k2 b2) :
    Runs C slot (.seq a b) k k2 (b1 ++ b2)
  | at {line : Int} {st : Stmt} {k k' : Cfg} {bs : List Nat} (h : Runs C slot st k k' bs) : Runs C slot (.at line st) k k' bs
  /-- `.if c … .endif` -/
  | ifTrue {c : Expr} {t : Stmt} {k k' : Cfg} {bs : List Nat} {v : Int} (hc : k.value c v) (hv : v ≠ 0)
    (h : Runs C slot t k k' bs) : Runs C slot (.ifThen c t) k k' bs
  | ifFalse {c : Expr} {t : Stmt} {k : Cfg} (hc : k.value c 0) : Runs C slot (.ifThen c t) k k []
  /-- `.if c … .else … .endif` -/
  | elseTrue {c : Expr} {t e : Stmt} {k k' : Cfg} {bs : List Nat} {v : Int} (hc : k.value c v) (hv : v ≠ 0)
    (h : Runs C slot t k k' bs) : Runs C slot (.ifElse c t e) k k' bs
  | elseFalse {c : Expr} {t e : Stmt} {k k' : Cfg} {bs : List Nat} (hc : k.value c 0) (h : Runs C slot e k k' bs) :
    Runs C slot (.ifElse c t e) k k' bs
  /-- `.while c … .wend`: `n` rounds -/
  | while {c : Expr} {body : Stmt} (n : Nat) (K : Nat → Cfg) (B : Nat → List Nat) (v : Nat → Int)
    (hc : ∀ i, i ≤ n → (K i).value c (v i)) (hv : ∀ i, i < n → v i ≠ 0) (hend : v n = 0)
    (hb : ∀ i, i < n → Runs C slot body (K i) (K (i + 1)) (B i)) (hpc : ∀ i, i < n → (K (i + 1)).pc ≤ 65535) :
    Runs C slot (.whileLoop c body) (K 0) (K n) ((List.range n).flatMap B)
  /-- `.repeat … .until c`: `n + 1` rounds -/
  | repeat {c : Expr} {body : Stmt} (n : Nat) (K : Nat → Cfg) (B : Nat → List Nat) (v : Nat → Int)
    (hb : ∀ i, i ≤ n → Runs C slot body (K i) (K (i + 1)) (B i)) (hpc : ∀ i, i ≤ n → (K (i + 1)).pc ≤ 65535)
    (hc : ∀ i, i ≤ n → (K (i + 1)).value c (v i)) (hv : ∀ i, i < n → v i = 0) (hend : v n ≠ 0) :
    Runs C slot (.repeatLoop body c) (K 0) (K (n + 1)) ((List.range (n + 1)).flatMap B)
  /-- `.do … .while c`: `n + 1` rounds -/
  | do {c : Expr} {body : Stmt} (n : Nat) (K : Nat → Cfg) (B : Nat → List Nat) (v : Nat → Int)
    (hb : ∀ i, i ≤ n → Runs C slot body (K i) (K (i + 1)) (B i)) (hpc : ∀ i, i ≤ n → (K (i + 1)).pc ≤ 65535)
    (hc : ∀ i, i ≤ n → (K (i + 1)).value c (v i)) (hv : ∀ i, i < n → v i ≠ 0) (hend : v n = 0) :
    Runs C slot (.doLoop body c) (K 0) (K (n + 1)) ((List.range (n + 1)).flatMap B)
  /-- `.for name = start to stop step … .next next`: `n` rounds, from `K i` at the start to `U i` at the end of the body.
  The step is evaluated before, the end after the variable has been initialised. -/
  | for {name next : Str} {start stop : Expr} {step : Option Expr} {body : Stmt} {k : Cfg} {c : Nat} {a b s : Int}
    (n : Nat) (K U : Nat → Cfg) (B : Nat → List Nat) (x y : Nat → Int)
    (hc : slot name = some c) (hc' : slot next = some c) (hs : stepOf k step s) (ha : k.value start a)
    (hK : K 0 = k.set slot c a) (he : (K 0).value stop b)
    (hx : ∀ i, i ≤ n → (K i).env name = some (x i)) (hgo : ∀ i, i < n → ¬ past s b (x i)) (hend : past s b (x n))
    (hb : ∀ i, i < n → Runs C slot body (K i) (U i) (B i)) (hpc : ∀ i, i < n → (U i).pc ≤ 65535)
    (hy : ∀ i, i < n → (U i).env name = some (y i)) (hin : ∀ i, i < n → -2147483648 ≤ y i + s ∧ y i + s < 2147483648)
    (hnext : ∀ i, i < n → K (i + 1) = (U i).set slot c (y i + s)) :
    Runs C slot (.forLoop name start stop step body next) k (K n) ((List.range n).flatMap B)
  /-- A macro call: the text of the macro, with the arguments bound to the parameters.  Local names of the caller are not known
  there.  Afterwards the parameters have their old values. -/
  | call {first : Bool} {name : Str} {args : Option (Item × List Item)} {body : Stmt} {env : Str → Option Int} {k k1 : Cfg}
    {bs : List Nat} (hm : C.macros name = some body) (hn : (argList args).length ≤ C.arity)
    (ha : Bind C.param k.pc 1 (argList args) k.env env)
    (h : Runs C slot body ⟨fun n => if global n then env n else none, k.pc, k.fresh⟩ k1 bs) :
    Runs C slot (.word first name args) k ⟨fun n => if (slot n).isSome then k1.env n else k.env n, k1.pc, k1.fresh⟩ bs

/-- The statement can be parsed where symbols and address have these values: operands of instructions are evaluated while
parsing, and the processor has the instruction.  Words are names of macros. -/
def Parses (C : Context) (env : Str → Option Int) (pc : Int) : Stmt → Prop
  | .empty => True
  | .op ins mode none => mode = .i ∧ ∃ bs, OneByte C.cpu ins .implied bs
  | .op ins mode (some e) =>
    (mode = .a ∧ (e = .sym [65] ∨ e = .sym [97]) ∧ ∃ bs, OneByte C.cpu ins .accumulator bs) ∨
    ∃ form v, mode = Form.mode form ∧ eval env pc e = some (v, false) ∧ e.complete env pc = true ∧
      ∃ pc' bs, Shortest C.cpu ins form pc' v bs
  | .data _ hd tl => ∀ raw, .str raw ∈ hd :: tl → ∃ t, C.text raw = some t
  | .fill _ _ => True
  | .load raw => ∃ t, C.text raw = some t
  | .assign _ _ => True
  | .var _ _ => True
  | .ifThen _ t => Parses C env pc t
  | .ifElse _ t e => Parses C env pc t ∧ Parses C env pc e
  | .repeatLoop b _ => Parses C env pc b
  | .doLoop b _ => Parses C env pc b
  | .whileLoop _ b => Parses C env pc b
  | .forLoop _ _ _ _ b _ => Parses C env pc b
  | .seq a b => Parses C env pc a ∧ Parses C env pc b
  | .at _ st => Parses C env pc st
  | .word _ name args => C.isMacro name = true ∧ ∀ raw, .str raw ∈ argList args → ∃ t, C.text raw = some t
  | _ => False

/-- Where a program has got to: values of the symbols, by last label; last label; location counter; nothing emitted yet. -/
structure Stage where
  env : Option Str → Str → Option Int
  last : Option Str
  pc : Int
  fresh : Bool

/-- The configuration a block starts with. -/
def Stage.cfg (g : Stage) : Cfg := ⟨g.env g.last, g.pc, g.fresh⟩

/-- After a block: the variables have the values of `k`. -/
def Stage.after (slot : Str → Option Nat) (g : Stage) (k : Cfg) : Stage :=
  ⟨fun l n => if (slot n).isSome then k.env n else g.env l n, g.last, k.pc, k.fresh⟩

/-- A last label without NUL in it, as all labels of a program are. -/
def CLabel (ll : Option Str) : Prop := ∀ l, ll = some l → 0 ∉ l

/-- The bytes of a program of flat lines and blocks. -/
inductive Program (C : Context) (slot : Str → Option Nat) : List Top → Stage → Stage → List Nat → Prop
  | nil {g : Stage} : Program C slot [] g g []
  | line {t : Top} {ts : List Top} {g g' : Stage} {ll : Option Str} {b1 b2 : List Nat}
    (h : Line { C with env := g.env } g.last g.pc g.fresh t ll b1) (hl : CLabel ll)
    (hs : Program C slot ts ⟨g.env, ll, g.pc + b1.length, g.fresh && b1.isEmpty⟩ g' b2) :
    Program C slot (t :: ts) g g' (b1 ++ b2)
  | block {file : Str} {line : Int} {st : Stmt} {ts : List Top} {g g' : Stage} {k : Cfg} {b1 b2 : List Nat}
    (hp : Parses C g.cfg.env g.cfg.pc st) (h : Runs C slot st g.cfg k b1) (hs : Program C slot ts (g.after slot k) g' b2) :
    Program C slot (.stmt file line st :: ts) g g' (b1 ++ b2)

/-- The statement assigns nothing to the variable in slot `c`. -/
def Untouched (slot : Str → Option Nat) (c : Nat) : Stmt → Prop
  | .assign n _ => slot n ≠ some c
  | .var hd tl => ∀ x, x ∈ hd :: tl → slot x.1 ≠ some c
  | .ifThen _ t => Untouched slot c t
  | .ifElse _ t e => Untouched slot c t ∧ Untouched slot c e
  | .repeatLoop b _ => Untouched slot c b
  | .doLoop b _ => Untouched slot c b
  | .whileLoop _ b => Untouched slot c b
  | .forLoop n _ _ _ b _ => slot n ≠ some c ∧ Untouched slot c b
  | .seq a b => Untouched slot c a ∧ Untouched slot c b
  | .at _ st => Untouched slot c st
  | .word _ _ _ => False
  | _ => True

/-- How often the body runs. -/
def rounds (a b s : Int) : Nat := if s > 0 then ((b - a) / s + 1).toNat else ((a - b) / (-s) + 1).toNat

end Verif.Spec
