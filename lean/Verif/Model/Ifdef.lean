import Verif.Model.Str

/-! # Conditional scanning: the `IF_DEF` start condition of pasm.l (lines 158-249) -/

namespace Verif

/-- What the scanner sees: the conditional directives (pasm.l:158-249) and everything else, one `line`
per statement.  Simplification: text is already cut into these units; directive look-alikes in comments
or strings of skipped text are not represented. -/
inductive IfTok where
  /-- `.ifdef name` (`neg = false`) or `.ifndef name` (`neg = true`), pasm.l:158-187 -/
  | ifdef (neg : Bool) (name : Str)
  /-- `.if` (pasm.l:188-193, 233-237); its expression belongs to the next `line` -/
  | iff
  /-- `.else` (pasm.l:194-207, 238-249) -/
  | els
  /-- `.endif` (pasm.l:208-221, 223-232) -/
  | endif
  /-- any other statement -/
  | line (n : Nat)
  deriving DecidableEq, Repr

/-- What reaches the parser (the `return` statements of pasm.l:223-249). -/
inductive IfOut where
  /-- token `IF` -/
  | iff
  /-- token `ELSE` -/
  | els
  /-- token `ENDIF` -/
  | endif
  /-- the tokens of an ordinary statement -/
  | line (n : Nat)
  deriving DecidableEq, Repr

/-- Scanner state: `skip` is the start condition `IF_DEF`, `stack` is `ifdef_stack` (top first). -/
structure IfSt where
  /-- start condition is `IF_DEF` -/
  skip : Bool
  /-- `ifdef_stack` -/
  stack : List Int
  /-- tokens handed to the parser so far -/
  out : List IfOut
  deriving DecidableEq, Repr

/-- One scanner action (pasm.l:158-249).  `defined` is `look_up_symbol(p) != NULL` at this point; it may
depend on everything the parser has seen so far.  `none` is undefined behaviour: `top`/`pop` of an
empty stack. -/
def ifStep (defined : List IfOut → Str → Bool) (s : IfSt) : IfTok → Option IfSt
  | .ifdef neg name =>
    if s.skip then some { s with stack := 1 :: s.stack }
    else some { s with stack := 0 :: s.stack, skip := defined s.out name == neg }
  | .iff =>
    if s.skip then some { s with stack := 1 :: s.stack }
    else some { s with stack := 1 :: s.stack, out := s.out ++ [.iff] }
  | .els =>
    match s.stack with
    | [] => none
    | t :: _ =>
      if s.skip then
        if t = 0 then some { s with skip := false } else some s
      else
        if t ≠ 0 then some { s with out := s.out ++ [.els] } else some { s with skip := true }
  | .endif =>
    if s.skip then
      match s.stack with
      | [] => none
      | [_] => some { s with stack := [], skip := false }
      | _ :: r => some { s with stack := r }
    else
      match s.stack with
      | [] => some { s with out := s.out ++ [.endif] }
      | t :: r =>
        if t ≠ 0 then some { s with stack := r, out := s.out ++ [.endif] }
        else some { s with stack := r }
  | .line n => if s.skip then some s else some { s with out := s.out ++ [.line n] }

/-- Scanning a whole input (repeated `yylex`, pasm.l). -/
def ifRun (defined : List IfOut → Str → Bool) (s : IfSt) : List IfTok → Option IfSt
  | [] => some s
  | t :: ts => (ifStep defined s t).bind fun s' => ifRun defined s' ts

end Verif
