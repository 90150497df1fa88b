/-! # The pass driver `assemble` (pass.cc:162-303) -/

namespace Verif

/-- `max_passes` (pass.cc:21). -/
def maxPasses : Nat := 20

/-- What the driver needs to know about a pass.  `parse final s` is `parse_pass` (pass.cc:101-160) with
the given value of `final_pass`; `none` means the pass did not return (the process exited inside it).
The other fields read the globals the driver tests after the pass (pass.cc:201-205). -/
structure PassSem (σ : Type) where
  /-- `parse_pass()` -/
  parse : Bool → σ → Option σ
  /-- `error_count` -/
  errorCount : σ → Nat
  /-- `sym_value_changed` -/
  symValueChanged : σ → Nat
  /-- `unresolved_symbol_count()` -/
  unresolved : σ → Nat

/-- Which files were requested and whether opening them succeeds (pass.cc:181-189, 236-288). -/
structure AsmFiles where
  /-- log file: requested? can be opened? -/
  log : Option Bool := none
  /-- output file -/
  output : Option Bool := none
  /-- symbol file -/
  sym : Option Bool := none
  /-- list file -/
  list : Option Bool := none

/-- Observable result of `assemble`. -/
structure AsmRes (σ : Type) where
  /-- return value; `none` if the process exited inside a pass -/
  status : Option Int
  /-- passes that completed: the `final_pass` flag and the state before and after -/
  passes : List (Bool × σ × σ)
  /-- number of `parse_pass` calls with `final_pass` off and on -/
  calls : Nat × Nat
  /-- the output file was opened (and so created or truncated) -/
  opened : Bool

/-- The loop body's test (pass.cc:201-205). -/
def PassSem.clean {σ : Type} (P : PassSem σ) (s : σ) : Bool :=
  P.errorCount s == 0 && P.symValueChanged s == 0 && P.unresolved s == 0

/-- The do-while loop (pass.cc:191-218), entered with `pass`; fuel bounds the iterations (there are at
most `max_passes`).  Result: the last state (or `none`), the value of `pass`, the passes performed. -/
def passLoop {σ : Type} (P : PassSem σ) : Nat → Nat → σ → List (Bool × σ × σ) →
    Option σ × Nat × List (Bool × σ × σ)
  | 0, pass, s, tr => (some s, pass, tr)
  | fuel + 1, pass, s, tr =>
    match P.parse false s with
    | none => (none, pass, tr)
    | some s' =>
      let tr := tr ++ [(false, s, s')]
      let pass := pass + 1
      if P.errorCount s' = 0 ∧ pass < maxPasses ∧ P.clean s' = false then passLoop P fuel pass s' tr
      else (some s', pass, tr)

/-- What follows the final `parse_pass` (pass.cc:255-302): symbol and list file; 0 unless the symbol
file cannot be opened. -/
def finishStatus (F : AsmFiles) : Int := if F.sym = some false then -1 else 0

/-- `assemble` (pass.cc:162-303). -/
def assemble {σ : Type} (P : PassSem σ) (F : AsmFiles) (s : σ) : AsmRes σ :=
  if F.log = some false then ⟨some (-1), [], (0, 0), false⟩
  else
    match passLoop P maxPasses 1 s [] with
    | (none, _, tr) => ⟨none, tr, (tr.length + 1, 0), false⟩
    | (some s1, pass, tr) =>
      if pass ≥ maxPasses then ⟨some (-1), tr, (tr.length, 0), false⟩
      else if P.errorCount s1 > 0 then ⟨some (-1), tr, (tr.length, 0), false⟩
      else if F.output = some false then ⟨some (-1), tr, (tr.length, 0), false⟩
      else
        let opened := F.output == some true
        match P.parse true s1 with
        | none => ⟨none, tr, (tr.length, 1), opened⟩
        | some s2 => ⟨some (finishStatus F), tr ++ [(true, s1, s2)], (tr.length, 1), opened⟩

end Verif
