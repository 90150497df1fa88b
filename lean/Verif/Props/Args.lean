import Verif.Lemmas.Args
import Verif.Props.Numbers
import Verif.Model.Parse

/-! # Property C51: the command line -/

namespace Verif

open Spec

private theorem given_one {k : Setting} {x : Arg} {xs : List Arg} (hx : x.setting = some k)
    (hu : ∀ y : Arg, y.setting = some k → y = x) : isGiven k xs = true ↔ x ∈ xs := by
  simp only [isGiven, List.any_eq_true, decide_eq_true_eq]
  constructor
  · rintro ⟨y, hy, h⟩
    rw [← hu y h]; exact hy
  · exact fun h => ⟨x, h, hx⟩

private theorem cmdLine_inputs {xs : List Arg} {ws : List Str} (h : CmdLine xs ws) :
    (inputFiles xs).length ≤ ws.length := by
  induction h with
  | nil => exact Nat.le_refl _
  | @cons x xs ws rest hw t ih =>
    have : inputFiles (x :: xs) = inputFiles [x] ++ inputFiles xs := by
      simp only [inputFiles, ← List.filterMap_append, List.singleton_append]
    have h1 : (inputFiles [x]).length ≤ ws.length := by
      cases hw <;> simp [inputFiles]
    rw [this, List.length_append, List.length_append]; omega

/-- **C51**.  `parse_arguments` returns exactly for the command lines that consist of well-formed arguments,
specify nothing twice and name an input file.  It then has stored each setting as given, the input files in
the order given, and run the `-d` definitions in order (see `C51_define_partial` for their effect).  The array
of input files, allocated with one entry per word (counting the program name), is large enough. -/
theorem C51_settings {argv : List Str} {s s' : St} {a : Args} (hc : ∀ w ∈ argv, 0 ∉ w) :
    parseArguments argv s = .done a s' ↔
      ∃ xs, CmdLine xs argv ∧ Once xs ∧ inputFiles xs ≠ [] ∧ runDefs (definitions xs) s = (.ok (), s') ∧
        a.inputs = inputFiles xs ∧ a.outFile = given .output xs ∧ a.symFile = given .symbols xs ∧
        a.dirs = given .directories xs ∧ a.logFile = given .logging xs ∧ a.listFile = given .listing xs ∧
        (a.format = .c64 ↔ Arg.c64 ∈ xs) ∧ (a.verbose = true ↔ Arg.verbose ∈ xs) ∧
        (a.cpu = .c65C02 ↔ Arg.cpu65C02 ∈ xs) ∧ (a.allowIllegal = true ↔ Arg.illegal ∈ xs) ∧
        (a.ignoreWarnings = true ↔ Arg.noWarnings ∈ xs) ∧
        (a.cpuSpecified = true ↔ Arg.cpu65C02 ∈ xs ∨ Arg.cpu6502 ∈ xs) ∧ a.illegalSpecified = a.allowIllegal ∧
        a.inputs.length < argv.length + 1 := by
  have hc' : ∀ w ∈ argv, CStr w := fun w hw c hcw h0 => hc w hw (h0 ▸ hcw)
  have gf : ∀ xs, isGiven .format xs = true ↔ Arg.c64 ∈ xs := fun xs =>
    given_one rfl (fun y hy => by cases y <;> first | rfl | cases hy)
  have gv : ∀ xs, isGiven .verbose xs = true ↔ Arg.verbose ∈ xs := fun xs =>
    given_one rfl (fun y hy => by cases y <;> first | rfl | cases hy)
  have gi : ∀ xs, isGiven .illegal xs = true ↔ Arg.illegal ∈ xs := fun xs =>
    given_one rfl (fun y hy => by cases y <;> first | rfl | cases hy)
  have gw : ∀ xs, isGiven .warnings xs = true ↔ Arg.noWarnings ∈ xs := fun xs =>
    given_one rfl (fun y hy => by cases y <;> first | rfl | cases hy)
  have gp : ∀ xs, isGiven .processor xs = true ↔ Arg.cpu65C02 ∈ xs ∨ Arg.cpu6502 ∈ xs := by
    intro xs
    simp only [isGiven, List.any_eq_true, decide_eq_true_eq]
    constructor
    · rintro ⟨y, hy, h⟩
      cases y <;> first | exact Or.inl hy | exact Or.inr hy | cases h
    · rintro (h | h) <;> exact ⟨_, h, rfl⟩
  constructor
  · intro h
    obtain ⟨xs, h1, h2, h3, h4⟩ := parseArgs_inv h hc'
    rw [steps_eq] at h2
    split at h2
    · rename_i ho
      cases h2
      refine ⟨xs, h1, ho, h4, h3, rfl, rfl, rfl, rfl, rfl, rfl, ?_, gv xs, ?_, gi xs, gw xs, gp xs, rfl,
        Nat.lt_succ_of_le (cmdLine_inputs h1)⟩
      · rw [← gf xs]; simp only [settingsOf]
        cases isGiven .format xs <;> simp
      · simp only [settingsOf]
        by_cases hm : Arg.cpu65C02 ∈ xs <;> simp [hm]
    · cases h2
  · rintro ⟨xs, h1, ho, h4, h3, e1, e2, e3, e4, e5, e6, e7, e8, e9, e10, e11, e12, e13, -⟩
    obtain rfl : a = settingsOf xs := by
      have f1 : a.format = (settingsOf xs).format := by
        rw [← gf xs] at e7
        simp only [settingsOf]
        cases hf : a.format <;> cases hg : isGiven .format xs <;> simp_all
      have f2 : a.cpu = (settingsOf xs).cpu := by
        simp only [settingsOf]
        cases hf : a.cpu <;> by_cases hg : Arg.cpu65C02 ∈ xs <;> simp_all
      have f3 : a.verbose = isGiven .verbose xs := by rw [Bool.eq_iff_iff, e8, gv]
      have f4 : a.allowIllegal = isGiven .illegal xs := by rw [Bool.eq_iff_iff, e10, gi]
      have f5 : a.ignoreWarnings = isGiven .warnings xs := by rw [Bool.eq_iff_iff, e11, gw]
      have f6 : a.cpuSpecified = isGiven .processor xs := by rw [Bool.eq_iff_iff, e12, gp]
      cases a
      simp only at f1 f2 f3 f4 f5 f6 e1 e2 e3 e4 e5 e6 e13
      simp only [settingsOf, Args.mk.injEq] at f1 f2 ⊢
      exact ⟨e1, e2, e3, e4, e5, e6, f1, f3, f6, f2, e13.trans f4, f4, f5⟩
    refine parseArgs_reads ⟨xs, h1, ?_, h3, h4⟩ hc'
    rw [steps_eq]
    exact if_pos ho

/-- **C51**.  A command line that specifies something twice is refused: the program exits with an error
message (or a `-d` before it did not return). -/
theorem C51_twice {xs : List Arg} {argv : List Str} {s : St} (hc : ∀ w ∈ argv, 0 ∉ w) (h : CmdLine xs argv)
    (ho : ¬ Once xs) : (∃ e, parseArguments argv s = .fail e) ∨ ∃ r, parseArguments argv s = .abnormal r := by
  have hc' : ∀ w ∈ argv, CStr w := fun w hw c hcw h0 => hc w hw (h0 ▸ hcw)
  have hs : ({} : Args).steps xs = none := by rw [steps_eq]; exact if_neg ho
  unfold parseArguments
  generalize ({} : Args) = a at hs
  clear hc ho
  induction h generalizing a s with
  | nil => cases hs
  | @cons x xs ws rest hw t ih =>
    have hc1 : ∀ w ∈ ws, CStr w := fun w h => hc' w (by simp [h])
    have hc2 : ∀ w ∈ rest, CStr w := fun w h => hc' w (by simp [h])
    cases hx : a.step x with
    | none => exact Or.inl (parseArgs_twice hw hc1 hx)
    | some b =>
      have hs' : b.steps xs = none := by simpa [Args.steps, hx] using hs
      by_cases hd : definitions [x] = []
      · rw [parseArgs_step hw hc1 hd hx]
        exact ih hc2 b hs'
      · obtain ⟨n, v, rfl⟩ : ∃ n v, x = .define n v := by
          cases x <;> first | exact ⟨_, _, rfl⟩ | exact absurd rfl hd
        cases hx
        rw [parseArgs_define hw hc1]
        rcases defineSymbol n v s with ⟨r, s1⟩
        cases r with
        | ok u => exact ih hc2 a hs'
        | exit c => exact Or.inr ⟨_, rfl⟩
        | ub => exact Or.inr ⟨_, rfl⟩
        | timeout => exact Or.inr ⟨_, rfl⟩

/-- **C51**.  `-?` or `-h` after well-formed arguments prints the usage text and exits with status 0, whatever
follows. -/
theorem C51_help {xs : List Arg} {ws rest : List Str} {w : Str} {s s' : St} (hc : ∀ w ∈ ws, 0 ∉ w) (hw : 0 ∉ w)
    (h : CmdLine xs ws) (ho : Once xs) (hd : runDefs (definitions xs) s = (.ok (), s'))
    (hh : Option' "?" w ∨ Option' "h" w) : parseArguments (ws ++ w :: rest) s = .help := by
  have hc' : ∀ w ∈ ws, CStr w := fun w hw c hcw h0 => hc w hw (h0 ▸ hcw)
  have hw' : CStr w := fun c hcw h0 => hw (h0 ▸ hcw)
  obtain ⟨a', hs⟩ : ∃ a', ({} : Args).steps xs = some a' := ⟨_, by rw [steps_eq]; exact if_pos ho⟩
  unfold parseArguments
  generalize ({} : Args) = a at hs
  clear hc ho
  induction h generalizing a s with
  | nil =>
    have : (isOption [63] w || isOption [104] w) = true := by
      rcases hh with h | h
      · rw [(isOption_iff (n := [63]) (name := "?") (by unfold CStr; decide) (by decide) rfl hw').2 h]; rfl
      · rw [(isOption_iff (n := [104]) (name := "h") (by unfold CStr; decide) (by decide) rfl hw').2 h, Bool.or_true]
    rw [List.nil_append]
    unfold parseArgs
    rw [if_pos this]
  | @cons x xs ws rest' hwr t ih =>
    have hc1 : ∀ w ∈ ws, CStr w := fun w h => hc' w (by simp [h])
    have hc2 : ∀ w ∈ rest', CStr w := fun w h => hc' w (by simp [h])
    have hsplit : definitions (x :: xs) = definitions [x] ++ definitions xs := by
      simp only [definitions, ← List.filterMap_append, List.singleton_append]
    rw [List.append_assoc]
    simp only [Args.steps] at hs
    obtain ⟨b, hx, hs'⟩ := Option.bind_eq_some_iff.1 hs
    by_cases hdd : definitions [x] = []
    · rw [parseArgs_step hwr hc1 hdd hx]
      rw [hsplit, hdd] at hd
      exact ih hd hc2 b hs'
    · obtain ⟨n, v, rfl⟩ : ∃ n v, x = .define n v := by
        cases x <;> first | exact ⟨_, _, rfl⟩ | exact absurd rfl hdd
      cases hx
      rw [parseArgs_define hwr hc1]
      change M.bind (defineSymbol n v) (fun _ => runDefs (definitions xs)) s = _ at hd
      simp only [M.bind] at hd
      rcases hr : defineSymbol n v s with ⟨r, s1⟩
      rw [hr] at hd
      cases r with
      | ok u => exact ih hd hc2 a hs'
      | exit c => cases hd
      | ub => cases hd
      | timeout => cases hd

/-- **C51** (`_partial`).  After the definitions of a command line each identifier has the value of its last
definition (names are compared without regard to case), and no error is reported.  Missing from the full
statement: names that are not identifiers, and values that are not addresses, see
`C51_false_out_of_range`.  What number a value denotes is the subject of C38. -/
theorem C51_define_partial {ds : List (Str × Str)} {s : St} (h0 : s.syms = []) (h1 : s.currentScope = none)
    (hd : ∀ d ∈ ds, Identifier d.1 ∧ 0 ≤ defineValue d.2 ∧ defineValue d.2 ≤ 0xFFFF) :
    ∃ s', runDefs ds s = (.ok (), s') ∧ s'.errorCount = s.errorCount ∧ s'.log = s.log ∧
      ∀ m, Identifier m → envOf s' m =
        (ds.reverse.find? fun d => foldCase d.1 = foldCase m).map fun d => defineValue d.2 := by
  obtain ⟨s', h2, -, h3, h4, -, h5⟩ := defs_run (ds := ds) (s := s) ⟨h1, by rw [h0]; simp, by rw [h0]; simp⟩ hd
  refine ⟨s', h2, h3, h4, fun m hm => ?_⟩
  rw [h5 m hm]
  cases ds.reverse.find? fun d => decide (foldCase d.1 = foldCase m) with
  | some d => rfl
  | none =>
    show envOf s m = none
    unfold envOf
    rw [if_pos (ident_plain hm), ident_look h1 hm, h0]
    rfl

private theorem done_exists {r : ArgRes} {P : Args → St → Prop} [∀ a s, Decidable (P a s)]
    (h : (match r with | .done a s => decide (P a s) | _ => false) = true) : ∃ a s, r = .done a s ∧ P a s := by
  cases r with
  | done a s => exact ⟨a, s, rfl, of_decide_eq_true h⟩
  | help => cases h
  | fail e => cases h
  | abnormal r => cases h

/-- **C51** is violated for values above `$FFFF`: `-d x $12345` prints an error, but `parse_arguments`
returns, `x` counts as defined with the value 0, and the first pass clears the error count (`reset_lex`). -/
theorem C51_false_out_of_range :
    let argv : List Str := [cstr! "-d", cstr! "x", cstr! "$12345", cstr! "a.asm"]
    ∃ a s, parseArguments argv {} = .done a s ∧ defineValue (cstr! "$12345") = 0x12345 ∧
      envOf s (cstr! "x") = some 0 ∧ s.log = [.valueOutOfRange] ∧ (resetLex s).2.errorCount = 0 ∧
      envOf (resetLex s).2 (cstr! "x") = some 0 := by
  exact done_exists (by decide +kernel)

/-- All options at once, in mixed case and in both notations. -/
private def demoArgs : List Str :=
  [cstr! "-O", cstr! "out.prg", cstr! "a.asm", cstr! "/c64", cstr! "-d", cstr! "Start", cstr! "$C000", cstr! "-65C02",
   cstr! "/L", cstr! "-h", cstr! "-d", cstr! "start", cstr! "99", cstr! "b.asm", cstr! "-I", cstr! "/NoWarn"]

example : ∃ a s, parseArguments demoArgs {} = .done a s ∧
    a.inputs = [cstr! "a.asm", cstr! "b.asm"] ∧ a.outFile = some (cstr! "out.prg") ∧ a.listFile = some (cstr! "-h") ∧
    a.symFile = none ∧ a.format = .c64 ∧ a.cpu = .c65C02 ∧ a.allowIllegal = true ∧ a.ignoreWarnings = true ∧
    a.verbose = false ∧ envOf s (cstr! "START") = some 99 := by
  exact done_exists (by decide +kernel)

/-- The decomposition asked for by the theorems exists for the demo. -/
example : CmdLine [.output (cstr! "out.prg"), .input (cstr! "a.asm"), .c64, .define (cstr! "Start") (cstr! "$C000"),
    .cpu65C02, .listing (cstr! "-h"), .define (cstr! "start") (cstr! "99"), .input (cstr! "b.asm"), .illegal, .noWarnings]
    demoArgs := by
  refine .cons (ws := [_, _]) (.output (by unfold Option'; decide)) (.cons (ws := [_]) (.input (by unfold Option'; decide))
    (.cons (ws := [_]) (.c64 (by unfold Option'; decide)) (.cons (ws := [_, _, _]) (.define (by unfold Option'; decide))
    (.cons (ws := [_]) (.cpu65C02 (by unfold Option'; decide)) (.cons (ws := [_, _]) (.listing (by unfold Option'; decide))
    (.cons (ws := [_, _, _]) (.define (by unfold Option'; decide)) (.cons (ws := [_]) (.input (by unfold Option'; decide))
    (.cons (ws := [_]) (.illegal (by unfold Option'; decide)) (.cons (ws := [_]) (.noWarnings (by unfold Option'; decide))
    .nil)))))))))

example : ¬ Once [.cpu65C02, .input (cstr! "a.asm"), .cpu6502] := by unfold Once; decide

example : parseArguments [cstr! "-65c02", cstr! "a.asm", cstr! "-6502"] {} = .fail .instructionSetTwice := by
  decide +kernel

example : parseArguments [cstr! "a.asm", cstr! "-H", cstr! "-o"] {} = .help := by decide +kernel

example : ∀ d ∈ [(cstr! "Start", cstr! "$C000"), (cstr! "start", cstr! "99")],
    Identifier d.1 ∧ 0 ≤ defineValue d.2 ∧ defineValue d.2 ≤ 0xFFFF := by decide

end Verif
