import Verif.Model.Args
import Verif.Spec.Cmd
import Verif.Lemmas.Names
import Verif.Lemmas.NewSym
import Verif.Lemmas.MacroArgs

/-! # Lemmas on the command line -/

namespace Verif

/-- The definitions of a command line, one after the other. -/
def runDefs : List (Str × Str) → M Unit
  | [] => M.pure ()
  | (n, v) :: rest => do
    defineSymbol n v
    runDefs rest

namespace Args

/-- The effect of one argument on the settings; `none` if it was already specified. -/
def step (a : Args) : Spec.Arg → Option Args
  | .output f => if a.outFile = none then some { a with outFile := some f } else none
  | .symbols f => if a.symFile = none then some { a with symFile := some f } else none
  | .directories f => if a.dirs = none then some { a with dirs := some f } else none
  | .logging f => if a.logFile = none then some { a with logFile := some f } else none
  | .listing f => if a.listFile = none then some { a with listFile := some f } else none
  | .c64 => if a.format = .bin then some { a with format := .c64 } else none
  | .verbose => if a.verbose = false then some { a with verbose := true } else none
  | .cpu65C02 =>
    if a.cpuSpecified = false then some { a with cpuSpecified := true, cpu := .c65C02 } else none
  | .cpu6502 =>
    if a.cpuSpecified = false then some { a with cpuSpecified := true, cpu := .c6502 } else none
  | .illegal =>
    if a.illegalSpecified = false then some { a with illegalSpecified := true, allowIllegal := true } else none
  | .noWarnings => if a.ignoreWarnings = false then some { a with ignoreWarnings := true } else none
  | .define _ _ => some a
  | .input f => some { a with inputs := a.inputs ++ [f] }

/-- The effect of all arguments. -/
def steps (a : Args) : List Spec.Arg → Option Args
  | [] => some a
  | x :: xs => (a.step x).bind fun a => a.steps xs

end Args

theorem isOption_iff {n w : Str} {name : String} (hn : CStr n) (hf : Spec.foldCase n = n)
    (he : name.toList.map Char.toNat = n) (hw : CStr w) : isOption n w = true ↔ Spec.Option' name w := by
  have h1 : CStr (45 :: n) := by
    intro c hc; simp only [List.mem_cons] at hc; rcases hc with rfl | hc
    · decide
    · exact hn c hc
  have h2 : CStr (47 :: n) := by
    intro c hc; simp only [List.mem_cons] at hc; rcases hc with rfl | hc
    · decide
    · exact hn c hc
  have f1 : Spec.foldCase (45 :: n) = 45 :: n := by
    show _ :: Spec.foldCase n = _; rw [hf]; rfl
  have f2 : Spec.foldCase (47 :: n) = 47 :: n := by
    show _ :: Spec.foldCase n = _; rw [hf]; rfl
  simp only [isOption, Bool.or_eq_true, beq_iff_eq, Spec.Option', he, stricmp_fold hw h1, stricmp_fold hw h2, f1, f2]
  rfl

/-- The outcome `parse_arguments` has on words that are well formed. -/
def Reads (ws : List Str) (a : Args) (s : St) (a' : Args) (s' : St) : Prop :=
  ∃ xs, Spec.CmdLine xs ws ∧ a.steps xs = some a' ∧ runDefs (Spec.definitions xs) s = (.ok (), s') ∧ a'.inputs ≠ []

theorem Reads.cons {x : Spec.Arg} {ws rest : List Str} {a a1 a' : Args} {s s' : St} (h : Reads rest a1 s a' s')
    (hw : Spec.Written x ws) (ha : a.step x = some a1) (hd : Spec.definitions [x] = []) :
    Reads (ws ++ rest) a s a' s' := by
  obtain ⟨xs, h1, h2, h3, h4⟩ := h
  refine ⟨x :: xs, .cons hw h1, ?_, ?_, h4⟩
  · rw [Args.steps, ha]; exact h2
  · have : Spec.definitions (x :: xs) = Spec.definitions [x] ++ Spec.definitions xs := by
      simp only [Spec.definitions, ← List.filterMap_append, List.singleton_append]
    rw [this, hd]; exact h3

theorem opt_of {n w : Str} {name : String} (h : isOption n w = true) (hw : CStr w)
    (hn : CStr n := by unfold CStr; decide) (hf : Spec.foldCase n = n := by decide)
    (he : name.toList.map Char.toNat = n := by decide) : Spec.Option' name w :=
  (isOption_iff hn hf he hw).1 h

theorem opt_not {n w : Str} {name : String} (h : ¬ isOption n w = true) (hw : CStr w)
    (hn : CStr n := by unfold CStr; decide) (hf : Spec.foldCase n = n := by decide)
    (he : name.toList.map Char.toNat = n := by decide) : ¬ Spec.Option' name w :=
  fun hh => h ((isOption_iff hn hf he hw).2 hh)

theorem parseArgs_inv {ws : List Str} {a a' : Args} {s s' : St} (h : parseArgs ws a s = .done a' s')
    (hc : ∀ w ∈ ws, CStr w) : Reads ws a s a' s' := by
  fun_induction parseArgs ws a s
  case case2 a s hl =>
    cases h
    refine ⟨[], .nil, rfl, rfl, ?_⟩
    intro h0; rw [h0] at hl; exact hl rfl
  case case6 x a s _ ho f rest hn ih =>
    exact Reads.cons (ws := [x, f]) (ih h (fun w hw => hc w (by simp [hw]))) (.output (opt_of ho (hc x (by simp))))
      (if_pos (Decidable.not_not.1 hn)) rfl
  case case9 x a s _ _ ho f rest hn ih =>
    exact Reads.cons (ws := [x, f]) (ih h (fun w hw => hc w (by simp [hw]))) (.symbols (opt_of ho (hc x (by simp))))
      (if_pos (Decidable.not_not.1 hn)) rfl
  case case12 x a s _ _ _ ho f rest hn ih =>
    exact Reads.cons (ws := [x, f]) (ih h (fun w hw => hc w (by simp [hw]))) (.directories (opt_of ho (hc x (by simp))))
      (if_pos (Decidable.not_not.1 hn)) rfl
  case case15 x a s _ _ _ _ ho f rest hn ih =>
    exact Reads.cons (ws := [x, f]) (ih h (fun w hw => hc w (by simp [hw]))) (.logging (opt_of ho (hc x (by simp))))
      (if_pos (Decidable.not_not.1 hn)) rfl
  case case18 x a s _ _ _ _ _ ho f rest hn ih =>
    exact Reads.cons (ws := [x, f]) (ih h (fun w hw => hc w (by simp [hw]))) (.listing (opt_of ho (hc x (by simp))))
      (if_pos (Decidable.not_not.1 hn)) rfl
  case case20 x rest a s _ _ _ _ _ _ ho hn ih =>
    exact Reads.cons (ws := [x]) (ih h (fun w hw => hc w (by simp [hw]))) (.c64 (opt_of ho (hc x (by simp))))
      (if_pos (by cases hf : a.format with | bin => rfl | c64 => exact absurd hf hn)) rfl
  case case22 x rest a s _ _ _ _ _ _ _ ho hn ih =>
    exact Reads.cons (ws := [x]) (ih h (fun w hw => hc w (by simp [hw]))) (.verbose (opt_of ho (hc x (by simp))))
      (if_pos (by simpa using hn)) rfl
  case case24 x rest a s _ _ _ _ _ _ _ _ ho hn ih =>
    exact Reads.cons (ws := [x]) (ih h (fun w hw => hc w (by simp [hw]))) (.cpu65C02 (opt_of ho (hc x (by simp))))
      (if_pos (by simpa using hn)) rfl
  case case26 x rest a s _ _ _ _ _ _ _ _ _ ho hn ih =>
    exact Reads.cons (ws := [x]) (ih h (fun w hw => hc w (by simp [hw]))) (.cpu6502 (opt_of ho (hc x (by simp))))
      (if_pos (by simpa using hn)) rfl
  case case28 x rest a s _ _ _ _ _ _ _ _ _ _ ho hn ih =>
    exact Reads.cons (ws := [x]) (ih h (fun w hw => hc w (by simp [hw]))) (.illegal (opt_of ho (hc x (by simp))))
      (if_pos (by simpa using hn)) rfl
  case case30 x rest a s _ _ _ _ _ _ _ _ _ _ _ ho hn ih =>
    exact Reads.cons (ws := [x]) (ih h (fun w hw => hc w (by simp [hw]))) (.noWarnings (opt_of ho (hc x (by simp))))
      (if_pos (by simpa using hn)) rfl
  case case33 x a s _ _ _ _ _ _ _ _ _ _ _ _ ho n v rest s1 hr ih =>
    obtain ⟨xs, h1, h2, h3, h4⟩ := ih h (fun w hw => hc w (by simp [hw]))
    refine ⟨.define n v :: xs, .cons (ws := [x, n, v]) (.define (opt_of ho (hc x (by simp)))) h1, h2, ?_, h4⟩
    show M.bind (defineSymbol n v) (fun _ => runDefs (Spec.definitions xs)) s = _
    simp only [M.bind, hr]; exact h3
  case case35 x rest a s o1 o2 o3 o4 o5 o6 o7 o8 o9 o10 o11 o12 o13 ih =>
    have hx := hc x (by simp)
    simp only [Bool.not_eq_true, Bool.or_eq_false_iff] at o1
    refine Reads.cons (x := .input x) (ws := [x]) (ih h (fun w hw => hc w (by simp [hw]))) (.input ?_) rfl rfl
    intro n hn
    simp only [Spec.optionNames, List.mem_cons, List.not_mem_nil, or_false] at hn
    rcases hn with rfl | rfl | rfl | rfl | rfl | rfl | rfl | rfl | rfl | rfl | rfl | rfl | rfl | rfl
    · exact opt_not (by rw [o1.1]; decide) hx
    · exact opt_not (by rw [o1.2]; decide) hx
    · exact opt_not o2 hx
    · exact opt_not o3 hx
    · exact opt_not o4 hx
    · exact opt_not o5 hx
    · exact opt_not o6 hx
    · exact opt_not o7 hx
    · exact opt_not o8 hx
    · exact opt_not o9 hx
    · exact opt_not o10 hx
    · exact opt_not o11 hx
    · exact opt_not o12 hx
    · exact opt_not o13 hx
  all_goals cases h

/-- The option names as the program compares them. -/
def optNames : List Str := [[63], [104], [111], [115], [100, 105, 114], [108, 111, 103], [108], [99, 54, 52], [118],
  [54, 53, 99, 48, 50], [54, 53, 48, 50], [105], [110, 111, 119, 97, 114, 110], [100]]

theorem isOption_known {w k : Str} (hw : CStr w) (hk : Spec.foldCase w = k) :
    ∀ n ∈ optNames, isOption n w = (k == 45 :: n || k == 47 :: n) := by
  intro n hn
  have h0 : ∀ n ∈ optNames, (∀ c ∈ n, c ≠ 0) ∧ Spec.foldCase n = n := by decide
  have e : ∀ c : Nat, c ≠ 0 → tolower c = c → (stricmp w (c :: n) == 0) = (k == c :: n) := by
    intro c hc hl
    have hcs : CStr (c :: n) := by
      intro d hd
      rcases List.mem_cons.1 hd with rfl | hd
      · exact hc
      · exact (h0 n hn).1 d hd
    have hf : Spec.foldCase (c :: n) = c :: n := by
      show tolower c :: Spec.foldCase n = _
      rw [hl, (h0 n hn).2]
    rw [Bool.eq_iff_iff, beq_iff_eq, beq_iff_eq, stricmp_fold hw hcs, hf, hk]
  rw [isOption, e 45 (by decide) (by decide), e 47 (by decide) (by decide)]

/-- The head of the loop for a word whose folded form is known. -/
theorem parseArgs_step {x : Spec.Arg} {ws rest : List Str} {a a1 : Args} {s : St} (hw : Spec.Written x ws)
    (hc : ∀ w ∈ ws, CStr w) (hd : Spec.definitions [x] = []) (ha : a.step x = some a1) :
    parseArgs (ws ++ rest) a s = parseArgs rest a1 s := by
  cases hw with
  | define h => cases hd
  | input h =>
    rename_i f
    cases ha
    have hf := hc f (by simp)
    have e : ∀ (n : Str) (name : String), CStr n → Spec.foldCase n = n → name.toList.map Char.toNat = n →
        name ∈ Spec.optionNames → isOption n f = false := by
      intro n name h1 h2 h3 h4
      have := h name h4
      rw [← isOption_iff h1 h2 h3 hf] at this
      simpa using this
    have e' : ∀ n ∈ optNames, isOption n f = false := by
      intro n hn
      simp only [optNames, List.mem_cons, List.not_mem_nil, or_false] at hn
      rcases hn with rfl | rfl | rfl | rfl | rfl | rfl | rfl | rfl | rfl | rfl | rfl | rfl | rfl | rfl
      · exact e _ "?" (by unfold CStr; decide) (by decide) rfl (by decide)
      · exact e _ "h" (by unfold CStr; decide) (by decide) rfl (by decide)
      · exact e _ "o" (by unfold CStr; decide) (by decide) rfl (by decide)
      · exact e _ "s" (by unfold CStr; decide) (by decide) rfl (by decide)
      · exact e _ "dir" (by unfold CStr; decide) (by decide) rfl (by decide)
      · exact e _ "log" (by unfold CStr; decide) (by decide) rfl (by decide)
      · exact e _ "l" (by unfold CStr; decide) (by decide) rfl (by decide)
      · exact e _ "c64" (by unfold CStr; decide) (by decide) rfl (by decide)
      · exact e _ "v" (by unfold CStr; decide) (by decide) rfl (by decide)
      · exact e _ "65c02" (by unfold CStr; decide) (by decide) rfl (by decide)
      · exact e _ "6502" (by unfold CStr; decide) (by decide) rfl (by decide)
      · exact e _ "i" (by unfold CStr; decide) (by decide) rfl (by decide)
      · exact e _ "nowarn" (by unfold CStr; decide) (by decide) rfl (by decide)
      · exact e _ "d" (by unfold CStr; decide) (by decide) rfl (by decide)
    conv => lhs; unfold parseArgs
    simp only [List.cons_append, List.nil_append, e' [63] (by decide),
      e' [104] (by decide),
      e' [111] (by decide),
      e' [115] (by decide),
      e' [100, 105, 114] (by decide),
      e' [108, 111, 103] (by decide),
      e' [108] (by decide),
      e' [99, 54, 52] (by decide),
      e' [118] (by decide),
      e' [54, 53, 99, 48, 50] (by decide),
      e' [54, 53, 48, 50] (by decide),
      e' [105] (by decide),
      e' [110, 111, 119, 97, 114, 110] (by decide),
      e' [100] (by decide),
      Bool.or_self, Bool.false_eq_true, if_false]
  | output h | symbols h | directories h | logging h | listing h | c64 h | verbose h | cpu65C02 h | cpu6502 h | illegal h
  | noWarnings h =>
    simp only [Args.step] at ha
    split at ha <;> cases ha
    rename_i hn
    rcases h with h | h <;>
    · have e := isOption_known (hc _ (by simp)) h
      conv => lhs; unfold parseArgs
      simp only [List.cons_append, List.nil_append, e [63] (by decide),
        e [104] (by decide),
        e [111] (by decide),
        e [115] (by decide),
        e [100, 105, 114] (by decide),
        e [108, 111, 103] (by decide),
        e [108] (by decide),
        e [99, 54, 52] (by decide),
        e [118] (by decide),
        e [54, 53, 99, 48, 50] (by decide),
        e [54, 53, 48, 50] (by decide),
        e [105] (by decide),
        e [110, 111, 119, 97, 114, 110] (by decide),
        e [100] (by decide)]
      simp [hn]

/-- The same for a repeated option. -/
theorem parseArgs_twice {x : Spec.Arg} {ws rest : List Str} {a : Args} {s : St} (hw : Spec.Written x ws)
    (hc : ∀ w ∈ ws, CStr w) (ha : a.step x = none) : ∃ e, parseArgs (ws ++ rest) a s = .fail e := by
  cases hw with
  | define h => cases ha
  | input h => cases ha
  | c64 h =>
    have hn : a.format = .c64 := by
      cases hf : a.format with
      | c64 => rfl
      | bin => simp [Args.step, hf] at ha
    rcases h with h | h <;>
    · have e := isOption_known (hc _ (by simp)) h
      conv => enter [1, x, 1]; unfold parseArgs
      simp only [List.cons_append, List.nil_append, e [63] (by decide),
        e [104] (by decide),
        e [111] (by decide),
        e [115] (by decide),
        e [100, 105, 114] (by decide),
        e [108, 111, 103] (by decide),
        e [108] (by decide),
        e [99, 54, 52] (by decide),
        e [118] (by decide),
        e [54, 53, 99, 48, 50] (by decide),
        e [54, 53, 48, 50] (by decide),
        e [105] (by decide),
        e [110, 111, 119, 97, 114, 110] (by decide),
        e [100] (by decide)]
      simp [hn]
  | output h | symbols h | directories h | logging h | listing h | verbose h | cpu65C02 h | cpu6502 h | illegal h
  | noWarnings h =>
    simp only [Args.step] at ha
    split at ha <;> cases ha
    rename_i hn
    rcases h with h | h <;>
    · have e := isOption_known (hc _ (by simp)) h
      conv => enter [1, x, 1]; unfold parseArgs
      simp only [List.cons_append, List.nil_append, e [63] (by decide),
        e [104] (by decide),
        e [111] (by decide),
        e [115] (by decide),
        e [100, 105, 114] (by decide),
        e [108, 111, 103] (by decide),
        e [108] (by decide),
        e [99, 54, 52] (by decide),
        e [118] (by decide),
        e [54, 53, 99, 48, 50] (by decide),
        e [54, 53, 48, 50] (by decide),
        e [105] (by decide),
        e [110, 111, 119, 97, 114, 110] (by decide),
        e [100] (by decide)]
      simp [hn]

theorem parseArgs_define {n v : Str} {ws rest : List Str} {a : Args} {s : St} (hw : Spec.Written (.define n v) ws)
    (hc : ∀ w ∈ ws, CStr w) : parseArgs (ws ++ rest) a s =
      match defineSymbol n v s with
      | (.ok (), s') => parseArgs rest a s'
      | (r, _) => .abnormal r := by
  cases hw with
  | define h =>
    rcases h with h | h <;>
    · have e := isOption_known (hc _ (by simp)) h
      conv => lhs; unfold parseArgs
      simp only [List.cons_append, List.nil_append, e [63] (by decide),
        e [104] (by decide),
        e [111] (by decide),
        e [115] (by decide),
        e [100, 105, 114] (by decide),
        e [108, 111, 103] (by decide),
        e [108] (by decide),
        e [99, 54, 52] (by decide),
        e [118] (by decide),
        e [54, 53, 99, 48, 50] (by decide),
        e [54, 53, 48, 50] (by decide),
        e [105] (by decide),
        e [110, 111, 119, 97, 114, 110] (by decide),
        e [100] (by decide)]
      simp
      rcases defineSymbol n v s with ⟨r, s'⟩
      cases r <;> rfl

theorem runDefs_append (xs ys : List (Str × Str)) (s : St) :
    runDefs (xs ++ ys) s = M.bind (runDefs xs) (fun _ => runDefs ys) s := by
  induction xs generalizing s with
  | nil => rfl
  | cons x xs ih =>
    show M.bind (defineSymbol x.1 x.2) (fun _ => runDefs (xs ++ ys)) s =
      M.bind (M.bind (defineSymbol x.1 x.2) (fun _ => runDefs xs)) (fun _ => runDefs ys) s
    simp only [M.bind]
    rcases hr : defineSymbol x.1 x.2 s with ⟨r, s'⟩
    cases r <;> simp only [ih, M.bind]

theorem parseArgs_reads {ws : List Str} {a a' : Args} {s s' : St} (h : Reads ws a s a' s')
    (hc : ∀ w ∈ ws, CStr w) : parseArgs ws a s = .done a' s' := by
  obtain ⟨xs, h1, h2, h3, h4⟩ := h
  induction h1 generalizing a s with
  | nil =>
    cases h2; cases h3
    rw [parseArgs, if_neg]
    intro h; exact h4 (List.length_eq_zero_iff.1 h)
  | @cons x xs ws rest hw t ih =>
    simp only [Args.steps] at h2
    obtain ⟨a1, ha, h2⟩ := Option.bind_eq_some_iff.1 h2
    have hc1 : ∀ w ∈ ws, CStr w := fun w h => hc w (by simp [h])
    have hc2 : ∀ w ∈ rest, CStr w := fun w h => hc w (by simp [h])
    have hsplit : Spec.definitions (x :: xs) = Spec.definitions [x] ++ Spec.definitions xs := by
      simp only [Spec.definitions, ← List.filterMap_append, List.singleton_append]
    by_cases hd : Spec.definitions [x] = []
    · rw [parseArgs_step hw hc1 hd ha]
      rw [hsplit, hd] at h3
      exact ih hc2 h2 h3
    · obtain ⟨n, v, rfl⟩ : ∃ n v, x = .define n v := by
        cases x <;> first | exact ⟨_, _, rfl⟩ | exact absurd rfl hd
      cases ha
      rw [parseArgs_define hw hc1]
      change M.bind (defineSymbol n v) (fun _ => runDefs (Spec.definitions xs)) s = _ at h3
      simp only [M.bind] at h3
      rcases hr : defineSymbol n v s with ⟨r, s1⟩
      rw [hr] at h3
      cases r with
      | ok u => exact ih hc2 h2 h3
      | exit c => cases h3
      | ub => cases h3
      | timeout => cases h3

open Spec

/-- The settings a command line asks for. -/
def settingsOf (xs : List Arg) : Args where
  inputs := inputFiles xs
  outFile := given .output xs
  symFile := given .symbols xs
  dirs := given .directories xs
  logFile := given .logging xs
  listFile := given .listing xs
  format := if isGiven .format xs then .c64 else .bin
  verbose := isGiven .verbose xs
  cpuSpecified := isGiven .processor xs
  cpu := if Arg.cpu65C02 ∈ xs then .c65C02 else .c6502
  illegalSpecified := isGiven .illegal xs
  allowIllegal := isGiven .illegal xs
  ignoreWarnings := isGiven .warnings xs

theorem Args.steps_snoc (a : Args) (xs : List Arg) (x : Arg) :
    a.steps (xs ++ [x]) = (a.steps xs).bind fun a => a.step x := by
  induction xs generalizing a with
  | nil => simp only [List.nil_append, Args.steps, Option.bind_some]; cases a.step x <;> rfl
  | cons y ys ih =>
    simp only [List.cons_append, Args.steps]
    cases a.step y with
    | none => rfl
    | some b => exact ih b

theorem isGiven_iff (k : Setting) (xs : List Arg) : isGiven k xs = true ↔ k ∈ xs.filterMap Arg.setting := by
  simp [isGiven, List.mem_filterMap]

theorem given_none (k : Setting) (xs : List Arg) : given k xs = none ↔ isGiven k xs = false := by
  simp [given, isGiven]

theorem once_snoc (xs : List Arg) (x : Arg) : Once (xs ++ [x]) ↔
    Once xs ∧ ∀ k, x.setting = some k → isGiven k xs = false := by
  have h : ∀ k, isGiven k xs = false ↔ k ∉ xs.filterMap Arg.setting := by
    intro k; rw [← isGiven_iff]; simp
  simp only [h, Once, List.filterMap_append, List.nodup_append]
  cases hk : x.setting with
  | none => simp [hk]
  | some k => simp [hk]; grind

theorem given_snoc (k : Setting) (xs : List Arg) (x : Arg) : given k (xs ++ [x]) =
    if isGiven k xs then given k xs else if x.setting = some k then some x.word else none := by
  cases h : isGiven k xs with
  | false =>
    have := (given_none k xs).2 h
    simp only [given, Option.map_eq_none_iff] at this
    simp [given, List.find?_append, this]
  | true =>
    cases hf : xs.find? fun x => decide (x.setting = some k) with
    | none => 
      have : given k xs = none := by simp only [given, hf]; rfl
      rw [given_none, h] at this; cases this
    | some y => simp [given, List.find?_append, hf]

theorem isGiven_snoc (k : Setting) (xs : List Arg) (x : Arg) : isGiven k (xs ++ [x]) =
    (isGiven k xs || decide (x.setting = some k)) := by
  simp [isGiven]

theorem given_other {k : Setting} {xs : List Arg} {x : Arg} (h : x.setting ≠ some k) :
    given k (xs ++ [x]) = given k xs := by
  rw [given_snoc]
  cases hg : isGiven k xs with
  | true => rfl
  | false => simp [h, (given_none k xs).2 hg]

theorem given_same {k : Setting} {xs : List Arg} {x : Arg} (h : x.setting = some k) (hg : isGiven k xs = false) :
    given k (xs ++ [x]) = some x.word := by
  rw [given_snoc]; simp [h, hg]

theorem given_of_not {k : Setting} {xs : List Arg} (hg : isGiven k xs = false) : given k xs = none := (given_none k xs).2 hg

theorem steps_eq (xs : List Arg) : ({} : Args).steps xs = if (xs.filterMap Arg.setting).Nodup then some (settingsOf xs) else none := by
  generalize hr : xs.reverse = r
  induction r generalizing xs with
  | nil => obtain rfl : xs = [] := by simpa using hr
           rfl
  | cons x r ih =>
    obtain rfl : xs = r.reverse ++ [x] := by rw [← List.reverse_reverse xs, hr]; simp
    have ih := ih r.reverse (by simp)
    generalize r.reverse = ys at ih
    rw [Args.steps_snoc, ih]
    have ho := once_snoc ys x
    simp only [Once] at ho
    by_cases h1 : (ys.filterMap Arg.setting).Nodup
    · rw [if_pos h1, Option.bind_some]
      by_cases h2 : ∀ k, x.setting = some k → isGiven k ys = false
      · rw [if_pos (ho.2 ⟨h1, h2⟩)]
        cases x <;>
        · have hs := h2
          simp only [Arg.setting, Option.some.injEq, forall_eq', reduceCtorEq, false_implies, implies_true] at hs
          simp +contextual [Args.step, settingsOf, given_snoc, given_of_not, hs, Arg.setting, isGiven_snoc,
            inputFiles, Arg.word]
          try
            intro hm
            have : isGiven .processor ys = true := by simpa [isGiven] using ⟨_, hm, rfl⟩
            rw [hs] at this; cases this
      · rw [if_neg (fun h => h2 (ho.1 h).2)]
        have hg : ∃ k, x.setting = some k ∧ isGiven k ys = true := by
          simpa using h2
        obtain ⟨k, hk, hg⟩ := hg
        cases x <;> cases hk <;> simp [Args.step, settingsOf, given_none, hg]
    · rw [if_neg h1, if_neg (fun h => h1 (ho.1 h).1)]; rfl

theorem ident_key {s : St} {n : Str} (h : Spec.Identifier n) : addSymbolKey s n = (s.currentScope, n) := by
  obtain ⟨h1, h2, _⟩ := h
  have h46 : 46 ∉ n := fun hm => by have := h2 46 hm; revert this; decide
  cases n with
  | nil => exact absurd rfl h1
  | cons c r =>
    have hc : c ≠ 46 := fun hh => h46 (by simp [hh])
    have h64 : c ≠ 64 := fun hh => by have := h2 c (by simp); rw [hh] at this; revert this; decide
    have hd : dropDot (c :: r) = c :: r := by
      unfold dropDot; split
      · rename_i heq; cases heq; exact absurd rfl hc
      · rfl
    have hs : stripColon (c :: r) = c :: r := by
      unfold stripColon
      rw [if_neg]
      intro hl
      have := h2 58 (List.mem_of_getLast? hl)
      revert this; decide
    unfold addSymbolKey
    rw [if_neg h46, hd]
    have : (match c :: r, s.lastLabel with
      | 64 :: _, some l => formatLocal (c :: r) l
      | _, _ => c :: r) = c :: r := by
      split
      · rename_i heq _; cases heq; exact absurd rfl h64
      · rfl
    exact congrArg (Prod.mk _) ((congrArg stripColon this).trans hs)

theorem ident_cstr {n : Str} (h : Spec.Identifier n) : CStr n := by
  intro c hc h0
  have := h.2.1 c hc
  rw [h0] at this
  revert this; decide

theorem ident_plain {n : Str} (h : Spec.Identifier n) : plainName n = true := by
  have h65 : stricmp n [65] ≠ 0 := by
    rw [Ne, stricmp_fold (ident_cstr h) (by unfold CStr; decide)]
    exact h.2.2
  obtain ⟨h1, h2, _⟩ := h
  cases n with
  | nil => exact absurd rfl h1
  | cons c r =>
    have hc := h2 c (by simp)
    have hp : isPmName (c :: r) = false := by
      unfold isPmName
      split
      · rename_i heq; cases heq; revert hc; decide
      · rename_i heq; cases heq; revert hc; decide
      · rfl
    have hd : c :: r ≠ [46] := by
      intro hh; cases hh; revert hc; decide
    simp [plainName, hp, h65]
    intro hh; subst hh
    intro hr; subst hr; exact hd rfl

theorem ident_look {s : St} {n : Str} (hs : s.currentScope = none) (h : Spec.Identifier n) :
    look s n = symFind s.syms n := by
  unfold look
  rw [ident_key h, hs]; rfl

theorem symFind_fold {a b : Str} (ha : CStr a) (hb : CStr b) (h : Spec.foldCase a = Spec.foldCase b) {l : List Sym}
    (hl : ∀ x ∈ l, CStr x.fullname) : symFind l a = symFind l b :=
  symFind_congr ha hb ((stricmp_fold ha hb).2 h) hl

theorem symFindAux_name {key : Str} : ∀ {l : List Sym} {i j : Nat}, symFindAux key l i = some j →
    ∃ x, l[j - i]? = some x ∧ i ≤ j ∧ stricmp x.fullname key = 0
  | [], _, _, h => by cases h
  | x :: l, i, j, h => by
    simp only [symFindAux] at h
    split at h
    · rename_i j' hj
      cases h
      obtain ⟨y, h1, h2, h3⟩ := symFindAux_name hj
      refine ⟨y, ?_, by omega, h3⟩
      rw [show j - i = (j - (i + 1)) + 1 by omega]
      exact h1
    · split at h
      · rename_i hs
        cases h
        exact ⟨x, by simp, Nat.le_refl _, hs⟩
      · cases h

theorem symFind_name {key : Str} {l : List Sym} {j : Nat} (h : symFind l key = some j) :
    ∃ x, l[j]? = some x ∧ stricmp x.fullname key = 0 := by
  obtain ⟨x, h1, _, h3⟩ := symFindAux_name h
  exact ⟨x, h1, h3⟩

/-- The states a command line can lead to. -/
structure Fresh (s : St) : Prop where
  scope : s.currentScope = none
  syms : ∀ x ∈ s.syms, CStr x.fullname
  kinds : ∀ x ∈ s.syms, x.isMacroName = false ∧ x.isVar = false ∧ x.isMacroParam = false

theorem newSym_kinds (s : St) {n : Str} (hn : Spec.Identifier n) :
    (newSym s n).isMacroName = false ∧ (newSym s n).isVar = false ∧ (newSym s n).isMacroParam = false := by
  have hp : (dropDot n).head? ≠ some 92 := by
    obtain ⟨_, h2, _⟩ := hn
    cases n with
    | nil => simp [dropDot]
    | cons c cs =>
      have hc := h2 c (by simp)
      have h46 : c ≠ 46 := by rintro rfl; exact absurd hc (by decide)
      have h92 : c ≠ 92 := by rintro rfl; exact absurd hc (by decide)
      have : dropDot (c :: cs) = c :: cs := by
        unfold dropDot
        split
        · rename_i h
          exact absurd (List.cons.inj h).1 h46
        · rfl
      rw [this]
      simpa using h92
  unfold newSym sanitizeSym
  simp only [hp, decide_false]
  repeat' split
  all_goals simp

/-- The value `-d` gives to a symbol; every other name keeps its meaning. -/
theorem define_run {s : St} {n v : Str} (hs : Fresh s) (hn : Spec.Identifier n) (h0 : 0 ≤ defineValue v)
    (h1 : defineValue v ≤ 0xFFFF) : ∃ s', defineSymbol n v s = (.ok (), s') ∧ Fresh s' ∧ s'.errorCount = s.errorCount ∧
      s'.log = s.log ∧ (∃ ys k, s' = { s with syms := ys, symValueChanged := k }) ∧ ∀ m, Spec.Identifier m →
        envOf s' m = if Spec.foldCase m = Spec.foldCase n then some (defineValue v) else envOf s m := by
  -- the symbol after `addSymbol`
  obtain ⟨i, x, ys, ha, hx, hys, hkinds, hfind, hback⟩ : ∃ (i : SymPtr) (x : Sym) (ys : List Sym),
      addSymbol n s = (.ok (some i), { s with syms := ys }) ∧ ys[i]? = some x ∧ (∀ y ∈ ys, CStr y.fullname) ∧
      (∀ y ∈ ys, y.isMacroName = false ∧ y.isVar = false ∧ y.isMacroParam = false) ∧
      symFind ys n = some i ∧ ∀ m, Spec.Identifier m → Spec.foldCase m ≠ Spec.foldCase n →
        symFind ys m = symFind s.syms m ∧ symFind ys m ≠ some i ∧ (∀ j, symFind ys m = some j → ys[j]? = s.syms[j]?) := by
    cases hl : look s n with
    | some i =>
      have hf : symFind s.syms n = some i := by rw [← ident_look hs.scope hn]; exact hl
      obtain ⟨x, hx, hxn⟩ := symFind_name hf
      refine ⟨i, x, s.syms, addSymbol_run (ident_plain hn) hl, hx, hs.syms, hs.kinds, hf, ?_⟩
      intro m hm hne
      refine ⟨rfl, ?_, fun _ _ => rfl⟩
      intro hmi
      obtain ⟨x', hx', hxm⟩ := symFind_name hmi
      rw [hx] at hx'; cases hx'
      have hcx := hs.syms x (List.mem_of_getElem? hx)
      exact hne (((stricmp_fold hcx (ident_cstr hm)).1 hxm).symm.trans ((stricmp_fold hcx (ident_cstr hn)).1 hxn))
    | none =>
      have hfn : (newSym s n).fullname = n := by
        unfold newSym
        rw [sanitizeSym_fullname, ident_key hn, hs.scope]
      refine ⟨s.syms.length, newSym s n, s.syms ++ [newSym s n], addSymbol_new (ident_plain hn) hl, by simp, ?_, ?_, ?_, ?_⟩
      · intro y hy
        rcases List.mem_append.1 hy with hy | hy
        · exact hs.syms y hy
        · rw [List.mem_singleton] at hy
          rw [hy, hfn]; exact ident_cstr hn
      · intro y hy
        rcases List.mem_append.1 hy with hy | hy
        · exact hs.kinds y hy
        · rw [List.mem_singleton] at hy
          rw [hy]; exact newSym_kinds s hn
      · rw [symFind_append, hfn, if_pos (stricmp_refl n)]
      · intro m hm hne
        have hsm : stricmp n m ≠ 0 := by
          rw [Ne, stricmp_fold (ident_cstr hn) (ident_cstr hm)]
          exact fun h => hne h.symm
        have he : symFind (s.syms ++ [newSym s n]) m = symFind s.syms m := by
          rw [symFind_append, hfn, if_neg hsm]
        rw [he]
        have hlt : ∀ j, symFind s.syms m = some j → j < s.syms.length := fun j hj => by
          obtain ⟨x, hx, _⟩ := symFind_name hj
          exact (List.getElem?_eq_some_iff.1 hx).1
        exact ⟨rfl, fun h => Nat.lt_irrefl _ (hlt _ h), fun j hj => List.getElem?_append_left (hlt j hj)⟩
  have hlt : i < ys.length := (List.getElem?_eq_some_iff.1 hx).1
  obtain ⟨k, hset⟩ := setSym_run (s := { s with syms := ys }) hx h0 h1
  let x' : Sym := { x with value := defineValue v, isInit := true }
  let s' : St := { s with syms := ys.set i x', symValueChanged := k }
  have hmod : modSym i (fun x => { x with isInit := true })
      { s with syms := ys.set i { x with value := defineValue v }, symValueChanged := k } = (.ok (), s') := by
    rw [modSym_run (by simpa using hlt)]
    have hg : (ys.set i { x with value := defineValue v })[i]? = some { x with value := defineValue v } := by
      rw [List.getElem?_set_self hlt]
    have := modify_set hg (fun x => { x with isInit := true })
    simp only [this, List.set_set]
    rfl
  have hrun : defineSymbol n v s = (.ok (), s') := by
    show M.bind (addSymbol n) _ s = _
    simp only [M.bind, ha]
    show M.bind (setSymbolValue i _) _ _ = _
    simp only [M.bind]
    rw [hset]
    exact hmod
  have hnames : s'.syms.map (·.fullname) = ys.map (·.fullname) := names_set hx rfl
  have hfs : ∀ m, symFind s'.syms m = symFind ys m := fun m => symFind_names m 0 hnames
  have hxm : x'.fullname = x.fullname := rfl
  refine ⟨s', hrun, ⟨hs.scope, ?_, ?_⟩, rfl, rfl, ⟨_, _, rfl⟩, ?_⟩
  · intro y hy
    rcases List.mem_or_eq_of_mem_set hy with h | h
    · exact hys y h
    · rw [h]; exact hys x (List.mem_of_getElem? hx)
  · intro y hy
    rcases List.mem_or_eq_of_mem_set hy with h | h
    · exact hkinds y h
    · rw [h]; exact hkinds x (List.mem_of_getElem? hx)
  · intro m hm
    unfold envOf
    rw [if_pos (ident_plain hm), if_pos (ident_plain hm), ident_look (s := s') hs.scope hm, ident_look hs.scope hm, hfs]
    by_cases hmn : Spec.foldCase m = Spec.foldCase n
    · rw [if_pos hmn, symFind_fold (ident_cstr hm) (ident_cstr hn) hmn hys, hfind]
      have : s'.syms[i]? = some x' := List.getElem?_set_self hlt
      simp only [this]
      rfl
    · rw [if_neg hmn]
      obtain ⟨e1, e2, e3⟩ := hback m hm hmn
      rw [← e1]
      cases hj : symFind ys m with
      | none => rfl
      | some j =>
        have hji : i ≠ j := fun h => e2 (by rw [hj, h])
        have : s'.syms[j]? = ys[j]? := List.getElem?_set_ne hji
        simp only [this, e3 j hj]

theorem defs_run {ds : List (Str × Str)} {s : St} (hs : Fresh s)
    (hd : ∀ d ∈ ds, Spec.Identifier d.1 ∧ 0 ≤ defineValue d.2 ∧ defineValue d.2 ≤ 0xFFFF) :
    ∃ s', runDefs ds s = (.ok (), s') ∧ Fresh s' ∧ s'.errorCount = s.errorCount ∧ s'.log = s.log ∧
      (∃ ys k, s' = { s with syms := ys, symValueChanged := k }) ∧
      ∀ m, Spec.Identifier m → envOf s' m =
        match ds.reverse.find? fun d => Spec.foldCase d.1 = Spec.foldCase m with
        | some d => some (defineValue d.2)
        | none => envOf s m := by
  induction ds generalizing s with
  | nil => exact ⟨s, rfl, hs, rfl, rfl, ⟨_, _, rfl⟩, fun m _ => rfl⟩
  | cons d ds ih =>
    obtain ⟨h1, h2, h3⟩ := hd d (by simp)
    obtain ⟨s1, hr, hf, he, hl, ⟨ys, k, e1⟩, hv⟩ := define_run hs h1 h2 h3
    obtain ⟨s2, hr2, hf2, he2, hl2, ⟨zs, k', e2⟩, hv2⟩ := ih hf (fun d hd' => hd d (by simp [hd']))
    refine ⟨s2, ?_, hf2, he2.trans he, hl2.trans hl, ⟨zs, k', by rw [e2, e1]⟩, ?_⟩
    · show M.bind (defineSymbol d.1 d.2) (fun _ => runDefs ds) s = _
      simp only [M.bind, hr]; exact hr2
    · intro m hm
      rw [hv2 m hm, hv m hm, List.reverse_cons, List.find?_append]
      cases ds.reverse.find? fun d => decide (Spec.foldCase d.1 = Spec.foldCase m) with
      | some e => rfl
      | none =>
        simp only [Option.none_or, List.find?_singleton]
        by_cases hh : Spec.foldCase d.1 = Spec.foldCase m
        · simp [hh]
        · rw [if_neg (fun h => hh h.symm)]; simp [hh]

end Verif
