import Verif.Lemmas.Main
import Verif.Props.Args
import Verif.Props.Include

/-! # Property C64: the whole program, from command line and disk to output file -/

namespace Verif

open Spec

private theorem given_format (xs : List Arg) : isGiven .format xs = true ↔ Arg.c64 ∈ xs := by
  simp only [isGiven, List.any_eq_true, decide_eq_true_eq]
  refine ⟨?_, fun h => ⟨_, h, rfl⟩⟩
  rintro ⟨y, hy, h⟩
  cases y <;> first | exact hy | cases h

private theorem given_illegal (xs : List Arg) : isGiven .illegal xs = true ↔ Arg.illegal ∈ xs := by
  simp only [isGiven, List.any_eq_true, decide_eq_true_eq]
  refine ⟨?_, fun h => ⟨_, h, rfl⟩⟩
  rintro ⟨y, hy, h⟩
  cases y <;> first | exact hy | cases h

/-- **C64.**  For every name, what the assembly sees of the disk is what `open_file` finds: the contents of the file it
opens, nothing if it opens none. -/
theorem C64_visible (W : Disk) (dirs : Option Str) (name : Str) (c : List Nat) :
    (W.visible dirs).find? (fun e => e.1 == name) = some (name, c) ↔
      ∃ p, openFile W.exist name dirs = .opened p ∧ W.read p = c := by
  rw [visible_find]
  split
  · rename_i p hp
    constructor
    · intro h
      cases h
      exact ⟨p, hp, rfl⟩
    · rintro ⟨q, hq, rfl⟩
      rw [hp] at hq
      cases hq
      rfl
  · rename_i hp
    exact ⟨(by rintro ⟨⟩), (fun ⟨q, hq, _⟩ => absurd hq (hp q))⟩

/-- **C64.**  Asked for help, the program reads no source, writes nothing and succeeds, whatever follows. -/
theorem C64_help {xs : List Arg} {ws rest : List Str} {w : Str} {s' : St} {f n : Nat} {W : Disk} (hc : ∀ w ∈ ws, 0 ∉ w) (hw : 0 ∉ w)
    (h : CmdLine xs ws) (ho : Once xs) (hd : runDefs (definitions xs) {} = (.ok (), s')) (hh : Option' "?" w ∨ Option' "h" w) :
    let r := mainRun f n (ws ++ w :: rest) W
    r.status = some 0 ∧ r.passes = [] ∧ r.output = none := by
  intro r
  have : r = { status := some 0 } := by
    show mainRun f n (ws ++ w :: rest) W = _
    unfold mainRun
    rw [C51_help hc hw h ho hd hh]
  rw [this]
  exact ⟨rfl, rfl, rfl⟩

/-- **C64.**  The program succeeds with an assembly only for a command line of well-formed arguments that specify nothing
twice and name an input file; every input file was found; the last resolving pass found no error, no changed and no
unresolved symbol; a given output file could be written, and it holds what the final pass emitted. -/
theorem C64_success {argv : List Str} {f n : Nat} {W : Disk} (hc : ∀ w ∈ argv, 0 ∉ w) (h : (mainRun f n argv W).status = some 0)
    (hp : (mainRun f n argv W).passes ≠ []) :
    ∃ xs, CmdLine xs argv ∧ Once xs ∧ inputFiles xs ≠ [] ∧
      (∀ l, given .logging xs = some l → W.writable l = true) ∧ (∀ l, given .output xs = some l → W.writable l = true) ∧
      (∀ l, given .symbols xs = some l → W.writable l = true) ∧
      (∀ i ∈ inputFiles xs, ∃ p, openFile (W.emptied (given .logging xs)).exist i (given .directories xs) = .opened p) ∧
      ∃ pre s0 s1 s2, (mainRun f n argv W).passes = pre ++ [(false, s0, s1), (true, s1, s2)] ∧
        s1.1.errorCount = 0 ∧ s1.1.symValueChanged = 0 ∧ unresolvedCount s1.1.syms = 0 ∧
        (mainRun f n argv W).output = (given .output xs).map fun o => (o, s2.1.out) := by
  unfold mainRun at h hp ⊢
  rcases ha : parseArguments argv {} with ⟨a, s⟩ | _ | e | r
  rotate_left
  · simp [ha] at hp
  · simp [ha] at hp
  · cases r <;> simp [ha] at hp
  simp only [ha] at h hp ⊢
  obtain ⟨xs, h1, h2, h3, -, e1, e2, e3, e4, e5, -⟩ := (C51_settings hc).1 ha
  rw [e1, e2, e3, e4, e5] at h ⊢
  obtain ⟨g1, g2, g3⟩ := assemble_files h
  obtain ⟨pre, s0, s1, s2, q1, q2, q3, q4, q5, q6⟩ := C29_success_partial _ _ _ h
  have fact : ∀ (o : Option Str), o.map W.writable ≠ some false → ∀ l, o = some l → W.writable l = true := by
    rintro o ho l rfl
    cases hw : W.writable l
    · simp [hw] at ho
    · rfl
  refine ⟨xs, h1, h2, h3, fact _ g1, fact _ g2, fact _ g3, ?_, pre, s0, s1, s2, q1, q4, q5, q6, ?_⟩
  · simp only [mainSem] at q2
    rw [if_neg (by simp)] at q2
    split at q2
    · cases q2
    · rename_i l hl
      exact inputTexts_some hl
  · rw [h, q1]
    cases given .output xs <;> simp

/-- **C64.**  The assembly starts with the symbols defined on the command line: each identifier has the value of its last
definition.  The processor and the format of the output are those given. -/
theorem C64_start_partial {xs : List Arg} {argv : List Str} {f n : Nat} {W : Disk} (hc : ∀ w ∈ argv, 0 ∉ w) (h : CmdLine xs argv)
    (ho : Once xs) (hi : inputFiles xs ≠ [])
    (hd : ∀ d ∈ definitions xs, Identifier d.1 ∧ 0 ≤ defineValue d.2 ∧ defineValue d.2 ≤ 0xFFFF) :
    ∀ e, (mainRun f n argv W).passes.head? = some e →
      (∀ m, Identifier m → envOf e.2.1.1 m =
        ((definitions xs).reverse.find? fun d => foldCase d.1 = foldCase m).map fun d => defineValue d.2) ∧
      e.2.1.1.cpu = (if .cpu65C02 ∈ xs then .c65C02 else .c6502) ∧ (e.2.1.1.format = .c64 ↔ .c64 ∈ xs) ∧
      (e.2.1.1.allowIllegal = true ↔ .illegal ∈ xs) := by
  obtain ⟨ys, k, h1, -, h3⟩ := arguments_done hc h ho hi hd
  intro e he
  unfold mainRun at he
  rw [h1] at he
  have := assemble_first _ _ _ e he
  rw [this]
  refine ⟨fun m hm => h3 m hm, rfl, ?_, ?_⟩
  · show (settingsOf xs).format = .c64 ↔ _
    rw [← given_format xs]
    simp only [settingsOf]
    cases isGiven .format xs <;> simp
  · exact given_illegal xs

/-- **C64, part**: from the words of the command line and the files on the disk to the bytes of the output file.  Let the
command line consist of the well-formed arguments `xs`, nothing twice, with the output file `out` and
definitions of identifiers by addresses.  Let the input files be found, and their texts, with the files they include (found
through the search path of the command line), be writings of lists of statements that are, one after the other, `head`, `.org e` or `*= e`, and
`prog`, where `head` consists of empty lines, settings and assignments; `.ifdef` may ask for the
names that the command line defines.  Let nothing that is written be a file with contents.  Suppose the program
succeeds, and that for the symbol values at the start of the last resolving pass, and the settings in `head`, every statement has an encoding.
Then the output file consists of the address of the program, if `-c64` or `.c64` is given, and the bytes of its lines; each label
has the address of its line, and the instructions are those of the processor given last.  Missing: as in `C61_image_partial`;
an output file that existed before (`C64_false_source`). -/
theorem C64_image_partial {xs : List Arg} {argv : List Str} {W : Disk} {file out : Str} {line : Int} {st : Stmt} {e : Expr} {head prog : List Top}
    {texts : List (Str × Str)} {P : Program} {bs : List Nat} {known : Str → Bool} (hc : ∀ w ∈ argv, 0 ∉ w) (h : CmdLine xs argv) (ho : Once xs) (hi : inputFiles xs = texts.map (·.1))
    (hout : given .output xs = some out)
    (hd : ∀ d ∈ definitions xs, Identifier d.1 ∧ 0 ≤ defineValue d.2 ∧ defineValue d.2 ≤ 0xFFFF)
    (hk : ∀ n, known n = true → Identifier n ∧ ∃ d ∈ definitions xs, foldCase d.1 = foldCase n)
    (hw : ∀ n c, (n, c) ∈ W.files → some n = given .output xs ∨ some n = given .logging xs → c = [])
    (hp : ∀ t ∈ texts, ∃ p, openFile W.exist t.1 (given .directories xs) = .opened p ∧ t.2 = W.read p)
    (hP : P.flatten = head ++ .stmt file line st :: prog) (hor : Spec.SetsOrigin e st)
    (htext : SourcesText known (W.visible (given .directories xs)) texts P) :
    ∃ f0, ∀ f, f0 ≤ f → ∀ n, head.length + prog.length + 1 < n →
      let r := mainRun f n argv W
      r.status = some 0 →
      ∃ pre s s1 s2, r.passes = pre ++ [(false, s, s1), (true, s1, s2)] ∧
        ∀ (o : Int) (ll : Option Str), (∀ x ∈ s.1.syms, x.isVar = false ∧ x.isMacroParam = false) →
          (∀ t ∈ head, Spec.HeadDraft (ctxOf s.1) t) →
          Spec.eval ((ctxOf s.1).env none) 0x1000 e = some (o, false) →
          Spec.Draft (Spec.settle (ctxOf s.1) head) none o true prog ll bs → bs ≠ [] →
          (∀ t ∈ head, Spec.HeadLine (ctxOf s1.1) t) ∧ Spec.Layout (ctxOf s1.1) none o true prog ll bs ∧
          (ctxOf s1.1).cpu = Spec.cpuAfter (if .cpu65C02 ∈ xs then .c65C02 else .c6502) head ∧
          r.output = some (out, (if .c64 ∈ xs ∨ Spec.asksC64 head = true then [(o % 256).toNat, (o % 65536 / 256).toNat] else []) ++ bs) := by
  have hne : inputFiles xs ≠ [] := by
    intro h0
    rw [hi, List.map_eq_nil_iff] at h0
    subst h0
    cases htext
    cases head <;> cases hP
  obtain ⟨ys, k, h1, h2, h3⟩ := arguments_done hc h ho hne hd
  obtain ⟨f0, h0⟩ := C61_image_partial head file line st e prog texts (W.visible (given .directories xs)) bs known P hP hor htext
  refine ⟨f0, ?_⟩
  intro f hf n hn r hst
  let F : AsmFiles := ⟨(given .logging xs).map W.writable, (given .output xs).map W.writable, (given .symbols xs).map W.writable,
    (given .listing xs).map W.writable⟩
  let s0 := startState xs ys k (W.visible (given .directories xs))
  have w0 : W.emptied (given .logging xs) = W := Disk.emptied_eq fun m hm c hc => hw m c hc (Or.inr hm.symm)
  have w1 : W.emptied (given .output xs) = W := Disk.emptied_eq fun m hm c hc => hw m c hc (Or.inl hm.symm)
  have q := mainSem_assemble (f := f) (n := n) (output := (given .output xs).isSome) (inputTexts_of hp) F (s0, {}) rfl
  have hF : F.output.isSome = (given .output xs).isSome := by simp [F, hout]
  have hr : r = { status := (assembleSrc f n texts F s0).status
                  passes := (assembleSrc f n texts F s0).passes
                  output := match (assembleSrc f n texts F s0).status, given .output xs,
                      (assembleSrc f n texts F s0).passes.getLast? with
                    | some 0, some o, some (true, _, s2) => some (o, s2.1.out)
                    | _, _, _ => none } := by
    show mainRun f n argv W = _
    unfold mainRun
    rw [h1]
    simp only [show (settingsOf xs).logFile = given .logging xs from rfl, show (settingsOf xs).outFile = given .output xs from rfl,
      show (settingsOf xs).inputs = texts.map (·.1) from hi, show (settingsOf xs).dirs = given .directories xs from rfl,
      show (settingsOf xs).symFile = given .symbols xs from rfl, show (settingsOf xs).listFile = given .listing xs from rfl, w0, w1]
    unfold assembleSrc
    rw [hF, ← q]
    rfl
  rw [hr] at hst ⊢
  simp only at hst ⊢
  obtain ⟨pre, s, s1, s2, hps, -⟩ := C29_success_partial _ _ _ hst
  have hps : (assembleSrc f n texts F s0).passes = pre ++ [(false, s, s1), (true, s1, s2)] := hps
  have hwr : F.output = some true := by
    have := (assemble_files hst).2.1
    simp only [F, hout, Option.map_some] at this ⊢
    cases hx : W.writable out
    · exact absurd (by rw [hx]) this
    · rfl
  refine ⟨pre, s, s1, s2, hps, fun o ll hx hh hv hD hne => ?_⟩
  have hknown : ∀ m, known m = true → ∃ x ∈ s0.syms, stricmp x.fullname m = 0 := by
    intro m hm
    obtain ⟨hid, d, hdm, hfold⟩ := hk m hm
    refine env_known (s := s0) rfl hid ?_
    have he := h3 m hid
    rw [show envOf s0 m = _ from he]
    rw [ne_eq, Option.map_eq_none_iff, List.find?_eq_none]
    intro hall
    exact hall d (by simpa using hdm) (by simpa using hfold)
  obtain ⟨c1, c4, c2, c3, -⟩ := h0 f hf n F s0 s.1 s1.1 s2.1 pre s.2 s1.2 s2.2 o ll hn hwr rfl (fun x hx => (h2.kinds x hx).1) hknown rfl rfl
    rfl rfl rfl hst hps hx (fun t ht => headDraft_congr rfl (hh t ht)) hv hD hne
  -- the settings
  have hkeep : (Spec.cpuAfter s.1.cpu head, if Spec.asksC64 head then Format.c64 else s.1.format) =
      (Spec.cpuAfter s0.cpu head, if Spec.asksC64 head then Format.c64 else s0.format) ∧
      (Spec.cpuAfter s1.1.cpu head, if Spec.asksC64 head then Format.c64 else s1.1.format) =
      (Spec.cpuAfter s0.cpu head, if Spec.asksC64 head then Format.c64 else s0.format) := by
    obtain ⟨q1, q2, _, _⟩ := C61_assembly_partial f n F s0 htext (fun l hl => Nat.lt_of_le_of_lt (length_le_flatten hP hl) hn)
      (fun x hx => (h2.kinds x hx).1) (by intro n hn; cases hn) (Int.le_refl 0) hknown
    have hno : ∀ t ∈ P.flatten, SetKeeps (fun c f => (Spec.cpuAfter c head, if Spec.asksC64 head then Format.c64 else f)) t := by
      intro t ht
      rw [hP] at ht
      rcases List.mem_append.1 ht with ht | ht
      · exact settle_keeps head t ht
      rcases List.mem_cons.1 ht with rfl | ht
      · trivial
      · exact (Spec.Draft.noSetting hD t ht).keeps _
    have hst := assemble_starts (passSem f P F.output.isSome) F
      (fun s => (Spec.cpuAfter s.cpu head, if Spec.asksC64 head then Format.c64 else s.format) =
        (Spec.cpuAfter s0.cpu head, if Spec.asksC64 head then Format.c64 else s0.format))
      (fun a b h ha => (parse_keeps hno h).trans ha) s0 rfl
    have hm1 : (false, s.1, s1.1) ∈ (assembleProg f P F s0).passes := by
      rw [q2, hps]
      simp
    have hm : (true, s1.1, s2.1) ∈ (assembleProg f P F s0).passes := by
      rw [q2, hps]
      simp
    exact ⟨(hst _ hm1).1, (hst _ hm).1⟩
  simp only [Prod.mk.injEq] at hkeep
  have hcpu : s1.1.cpu = Spec.cpuAfter s0.cpu head := by
    have : (ctxOf s1.1).cpu = Spec.cpuAfter s.1.cpu head := by rw [c1]; rfl
    exact this.trans hkeep.1.1
  have hraw : decide (s1.1.format = .bin) = (decide (s.1.format = .bin) && !Spec.asksC64 head) := by
    have : (ctxOf s1.1).raw = ((ctxOf s.1).raw && !Spec.asksC64 head) := by rw [c1]; rfl
    exact this
  have hform : s1.1.format = if Spec.asksC64 head then Format.c64 else s0.format := by
    have h2 := hkeep.2.2
    cases ha : Spec.asksC64 head
    · rw [ha] at h2
      exact h2
    · rw [ha] at hraw
      simp only [Bool.not_true, Bool.and_false, decide_eq_false_iff_not] at hraw
      cases hf : s1.1.format
      · exact absurd hf hraw
      · rfl
  refine ⟨fun t ht => by rw [c1]; exact c4 t ht, by rw [c1]; exact c2, hcpu, ?_⟩
  rw [hst, hps, hout]
  simp only [List.getLast?_append, List.getLast?_cons_cons, List.getLast?_singleton, Option.some_or]
  rw [c3, hform]
  have hfm : s0.format = if .c64 ∈ xs then .c64 else .bin := by
    show (if isGiven .format xs then Format.c64 else .bin) = _
    by_cases hg : Arg.c64 ∈ xs
    · rw [if_pos hg, if_pos ((given_format xs).2 hg)]
    · rw [if_neg hg, if_neg (fun h => hg ((given_format xs).1 h))]
  rw [hfm]
  by_cases hg : Arg.c64 ∈ xs
  · simp only [if_pos hg, ite_self, if_pos (Or.inl hg : Arg.c64 ∈ xs ∨ Spec.asksC64 head = true)]
    rfl
  · cases ha : Spec.asksC64 head
    · simp only [hg, if_false, Bool.false_eq_true, or_self]
      rfl
    · simp only [if_true, or_true]
      rfl

/-- **C64**, negation: if the output file is the source, the program says that it succeeded, but the source is gone and the
output empty: the output file is opened, and so emptied, before the final pass reads the source.  The same happens with the log file before the
first pass. -/
theorem C64_false_source :
    let W : Disk := { files := [(cstr! "a.asm", cstr! " .org $1000\n nop\n")] }
    let r := mainRun 60 60 [cstr! "a.asm", cstr! "-o", cstr! "a.prg"] W
    let r1 := mainRun 60 60 [cstr! "a.asm", cstr! "-o", cstr! "a.asm"] W
    let r2 := mainRun 60 60 [cstr! "a.asm", cstr! "-o", cstr! "a.prg", cstr! "-log", cstr! "a.asm"] W
    (r.status = some 0 ∧ r.output = some (cstr! "a.prg", [0xEA])) ∧ (r1.status = some 0 ∧ r1.output = some (cstr! "a.asm", [])) ∧
    (r2.status = some 0 ∧ r2.output = some (cstr! "a.prg", [])) := by
  refine ⟨⟨?_, ?_⟩, ⟨?_, ?_⟩, ?_, ?_⟩ <;> decide +kernel

/-! ## An example -/

private def demoDisk : Disk :=
  { files := [(cstr! "p", cstr! " .c64\n .org 4096\n .inc \"aa\"\n rts\n"), (cstr! "x/aaa", cstr! "?"), (cstr! "lib/aa", cstr! " nop\n"),
    (cstr! "x/q", cstr! " nop\n")] }

private def demoLine : List Str :=
  [cstr! "-D", cstr! "Start", cstr! "$C000", cstr! "p", cstr! "/o", cstr! "out", cstr! "-dir", cstr! "x/;lib/", cstr! "q"]

private def demoParts : List Arg :=
  [.define (cstr! "Start") (cstr! "$C000"), .input (cstr! "p"), .output (cstr! "out"), .directories (cstr! "x/;lib/"),
    .input (cstr! "q")]

private theorem demo_cmd : CmdLine demoParts demoLine := by
  refine .cons (ws := [_, _, _]) (.define (by unfold Option'; decide)) (.cons (ws := [_]) (.input (by unfold Option'; decide))
    (.cons (ws := [_, _]) (.output (by unfold Option'; decide)) (.cons (ws := [_, _])
    (.directories (by unfold Option'; decide)) (.cons (ws := [_]) (.input (by unfold Option'; decide)) .nil))))

private theorem demo_line (given : Str → Bool) (fs : List (Str × List Nat)) (file : Str) (C : Scan) (fin : Scan → Prop) (ins : Nat)
    (w : Str) (h : ins < instrNames.length) (hw : Is (Spec.mnemonic ins) w) (hb : Next (fun c => ¬ Blank c) (w ++ cstr! "\n"))
    (hf : fin { C.mid with place := .lineStart, line := C.line + 1 }) :
    SrcText given fs file C fin [.stmt file (C.line + 1) (.op ins .i none)] (cstr! " " ++ (w ++ cstr! "\n")) := by
  refine .last (evs := [.tok (.opcode ins), .tok (.eol (C.line + 1))]) ?_ ?_ ?_
  · refine .blanks (w := cstr! " ") (by decide) (by decide) hb ?_
    refine .mnemonic (w := w) h hw (next_cons (by decide)) ?_
    exact .newline (.nil hf)
  · refine .top (tt := [.opcode ins, .eol (C.line + 1)]) (.stmt (.line (ts := [.opcode ins]) _ (.op _ .implied))) .nil
  · simp [SimpleTop, MacroFree, NoEnd]

private def demoTexts : List (Str × Str) :=
  [(cstr! "p", demoDisk.read (cstr! "p")), (cstr! "q", demoDisk.read (cstr! "x/q"))]

private theorem demo_text (given : Str → Bool) :
    SourcesText given (demoDisk.visible (some (cstr! "x/;lib/"))) demoTexts
      [[.setC64, .stmt (cstr! "p") 1 .empty, .stmt (cstr! "p") 2 (.org (.int 4096)), .stmt (cstr! "p") 3 (.inc (cstr! "\"aa\"")),
        .stmt (cstr! "aa") 1 (.op 97 .i none), .stmt (cstr! "p") 4 (.op 85 .i none)], [.stmt (cstr! "q") 1 (.op 97 .i none)]] := by
  refine .cons ?_ (.cons (demo_line given _ (cstr! "q") ⟨.fileStart, 0, 0, 0, 0, []⟩ _ 97 (cstr! "nop") (by decide) (by decide) (next_cons (by decide)) ?_) .nil)
  rotate_left
  · trivial
  refine .inc (C1 := ⟨.inside, 0, 0, 0, 2, []⟩)
    (l := [.setC64, .stmt (cstr! "p") 1 .empty, .stmt (cstr! "p") 2 (.org (.int 4096))])
    (l1 := [.stmt (cstr! "aa") 1 (.op 97 .i none)]) (name := cstr! "aa")
    (evs := [.setC64, .tok (.eol 1), .tok .org, .tok (.int 4096), .tok (.eol 2)]) (s2 := cstr! " rts\n") (text := cstr! " nop\n")
    (nm := cstr! "aa") ?_ ?_ (by simp [SimpleTop, MacroFree, NoEnd])
    ⟨[.lit 97, .lit 97], by simp [itemsOk, StrItem.ok], by decide, by decide, by decide⟩ (by decide) ?_ ?_
  · refine .blanks (w := cstr! " ") (by decide) (by decide) (next_cons (by decide)) ?_
    refine .c64 (w := cstr! ".c64") (by decide) (next_cons (by decide)) ?_
    refine .newline ?_
    refine .blanks (w := cstr! " ") (by decide) (by decide) (next_cons (by decide)) ?_
    refine .word (name := ".org") (w := cstr! ".org") (by decide) (by decide) (next_cons (by decide)) ?_
    refine .blanks (w := cstr! " ") (by decide) (by decide) (next_cons (by decide)) ?_
    refine .decimal (ds := [⟨52, 4⟩, ⟨48, 0⟩, ⟨57, 9⟩, ⟨54, 6⟩]) (s := cstr! "\n .inc \"aa\"\n rts\n") (by decide) (by simp [Digit.ok])
      (by decide) (next_cons ⟨by decide, fun d hd h => ?_, by decide⟩) ?_
    · have := char_range hd
      omega
    refine .newline ?_
    refine .blanks (w := cstr! " ") (by decide) (by decide) (next_cons (by decide)) ?_
    refine .word (name := ".inc") (w := cstr! ".inc") (by decide) (by decide) (next_cons (by decide)) ?_
    refine .blanks (w := cstr! " ") (by decide) (by decide) (next_cons (by decide)) ?_
    exact .text (is := [.lit 97, .lit 97]) (by simp [itemsOk, StrItem.ok]) (by simp) (by decide) (next_cons (by decide)) (.nil rfl)
  · exact .c64 (.top (tt := [.eol 1]) (.stmt (.empty 1)) (.top (tt := [.org, .int 4096, .eol 2])
      (.stmt (.line (ts := [.org, .int 4096]) _ (.org ⟨_, _, .int 4096⟩))) .nil))
  · exact demo_line given _ (cstr! "aa") ⟨.lineStart, 0, 0, 0, 0, []⟩ _ 97 (cstr! "nop") (by decide) (by decide) (next_cons (by decide)) rfl
  · exact demo_line given _ (cstr! "p") ⟨.fileStart, 0, 0, 0, 3, []⟩ _ 85 (cstr! "rts") (by decide) (by decide) (next_cons (by decide)) rfl

private theorem demo_files : ∀ n c, (n, c) ∈ demoDisk.files → some n = given .output demoParts ∨ some n = given .logging demoParts → c = [] := by
  intro n c h
  simp only [demoDisk, List.mem_cons, Prod.mk.injEq, List.not_mem_nil, or_false] at h
  rcases h with ⟨rfl, -⟩ | ⟨rfl, -⟩ | ⟨rfl, -⟩ | ⟨rfl, -⟩ <;> exact fun h => absurd h (by decide)

/-- A command line with a definition, a search path and two files, of which the first asks for a load address, meets the hypotheses of `C64_image_partial` and of the
theorems before it. -/
example : (∀ w ∈ demoLine, 0 ∉ w) ∧ CmdLine demoParts demoLine ∧ Once demoParts ∧ inputFiles demoParts = demoTexts.map (·.1) ∧
    given .output demoParts = some (cstr! "out") ∧
    (∀ d ∈ definitions demoParts, Identifier d.1 ∧ 0 ≤ defineValue d.2 ∧ defineValue d.2 ≤ 0xFFFF) ∧
    (Identifier (cstr! "START") ∧ ∃ d ∈ definitions demoParts, foldCase d.1 = foldCase (cstr! "START")) ∧
    (∀ n c, (n, c) ∈ demoDisk.files → some n = given .output demoParts ∨ some n = given .logging demoParts → c = []) ∧
    (∀ t ∈ demoTexts, ∃ p, openFile demoDisk.exist t.1 (given .directories demoParts) = .opened p ∧ t.2 = demoDisk.read p) ∧
    SourcesText (fun n => n == cstr! "START") (demoDisk.visible (given .directories demoParts)) demoTexts
      [[.setC64, .stmt (cstr! "p") 1 .empty, .stmt (cstr! "p") 2 (.org (.int 4096)), .stmt (cstr! "p") 3 (.inc (cstr! "\"aa\"")),
        .stmt (cstr! "aa") 1 (.op 97 .i none), .stmt (cstr! "p") 4 (.op 85 .i none)], [.stmt (cstr! "q") 1 (.op 97 .i none)]] ∧
    (mainRun 60 60 demoLine demoDisk).status = some 0 ∧
    (mainRun 60 60 demoLine demoDisk).output = some (cstr! "out", [0x00, 0x10, 0xEA, 0x60, 0xEA]) ∧
    openFile demoDisk.exist (cstr! "aa") (given .directories demoParts) = .opened (cstr! "lib/aa") := by
  refine ⟨by decide, demo_cmd, by unfold Once; decide, by decide, by decide, by decide, ⟨by decide, by decide⟩, demo_files, ?_, demo_text _,
    
    ?_, ?_, by decide⟩
  · simp only [demoTexts, List.mem_cons, List.not_mem_nil, or_false, forall_eq_or_imp, forall_eq]
    exact ⟨⟨cstr! "p", by decide, rfl⟩, cstr! "x/q", by decide, rfl⟩
  all_goals decide +kernel

/-- The draft asked for, at the start of the last resolving pass. -/
example : ∃ pre s s1 s2, (mainRun 60 60 demoLine demoDisk).passes = pre ++ [(false, s, s1), (true, s1, s2)] ∧
    (∀ x ∈ s.1.syms, x.isVar = false ∧ x.isMacroParam = false) ∧ envOf s.1 (cstr! "start") = some 0xC000 ∧
    Spec.eval ((ctxOf s.1).env none) 0x1000 (.int 4096) = some (0x1000, false) ∧
    (∀ t ∈ [.setC64, .stmt (cstr! "p") 1 .empty], Spec.HeadDraft (ctxOf s.1) t) ∧
    Spec.Draft (Spec.settle (ctxOf s.1) [.setC64, .stmt (cstr! "p") 1 .empty]) none 0x1000 true
      [.stmt (cstr! "p") 3 (.inc (cstr! "\"aa\"")), .stmt (cstr! "aa") 1 (.op 97 .i none), .stmt (cstr! "p") 4 (.op 85 .i none), .stmt (cstr! "q") 1 (.op 97 .i none)] none [0xEA, 0x60, 0xEA] := by
  have hst : (mainRun 60 60 demoLine demoDisk).status = some 0 := by decide +kernel
  have hlen : (mainRun 60 60 demoLine demoDisk).passes.length = 2 := by decide +kernel
  obtain ⟨xs, -, -, -, -, -, -, -, pre, s, s1, s2, hr, -⟩ := C64_success (argv := demoLine) (by decide) hst
    (by intro h; rw [h] at hlen; cases hlen)
  have hpre : pre = [] := by
    rw [hr] at hlen
    simpa using hlen
  subst hpre
  have hs : (mainRun 60 60 demoLine demoDisk).passes[0]? = some (false, s, s1) := by rw [hr]; rfl
  have k1 : (mainRun 60 60 demoLine demoDisk).passes[0]?.map (fun e => e.2.1.1.cpu) = some .c6502 := by decide +kernel
  have k3 : (mainRun 60 60 demoLine demoDisk).passes[0]?.map (fun e => e.2.1.1.files) =
    some (demoDisk.visible (some (cstr! "x/;lib/"))) := by decide +kernel
  have k4 : (mainRun 60 60 demoLine demoDisk).passes[0]?.map
    (fun e => e.2.1.1.syms.all fun x => x.isVar == false && x.isMacroParam == false) = some true := by decide +kernel
  have k5 : (mainRun 60 60 demoLine demoDisk).passes[0]?.map (fun e => envOf e.2.1.1 (cstr! "start")) = some (some 0xC000) := by
    decide +kernel
  rw [hs] at k1 k3 k4 k5
  simp only [Option.map_some, Option.some.injEq] at k1 k3 k4 k5
  have c1 : (Spec.settle (ctxOf s.1) [.setC64, .stmt (cstr! "p") 1 .empty]).cpu = .c6502 := k1
  have c3 : (Spec.settle (ctxOf s.1) [.setC64, .stmt (cstr! "p") 1 .empty]).files = demoDisk.visible (some (cstr! "x/;lib/")) := k3
  have op : ∀ {C : Context} {env : Str → Option Int} {pc : Int} {fresh : Bool} {ins : Int} {b : Nat}, OneByte C.cpu ins .implied [b] →
      Placed C env pc fresh [b] (.op ins .i none) := fun h => Or.inl ⟨rfl, h⟩
  refine ⟨[], s, s1, s2, hr, ?_, k5, rfl, by simp [Spec.HeadDraft], ?_⟩
  · simpa using k4
  refine ⟨none, [], _, ⟨rfl, Or.inr (Or.inr ⟨rfl, cstr! "aa", ?_, ?_⟩)⟩, ?_, rfl⟩
  · show textOf (cstr! "\"aa\"") = some (cstr! "aa")
    decide +kernel
  · rw [c3]; decide
  refine ⟨none, [0xEA], _, ⟨rfl, op ?_⟩, ?_, rfl⟩
  · rw [c1]; exact ⟨by decide, by decide, by decide, 0xEA, by decide, by decide +kernel, rfl⟩
  refine ⟨none, [0x60], _, ⟨rfl, op ?_⟩, ?_, rfl⟩
  · rw [c1]; exact ⟨by decide, by decide, by decide, 0x60, by decide, by decide +kernel, rfl⟩
  refine ⟨none, [0xEA], [], ⟨rfl, op ?_⟩, ⟨rfl, rfl⟩, rfl⟩
  rw [c1]; exact ⟨by decide, by decide, by decide, 0xEA, by decide, by decide +kernel, rfl⟩

/-- Asking for help. -/
example : let r := mainRun 60 60 [cstr! "p", cstr! "/H", cstr! "-o"] demoDisk
    r.status = some 0 ∧ r.passes.length = 0 := by refine ⟨?_, ?_⟩ <;> decide +kernel

end Verif
