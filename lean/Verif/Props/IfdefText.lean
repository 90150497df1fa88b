import Verif.Props.Text

/-! # Property C37 on source text -/

namespace Verif

open Spec

/-- **C37**, negation, on characters: an `.ifdef` or `.ifndef` whose condition does not hold, inside one whose condition
holds, swallows the rest `v` of the outer block.  Nothing of `v` reaches the parser, although `v` belongs to the outer
block only. -/
theorem C37_text_nested_false (isMac defined : Str → Bool) (known : Str → Option Bool)
    (hk : ∀ n b, known n = some b → defined n = b) {n1 n2 : Bool} {w1 w2 o i u e1 v e2 s : Str} {evs : List LexEv}
    (h1 : IsCond n1 w1 o) (ho : known o = some (!n1)) (h2 : IsCond n2 w2 i) (hi : known i = some n2)
    (hn : NameEnd (u ++ (e1 ++ (v ++ (e2 ++ s))))) (hu : Skipped 0 u (e1 ++ (v ++ (e2 ++ s)))) (he1 : Is ".endif" e1)
    (hv : Skipped 0 v (e2 ++ s)) (he2 : Is ".endif" e2)
    (h : Source isMac known
      { place := .inside, dos := 0, macros := 0, ifs := 0, line := 2 + (u.count '\n'.toNat : Nat) + (v.count '\n'.toNat : Nat) } evs s) :
    let text := w1 ++ ('\n'.toNat :: (w2 ++ (u ++ (e1 ++ (v ++ (e2 ++ s))))))
    ∃ st', scan isMac defined text.length {} text = some (st', .tok (.eol 2) :: evs) := by
  intro text
  obtain ⟨a1, a2, _⟩ := cond_facts h1
  obtain ⟨b1, b2, _⟩ := cond_facts h2
  obtain ⟨c1, c2, c3⟩ := word_facts he1 (by decide) (by decide)
  obtain ⟨d1, d2, d3⟩ := word_facts he2 (by decide) (by decide)
  have la := List.length_pos_iff.2 a1
  have lb := List.length_pos_iff.2 b1
  obtain ⟨st', hr, _⟩ := run_source h
    { last := some e2, line := 2 + (u.count 10 : Nat) + (v.count 10 : Nat) }
    ⟨rfl, rfl, rfl, rfl, rfl, e2, rfl, head_not_newline d2, d3.trans (by decide)⟩
  refine ⟨st', LexTo.scan (known := known) ?_ defined hk _ (Nat.le_refl _)⟩
  have x1 : ((!n1) == n1) = false := by cases n1 <;> rfl
  refine .skip (by simp [text, a1]) (st' := { last := some w1, ifStack := [0] })
    (rest := 10 :: (w2 ++ (u ++ (e1 ++ (v ++ (e2 ++ s)))))) ?_ (by simp [text]; omega) ?_
  · intro d hd
    rw [step_of rfl a2 (best_cond h1 (next_cons ⟨by decide, by unfold NameChar; decide⟩))]
    simp [lexAct, cond_name h1, hd _ _ ho, x1]
  refine .step (by simp) (by simp) (st' := { last := some [10], ifStack := [0], line := 2 })
    (rest := w2 ++ (u ++ (e1 ++ (v ++ (e2 ++ s))))) ?_ (by simp) ?_
  · intro d hd
    unfold lexStep
    have hru : (LexCond.initial).rules = initialRules := rfl
    simp only [hru, best_newline, lexAct]
    rfl
  refine .skip (by simp [b1]) (st' := { last := some w2, ifStack := [0, 0], line := 2, cond := .ifDef })
    (rest := u ++ (e1 ++ (v ++ (e2 ++ s)))) ?_ (by simp; omega) ?_
  · intro d hd
    rw [step_of rfl b2 (best_cond h2 hn)]
    simp [lexAct, cond_name h2, hd _ _ hi]
  refine run_skipped hu (base := [0, 0]) (by simp) rfl rfl ?_
  intro last
  refine run_word (a := .skipEndIf) rfl c1 c2 (skip_word (by simp) he1) (st' := {
    last := some e1, ifStack := [0], cond := .ifDef, line := 2 + (u.count 10 : Nat) }) ?_ ?_
  · intro d
    simp [lexAct]
  refine run_skipped hv (base := [0]) (by simp) rfl rfl ?_
  intro last
  refine run_word (a := .skipEndIf) rfl d1 d2 (skip_word (by simp) he2) ?_ hr
  intro d
  simp [lexAct]

/-- A block with an inner block on a name that is not defined; `iny` is for the outer block, and is lost. -/
example : ∃ st', scan (fun _ => false) (fun _ => false) 48 {} (cstr! ".ifndef b\n.ifdef c\n dex\n.endif\n iny\n.endif\n rts\n") =
    some (st', [.tok (.eol 2), .tok (.eol 7), .tok (.opcode 85), .tok (.eol 8)]) := by
  have hn : ∀ c, NameStart c → Name [c] := fun c h => .global h (by simp)
  refine C37_text_nested_false (fun _ => false) (fun _ => false) (fun _ => some false) (fun _ _ h => by cases h; rfl)
    (n1 := true) (n2 := false) (w1 := cstr! ".ifndef b") (w2 := cstr! ".ifdef c") (o := cstr! "b") (i := cstr! "c")
    (u := cstr! "\n dex\n") (e1 := cstr! ".endif") (v := cstr! "\n iny\n") (e2 := cstr! ".endif") (s := cstr! "\n rts\n")
    ⟨cstr! ".ifndef", cstr! " ", rfl, by decide, by decide, by decide, hn _ (by decide)⟩ rfl
    ⟨cstr! ".ifdef", cstr! " ", rfl, by decide, by decide, by decide, hn _ (by decide)⟩ rfl
    (next_cons (by decide)) (skipped_plain (by decide)) (by decide) (skipped_plain (by decide)) (by decide) ?_
  refine .newline ?_
  refine .blanks (w := cstr! " ") (by decide) (by decide) (next_cons (by decide)) ?_
  refine .mnemonic (w := cstr! "rts") (ins := 85) (by decide) (by decide) (next_cons (by decide)) ?_
  exact .newline .nil

/-- Status and passes (final, output, program counter at the end) for a text. -/
def passesOf (text : Str) : Option Int × List (Bool × List Nat × Int) :=
  let r := assembleText 60 [([112], text)] { output := some true } {}
  (r.status, r.passes.map (fun x => (x.1, x.2.2.1.out, x.2.2.1.pc)))

/-- **C37**, negation: `.ifndef` and `.ifdef` ask the symbol table, and the table is kept from pass to pass.  A name that
the program defines further down, or that the block itself defines, is therefore not defined in the first pass and
defined in all others.  The first program guards `dex` by `.ifndef b` with `b` defined nowhere above the block, the
second is an include guard.  Both assemble without error and the guarded instruction is missing from the image, although
the first pass took it in.  The third takes in a block that asks for a name defined only below it. -/
theorem C37_guard_false :
    passesOf (cstr! " .org 4096\n .ifndef b\n dex\n .endif\nb = 1\n rts\n") =
      (some 0, [(false, [], 0x1002), (false, [], 0x1001), (true, [0x60], 0x1001)]) ∧
    passesOf (cstr! " .org 4096\n .ifndef b\nb = 1\n dex\n .endif\n rts\n") =
      (some 0, [(false, [], 0x1002), (false, [], 0x1001), (true, [0x60], 0x1001)]) ∧
    passesOf (cstr! " .org 4096\n .ifdef b\n dex\n .endif\nb = 1\n rts\n") =
      (some 0, [(false, [], 0x1001), (false, [], 0x1002), (true, [0xCA, 0x60], 0x1002)]) := by
  refine ⟨?_, ?_, ?_⟩ <;> decide +kernel

/-- A text that asks for a given name, and what it consists of. -/
theorem guarded_text : FileText (fun n => n == cstr! "dbg") [112]
    [.stmt [112] 1 .empty, .stmt [112] 2 (.op 9 .i none), .stmt [112] 5 .empty, .stmt [112] 6 .empty, .stmt [112] 7 (.op 85 .i none)]
    (cstr! " .ifdef dbg\n dex\n .Else\n inx\n .endif\n .ifndef dbg .if .endif .endif\n rts\n") := by
  have hn : Name (cstr! "dbg") := .global (by decide) (by decide)
  refine ⟨[.tok (.eol 1), .tok (.opcode 9), .tok (.eol 2), .tok (.eol 5), .tok (.eol 6), .tok (.opcode 85), .tok (.eol 7)], ?_, ?_⟩
  · refine .blanks (w := cstr! " ") (by decide) (by decide) (next_cons (by decide)) ?_
    refine .condOn (neg := false) (w := cstr! ".ifdef dbg") ⟨cstr! ".ifdef", cstr! " ", rfl, by decide, by decide, by decide, hn⟩
      (next_cons (by decide)) (by decide) ?_
    refine .newline ?_
    refine .blanks (w := cstr! " ") (by decide) (by decide) (next_cons (by decide)) ?_
    refine .mnemonic (w := cstr! "dex") (ins := 9) (by decide) (by decide) (next_cons (by decide)) ?_
    refine .newline ?_
    refine .blanks (w := cstr! " ") (by decide) (by decide) (next_cons (by decide)) ?_
    refine .condElse (w := cstr! ".Else") (u := cstr! "\n inx\n ") (e := cstr! ".endif") (by decide) rfl rfl
      (next_cons (by decide)) (skipped_plain (by decide)) (by decide) ?_
    refine .newline ?_
    refine .blanks (w := cstr! " ") (by decide) (by decide) (next_cons (by decide)) ?_
    refine .condNone (neg := true) (w := cstr! ".ifndef dbg") (u := cstr! " .if .endif ") (e := cstr! ".endif")
      ⟨cstr! ".ifndef", cstr! " ", rfl, by decide, by decide, by decide, hn⟩
      (next_cons (by decide)) (by decide) rfl rfl ?_ (by decide) ?_
    · refine .char ?_ ?_
      · exact notCond_of_head (by decide)
      refine .if (w := cstr! ".if") (by decide) ?_
      refine .char (notCond_of_head (by decide)) ?_
      refine .endIf (w := cstr! ".endif") (by decide) ?_
      exact skipped_plain (by decide)
    refine .newline ?_
    refine .blanks (w := cstr! " ") (by decide) (by decide) (next_cons (by decide)) ?_
    refine .mnemonic (w := cstr! "rts") (ins := 85) (by decide) (by decide) (next_cons (by decide)) ?_
    exact .newline .nil
  · refine .top (tt := [.eol 1]) (.stmt (.empty 1)) ?_
    refine .top (tt := [.opcode 9, .eol 2]) (.stmt (.line (ts := [.opcode 9]) 2 (.op 9 .implied))) ?_
    refine .top (tt := [.eol 5]) (.stmt (.empty 5)) ?_
    refine .top (tt := [.eol 6]) (.stmt (.empty 6)) ?_
    refine .top (tt := [.opcode 85, .eol 7]) (.stmt (.line (ts := [.opcode 85]) 7 (.op 85 .implied))) ?_
    exact .nil

/-- It meets the hypotheses of `C55_assembly` and `C55_pass`, with the name in the table at the start. -/
example : let s : St := { syms := [flatSym (cstr! "DBG") 0] }
    FilesText (fun n => n == cstr! "dbg") [([112], cstr! " .ifdef dbg\n dex\n .Else\n inx\n .endif\n .ifndef dbg .if .endif .endif\n rts\n")]
      [[.stmt [112] 1 .empty, .stmt [112] 2 (.op 9 .i none), .stmt [112] 5 .empty, .stmt [112] 6 .empty, .stmt [112] 7 (.op 85 .i none)]] ∧
    (∀ x ∈ s.syms, x.isMacroName = false) ∧ s.nodes = [] ∧ 0 ≤ s.totalBytes ∧
    ∀ n, (n == cstr! "dbg") = true → ∃ x ∈ s.syms, stricmp x.fullname n = 0 := by
  refine ⟨.cons guarded_text .nil, by decide, rfl, by decide, ?_⟩
  intro n hn
  obtain rfl := eq_of_beq hn
  exact ⟨_, List.mem_singleton.2 rfl, by decide⟩

end Verif
