import Verif.Lemmas.Data
import Verif.Props.Instr
import Verif.Props.SanitizeString

/-! # Data directives: location counter and bytes

`.byte`, `.word` and `.str` with lists of any length. -/

namespace Verif

/-- **C11** (data directives).  A `.byte`, `.word` or `.str` directive whose items all have admissible values (evaluated
from left to right, each at its own address) appends exactly the bytes of its items and advances the location counter
by their number, in every pass.  Missing: items whose expression does not reach all its symbols and negative numbers in
`.str`; both violate the claim, see below. -/
theorem C11_data_partial {s : St} {f : Nat} {size : Int} {hd : Item} {tl : List Item} {bs : List Nat} (file : Str)
    (line : Int) (hs : Ready s) (h0 : 0 ≤ s.totalBytes) (ho : s.originSpecified = true ∨ s.pcAssigned > 0)
    (hsize : size = 0 ∨ size = 1 ∨ size = 2) (hf : ∀ x ∈ hd :: tl, x.depth + (hd :: tl).length < f)
    (hv : Spec.items textOf (envOf s) size s.pc (hd :: tl) = some bs) :
    ∃ s', runTop (expandNode (f + 1)) (hasUninit (f + 1)) (.stmt file line (.data size hd tl)) s = (.ok true, s') ∧
      Assembled s s' bs := by
  obtain ⟨s', ls, r, a, _⟩ := dataStmt_run file line hsize hf hs.running hs.heap h0 hv ho hs.room
  exact ⟨s', r, a.assembled rfl⟩

/-- The final pass of an empty program at $1000 with an output file. -/
private def sd : St :=
  { pc := 0x1000, origin := 0x1000, originSpecified := true, finalPass := true, outputOpen := true }

example : Ready sd ∧ 0 ≤ sd.totalBytes ∧ sd.originSpecified = true ∧
    Spec.items textOf (envOf sd) 2 sd.pc [.expr .pc, .str [34, 65, 66, 67, 34], .expr (.bin .add .pc (.int 1))] =
      some [0x00, 0x10, 65, 66, 67, 0, 0x07, 0x10] :=
  ⟨⟨rfl, by decide, fun _ _ _ => by decide⟩, by decide, rfl, by decide +kernel⟩

/-- The same with the symbol `foo`, defined as 5. -/
private def sdFoo : St := { sd with
  syms := [{ name := [102, 111, 111], fullname := [102, 111, 111], isInit := true, value := 5 }] }

/-- **C36** (texts in data).  A quoted text in a `.byte` directive, written with the documented escapes, emits the
characters it stands for; a NUL character ends it. -/
theorem C36_text_emitted {s : St} {f : Nat} {is : List Spec.StrItem} {q : Nat} (file : Str) (line : Int) (hs : Ready s)
    (h0 : 0 ≤ s.totalBytes) (ho : s.originSpecified = true ∨ s.pcAssigned > 0) (hf : 1 < f) (hq : q = 34 ∨ q = 39)
    (h : Spec.itemsOk is) :
    ∃ s', runTop (expandNode (f + 1)) (hasUninit (f + 1))
        (.stmt file line (.data 1 (.str (q :: (is.map Spec.StrItem.text).flatten ++ [q])) [])) s = (.ok true, s') ∧
      Assembled s s' ((((is.map Spec.StrItem.value).flatten).takeWhile (· ≠ 0)).map (· % 256)) := by
  have ht : textOf (q :: (is.map Spec.StrItem.text).flatten ++ [q]) =
      some (((is.map Spec.StrItem.value).flatten).takeWhile (· ≠ 0)) := by
    unfold textOf stringValue
    rcases hq with rfl | rfl <;>
    simp only [List.cons_append, List.dropLast_concat, C36_escapes_decoded is h, Option.map_some]
  refine C11_data_partial file line hs h0 ho (.inr (.inl rfl)) (fun x hx => ?_) ?_
  · cases List.mem_singleton.1 hx
    exact hf
  · simp only [Spec.items, Spec.item, ht, Option.map_some, Option.bind_some, Spec.text,
      show ¬((1 : Int) = 2) by decide, false_and, if_false, List.append_nil]

/-- `"a\x00b"`: only the `a` is emitted. -/
example : Spec.itemsOk [.lit 97, .hex [0], .lit 122] ∧
    (((([.lit 97, .hex [0], .lit 122] : List Spec.StrItem).map Spec.StrItem.value).flatten).takeWhile (· ≠ 0)).map
      (· % 256) = [97] :=
  ⟨⟨by simp [Spec.StrItem.ok], ⟨⟨by decide, by decide⟩, ⟨by simp [Spec.StrItem.ok], trivial, trivial⟩, by decide⟩, trivial⟩, by decide⟩

/-- **C41** (data directives).  In the final pass the listing lines of a data directive show exactly the bytes the
directive appends to the output, in order, at the addresses where they go, at most three bytes to a line.  Missing:
texts in `.word` of odd length divisible by three, for which the claim fails. -/
theorem C41_data_partial {q : Nat → Prop} {s : St} {f : Nat} {size : Int} {hd : Item} {tl : List Item} {bs : List Nat} (file : Str)
    (line : Int) (hs : Ready s) (hw : Writes s) (h0 : 0 ≤ s.totalBytes)
    (ho : s.originSpecified = true ∨ s.pcAssigned > 0)
    (hsize : size = 0 ∨ size = 1 ∨ size = 2) (hf : ∀ x ∈ hd :: tl, x.depth + (hd :: tl).length < f)
    (hv : Spec.items textOf (envOf s) size s.pc (hd :: tl) = some bs)
    (hp : ∀ x ∈ hd :: tl, Spec.Printable q textOf size x) :
    ∃ s' ls, runTop (expandNode (f + 1)) (hasUninit (f + 1)) (.stmt file line (.data size hd tl)) s = (.ok true, s') ∧
      s'.out = s.out ++ (if s.totalBytes = 0 then headerBytes s.format s.origin else []) ++ bs ∧
      s'.listing = s.listing ++ ls ∧ Spec.Prints q file line s.pc ls bs := by
  obtain ⟨s', ls, r, a, h⟩ := dataStmt_run file line hsize hf hs.running hs.heap h0 hv ho hs.room
  refine ⟨s', ls, r, (a.assembled rfl).written hw, ?_, h hw.1 q hp⟩
  rw [a.listing, if_pos hw.1]

example : Writes sd ∧ Spec.items textOf (envOf sd) 1 sd.pc [.expr (.int 7), .str [34, 65, 66, 67, 68, 34]] =
      some [7, 65, 66, 67, 68] ∧
    (runTop (expandNode 9) (hasUninit 9) (.stmt [120] 3 (.data 1 (.expr (.int 7)) [.str [34, 65, 66, 67, 68, 34]])) sd
      ).2.listing = [{ line := 3, file := [120], output := cstr! "$1000: $07               .db $07" },
        { line := 3, file := [120], output := cstr! "$1001: $41 $42 $43       .db 'A', 'B', 'C'" },
        { line := 3, file := [120], output := cstr! "$1004: $44               .db 'D'" }] :=
  ⟨⟨rfl, rfl, .inl rfl⟩, by decide +kernel, by decide +kernel⟩

/-- **C41**, negation: `.word "ABC"` emits `41 42 43 00`; its listing repeats the first line, with the
pad byte behind it and with the first character in the place of the pad byte. -/
theorem C41_false_pad :
    let r := runTop (expandNode 9) (hasUninit 9) (.stmt [120] 3 (.data 2 (.str [34, 65, 66, 67, 34]) [])) sd
    r.1 = .ok true ∧ r.2.log = [] ∧ r.2.out = [65, 66, 67, 0] ∧
      r.2.listing.map (·.output) = [cstr! "$1000: $41 $42 $43       .db 'A', 'B', 'C'",
        cstr! "$1000: $41 $42 $43       .db 'A', 'B', 'C' $00.db $41"] := by decide +kernel

/-- **C11**, negation: `.byte (1 || foo) + 0` with `foo` known emits nothing but advances the location counter. -/
theorem C11_false_short_circuit :
    let r := runTop (expandNode 9) (hasUninit 9)
      (.stmt [] 1 (.data 1 (.expr (.bin .add (.bin .lor (.int 1) (.sym [102, 111, 111])) (.int 0))) [])) sdFoo
    r.1 = .ok true ∧ r.2.log = [] ∧ r.2.out = [] ∧ r.2.pc = sdFoo.pc + 1 := by decide +kernel

/-- **C11**, second witness: `.str -65534` emits two bytes and advances the location counter by one. -/
theorem C11_false_negative_str :
    let r := runTop (expandNode 9) (hasUninit 9) (.stmt [] 1 (.data 0 (.expr (.int (-65534))) [])) sd
    r.1 = .ok true ∧ r.2.log = [] ∧ r.2.out = [2, 0] ∧ r.2.pc = sd.pc + 1 := by decide +kernel

end Verif
