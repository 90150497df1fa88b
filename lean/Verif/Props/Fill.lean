import Verif.Lemmas.Fill
import Verif.Lemmas.Load
import Verif.Lemmas.Reserve
import Verif.Props.Instr

/-! # Properties C14, C15 and C16: `.ds`, `.fill` and `.load` -/

namespace Verif

/-- The final pass of an empty program at $1000 with an output file. -/
private def sf : St :=
  { pc := 0x1000, origin := 0x1000, originSpecified := true, finalPass := true, outputOpen := true }

/-! ## C14: reserved space -/

/-- The number of header bytes that are part of the output so far or will precede the next byte. -/
def headerSize : Format → Int
  | .c64 => 2
  | .bin => 0

/-- **C14**.  Let everything assembled so far fill the image without a gap.  Then `.ds` reserving `n` bytes, with `n`
greater than the size of the header, makes every later attempt to emit a byte fail: whatever is assembled in between, as
long as it emits nothing and does not move the location counter or the origin back, the next call of `generate_output`
reports an error, ends the program, and writes nothing (except the header, if it is due).  So in the raw format, where
the header is empty, no gap at all can shift code.  Missing: in C64 format the gaps of one and two bytes, which violate
the claim (`C14_false_c64`). -/
theorem C14_gap_stops_partial {s : St} {f : Nat} {e : Expr} {n : Int} (file : Str) (line : Int) (hs : Ready s)
    (hf : e.depth < f) (hn : Spec.eval (envOf s) s.pc e = some (n, false)) (h0 : 0 ≤ n)
    (hgap : max n 1 > headerSize s.format)
    (himg : s.pc = s.origin + if s.totalBytes = 0 then 0 else s.totalBytes - headerSize s.format) :
    ∃ s', runTop (expandNode (f + 1)) (hasUninit (f + 1)) (.stmt file line (.ds e)) s = (.ok true, s') ∧
      s'.pc = s.pc + max n 1 ∧ s'.out = s.out ∧ s'.errorCount = s.errorCount ∧
      ∀ (t : St) (ex : Ptr → M Int) (p : Ptr), t.origin = s.origin → t.format = s.format →
        t.totalBytes = s.totalBytes → t.outputOpen = true → t.originSpecified = true → s'.pc ≤ t.pc →
        ∃ t', generateOutput ex p t = (.exit (-1), t') ∧ t'.errorCount = t.errorCount + 1 ∧
          t'.out = t.out ++ if s.totalBytes = 0 then headerBytes s.format s.origin else [] := by
  obtain ⟨ns, _, r⟩ := dsStmt_run file line hf hs.running hs.heap hn h0
  refine ⟨_, r, ?_, rfl, rfl, ?_⟩
  · show s.pc + _ = _
    split <;> omega
  · intro t ex p h1 h2 h3 h4 h5 h6
    have h6' : s.pc + (if n > 0 then n else 1) ≤ t.pc := h6
    have hl : (if n > 0 then n else 1) > headerSize s.format := by
      split <;> omega
    have hlen : ((headerBytes s.format s.origin).length : Int) = headerSize s.format := by
      cases s.format <;> rfl
    have := generateOutput_gap (ex := ex) (p := p) h4 h5 (by
      rw [h3, h1, h2]
      rw [himg] at h6'
      by_cases hz : s.totalBytes = 0
      · simp only [hz, if_true] at h6' ⊢
        omega
      · simp only [hz, if_false, List.length_nil] at h6' ⊢
        have : (0 : Int) ≤ headerSize s.format := by cases s.format <;> decide
        omega)
    rwa [h1, h2, h3] at this

example : Ready { sf with format := .bin } ∧ Spec.eval (envOf { sf with format := .bin }) 0x1000 (.int 1) = some (1, false) ∧
    max (1 : Int) 1 > headerSize .bin ∧ (0x1000 : Int) = 0x1000 + if (0 : Int) = 0 then 0 else 0 - headerSize .bin :=
  ⟨⟨rfl, by decide, fun _ _ _ => by decide⟩, by decide, by decide, by decide⟩

/-- The program `.byte 1` / `.ds n` / `here .byte 2` at $1000. -/
private def dsProg (n : Int) : Program := [[ .stmt [97] 1 (.org (.int 0x1000)),
  .stmt [97] 2 (.data 1 (.expr (.int 1)) []), .stmt [97] 3 (.ds (.int n)),
  .labelled [97] 4 (cstr! "here") (.data 1 (.expr (.int 2)) []) ]]

/-- In the raw format the program ends with an error in the final pass, for a gap of one byte already; in C64 format for
a gap of three bytes. -/
example : (assembleProg 30 (dsProg 1) { output := some true } { format := .bin }).status = none ∧
    (assembleProg 30 (dsProg 3) { output := some true } { format := .c64 }).status = none := by
  decide +kernel

/-- **C14**, negation: in C64 format gaps of one and two bytes pass unnoticed.  The label `here` has the address $1002
(or $1003), assembly succeeds without a message, but the byte at `here` is the second byte of the image, which is loaded
at $1001. -/
theorem C14_false_c64 : ∀ n ∈ [(1 : Int), 2],
    let r := assembleProg 30 (dsProg n) { output := some true } { format := .c64 }
    r.status = some 0 ∧ r.passes.getLast?.map (fun e => (e.1, e.2.2.out, e.2.2.log)) =
      some (true, [0x00, 0x10, 1, 2], []) ∧
    r.passes.getLast?.map (fun e => e.2.2.syms.map fun x => (x.name, x.value)) = some [(cstr! "here", 0x1001 + n)] := by
  decide +kernel

/-! ## C15: `.fill` -/

/-- **C15**.  `.fill v,n` with a byte value `v` assembles exactly `n` times the byte `v`: in the final pass they are
appended to the output and the location counter advances by `n`; in the other passes it advances by `n` as well.
Missing: the count 0 outside the final pass, and a fill that is the first emission in C64 format; both violate the claim,
see below.  (The bound on `n` concerns the fuel of the model only.) -/
theorem C15_fill_partial {s : St} {f : Nat} {ve ne : Expr} {v : Int} {n : Nat} (file : Str) (line : Int) (hs : Ready s)
    (h0 : 0 ≤ s.totalBytes) (ho : s.originSpecified = true) (hf : 2 ≤ f) (hfn : n ≤ 2 * f) (hd1 : ve.depth < f)
    (hd2 : ne.depth < f) (hv : Spec.eval (envOf s) s.pc ve = some (v, false))
    (hn : Spec.eval (envOf s) s.pc ne = some ((n : Int), false)) (hrange : 0 ≤ v ∧ v ≤ 255)
    (hpos : s.finalPass = false → 0 < n) (hh : Writes s → s.format = .bin ∨ 0 < s.totalBytes) :
    ∃ s', runTop (expandNode (f + 1)) (hasUninit (f + 1)) (.stmt file line (.fill ve ne)) s = (.ok true, s') ∧
      Assembled s s' (List.replicate n v.toNat) := by
  have horig : orig s = s := orig_id ho
  have hroom : Room s := by
    have := hs.room
    rwa [horig] at this
  have hno : NoHdr s := by
    intro he
    simp only [emitting, Bool.and_eq_true] at he
    exact hh ⟨he.1.1, he.1.2, Or.inl ho⟩
  obtain ⟨s', ls, r, a, _⟩ := fillStmt_run file line hf hfn hd1 hd2 hs.running hs.heap h0 hv hn hrange hpos
    (fun _ => ⟨ho, hroom, hno⟩)
  refine ⟨s', r, Asm.assembled (file := file) (line := line) (ls := ls) (n := n) ?_ (by simp)⟩
  rw [orig_id (s := atLine s file line) ho]
  exact a

example : Ready { sf with format := .bin } ∧ Spec.eval (envOf { sf with format := .bin }) 0x1000 (.int 7) = some (7, false) ∧
    (let r := runTop (expandNode 9) (hasUninit 9) (.stmt [] 1 (.fill (.int 7) (.int 5))) { sf with format := .bin }
     r.1 = .ok true ∧ r.2.out = [7, 7, 7, 7, 7] ∧ r.2.pc = 0x1005) :=
  ⟨⟨rfl, by decide, fun _ _ _ => by decide⟩, by decide, by decide +kernel⟩

/-- **C41** (`.fill`).  In the final pass the listing lines of a fill show exactly the bytes it appends to the output, in
order, at the addresses where they go.  Missing: a fill that is the first emission in C64 format (C15). -/
theorem C41_fill_partial {q : Nat → Prop} {s : St} {f : Nat} {ve ne : Expr} {v : Int} {n : Nat} (file : Str) (line : Int) (hs : Ready s)
    (hw : Writes s) (h0 : 0 ≤ s.totalBytes) (ho : s.originSpecified = true) (hf : 2 ≤ f) (hfn : n ≤ 2 * f) (hd1 : ve.depth < f)
    (hd2 : ne.depth < f) (hv : Spec.eval (envOf s) s.pc ve = some (v, false))
    (hn : Spec.eval (envOf s) s.pc ne = some ((n : Int), false)) (hrange : 0 ≤ v ∧ v ≤ 255)
    (hh : s.format = .bin ∨ 0 < s.totalBytes) :
    ∃ s' ls, runTop (expandNode (f + 1)) (hasUninit (f + 1)) (.stmt file line (.fill ve ne)) s = (.ok true, s') ∧
      s'.out = s.out ++ List.replicate n v.toNat ∧ s'.listing = s.listing ++ ls ∧
      Spec.Prints q file line s.pc ls (List.replicate n v.toNat) := by
  have hroom : Room s := by
    have := hs.room
    rwa [orig_id ho] at this
  obtain ⟨s', ls, r, a, p⟩ := fillStmt_run file line hf hfn hd1 hd2 hs.running hs.heap h0 hv hn hrange
    (fun h => absurd hw.1 (by simp [h])) (fun _ => ⟨ho, hroom, fun _ => hh⟩)
  refine ⟨s', ls, r, ?_, ?_, p hw.1 q⟩
  · have a' : Assembled s s' (List.replicate n v.toNat) := by
      refine Asm.assembled (file := file) (line := line) (ls := ls) (n := n) ?_ (by simp)
      rw [orig_id (s := atLine s file line) ho]
      exact a
    rw [a'.written hw]
    have : (if s.totalBytes = 0 then headerBytes s.format s.origin else []) = [] := by
      split
      · rcases hh with hh | hh
        · rw [hh]; rfl
        · omega
      · rfl
    rw [this, List.append_nil]
  · rw [← orig_id (s := atLine s file line) ho] at a
    rw [a.listing, if_pos hw.1]

/-- `.fill 7,5` at $1000. -/
example : Ready { sf with format := .bin } ∧ Writes { sf with format := .bin } ∧
    ((runTop (expandNode 9) (hasUninit 9) (.stmt [120] 3 (.fill (.int 7) (.int 5))) { sf with format := .bin }).2.listing.map (·.output)) =
      [cstr! "$1000: $07 $07           .db $07, $07", cstr! "$1002: $07 $07           .db $07, $07",
        cstr! "$1004: $07               .db $07"] :=
  ⟨⟨rfl, by decide, fun _ _ _ => by decide⟩, ⟨rfl, rfl, .inl rfl⟩, by decide +kernel⟩

/-- Values that are no bytes and negative counts end the program with an error, in every pass. -/
theorem C15_fill_rejects {s : St} {f : Nat} {ve ne : Expr} {v n : Int} (file : Str) (line : Int) (hs : Ready s)
    (hd1 : ve.depth < f) (hd2 : ne.depth < f) (hv : Spec.eval (envOf s) s.pc ve = some (v, false))
    (hn : Spec.eval (envOf s) s.pc ne = some (n, false)) (hbad : v < 0 ∨ v > 255 ∨ n < 0) :
    ∃ s', runTop (expandNode (f + 1)) (hasUninit (f + 1)) (.stmt file line (.fill ve ne)) s = (.exit (-1), s') ∧
      s'.errorCount = s.errorCount + 1 ∧ s'.out = s.out ∧ s'.pc = s.pc :=
  fillStmt_reject file line hd1 hd2 hs.running hs.heap hv hn hbad

/-- **C15**, negation: `.fill 1,0` advances the location counter by one in the resolving passes and by none in the final
pass, so all labels behind it are off by one. -/
theorem C15_false_zero :
    (let r := runTop (expandNode 9) (hasUninit 9) (.stmt [] 1 (.fill (.int 1) (.int 0))) { sf with finalPass := false }
     r.1 = .ok true ∧ r.2.log = [] ∧ r.2.pc = sf.pc + 1) ∧
    (let r := runTop (expandNode 9) (hasUninit 9) (.stmt [] 1 (.fill (.int 1) (.int 0))) sf
     r.1 = .ok true ∧ r.2.log = [] ∧ r.2.pc = sf.pc ∧ r.2.out = []) := by decide +kernel

/-- **C15**, second witness: the first emission of a program in C64 format, `.fill 1,4`, writes only two bytes besides the
header. -/
theorem C15_false_c64 :
    let r := runTop (expandNode 9) (hasUninit 9) (.stmt [] 1 (.fill (.int 1) (.int 4))) { sf with format := .c64 }
    r.1 = .ok true ∧ r.2.log = [] ∧ r.2.out = [0x00, 0x10, 1, 1] ∧ r.2.pc = sf.pc + 4 := by decide +kernel

/-! ## C16: `.load` -/

/-- **C16**.  `.load` of an existing file assembles exactly the bytes of the file, whatever its length: in the final pass
they are appended to the output, and in every pass the location counter advances by their number.  (Like every first
emission it is preceded by the header, but an empty file emits nothing at all.) -/
theorem C16_load {s : St} {f : Nat} {raw name nm : Str} {bytes : List Nat} (file : Str) (line : Int) (hs : Ready s)
    (h0 : 0 ≤ s.totalBytes) (ho : s.originSpecified = true) (hf : 4 ≤ f) (hraw : textOf raw = some name)
    (hfile : s.files.find? (fun e => e.1 == name) = some (nm, bytes)) (hbytes : ∀ b ∈ bytes, b < 256) :
    ∃ s', runTop (expandNode (f + 1)) (hasUninit (f + 1)) (.stmt file line (.load raw)) s = (.ok true, s') ∧
      s'.pc = s.pc + bytes.length ∧ s'.errorCount = s.errorCount ∧ s'.log = s.log ∧ s'.syms = s.syms ∧
      s'.out = s.out ++ if Writes s ∧ bytes ≠ [] then
        (if s.totalBytes = 0 then headerBytes s.format s.origin else []) ++ bytes else [] := by
  have horig : orig s = s := orig_id ho
  have hroom : Room s := by
    have := hs.room
    rwa [horig] at this
  by_cases hne : bytes = []
  · obtain ⟨ns, r⟩ := loadStmt_empty (nm := nm) file line hs.running hs.heap hraw (hne ▸ hfile) (f := f)
    refine ⟨_, r, ?_, rfl, rfl, rfl, ?_⟩
    · subst hne
      exact (Int.add_zero _).symm
    · rw [if_neg (by simp [hne])]
      exact (List.append_nil _).symm
  · obtain ⟨s', ls, r, a, _⟩ := loadStmt_run file line hf hs.running hs.heap h0 hraw hfile ho hroom (fun h => absurd h hne)
    have hmap : bytes.map (· % 256) = bytes := by
      conv => rhs; rw [← List.map_id bytes]
      exact List.map_congr_left fun b hb => Nat.mod_eq_of_lt (hbytes b hb)
    rw [hmap] at a
    have a' : Assembled s s' bytes := by
      refine Asm.assembled (file := file) (line := line) (ls := ls) (n := bytes.length) ?_ rfl
      rw [orig_id (s := atLine s file line) ho]
      exact a
    refine ⟨s', r, a'.pc, a'.errors, a'.log, a'.syms, ?_⟩
    by_cases hw : Writes s
    · rw [if_pos ⟨hw, hne⟩, a'.written hw, List.append_assoc]
    · rw [if_neg (fun h => hw h.1), a'.notWritten hw, List.append_nil]

/-- The witness state with a file of three bytes. -/
private def sl : St := { sf with files := [([102], [1, 2, 3])] }

example : Ready sl ∧ textOf [34, 102, 34] = some [102] ∧ sl.files.find? (fun e => e.1 == [102]) = some ([102], [1, 2, 3]) ∧
    (let r := runTop (expandNode 9) (hasUninit 9) (.stmt [] 1 (.load [34, 102, 34])) { sl with format := .c64 }
     r.1 = .ok true ∧ r.2.out = [0x00, 0x10, 1, 2, 3] ∧ r.2.pc = 0x1003) :=
  ⟨⟨rfl, by decide, fun _ _ _ => by decide⟩, by decide, by decide, by decide +kernel⟩

/-- **C41** (`.load`).  In the final pass the listing lines of a binary file show exactly the bytes of the file, in order, at
the addresses where they go. -/
theorem C41_load {q : Nat → Prop} {s : St} {f : Nat} {raw name nm : Str} {bytes : List Nat} (file : Str) (line : Int) (hs : Ready s)
    (hw : Writes s) (h0 : 0 ≤ s.totalBytes) (ho : s.originSpecified = true) (hf : 4 ≤ f) (hraw : textOf raw = some name)
    (hfile : s.files.find? (fun e => e.1 == name) = some (nm, bytes)) (hbytes : ∀ b ∈ bytes, b < 256) :
    ∃ s' ls, runTop (expandNode (f + 1)) (hasUninit (f + 1)) (.stmt file line (.load raw)) s = (.ok true, s') ∧
      s'.listing = s.listing ++ ls ∧ Spec.Prints q file line s.pc ls bytes := by
  have hroom : Room s := by
    have := hs.room
    rwa [orig_id ho] at this
  by_cases hne : bytes = []
  · obtain ⟨ns, r⟩ := loadStmt_empty (nm := nm) file line hs.running hs.heap hraw (hne ▸ hfile) (f := f)
    subst hne
    exact ⟨_, [], r, (List.append_nil _).symm, .nil _⟩
  · obtain ⟨s', ls, r, a, p⟩ := loadStmt_run file line hf hs.running hs.heap h0 hraw hfile ho hroom (fun h => absurd h hne)
    have hmap : bytes.map (· % 256) = bytes := by
      conv => rhs; rw [← List.map_id bytes]
      exact List.map_congr_left fun b hb => Nat.mod_eq_of_lt (hbytes b hb)
    have p := p hw.1 q
    rw [hmap] at p
    refine ⟨s', ls, r, ?_, p⟩
    rw [← orig_id (s := atLine s file line) ho] at a
    rw [a.listing, if_pos hw.1]

example : Writes sl ∧ ((runTop (expandNode 9) (hasUninit 9) (.stmt [] 1 (.load [34, 102, 34])) sl).2.listing.map (·.output)) =
    [cstr! "$1000: $01 $02           .db $01, $02", cstr! "$1002: $03               .db $03"] :=
  ⟨⟨rfl, rfl, .inl rfl⟩, by decide +kernel⟩

/-- A file that cannot be opened leads to undefined behaviour (`fseek` on a null pointer), so the existence of the file
is a real precondition. -/
theorem C16_missing_file :
    (runTop (expandNode 9) (hasUninit 9) (.stmt [] 1 (.load [34, 103, 34])) sl).1 = .ub := by decide +kernel

end Verif
