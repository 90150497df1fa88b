import Verif.Lemmas.ListRow
import Verif.Lemmas.Stmt
import Verif.Props.Opcodes
import Verif.Spec.Encode

/-! # The encoding chosen for an instruction -/

namespace Verif

/-- The mode of the grammar production for a written form (pasm.y:187-193). -/
def Form.mode : Spec.Form → Mode
  | .imm => .I
  | .dir => .a
  | .dirX => .ax
  | .dirY => .ay
  | .ind => .ind
  | .indX => .aix
  | .indY => .izy

/-- Narrow and wide mode of a form. -/
def Form.pair : Spec.Form → Mode × Option Mode
  | .imm => (.I, none)
  | .dir => (.zp, some .a)
  | .dirX => (.zpx, some .ax)
  | .dirY => (.zpy, some .ay)
  | .ind => (.zpi, some .ind)
  | .indX => (.izx, some .aix)
  | .indY => (.izy, none)

/-- The choice in closed form: narrow if it exists and the value fits, else wide if it exists, else narrow for values
that need more than 16 bits. -/
def pick (get : Mode → Int) (form : Spec.Form) (v : Int) : Option (Mode × Int) :=
  let n := (Form.pair form).1
  if get n ≠ -1 ∧ 0 ≤ v ∧ v < 256 then some (n, get n)
  else match (Form.pair form).2 with
    | some w =>
      if get w ≠ -1 then some (w, get w)
      else if get n ≠ -1 ∧ ¬ (256 ≤ v ∧ v < 65536) then some (n, get n) else none
    | none => if get n ≠ -1 ∧ ¬ (256 ≤ v ∧ v < 65536) then some (n, get n) else none

theorem encode_pick {get : Mode → Int} (hg : ∀ m, get m = -1 ∨ 0 ≤ get m) (hr : get .r = -1) (form : Spec.Form)
    (pc v : Int) : encode get (Form.mode form) pc v = pick get form v := by
  have hI := hg .I
  have hsrc : srcMode get (Form.mode form) = Form.mode form := by
    unfold srcMode
    rw [if_neg (fun h => h hr)]
  have h0 := hg .zp
  have h1 := hg .a
  have h2 := hg .zpx
  have h3 := hg .ax
  have h4 := hg .zpy
  have h5 := hg .ay
  have h6 := hg .zpi
  have h7 := hg .ind
  have h8 := hg .izx
  have h9 := hg .aix
  have h10 := hg .izy
  unfold encode nodeMode pick
  rw [hsrc]
  cases form <;> simp only [Form.mode, Form.pair, chooseMode, zpForm] <;>
    grind [effective, opShape, wideForm, zpForm]

/-- `m` implements the form. -/
def Form.has (form : Spec.Form) (m : Mode) : Prop := ∃ am ∈ form.modes, m.spec = some am

theorem has_narrow (form : Spec.Form) : Form.has form (Form.pair form).1 ∧ (Form.pair form).1 ≠ .r ∧
    opByteCount (Form.pair form).1 = 1 := by
  refine ⟨?_, ?_, ?_⟩
  · cases form <;> exact ⟨_, by simp [Spec.Form.modes], rfl⟩
  · cases form <;> decide
  · cases form <;> rfl

theorem has_wide {form : Spec.Form} {w : Mode} (h : (Form.pair form).2 = some w) : Form.has form w ∧ w ≠ .r ∧
    opByteCount w = 2 := by
  cases form <;> cases h <;> exact ⟨⟨_, by simp [Spec.Form.modes], rfl⟩, by decide, rfl⟩

theorem has_pair {form : Spec.Form} {m : Mode} (h : Form.has form m) (hr : m ≠ .r) :
    m = (Form.pair form).1 ∨ (Form.pair form).2 = some m := by
  obtain ⟨am, h1, h2⟩ := h
  cases form <;> cases m <;> cases h2 <;> revert h1 hr <;> decide

theorem pick_some {get : Mode → Int} {form : Spec.Form} {v : Int} {m : Mode} {c : Int}
    (h : pick get form v = some (m, c)) :
    c = get m ∧ get m ≠ -1 ∧ Form.has form m ∧ m ≠ .r ∧ (opByteCount m = 1 ∨ opByteCount m = 2) ∧
    (0 ≤ v → v < 65536 → opByteCount m = 1 → v < 256) ∧
    (opByteCount m = 2 → 0 ≤ v → ∀ m', Form.has form m' → m' ≠ .r → opByteCount m' = 1 → get m' = -1 ∨ 256 ≤ v) := by
  have hn := has_narrow form
  have key : ∀ m', Form.has form m' → m' ≠ .r → opByteCount m' = 1 → m' = (Form.pair form).1 := by
    intro m' h1 h2 h3
    rcases has_pair h1 h2 with h | h
    · exact h
    · have := has_wide h
      omega
  unfold pick at h
  simp only at h
  split at h
  · cases h
    rename_i hc
    exact ⟨rfl, hc.1, hn.1, hn.2.1, Or.inl hn.2.2, fun _ _ _ => hc.2.2, fun h2 => by omega⟩
  · rename_i hc
    split at h
    · rename_i w hw
      have hw' := has_wide hw
      split at h
      · cases h
        rename_i hg
        refine ⟨rfl, hg, hw'.1, hw'.2.1, Or.inr hw'.2.2, fun _ _ h1 => by omega, fun _ hv m' h1 h2 h3 => ?_⟩
        rw [key m' h1 h2 h3]
        by_cases hx : get (Form.pair form).1 = -1
        · exact Or.inl hx
        · exact Or.inr (Int.not_lt.1 fun hl => hc ⟨hx, hv, hl⟩)
      · split at h
        · cases h
          rename_i hg
          exact ⟨rfl, hg.1, hn.1, hn.2.1, Or.inl hn.2.2, fun h0 h1 _ => by omega, fun h2 => by omega⟩
        · cases h
    · split at h
      · cases h
        rename_i hg
        exact ⟨rfl, hg.1, hn.1, hn.2.1, Or.inl hn.2.2, fun h0 h1 _ => by omega, fun h2 => by omega⟩
      · cases h

theorem pick_none {get : Mode → Int} {form : Spec.Form} {v : Int} (h : pick get form v = none) (h0 : 0 ≤ v)
    (h1 : v < 65536) (m : Mode) (hm : Form.has form m) (hr : m ≠ .r) :
    get m = -1 ∨ (opByteCount m = 1 ∧ 256 ≤ v) := by
  have hn := has_narrow form
  have nar : ∀ (_ : ¬ (get (Form.pair form).1 ≠ -1 ∧ 0 ≤ v ∧ v < 256)),
      get (Form.pair form).1 = -1 ∨ (opByteCount (Form.pair form).1 = 1 ∧ 256 ≤ v) := by
    intro hc
    by_cases hx : get (Form.pair form).1 = -1
    · exact Or.inl hx
    · exact Or.inr ⟨hn.2.2, Int.not_lt.1 fun hl => hc ⟨hx, h0, hl⟩⟩
  unfold pick at h
  simp only at h
  split at h
  · cases h
  · rename_i hc
    rcases has_pair hm hr with rfl | hw
    · exact nar hc
    · rw [hw] at h
      simp only at h
      split at h
      · cases h
      · rename_i hg
        exact Or.inl (Classical.not_not.1 hg)

/-! ## The bytes -/

/-- The opcodes found for one mnemonic and written form are those the processor decodes. -/
structure Faithful (dec : Nat → Option (String × Spec.AMode)) (get : Mode → Int) (name : String) (form : Spec.Form) :
    Prop where
  range : ∀ m, get m = -1 ∨ (0 ≤ get m ∧ get m ≤ 255)
  sound : ∀ m, Form.has form m → get m ≠ -1 → ∃ am, dec (get m).toNat = some (name, am) ∧ m.spec = some am
  complete : ∀ op am, op < 256 → am ∈ form.modes → dec op = some (name, am) →
    ∃ m, m.spec = some am ∧ get m = (op : Int)

theorem spec_count {m : Mode} {am : Spec.AMode} (h : m.spec = some am) : opByteCount m = am.operandBytes := by
  cases m <;> cases h <;> rfl

theorem toBytes_bytes (l : List Int) : Spec.Bytes (toBytes l) := by
  intro b hb
  obtain ⟨x, _, rfl⟩ := List.mem_map.1 hb
  omega

theorem toBytes_length (l : List Int) : (toBytes l).length = l.length := List.length_map ..

/-- Reading back an operand that is not a branch target. -/
theorem instrBytes_le {m : Mode} {c pc v : Int} (hm : m ≠ .r) (h0 : 0 ≤ c) (h1 : c ≤ 255) (hv : 0 ≤ v) (hv' : v < 65536)
    (hc : opByteCount m = 1 ∨ opByteCount m = 2) (h8 : opByteCount m = 1 → v < 256) :
    ∃ rest, toBytes (instrBytes m c pc v) = c.toNat :: rest ∧ (rest.length : Int) = opByteCount m ∧
      (Spec.le rest : Int) = v := by
  unfold instrBytes operandValue toBytes
  rw [if_neg hm]
  rcases hc with h | h
  · rw [if_neg (by omega), if_pos h]
    have := h8 h
    refine ⟨[(v % 256 % 256).toNat], ?_, by simp [h], ?_⟩
    · simp only [List.map_cons, List.map_nil]
      congr 1
      omega
    · simp only [Spec.le]
      omega
  · rw [if_neg (by omega), if_neg (by omega)]
    refine ⟨[(v % 256 % 256).toNat, (v % 65536 / 256 % 256).toNat], ?_, by simp [h], ?_⟩
    · simp only [List.map_cons, List.map_nil]
      congr 1
      omega
    · simp only [Spec.le]
      omega

theorem denotes_ne {am : Spec.AMode} (h : am ≠ .relative) (pc : Int) (rest : List Nat) (v : Int) :
    Spec.Denotes am pc rest v ↔ (rest.length = am.operandBytes ∧ (Spec.le rest : Int) = v) := by
  unfold Spec.Denotes
  rw [if_neg h]

theorem spec_rel {m : Mode} {am : Spec.AMode} (h : m.spec = some am) : am = .relative ↔ m = .r := by
  cases m <;> cases h <;> simp

theorem le_lt : ∀ (l : List Nat), Spec.Bytes l → Spec.le l < 256 ^ l.length
  | [], _ => by simp [Spec.le]
  | b :: l, h => by
    have h1 := h b (List.mem_cons_self ..)
    have h2 := le_lt l (fun x hx => h x (List.mem_cons_of_mem _ hx))
    simp only [Spec.le, List.length_cons, Nat.pow_succ]
    omega

/-- The emitted bytes are an encoding, and a shortest one. -/
theorem encode_sound {dec : Nat → Option (String × Spec.AMode)} {get : Mode → Int} {name : String} {form : Spec.Form}
    (hF : Faithful dec get name form) (hr : get .r = -1) {pc v : Int} (h0 : 0 ≤ v) (h1 : v < 65536) {m : Mode} {c : Int}
    (h : encode get (Form.mode form) pc v = some (m, c)) :
    Spec.Encodes dec name form pc v (toBytes (instrBytes m c pc v)) ∧
    ∀ bs, Spec.Encodes dec name form pc v bs → (toBytes (instrBytes m c pc v)).length ≤ bs.length := by
  rw [encode_pick (fun m => by have := hF.range m; omega) hr] at h
  obtain ⟨rfl, hg, hm, hmr, hb, h8, hmin⟩ := pick_some h
  have hra := hF.range m
  obtain ⟨rest, e1, e2, e3⟩ := instrBytes_le (pc := pc) (c := get m) hmr (by omega) (by omega) h0 h1 hb (h8 h0 h1)
  obtain ⟨am, hd, hs⟩ := hF.sound m hm hg
  have hnr : am ≠ .relative := fun hh => hmr ((spec_rel hs).1 hh)
  have hlen : opByteCount m = am.operandBytes := spec_count hs
  refine ⟨⟨toBytes_bytes _, _, rest, am, e1, hd, ?_, (denotes_ne hnr ..).2 ⟨by omega, e3⟩⟩, ?_⟩
  · obtain ⟨am', ha, hs'⟩ := hm
    rw [hs] at hs'
    cases hs'
    exact ha
  · rintro bs ⟨hbs, op, rest', am', rfl, hd', ha', hden⟩
    rw [e1]
    simp only [List.length_cons]
    apply Nat.succ_le_succ
    obtain ⟨m', hs', hg''⟩ := hF.complete op am' (hbs op (List.mem_cons_self ..)) ha' hd'
    have hg' : get m' ≠ -1 := by omega
    have hmr' : m' ≠ .r := fun hh => by rw [hh] at hg'; exact hg' hr
    have hnr' : am' ≠ .relative := fun hh => hmr' ((spec_rel hs').1 hh)
    rw [denotes_ne hnr'] at hden
    have hl' := spec_count hs'
    have hle := le_lt rest' (fun x hx => hbs x (List.mem_cons_of_mem _ hx))
    have hp := has_narrow form
    rcases has_pair ⟨am', ha', hs'⟩ hmr' with hh | hh
    · have h1' : opByteCount m' = 1 := by rw [hh]; exact hp.2.2
      have hr1 : rest'.length = 1 := by omega
      rw [hr1] at hle
      rcases hb with hb | hb
      · omega
      · rcases hmin hb h0 m' ⟨am', ha', hs'⟩ hmr' h1' with h | h
        · exact absurd h hg'
        · omega
    · have := (has_wide hh).2.2
      omega

/-- Nothing is emitted only if there is no encoding. -/
theorem encode_complete {dec : Nat → Option (String × Spec.AMode)} {get : Mode → Int} {name : String}
    {form : Spec.Form} (hF : Faithful dec get name form) (hr : get .r = -1) {pc v : Int} (h0 : 0 ≤ v) (h1 : v < 65536)
    (h : encode get (Form.mode form) pc v = none) : ¬ ∃ bs, Spec.Encodes dec name form pc v bs := by
  rintro ⟨bs, hbs, op, rest', am', rfl, hd', ha', hden⟩
  rw [encode_pick (fun m => by have := hF.range m; omega) hr] at h
  obtain ⟨m', hs', hg''⟩ := hF.complete op am' (hbs op (List.mem_cons_self ..)) ha' hd'
  have hg' : get m' ≠ -1 := by omega
  have hmr' : m' ≠ .r := fun hh => by rw [hh] at hg'; exact hg' hr
  have hnr' : am' ≠ .relative := fun hh => hmr' ((spec_rel hs').1 hh)
  rw [denotes_ne hnr'] at hden
  have hl' := spec_count hs'
  have hle := le_lt rest' (fun x hx => hbs x (List.mem_cons_of_mem _ hx))
  rcases pick_none h h0 h1 m' ⟨am', ha', hs'⟩ hmr' with h | ⟨h2, h3⟩
  · exact hg' h
  · have hr1 : rest'.length = 1 := by omega
    rw [hr1] at hle
    omega

theorem nodeMode_code (get : Mode → Int) (mode0 : Mode) (v : Int) :
    (nodeMode get mode0 v).2 = get (nodeMode get mode0 v).1 := by
  unfold nodeMode chooseMode
  simp only
  split <;> split <;> rfl

/-- The opcode of an accepted instruction is the table entry of its mode. -/
theorem encode_code {get : Mode → Int} (hg : ∀ m, get m = -1 ∨ 0 ≤ get m) {mode0 m : Mode} {pc v c : Int}
    (h : encode get mode0 pc v = some (m, c)) : c = get m ∧ 0 ≤ c := by
  unfold encode at h
  split at h
  · cases h
  · rename_i h0
    have hn := nodeMode_code get mode0 v
    have hw := hg m
    unfold effective at h
    grind

theorem encode_branch {get : Mode → Int} (hr : 0 ≤ get .r) (mode0 : Mode) (pc v : Int) :
    encode get mode0 pc v = if branchBad (v - (pc + 2)) then none else some (.r, get .r) := by
  have h1 : srcMode get mode0 = .r := by
    unfold srcMode
    rw [if_pos (by omega)]
  have h2 : nodeMode get mode0 v = (.r, get .r) := by
    unfold nodeMode chooseMode
    rw [h1]
    simp [zpForm]
  unfold encode effective
  rw [h2, if_neg (by simpa using hr), if_neg (show ¬ (opShape .r).1 = 0 by decide), if_pos rfl]

theorem instrBytes_range {m : Mode} {c pc v : Int} (h0 : 0 ≤ c) (h1 : c ≤ 255) :
    (toBytes (instrBytes m c pc v)).map Int.ofNat = instrBytes m c pc v := by
  have key : ∀ l : List Int, (∀ x ∈ l, 0 ≤ x ∧ x ≤ 255) → (toBytes l).map Int.ofNat = l := by
    intro l hl
    unfold toBytes
    rw [List.map_map]
    conv => rhs; rw [← List.map_id l]
    apply List.map_congr_left
    intro x hx
    have := hl x hx
    simp only [Function.comp, id, Int.ofNat_eq_natCast]
    omega
  apply key
  intro x hx
  unfold instrBytes at hx
  split at hx
  · simp only [List.mem_cons, List.not_mem_nil, or_false] at hx
    omega
  · split at hx
    · simp only [List.mem_cons, List.not_mem_nil, or_false] at hx
      omega
    · simp only [List.mem_cons, List.not_mem_nil, or_false] at hx
      omega

/-! ## The tables are faithful -/

theorem instrOfName_names (ins : Int) (h0 : 0 ≤ ins) (h1 : ins < 98) :
    instrOfName (instrNames[ins.toNat]?.getD "") = some ins := by
  have key : ∀ k : Fin 98, instrOfName (instrNames[k.val]?.getD "") = some (k.val : Int) := by decide +kernel
  have := key ⟨ins.toNat, by omega⟩
  rw [this]
  simp only [Option.some.injEq]
  omega

theorem faithful_6502 (ill : Bool) (ins : Int) (h0 : 0 ≤ ins) (hd : ins < Ins._slo) (form : Spec.Form) :
    Faithful Spec.decode6502 (getOpCode .c6502 ill ins) (instrNames[ins.toNat]?.getD "") form where
  range := getOpCode_range _ _ _
  sound := by
    intro m hm hg
    obtain ⟨am, h1, h2⟩ := C49_encoding_sound_6502 ill ins m hd hg
    refine ⟨am, h1, h2.resolve_right ?_⟩
    rintro ⟨rfl, _⟩
    obtain ⟨am', h3, h4⟩ := hm
    cases h4
    cases form <;> revert h3 <;> decide
  complete := by
    intro op am hop _ h
    obtain ⟨ins', m, h1, h2, h3⟩ := C49_encoding_complete_6502 op hop _ am h
    rw [instrOfName_names ins h0 hd] at h1
    cases h1
    refine ⟨m, h2, ?_⟩
    rw [getOpCode_eq_of_lt hd m ill false, h3]

private def completeCheckC (k : Nat) : Bool :=
  match Spec.decode65C02 k with
  | none => true
  | some (n, am) => am == .zeroPageIndirect || am == .zeroPageRelative || (match instrOfName n with
    | none => false
    | some ins => Mode.all.any fun m => m.spec == some am && getOpCode .c65C02 false ins m == (k : Int))

theorem complete_65C02 (ill : Bool) (ins : Int) (h0 : 0 ≤ ins) (hd : ins < Ins._slo) (op : Nat) (am : Spec.AMode)
    (hop : op < 256) (hz1 : am ≠ .zeroPageIndirect) (hz2 : am ≠ .zeroPageRelative)
    (h : Spec.decode65C02 op = some (instrNames[ins.toNat]?.getD "", am)) :
    ∃ m : Mode, m.spec = some am ∧ getOpCode .c65C02 ill ins m = (op : Int) := by
  have := List.all_eq_true.1 (show (List.range 256).all completeCheckC = true by decide +kernel)
    op (List.mem_range.2 hop)
  simp only [completeCheckC, h, instrOfName_names ins h0 hd, Bool.or_eq_true, beq_iff_eq, hz1, hz2, false_or,
    List.any_eq_true, Bool.and_eq_true] at this
  obtain ⟨m, _, h1, h2⟩ := this
  refine ⟨m, h1, ?_⟩
  rw [getOpCode_eq_of_lt hd m ill false, h2]

theorem faithful_65C02 (ill : Bool) (ins : Int) (h0 : 0 ≤ ins) (hd : ins < Ins._slo)
    (hb : ¬ (Ins._bbr0 ≤ ins ∧ ins ≤ Ins._bbs7)) (form : Spec.Form) (hf : form ≠ .ind) :
    Faithful Spec.decode65C02 (getOpCode .c65C02 ill ins) (instrNames[ins.toNat]?.getD "") form where
  range := getOpCode_range _ _ _
  sound := by
    intro m hm hg
    have hmi : m ≠ .ind := by
      rintro rfl
      obtain ⟨am', h3, h4⟩ := hm
      cases h4
      cases form <;> revert h3 hf <;> decide
    obtain ⟨am, h1, h2⟩ := C49_encoding_sound_65C02_partial ill ins m hd (fun h => absurd h hmi) hb hg
    refine ⟨am, h1, h2.resolve_right ?_⟩
    rintro ⟨rfl, _⟩
    obtain ⟨am', h3, h4⟩ := hm
    cases h4
    cases form <;> revert h3 <;> decide
  complete := by
    intro op am hop ham h
    have := List.all_eq_true.1 (show (List.range 256).all completeCheckC = true by decide +kernel)
      op (List.mem_range.2 hop)
    have hz : am ≠ .zeroPageIndirect ∧ am ≠ .zeroPageRelative := by
      constructor <;> (rintro rfl; cases form <;> revert ham hf <;> decide)
    simp only [completeCheckC, h, instrOfName_names ins h0 hd, Bool.or_eq_true, beq_iff_eq, hz.1, hz.2, false_or,
      List.any_eq_true, Bool.and_eq_true] at this
    obtain ⟨m, _, h1, h2⟩ := this
    refine ⟨m, h1, ?_⟩
    rw [getOpCode_eq_of_lt hd m ill false, h2]

theorem le_inj : ∀ {a b : List Nat}, Spec.Bytes a → Spec.Bytes b → a.length = b.length → Spec.le a = Spec.le b → a = b
  | [], [], _, _, _, _ => rfl
  | [], _ :: _, _, _, h, _ => by cases h
  | _ :: _, [], _, _, h, _ => by cases h
  | x :: a, y :: b, ha, hb, hl, h => by
    have h1 := ha x (List.mem_cons_self ..)
    have h2 := hb y (List.mem_cons_self ..)
    simp only [Spec.le] at h
    have := le_inj (a := a) (b := b) (fun z hz => ha z (List.mem_cons_of_mem _ hz))
      (fun z hz => hb z (List.mem_cons_of_mem _ hz)) (by simpa using hl) (by omega)
    rw [this]
    congr 1
    omega

theorem spec_inj {m m' : Mode} {am : Spec.AMode} (h : m.spec = some am) (h' : m'.spec = some am) : m = m' := by
  cases m <;> cases h <;> cases m' <;> first | rfl | cases h'

/-- The encoding chosen by the assembler is the only shortest one. -/
theorem encode_unique {dec : Nat → Option (String × Spec.AMode)} {get : Mode → Int} {name : String} {form : Spec.Form}
    (hF : Faithful dec get name form) (hx : get .r ≠ -1 → ∀ m, m ≠ .r → get m = -1) {pc v : Int} (h0 : 0 ≤ v)
    (h1 : v < 65536) {bs : List Nat} (hbs : Spec.Encodes dec name form pc v bs)
    (hmin : ∀ bs', Spec.Encodes dec name form pc v bs' → bs.length ≤ bs'.length)
    (hback : get .r ≠ -1 → v ≠ pc + 2 - 128) :
    ∃ m c, encode get (Form.mode form) pc v = some (m, c) ∧ toBytes (instrBytes m c pc v) = bs := by
  have hbs0 := hbs
  obtain ⟨hby, op, rest, am, rfl, hdec, ham, hden⟩ := hbs
  obtain ⟨m, hm, hg⟩ := hF.complete op am (hby op (List.mem_cons_self ..)) ham hdec
  have hop := hby op (List.mem_cons_self ..)
  have hrest : Spec.Bytes rest := fun x hx => hby x (List.mem_cons_of_mem _ hx)
  by_cases hr : get .r = -1
  · cases hen : encode get (Form.mode form) pc v with
    | none => exact absurd ⟨_, hbs0⟩ (encode_complete hF hr h0 h1 hen)
    | some mc =>
      obtain ⟨m1, c1⟩ := mc
      obtain ⟨e1, e2⟩ := encode_sound hF hr h0 h1 hen
      refine ⟨m1, c1, rfl, ?_⟩
      have hlen := Nat.le_antisymm (e2 _ hbs0) (hmin _ e1)
      obtain ⟨hby1, op1, rest1, am1, he, hdec1, ham1, hden1⟩ := e1
      rw [he] at hlen ⊢ 
      obtain ⟨m2, hm2, hg2⟩ := hF.complete op1 am1 (hby1 op1 (by rw [he]; exact List.mem_cons_self ..)) ham1 hdec1
      have hnr : ∀ {m am o}, m.spec = some am → get m = ((o : Nat) : Int) → am ≠ .relative := by
        intro m am o h h' hh
        rw [(spec_rel h).1 hh] at h'
        omega
      rw [denotes_ne (hnr hm hg)] at hden
      rw [denotes_ne (hnr hm2 hg2)] at hden1
      have hmm : m = m2 := by
        have a1 := spec_count hm
        have a2 := spec_count hm2
        simp only [List.length_cons] at hlen
        have b1 := has_pair ⟨am, ham, hm⟩ (fun h => hnr hm hg ((spec_rel hm).2 h))
        have b2 := has_pair ⟨am1, ham1, hm2⟩ (fun h => hnr hm2 hg2 ((spec_rel hm2).2 h))
        have c1 := (has_narrow form).2.2
        rcases b1 with b1 | b1 <;> rcases b2 with b2 | b2
        · rw [b1, b2]
        · have := (has_wide b2).2.2
          rw [← b1] at c1
          omega
        · have := (has_wide b1).2.2
          rw [← b2] at c1
          omega
        · rw [b1] at b2
          exact Option.some.inj b2
      subst hmm
      have hopp : op1 = op := by omega
      subst hopp
      have hr1 : Spec.Bytes rest1 := fun x hx => hby1 x (by rw [he]; exact List.mem_cons_of_mem _ hx)
      rw [le_inj hr1 hrest (by simp only [List.length_cons] at hlen; omega) (by omega)]
  · have hmr : m = .r := by
      apply Classical.byContradiction
      intro h
      have := hx hr m h
      omega
    subst hmr
    have ha : am = .relative := (spec_rel hm).2 rfl
    subst ha
    unfold Spec.Denotes at hden
    rw [if_pos rfl] at hden
    obtain ⟨d, rfl, hd⟩ := hden
    have hdb := hrest d (List.mem_cons_self ..)
    have hdisp : -127 ≤ v - (pc + 2) ∧ v - (pc + 2) ≤ 127 := by
      have := hback hr
      unfold Spec.signed at hd
      split at hd <;> omega
    refine ⟨.r, get .r, ?_, ?_⟩
    · rw [encode_branch (by omega), if_neg (by simp [branchBad]; omega)]
    · show [_, _] = _
      simp only [operandValue, if_true]
      unfold Spec.signed at hd
      congr 1
      · omega
      · congr 1
        split at hd <;> omega

/-- A branch mnemonic has no other addressing mode. -/
theorem branch_only (cpu : Cpu) (ill : Bool) (ins : Int) (h0 : 0 ≤ ins) (hd : ins < Ins._slo)
    (hb : ¬ (Ins._bbr0 ≤ ins ∧ ins ≤ Ins._bbs7)) (h : getOpCode cpu ill ins .r ≠ -1) :
    ∀ m, m ≠ .r → getOpCode cpu ill ins m = -1 := by
  have key : ∀ cpu ∈ [Cpu.c6502, .c65C02], (List.range Ins._slo.toNat).all (fun k =>
      getOpCode cpu false k .r == -1 || decide (Ins._bbr0 ≤ (k : Int) ∧ (k : Int) ≤ Ins._bbs7) ||
        Mode.all.all fun m => m == .r || getOpCode cpu false k m == -1) = true := by decide +kernel
  intro m hm
  have hc := List.all_eq_true.1 (key cpu (by cases cpu <;> simp)) ins.toNat (List.mem_range.2 (by
    show ins.toNat < Ins._slo.toNat
    omega))
  have e : ((ins.toNat : Nat) : Int) = ins := by omega
  rw [e] at hc
  rw [getOpCode_eq_of_lt hd .r ill false] at h
  rw [getOpCode_eq_of_lt hd m ill false]
  simp only [Bool.or_eq_true, beq_iff_eq, h, false_or, decide_eq_true_eq, hb, List.all_eq_true] at hc
  exact (hc m (by cases m <;> decide)).resolve_left hm

/-- The row of an instruction shows its bytes. -/
theorem opRow_shows {s : St} {ins c : Int} {k : Nat} {m : Mode} (h0 : 0 ≤ c) (h1 : c ≤ 255) (pc v : Int) :
    Spec.Shows s.file s.line pc (toBytes (instrBytes m c pc v)) (listRow s (opRow ins k m c pc v)) := by
  have key := shows_row (s := s) (bs := toBytes (instrBytes m c pc v)) ?_ pc (opColumn ins k m v)
  · rw [instrBytes_range h0 h1] at key
    exact key
  intro b hb
  unfold toBytes at hb
  simp only [List.mem_map] at hb
  obtain ⟨x, _, rfl⟩ := hb
  omega

end Verif
