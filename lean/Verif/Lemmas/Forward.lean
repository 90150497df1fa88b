import Verif.Lemmas.Define

/-! # Instructions whose operand is a name without a value -/

namespace Verif

open Spec (Simple)

/-- The symbol table after the use of a name. -/
def useSyms (s : St) (n : Str) : List Sym :=
  match look s n with
  | some _ => s.syms
  | none => s.syms ++ [{ name := n, fullname := n }]

theorem useSyms_get {s : St} {n : Str} (hu : Undefined s n) : ∃ y, (useSyms s n)[slot s n]? = some { name := y, fullname := y } := by
  unfold useSyms slot
  cases hl : look s n with
  | none => exact ⟨n, by simp⟩
  | some i => exact hu i hl

theorem resolve_use {s : St} {q : Ptr} {k : IdKind} {n : Str} (hs : s.currentScope = none) (hn : Simple n)
    (h0 : Live s q ⟨.id k n none, 0, []⟩) :
    resolveId (n.head? == some 64) q s =
      (.ok (some (slot s n)), { s with syms := useSyms s n, nodes := s.nodes.set q ⟨.id k n (some (slot s n)), 0, []⟩ }) := by
  unfold resolveId
  rw [bind_ok h0.run]
  show (addSymbol n >>= fun j => setNode q ⟨.id k n j, 0, []⟩ >>= fun _ => M.pure j) s = _
  unfold useSyms slot
  cases hl : look s n with
  | none =>
    let s1 : St := { s with syms := s.syms ++ [{ name := n, fullname := n }] }
    have ha : addSymbol n s = (.ok (some s.syms.length), s1) := by
      rw [addSymbol_new hn.plain hl, hn.newSym hs]
    rw [bind_ok ha, bind_ok (Live.set (s := s1) h0 _)]
    rfl
  | some i =>
    rw [bind_ok (addSymbol_run hn.plain hl), bind_ok (h0.set _)]
    rfl

theorem not_pm {n : Str} (hn : Simple n) : isPmName n = false :=
  isPm_false (fun hc => (hn.chars (hn.head hc)).2.2.1 rfl) (fun hc => (hn.chars (hn.head hc)).2.2.2.1 rfl)

/-- The value of a name without a value. -/
theorem use_run {f : Nat} {s : St} {q : Ptr} {n : Str} (he : s.endExpansion = false) (hs : s.currentScope = none) (hn : Simple n)
    (hu : Undefined s n) (h0 : Live s q ⟨.id .id n none, 0, []⟩) :
    expandNode (f + 1) q s =
      (.ok 0, { s with syms := useSyms s n, nodes := s.nodes.set q ⟨.id .id n (some (slot s n)), 0, []⟩ }) := by
  obtain ⟨y, hy⟩ := useSyms_get hu
  rw [expandNode_run he h0]
  show expandId q n s = _
  unfold expandId
  rw [not_pm hn, if_neg Bool.false_ne_true, bind_ok (resolve_use hs hn h0)]
  let s1 : St := { s with syms := useSyms s n, nodes := s.nodes.set q ⟨.id .id n (some (slot s n)), 0, []⟩ }
  show symValue (slot s n) s1 = _
  unfold symValue
  rw [bind_ok (sym_run (s := s1) hy)]
  rfl

/-- The second time. -/
theorem again_run {f : Nat} {s : St} {q : Ptr} {n : Str} {i : SymPtr} {y : Str} (he : s.endExpansion = false) (hn : Simple n)
    (hy : s.syms[i]? = some { name := y, fullname := y }) (h0 : Live s q ⟨.id .id n (some i), 0, []⟩) :
    expandNode (f + 1) q s = (.ok 0, s) := by
  have h64 : (n.head? == some 64) = false := by
    rw [beq_eq_false_iff_ne]
    exact fun hc => (hn.chars (hn.head hc)).2.1 rfl
  rw [expandNode_run he h0]
  show expandId q n s = _
  unfold expandId
  rw [not_pm hn, if_neg Bool.false_ne_true, h64]
  have : resolveId false q s = (.ok (some i), s) := by
    unfold resolveId
    rw [bind_ok h0.run]
    rfl
  rw [bind_ok this]
  show symValue i s = _
  unfold symValue
  rw [bind_ok (sym_run hy)]
  rfl

/-- Mode and opcode of the node for an operand without a value. -/
def openMode (get : Mode → Int) (mode : Mode) : Mode × Int := chooseMode get (srcMode get mode) false

/-- The size of an instruction that has but one size: with and without the value of its operand. -/
theorem open_size {cpu : Cpu} {ill : Bool} {ins : Int} {form : Spec.Form} {pc v : Int} {bs : List Nat}
    (h : Spec.Shortest cpu ins form pc v bs)
    (hl : ∀ v' bs', Spec.Encodes (Spec.decodeOf cpu) (Spec.mnemonic ins) form pc v' bs' → bs'.length ≤ bs.length) :
    0 ≤ (openMode (getOpCode cpu ill ins) (Form.mode form)).2 ∧
      opByteCount (openMode (getOpCode cpu ill ins) (Form.mode form)).1 + 1 = bs.length := by
  obtain ⟨m, c, henc, hbs⟩ := shortest_encode (ill := ill) h
  obtain ⟨h0, h1, h2, h3, h4, h5, h6, h7, h8⟩ := h
  have hF : Faithful (Spec.decodeOf cpu) (getOpCode cpu ill ins) (Spec.mnemonic ins) form := by
    cases cpu with
    | c6502 => exact faithful_6502 ill ins h0 h1 form
    | c65C02 => exact faithful_65C02 ill ins h0 h1 h2 form (h3 rfl)
  have hlen : opByteCount m + 1 = bs.length := by
    rw [← hbs, toBytes_length]
    unfold instrBytes
    cases m <;> simp [opByteCount]
  have hg : ∀ m, getOpCode cpu ill ins m = -1 ∨ 0 ≤ getOpCode cpu ill ins m := fun m => (hF.range m).imp id And.left
  rw [← hlen]
  have hwide : ∀ w, (Form.pair form).2 = some w → getOpCode cpu ill ins w ≠ -1 → opByteCount m = 2 := by
    intro w hw hne
    have hhas : Form.has form w ∧ w ≠ .r ∧ opByteCount w = 2 := by
      cases form <;> cases hw <;> exact ⟨⟨_, by simp [Spec.Form.modes], rfl⟩, by decide, rfl⟩
    obtain ⟨am, a1, a2⟩ := hF.sound w hhas.1 hne
    obtain ⟨am', b1, b2⟩ := hhas.1
    cases a2.symm.trans b2
    have hr : am ≠ .relative := by
      rintro rfl
      cases w <;> cases a2
      exact hhas.2.1 rfl
    have hrange := hF.range w
    have := hl 0 [(getOpCode cpu ill ins w).toNat, 0, 0] ⟨by
      intro b hb
      simp only [List.mem_cons, List.not_mem_nil, or_false] at hb
      omega, _, _, am, rfl, a1, b1, by
      unfold Spec.Denotes
      rw [if_neg hr]
      have := spec_count a2
      rw [hhas.2.2] at this
      exact ⟨by simp only [List.length_cons, List.length_nil]; omega, by decide⟩⟩
    simp only [List.length_cons, List.length_nil] at this
    have : opByteCount m ≤ 2 := by cases m <;> decide
    omega
  by_cases hr : getOpCode cpu ill ins .r = -1
  · rw [encode_pick hg hr] at henc
    have hsrc : srcMode (getOpCode cpu ill ins) (Form.mode form) = Form.mode form := by
      unfold srcMode
      rw [if_neg (fun h => h hr)]
    unfold openMode
    rw [hsrc]
    generalize getOpCode cpu ill ins = get at henc hg hwide
    clear hsrc hF hl h6 h7 h8
    have g0 := hg .zp
    have g1 := hg .a
    have g2 := hg .zpx
    have g3 := hg .ax
    have g4 := hg .zpy
    have g5 := hg .ay
    have g6 := hg .zpi
    have g7 := hg .ind
    have g8 := hg .izx
    have g9 := hg .aix
    have g10 := hg .izy
    have g11 := hg .I
    unfold pick at henc
    cases form <;> simp only [Form.pair, Form.mode, chooseMode, zpForm, Option.some.injEq, forall_eq'] at henc hwide ⊢ <;>
      grind [opByteCount]
  · have hsrc : srcMode (getOpCode cpu ill ins) (Form.mode form) = .r := by
      unfold srcMode
      rw [if_pos hr]
    unfold encode nodeMode at henc
    unfold openMode
    rw [hsrc] at henc ⊢
    have hc : ∀ b, chooseMode (getOpCode cpu ill ins) .r b = (.r, getOpCode cpu ill ins .r) := by
      intro b
      unfold chooseMode
      simp [zpForm]
    rw [hc] at henc ⊢
    have := hg .r
    split at henc
    · cases henc
    · unfold effective at henc
      rw [if_neg (by show ¬ (2 : Int) = 0; decide), if_pos rfl] at henc
      split at henc
      · cases henc
      · cases henc
        exact ⟨by omega, rfl⟩

/-- When the operand gets its value between building and expanding, the instruction is the right one. -/
theorem open_effective {cpu : Cpu} {ill : Bool} {ins : Int} {form : Spec.Form} {pc v : Int} {bs : List Nat}
    (h : Spec.Shortest cpu ins form pc v bs)
    (hl : ∀ v' bs', Spec.Encodes (Spec.decodeOf cpu) (Spec.mnemonic ins) form pc v' bs' → bs'.length ≤ bs.length) :
    ∃ m c, effective (getOpCode cpu ill ins) (openMode (getOpCode cpu ill ins) (Form.mode form)).1
      (openMode (getOpCode cpu ill ins) (Form.mode form)).2 pc v = some (m, c) ∧ opByteCount m + 1 = bs.length := by
  obtain ⟨m, c, henc, hbs⟩ := shortest_encode (ill := ill) h
  obtain ⟨h0, h1, h2, h3, h4, h5, h6, h7, h8⟩ := h
  have hF : Faithful (Spec.decodeOf cpu) (getOpCode cpu ill ins) (Spec.mnemonic ins) form := by
    cases cpu with
    | c6502 => exact faithful_6502 ill ins h0 h1 form
    | c65C02 => exact faithful_65C02 ill ins h0 h1 h2 form (h3 rfl)
  have hlen : opByteCount m + 1 = bs.length := by
    rw [← hbs, toBytes_length]
    unfold instrBytes
    cases m <;> simp [opByteCount]
  have hg : ∀ m, getOpCode cpu ill ins m = -1 ∨ 0 ≤ getOpCode cpu ill ins m := fun m => (hF.range m).imp id And.left
  refine ⟨m, c, ?_, hlen⟩
  have hwide : ∀ w, (Form.pair form).2 = some w → getOpCode cpu ill ins w ≠ -1 → opByteCount m = 2 := by
    intro w hw hne
    have hhas : Form.has form w ∧ w ≠ .r ∧ opByteCount w = 2 := by
      cases form <;> cases hw <;> exact ⟨⟨_, by simp [Spec.Form.modes], rfl⟩, by decide, rfl⟩
    obtain ⟨am, a1, a2⟩ := hF.sound w hhas.1 hne
    obtain ⟨am', b1, b2⟩ := hhas.1
    cases a2.symm.trans b2
    have hr : am ≠ .relative := by
      rintro rfl
      cases w <;> cases a2
      exact hhas.2.1 rfl
    have hrange := hF.range w
    have := hl 0 [(getOpCode cpu ill ins w).toNat, 0, 0] ⟨by
      intro b hb
      simp only [List.mem_cons, List.not_mem_nil, or_false] at hb
      omega, _, _, am, rfl, a1, b1, by
      unfold Spec.Denotes
      rw [if_neg hr]
      have := spec_count a2
      rw [hhas.2.2] at this
      exact ⟨by simp only [List.length_cons, List.length_nil]; omega, by decide⟩⟩
    simp only [List.length_cons, List.length_nil] at this
    have : opByteCount m ≤ 2 := by cases m <;> decide
    omega
  by_cases hr : getOpCode cpu ill ins .r = -1
  · rw [encode_pick hg hr] at henc
    have hsrc : srcMode (getOpCode cpu ill ins) (Form.mode form) = Form.mode form := by
      unfold srcMode
      rw [if_neg (fun h => h hr)]
    unfold openMode
    rw [hsrc]
    generalize getOpCode cpu ill ins = get at henc hg hwide
    clear hsrc hF hl h6 h7 h8
    have g0 := hg .zp
    have g1 := hg .a
    have g2 := hg .zpx
    have g3 := hg .ax
    have g4 := hg .zpy
    have g5 := hg .ay
    have g6 := hg .zpi
    have g7 := hg .ind
    have g8 := hg .izx
    have g9 := hg .aix
    have g10 := hg .izy
    have g11 := hg .I
    unfold pick at henc
    cases form <;> simp only [Form.pair, Form.mode, chooseMode, zpForm, Option.some.injEq, forall_eq'] at henc hwide ⊢ <;>
      grind [opByteCount, effective, opShape, wideForm, zpForm]
  · have hsrc : srcMode (getOpCode cpu ill ins) (Form.mode form) = .r := by
      unfold srcMode
      rw [if_pos hr]
    unfold encode nodeMode at henc
    unfold openMode
    rw [hsrc] at henc ⊢
    have hc : ∀ b, chooseMode (getOpCode cpu ill ins) .r b = (.r, getOpCode cpu ill ins .r) := by
      intro b
      unfold chooseMode
      simp [zpForm]
    rw [hc] at henc ⊢
    have := hg .r
    split at henc
    · cases henc
    · exact henc

end Verif
