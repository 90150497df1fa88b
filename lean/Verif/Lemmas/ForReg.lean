import Verif.Lemmas.Program
import Verif.Lemmas.LongBranch
import Verif.Props.LongBranch
import Verif.Spec.RegLoop

/-! # Loops over an index register -/

namespace Verif

/-! ## Instructions built during expansion -/

theorem built_inv {m : M Ptr} {s s' : St} {p : Ptr} (h : built m s = (.ok (some p), s')) : m s = (.ok p, s') := by
  unfold built at h
  rw [run_bind] at h
  rcases hr : m s with ⟨r, t⟩
  rw [hr] at h
  cases r <;> cases h
  rfl

/-- An inserted instruction: the bytes are assembled. -/
def Injects (f : Nat) (ins : Int) (mode : Mode) (arg : Option Int) (s : St) (bs : List Nat) : Prop :=
  ∃ s', injectOp (expandNode (f + 1)) (hasUninit (f + 1)) ins mode arg s = (.ok (), s') ∧ Eff false s s' bs ∧ s'.syms = s.syms

/-- An inserted instruction without operand. -/
theorem inject_implied {f : Nat} {s : St} {ins : Int} {fresh : Bool} (hf : Flat s fresh)
    (hr : getOpCode s.cpu s.allowIllegal ins .r = -1) (hi : 0 ≤ getOpCode s.cpu s.allowIllegal ins .i)
    (h255 : getOpCode s.cpu s.allowIllegal ins .i ≤ 255) :
    Injects f ins .i none s [(getOpCode s.cpu s.allowIllegal ins .i).toNat] := by
  let N1 : Node := ⟨.opcode ins (getOpCode s.cpu s.allowIllegal ins .i) .i 0, 0, []⟩
  have h1 : opcodeNode (expandNode (f + 1)) (hasUninit (f + 1)) ins .i [] s =
      (.ok s.nodes.length, { s with nodes := s.nodes ++ [N1] }) :=
    built_inv (buildImplied_run (ex := expandNode (f + 1)) (f := f) hf.heap hr hi false)
  let s1 : St := { s with nodes := s.nodes ++ [N1] }
  have hl : Live s1 s.nodes.length N1 := Live.alloc hf.heap N1
  obtain ⟨v, s', r, e, hs⟩ := opNode_run (f := f) (s := s1) (v := 0) (m := .i) (c := getOpCode s.cpu s.allowIllegal ins .i)
    hf.running hf.origin hf.room hl (fun h => absurd h (Int.lt_irrefl 0)) (by unfold effective; exact if_pos rfl)
  have e0 : Eff false s s1 [] := Eff.heap (HeapSim.append true _ _ _)
  refine ⟨s', ?_, ?_, hs⟩
  · unfold injectOp
    rw [pure_bind', bind_ok h1, bind_ok r]
    rfl
  · have := e0.comp hf.count e
    rw [List.nil_append] at this
    have hb : toBytes (instrBytes .i (getOpCode s.cpu s.allowIllegal ins .i) s1.pc 0) =
        [(getOpCode s.cpu s.allowIllegal ins .i).toNat] := by
      show [(getOpCode s.cpu s.allowIllegal ins .i % 256).toNat] = _
      congr 2
      omega
    rw [hb] at this
    exact this

theorem eval_const {env : Str → Option Int} {pc v : Int} (hv : 0 ≤ v ∧ v ≤ 65535) :
    Spec.eval env pc (.int v) = some (v, false) := by
  unfold Spec.eval Spec.rng
  rw [if_pos (by omega)]
  rfl

/-- The tree of an inserted instruction with a constant operand. -/
theorem inject_build {f : Nat} {s : St} {ins v : Int} {mode : Mode} {fresh : Bool} (hf : Flat s fresh) (h1f : 2 ≤ f)
    (hv : 0 ≤ v ∧ v ≤ 65535)
    (hcode : 0 ≤ (nodeMode (getOpCode s.cpu s.allowIllegal ins) mode v).2) :
    ∃ ns p q, (∀ r : Res Int × St, expandNode (f + 1) p { s with nodes := ns } = r → ∀ v' s', r = (.ok v', s') →
        injectOp (expandNode (f + 1)) (hasUninit (f + 1)) ins mode (some v) s = (.ok (), s')) ∧
      HeapSim false (look s) s.nodes ns ∧ s.nodes.length ≤ p ∧
      ns[p]? = some ⟨.opcode ins (nodeMode (getOpCode s.cpu s.allowIllegal ins) mode v).2
        (nodeMode (getOpCode s.cpu s.allowIllegal ins) mode v).1 0, 1, [q]⟩ ∧
      ExprAt (look s) s.nodeBase ns (.int v) q ∧ Done (look s) s.syms ns (.int v) q := by
  obtain ⟨ns, p, q, r, h⟩ := buildOp_run (f := f + 1) (s := s) (e := .int v) (v := v) (ins := ins) (mode0 := mode)
    (by simp only [Expr.depth]; omega) hf.running hf.heap (eval_const hv) rfl hcode false
  refine ⟨ns, p, q, ?_, h⟩
  intro r' hr' v' s' hrs
  have r := built_inv r
  unfold injectOp
  show ((constantNode v false >>= fun c => M.pure [c]) >>= fun ops =>
    opcodeNode (expandNode (f + 1)) (hasUninit (f + 1)) ins mode ops >>= fun p => expandNode (f + 1) p >>= fun _ => M.pure ()) s = _
  rw [bind_assoc']
  have r' : (constantNode v false >>= fun c => opcodeNode (expandNode (f + 1)) (hasUninit (f + 1)) ins mode [c]) s =
    (.ok p, { s with nodes := ns }) := r
  obtain ⟨c, t, hc, ht⟩ := bind_ok_inv r'
  rw [bind_ok hc, pure_bind', bind_ok ht, bind_ok (hr'.trans hrs)]
  rfl

/-- An inserted instruction with an operand for which a short form exists. -/
theorem inject_short {f : Nat} {s : St} {ins v : Int} {mode : Mode} {fresh : Bool} {m : Mode} {c : Int}
    (hf : Flat s fresh) (h1f : 2 ≤ f) (hv : 0 ≤ v ∧ v ≤ 65535)
    (henc : encode (getOpCode s.cpu s.allowIllegal ins) mode s.pc v = some (m, c)) :
    Injects f ins mode (some v) s (toBytes (instrBytes m c s.pc v)) := by
  unfold encode at henc
  split at henc
  · cases henc
  · rename_i hcode
    obtain ⟨ns, p, q, r, h2, h3, h4, h5, h6⟩ := inject_build (f := f) hf h1f hv (Int.not_lt.1 hcode)
    let s1 : St := { s with nodes := ns }
    have hl : Live s1 p _ := ⟨Nat.le_trans hf.heap h3, h4⟩
    obtain ⟨v', s', r', e, hs⟩ := opNode_run (f := f) (s := s1) (v := v) hf.running hf.origin hf.room hl
      (fun _ => ⟨q, .int v, rfl, rfl, by simp only [Expr.depth]; omega, h5, h6, eval_const hv⟩) henc
    have e0 : Eff false s s1 [] := Eff.heap h2.mono
    have := e0.comp hf.count e
    rw [List.nil_append] at this
    exact ⟨s', r _ r' _ _ rfl, this, hs⟩

/-- An inserted branch that is too long. -/
theorem inject_long {f : Nat} {s : St} {ins v : Int} {fresh : Bool}
    (hf : Flat s fresh) (h1f : 2 ≤ f) (hv : 0 ≤ v ∧ v ≤ 65535) (hp : 0 ≤ s.pc ∧ s.pc + 5 ≤ 65535)
    (hr : 0 ≤ getOpCode s.cpu s.allowIllegal ins .r)
    (hr2 : getOpCode s.cpu s.allowIllegal (invertBranch ins) .r ≠ -1) (hbad : branchBad (v - (s.pc + 2)) = true) :
    ∃ s'', injectOp (expandNode (f + 1)) (hasUninit (f + 1)) ins .r (some v) s = (.ok (), warned s'') ∧
      Eff false s s'' (longBytes (getOpCode s.cpu s.allowIllegal (invertBranch ins) .r) s.pc v) ∧ s''.syms = s.syms := by
  have hnm : nodeMode (getOpCode s.cpu s.allowIllegal ins) .r v = (.r, getOpCode s.cpu s.allowIllegal ins .r) := by
    unfold nodeMode chooseMode srcMode
    simp [zpForm]
  obtain ⟨ns, p, q, r, h2, h3, h4, h5, h6⟩ := inject_build (f := f) (ins := ins) (mode := .r) hf h1f hv (by rw [hnm]; exact hr)
  rw [hnm] at h4
  let s1 : St := { s with nodes := ns }
  have hl : Live s1 p _ := ⟨Nat.le_trans hf.heap h3, h4⟩
  have ho : orig s1 = s1 := orig_id hf.origin
  obtain ⟨s'', r', a⟩ := expandOp_long (f := f) (s := s1) (H := s.nodes) hf.running h2.mono h3 hl
    (Nat.le_trans hf.heap h2.1) (by simp only [Expr.depth]; omega) h5 h6
    (eval_const hv) rfl (eval_const hv) (fun _ n => by intro h; cases h) (by unfold InInt; show _ ≤ v - (s.pc + 2) ∧ v - (s.pc + 2) < _; omega) hbad hr2
    (by unfold InInt; show _ ≤ s.pc + 5 ∧ s.pc + 5 < _; omega) hf.count (by rw [ho]; exact hf.room)
  rw [ho] at a
  refine ⟨s'', r _ ((expandNode_run (s := s1) hf.running hl).trans r') _ _ rfl, Eff.of (s := s) a, ?_⟩
  obtain ⟨_, _, _, _, _, _, rfl⟩ := a
  rfl

/-! ## Opcodes -/

/-- Opcodes of the inserted instructions, the same for both processors. -/
structure RegCodes (cpu : Cpu) (ill : Bool) : Prop where
  ldx : getOpCode cpu ill Ins._ldx .I = 0xA2 ∧ getOpCode cpu ill Ins._ldx .r = -1
  ldy : getOpCode cpu ill Ins._ldy .I = 0xA0 ∧ getOpCode cpu ill Ins._ldy .r = -1
  cpx : getOpCode cpu ill Ins._cpx .I = 0xE0 ∧ getOpCode cpu ill Ins._cpx .r = -1
  cpy : getOpCode cpu ill Ins._cpy .I = 0xC0 ∧ getOpCode cpu ill Ins._cpy .r = -1
  inx : getOpCode cpu ill Ins._inx .i = 0xE8 ∧ getOpCode cpu ill Ins._inx .r = -1
  iny : getOpCode cpu ill Ins._iny .i = 0xC8 ∧ getOpCode cpu ill Ins._iny .r = -1
  dex : getOpCode cpu ill Ins._dex .i = 0xCA ∧ getOpCode cpu ill Ins._dex .r = -1
  dey : getOpCode cpu ill Ins._dey .i = 0x88 ∧ getOpCode cpu ill Ins._dey .r = -1
  bcc : getOpCode cpu ill Ins._bcc .r = 0x90
  bcs : getOpCode cpu ill Ins._bcs .r = 0xB0

theorem regCodes (cpu : Cpu) (ill : Bool) : RegCodes cpu ill := by
  constructor <;> (cases cpu <;> cases ill <;> decide +kernel)

theorem encode_imm {get : Mode → Int} {pc v c : Int} (hr : get .r = -1) (hI : get .I = c) (hc : 0 ≤ c)
    (hv : 0 ≤ v ∧ v ≤ 255) : encode get .I pc v = some (.I, c) := by
  have hn : nodeMode get .I v = (.I, c) := by
    unfold nodeMode chooseMode srcMode
    simp [zpForm, hr, hI]
  unfold encode
  rw [hn, if_neg (by simpa using hc)]
  show effective get .I c pc v = _
  unfold effective
  rw [if_neg (by decide), if_neg (by decide), if_pos (by decide), if_neg (by omega)]

theorem imm_bytes {c pc v : Int} (hc : 0 ≤ c ∧ c ≤ 255) (hv : 0 ≤ v ∧ v ≤ 255) :
    toBytes (instrBytes .I c pc v) = [c.toNat, v.toNat] := by
  show [(c % 256).toNat, (v % 256 % 256).toNat] = _
  congr 1
  · omega
  · congr 1; omega

/-- The bytes of a branch back to `v`. -/
def backBytes (c ci : Nat) (pc v : Int) : List Nat :=
  if branchBad (v - (pc + 2)) then [ci, 3, 0x4C, (v % 256).toNat, (v / 256 % 256).toNat]
  else [c, ((v - (pc + 2)) % 256).toNat]

/-- An inserted branch. -/
theorem inject_branch {f : Nat} {s : St} {ins v : Int} {c ci : Nat} {fresh : Bool}
    (hf : Flat s fresh) (h1f : 2 ≤ f) (hv : 0 ≤ v ∧ v ≤ 65535) (hp : 0 ≤ s.pc ∧ s.pc + 5 ≤ 65535)
    (hr : getOpCode s.cpu s.allowIllegal ins .r = c) (hci : getOpCode s.cpu s.allowIllegal (invertBranch ins) .r = ci)
    (hc : c ≤ 255) (hci' : ci ≤ 255) :
    ∃ s' s'', injectOp (expandNode (f + 1)) (hasUninit (f + 1)) ins .r (some v) s = (.ok (), s') ∧
      (s' = s'' ∨ s' = warned s'') ∧ Eff false s s'' (backBytes c ci s.pc v) ∧ s''.syms = s.syms := by
  unfold backBytes
  by_cases hbad : branchBad (v - (s.pc + 2)) = true
  · obtain ⟨s'', r, e, hs⟩ := inject_long (f := f) (ins := ins) hf h1f hv hp (by omega) (by omega) hbad
    rw [hci, longBytes_eq (by omega) (by omega)] at e
    rw [if_pos hbad]
    exact ⟨_, s'', r, Or.inr rfl, e, hs⟩
  · rw [if_neg hbad]
    have henc : encode (getOpCode s.cpu s.allowIllegal ins) .r s.pc v = some (.r, (c : Int)) := by
      have hnm : nodeMode (getOpCode s.cpu s.allowIllegal ins) .r v = (.r, (c : Int)) := by
        unfold nodeMode chooseMode srcMode
        simp [zpForm, hr]
      unfold encode
      rw [hnm, if_neg (by simp)]
      show effective _ .r (c : Int) s.pc v = _
      unfold effective
      rw [if_neg (by decide), if_pos rfl, if_neg hbad]
    obtain ⟨s', r, e, hs⟩ := inject_short (f := f) (ins := ins) hf h1f hv henc
    refine ⟨s', s', r, Or.inl rfl, ?_, hs⟩
    have : toBytes (instrBytes .r c s.pc v) = [c, ((v - (s.pc + 2)) % 256).toNat] := by
      show [((c : Int) % 256).toNat, (operandValue .r s.pc v % 256 % 256).toNat] = _
      simp only [operandValue, if_true]
      congr 1
      · omega
      · congr 1; omega
    rw [this] at e
    exact e

/-! ## The loop -/

/-- The nest counter of a register changes. -/
def reFor (isX : Bool) (d : Int) (s : St) : St := if isX then { s with forX := s.forX + d } else { s with forY := s.forY + d }

theorem addForCount_run (isX : Bool) (d : Int) (s : St) : addForCount isX d s = (.ok (), reFor isX d s) := rfl

theorem forCount_reFor (isX : Bool) (d : Int) (s : St) : forCount isX (reFor isX d s) = forCount isX s + d := by
  cases isX <;> rfl

theorem Eff.reFor {isX : Bool} {s t : St} {bs : List Nat} (h : Eff false (Verif.reFor isX 1 s) t bs) :
    Eff false s (Verif.reFor isX (-1) t) bs := by
  obtain ⟨ys, ns, cg, ds, bd, et, md, mi, hd, ls, g1, g2, g3, rfl⟩ := h
  cases isX
  · refine ⟨ys, ns, cg, ds, bd, et, md, mi, hd, ls, g1, g2, g3, ?_⟩
    simp only [Verif.reFor, Bool.false_eq_true, if_false]
    congr 1
    omega
  · refine ⟨ys, ns, cg, ds, bd, et, md, mi, hd, ls, g1, g2, g3, ?_⟩
    simp only [Verif.reFor, if_true]
    congr 1
    omega

theorem Eff.forCount {isX : Bool} {s t : St} {bs : List Nat} (h : Eff false s t bs) : Verif.forCount isX t = Verif.forCount isX s := by
  obtain ⟨ys, ns, cg, ds, bd, et, md, mi, hd, ls, g1, g2, g3, rfl⟩ := h
  rfl

theorem Fits.reFor {C : Spec.Context} {slot : Str → Option Nat} {s : St} (isX : Bool) (d : Int) (h : Fits false C slot s) :
    Fits false C slot (Verif.reFor isX d s) := by
  obtain ⟨h1, h2, h3, h4, h5, h6⟩ := h
  have h6 := Or.inl (b := false = true ∧ Calls C slot (Verif.reFor isX d s)) (h6.resolve_right fun h => by cases h.1)
  cases isX <;> exact ⟨h1, h2, h3, h4, h5, h6⟩

theorem Ref.reFor {s : St} {k : Spec.Cfg} (isX : Bool) (d : Int) (h : Ref false s k) : Ref false (Verif.reFor isX d s) k := by
  obtain ⟨h1, h2, h3⟩ := h
  obtain ⟨g1, g2, g3, g4, g5, g6⟩ := h3
  cases isX <;> exact ⟨h1, h2, g1, g2, g3, g4, g5, g6⟩

theorem Keeps.reFor (isX : Bool) (d : Int) (s : St) : Keeps false s (Verif.reFor isX d s) := by
  cases isX <;> exact ⟨rfl, rfl, rfl, fun _ _ => rfl, fun _ x hx hi => ⟨x, hx, hi⟩, WSim.refl _ _ _⟩

theorem warned_reFor (isX : Bool) (d : Int) (s : St) : reFor isX d (warned s) = warned (reFor isX d s) := by
  cases isX <;> (unfold warned reFor; simp only [Bool.false_eq_true, if_false, if_true]; split <;> rfl)

theorem forCount_warned (isX : Bool) (s : St) : forCount isX (warned s) = forCount isX s := by
  unfold warned
  split <;> rfl

theorem leaveForReg_run {isX : Bool} {s : St} (h : forCount isX s = 1) : leaveForReg isX s = (.ok 0, reFor isX (-1) s) := by
  unfold leaveForReg
  rw [bind_ok (addForCount_run isX (-1) s), getS_bind, forCount_reFor, h, if_neg (by decide)]
  rfl

/-- The code after the body of a loop from `a` to `b ≠ a`. -/
def tailBytes (isX up : Bool) (b : Nat) (pc start : Int) : List Nat :=
  if up then [if isX then 0xE8 else 0xC8, if isX then 0xE0 else 0xC0, b + 1] ++ backBytes 0x90 0xB0 (pc + 3) start
  else [if isX then 0xCA else 0x88, if isX then 0xE0 else 0xC0, b] ++ backBytes 0xB0 0x90 (pc + 3) start

theorem envOf_inject {s s' : St} {bs : List Nat} {k : Spec.Cfg} (href : Ref false s k) (he : Eff false s s' bs) (hs : s'.syms = s.syms) :
    Ref false s' (k.emit bs) := href.emit he (by rw [envOf_eff he hs]; exact href.env)

theorem forRegTail_run {f : Nat} {s : St} {k : Spec.Cfg} {isX up : Bool} {b : Nat} {start : Int} (h1f : 2 ≤ f) (href : Ref false s k)
    (hb1 : 1 ≤ b) (hb2 : b ≤ 255) (hup : up = true → b < 255) (hstart : 0 ≤ start) (hpc : start ≤ s.pc ∧ s.pc + 8 ≤ 65535) :
    ∃ s' s'', forRegTail (expandNode (f + 1)) (hasUninit (f + 1)) isX b (if up then 1 else -1) start s = (.ok (), s') ∧
      (s' = s'' ∨ s' = warned s'') ∧ Eff false s s'' (tailBytes isX up b s.pc start) := by
  have hc := fun t : St => regCodes t.cpu t.allowIllegal
  have cmp : ∀ {t : St} {k : Spec.Cfg} (_ : Ref false t k) (m : Nat), m ≤ 255 →
      Injects f (if isX then Ins._cpx else Ins._cpy) .I (some (m : Int)) t [if isX then 0xE0 else 0xC0, m] := by
    intro t k ht m hm
    cases isX
    · have h := (hc t).cpy
      have := inject_short (f := f) (ins := Ins._cpy) ht.flat h1f (v := (m : Int)) (by omega)
        (encode_imm h.2 h.1 (by decide) (by omega))
      rw [imm_bytes (by decide) (by omega)] at this
      exact this
    · have h := (hc t).cpx
      have := inject_short (f := f) (ins := Ins._cpx) ht.flat h1f (v := (m : Int)) (by omega)
        (encode_imm h.2 h.1 (by decide) (by omega))
      rw [imm_bytes (by decide) (by omega)] at this
      exact this
  have one : ∀ {t : St} {k : Spec.Cfg} {ins : Int} {c : Nat} (_ : Ref false t k), getOpCode t.cpu t.allowIllegal ins .i = c ∧
      getOpCode t.cpu t.allowIllegal ins .r = -1 → c ≤ 255 → Injects f ins .i none t [c] := by
    intro t k ins c ht h hc
    have := inject_implied (f := f) (ins := ins) ht.flat h.2 (by rw [h.1]; omega) (by rw [h.1]; omega)
    rw [h.1] at this
    exact this
  unfold forRegTail
  cases up with
  | true =>
    have hup := hup rfl
    simp only [if_true]
    rw [if_pos (show (1 : Int) > 0 by decide)]
    obtain ⟨s1, r1, e1, y1⟩ : Injects f (if isX then Ins._inx else Ins._iny) .i none s [if isX then 0xE8 else 0xC8] := by
      cases isX
      · exact one href (hc s).iny (by decide)
      · exact one href (hc s).inx (by decide)
    have href1 := envOf_inject href e1 y1
    obtain ⟨s2, r2, e2, y2⟩ := cmp href1 (b + 1) (by omega)
    rw [show ((b + 1 : Nat) : Int) = (b : Int) + 1 by omega] at r2
    have href2 := envOf_inject href1 e2 y2
    have hpc2 : s2.pc = s.pc + 3 := by
      rw [href2.pc, href.pc]
      simp only [Spec.Cfg.emit, List.length_cons, List.length_nil]
      omega
    obtain ⟨s3, s3', r3, w3, e3, y3⟩ := inject_branch (f := f) (ins := Ins._bcc) (v := start) (c := 0x90) (ci := 0xB0) href2.flat
      h1f (by omega) (by omega) (hc s2).bcc (hc s2).bcs (by decide) (by decide)
    refine ⟨s3, s3', ?_, w3, ?_⟩
    · rw [bind_ok r1, if_pos (show (b : Int) ≠ 0 by omega), if_pos (show (1 : Int) > 0 ∧ (b : Int) < 255 by omega), bind_ok r2,
        if_pos (show (1 : Int) > 0 by decide), if_pos (show (b : Int) < 255 by omega)]
      exact r3
    · have := (e1.comp href.flat.count e2).comp href.flat.count e3
      rw [hpc2] at this
      exact this
  | false =>
    simp only [Bool.false_eq_true, if_false]
    rw [if_neg (show ¬ (-1 : Int) > 0 by decide)]
    obtain ⟨s1, r1, e1, y1⟩ : Injects f (if isX then Ins._dex else Ins._dey) .i none s [if isX then 0xCA else 0x88] := by
      cases isX
      · exact one href (hc s).dey (by decide)
      · exact one href (hc s).dex (by decide)
    have href1 := envOf_inject href e1 y1
    obtain ⟨s2, r2, e2, y2⟩ := cmp href1 b (by omega)
    have href2 := envOf_inject href1 e2 y2
    have hpc2 : s2.pc = s.pc + 3 := by
      rw [href2.pc, href.pc]
      simp only [Spec.Cfg.emit, List.length_cons, List.length_nil]
      omega
    obtain ⟨s3, s3', r3, w3, e3, y3⟩ := inject_branch (f := f) (ins := Ins._bcs) (v := start) (c := 0xB0) (ci := 0x90) href2.flat
      h1f (by omega) (by omega) (hc s2).bcs (hc s2).bcc (by decide) (by decide)
    refine ⟨s3, s3', ?_, w3, ?_⟩
    · rw [bind_ok r1, if_pos (show (b : Int) ≠ 0 by omega), if_neg (show ¬ ((-1 : Int) > 0 ∧ (b : Int) < 255) by omega), bind_ok r2,
        if_neg (show ¬ (-1 : Int) > 0 by decide), if_pos (show (-1 : Int) < 0 by decide)]
      exact r3
    · have := (e1.comp href.flat.count e2).comp href.flat.count e3
      rw [hpc2] at this
      exact this

/-- The code of a loop from `a` to `b` with body `bs`. -/
def loopBytes (isX up : Bool) (a b : Nat) (pc : Int) (bs : List Nat) : List Nat :=
  [if isX then 0xA2 else 0xA0, a] ++ bs ++
    if a = b then [] else tailBytes isX up b (pc + 2 + bs.length) (pc + 2)

/-- A loop with at least one round. -/
theorem forReg_run {C : Spec.Context} {slot : Str → Option Nat} {f : Nat} {s : St} {k k' : Spec.Cfg} {isX up : Bool} {a b : Nat}
    {start stop : Expr} {body : Stmt} {bs : List Nat} {p q0 q1 q2 q3 : Ptr} (h1f : 2 ≤ f)
    (hd0 : start.depth < f + 1) (hd1 : stop.depth < f + 1) (hfit : Fits false C slot s) (href : Ref false s k)
    (hl : Live s p ⟨.opr (if isX then .regX else .regY), 4, [q0, q1, q2, q3]⟩)
    (h0 : ExAt false s start q0) (h1 : ExAt false s stop q1) (h2 : StmtAt false s body q2) (h3 : ExAt false s (.int (if up then 1 else -1)) q3)
    (ha : k.value start (a : Int)) (hb : k.value stop (b : Int)) (hcount : forCount isX s = 0)
    (ha' : a ≤ 255) (hb' : b ≤ 255) (hab : if up then a ≤ b ∧ (b = 255 → a = 255) else b ≤ a ∧ (b = 0 → a = 0))
    (hbody : Expands false C slot body (k.emit [if isX then 0xA2 else 0xA0, a]) k' bs (f + 1))
    (hp0 : 0 ≤ k.pc) (hp1 : k.pc + 2 + bs.length + 8 ≤ 65535) :
    ∃ s' s'', expandNode (f + 2) p s = (.ok 0, s') ∧ (s' = s'' ∨ s' = warned s'') ∧
      Eff false s s'' (loopBytes isX up a b k.pc bs) := by
  have hc := fun t : St => regCodes t.cpu t.allowIllegal
  -- the bounds
  obtain ⟨s1, r1, e1, href1⟩ := cond_run hd0 href h0 ha
  obtain ⟨s2, r2, e2, href2⟩ := cond_run hd1 href1 (h1.keep e1.keeps) hb
  have hinc : k.value (.int (if up then 1 else -1)) (if up then 1 else -1) := by
    unfold Spec.Cfg.value Spec.eval Spec.rng
    cases up <;> rfl
  have k2 := e1.keeps.trans e2.keeps
  obtain ⟨s3, r3, e3, href3⟩ := cond_run (f := f + 1) (by simp only [Expr.depth]; omega) href2 (h3.keep k2) hinc
  have e03 : Eff false s s3 [] := by
    have := (e1.comp href.flat.count e2).comp href.flat.count e3
    simpa using this
  -- the start
  have hrefT := href3.reFor isX 1
  obtain ⟨t4, r4, e4, y4⟩ : Injects f (if isX then Ins._ldx else Ins._ldy) .I (some (a : Int)) (reFor isX 1 s3)
      [if isX then 0xA2 else 0xA0, a] := by
    have ht := hrefT.flat
    generalize reFor isX 1 s3 = t at ht
    cases isX
    · have h := (hc t).ldy
      have := inject_short (f := f) (ins := Ins._ldy) ht h1f (v := (a : Int)) (by omega)
        (encode_imm h.2 h.1 (by decide) (by omega))
      rw [imm_bytes (by decide) (by omega)] at this
      exact this
    · have h := (hc t).ldx
      have := inject_short (f := f) (ins := Ins._ldx) ht h1f (v := (a : Int)) (by omega)
        (encode_imm h.2 h.1 (by decide) (by omega))
      rw [imm_bytes (by decide) (by omega)] at this
      exact this
  have href4 := envOf_inject hrefT e4 y4
  have hfit4 : Fits false C slot t4 := e4.fits ((e03.fits hfit).reFor isX 1)
  have k4 : Keeps false s t4 := (k2.trans e3.keeps).trans ((Keeps.reFor isX 1 s3).trans e4.keeps)
  -- the body
  obtain ⟨v5, t5, r5, e5, href5⟩ := hbody t4 q2 hfit4 href4 (h2.keep k4)
  have e45 := e4.comp hrefT.flat.count e5
  have hpc4 : t4.pc = k.pc + 2 := href4.pc
  have hpc5 : t5.pc = k.pc + 2 + bs.length := by
    rw [(e5.flat href4.flat).2, hpc4]
  have hc3 : forCount isX s3 = 0 := by rw [e03.forCount, hcount]
  have hc5 : forCount isX t5 = 1 := by
    rw [e45.forCount, forCount_reFor, hc3]
    rfl
  have hrun : ∀ r : Res Int × St, (if (a : Int) = b then leaveForReg isX
        else do
          forRegTail (expandNode (f + 1)) (hasUninit (f + 1)) isX b (if up then 1 else -1) (k.pc + 2)
          leaveForReg isX) t5 = r → expandNode (f + 2) p s = r := by
    intro r hr
    rw [expandNode_run href.flat.running hl]
    have hh : expandKind (expandNode (f + 1)) (hasUninit (f + 1)) (f + 1) p
          ⟨.opr (if isX then .regX else .regY), 4, [q0, q1, q2, q3]⟩ s =
        expandForReg (expandNode (f + 1)) (hasUninit (f + 1)) isX
          ⟨.opr (if isX then .regX else .regY), 4, [q0, q1, q2, q3]⟩ s := by
      cases isX <;> rfl
    rw [hh]
    unfold expandForReg
    have hab' : ¬ (((if up then (1 : Int) else -1) > 0 ∧ (a : Int) > b) ∨ ((if up then (1 : Int) else -1) < 0 ∧ (a : Int) < b)) := by
      cases up <;> simp_all <;> omega
    rw [getS_bind, if_neg (by omega), bind_ok (opAt_run (show [q0, q1, q2, q3][0]? = some q0 from rfl) s), bind_ok r1,
      if_neg (by omega), bind_ok (opAt_run (show [q0, q1, q2, q3][1]? = some q1 from rfl) s1), bind_ok r2, if_neg (by omega),
      bind_ok (opAt_run (show [q0, q1, q2, q3][3]? = some q3 from rfl) s2), bind_ok r3, if_neg hab',
      bind_ok (addForCount_run isX 1 s3), getS_bind, forCount_reFor, hc3, if_neg (by decide), pure_bind', bind_ok r4, getS_bind,
      bind_ok (opAt_run (show [q0, q1, q2, q3][2]? = some q2 from rfl) t4), bind_ok r5, hpc4]
    exact hr
  by_cases hab2 : a = b
  · refine ⟨reFor isX (-1) t5, reFor isX (-1) t5, hrun _ ?_, Or.inl rfl, ?_⟩
    · rw [if_pos (by omega)]
      exact leaveForReg_run hc5
    · have := e03.comp href.flat.count (e45.reFor)
      unfold loopBytes
      rw [if_pos hab2, List.append_nil]
      exact this
  · obtain ⟨t6, t6', r6, w6, e6⟩ := forRegTail_run (f := f) (isX := isX) (up := up) (b := b) (start := k.pc + 2) h1f href5
      (by cases up <;> simp_all <;> omega) hb' (by intro h; subst h; simp at hab; omega) (by omega) (by omega)
    have hc6 : forCount isX t6' = 1 := by rw [e6.forCount, hc5]
    have hc6' : forCount isX t6 = 1 := by
      rcases w6 with rfl | rfl
      · exact hc6
      · rw [forCount_warned]; exact hc6
    refine ⟨reFor isX (-1) t6, reFor isX (-1) t6', hrun _ ?_, ?_, ?_⟩
    · rw [if_neg (by omega), bind_ok r6]
      exact leaveForReg_run hc6'
    · rcases w6 with rfl | rfl
      · exact Or.inl rfl
      · exact Or.inr (warned_reFor _ _ _)
    · have := e03.comp href.flat.count (e45.comp hrefT.flat.count e6).reFor
      unfold loopBytes
      rw [if_neg hab2, ← hpc5]
      exact this

/-! ## Execution -/

theorem reg_decode (cpu : Cpu) : decodeCpu cpu 0xA2 = some ("ldx", .immediate) ∧ decodeCpu cpu 0xA0 = some ("ldy", .immediate) ∧
    decodeCpu cpu 0xE0 = some ("cpx", .immediate) ∧ decodeCpu cpu 0xC0 = some ("cpy", .immediate) ∧
    decodeCpu cpu 0xE8 = some ("inx", .implied) ∧ decodeCpu cpu 0xC8 = some ("iny", .implied) ∧
    decodeCpu cpu 0xCA = some ("dex", .implied) ∧ decodeCpu cpu 0x88 = some ("dey", .implied) ∧
    decodeCpu cpu 0x90 = some ("bcc", .relative) ∧ decodeCpu cpu 0xB0 = some ("bcs", .relative) := by
  cases cpu <;> decide +kernel

theorem Holds.left {mem : Nat → Nat} {a : Nat} {l r : List Nat} (h : Spec.Holds mem a (l ++ r)) : Spec.Holds mem a l := by
  intro i hi
  rw [h i (by rw [List.length_append]; omega), List.getElem_append_left hi]

theorem Holds.right {mem : Nat → Nat} {a : Nat} {l r : List Nat} (h : Spec.Holds mem a (l ++ r)) :
    Spec.Holds mem (a + l.length) r := by
  intro i hi
  have := h (l.length + i) (by rw [List.length_append]; omega)
  rw [List.getElem_append_right (by omega)] at this
  rw [Nat.add_assoc, this]
  congr 1
  omega

theorem Reaches.trans {decode : Nat → Option (String × Spec.AMode)} {mem : Nat → Nat} {a b : Nat} {p q r : Spec.Proc}
    (h : Spec.ReachesIn decode mem a b p q) (h' : Spec.ReachesIn decode mem a b q r) : Spec.ReachesIn decode mem a b p r := by
  induction h with
  | refl _ => exact h'
  | next h1 h2 h3 _ ih => exact .next h1 h2 h3 (ih h')

theorem Reaches.wider {decode : Nat → Option (String × Spec.AMode)} {mem : Nat → Nat} {a b a' b' : Nat} {p q : Spec.Proc}
    (h : Spec.ReachesIn decode mem a b p q) (ha : a' ≤ a) (hb : b ≤ b') : Spec.ReachesIn decode mem a' b' p q := by
  induction h with
  | refl _ => exact .refl _
  | next h1 h2 h3 _ ih => exact .next (by omega) (by omega) h3 ih

theorem Reaches.traces {decode : Nat → Option (String × Spec.AMode)} {mem : Nat → Nat} {a stop start : Nat} {isX : Bool}
    {body : Nat → Spec.Proc → Spec.Proc} {p q r : Spec.Proc} {n : Nat} {l : List Nat} (hs : start < a)
    (h : Spec.ReachesIn decode mem a stop p q) (h' : Spec.Traces decode mem isX start stop body n q l r) :
    Spec.Traces decode mem isX start stop body n p l r := by
  induction h with
  | refl _ => exact h'
  | next h1 h2 h3 _ ih => exact .step (by omega) (by omega) h3 (ih h')

/-- Execution of a branch back to `v`. -/
theorem exec_back {cpu : Cpu} {mem : Nat → Nat} {p : Spec.Proc} {c ci v : Nat} {name nameI : String} {t : Bool}
    (hdec : decodeCpu cpu c = some (name, .relative)) (hdecI : decodeCpu cpu ci = some (nameI, .relative))
    (ht : p.taken name = some t) (htI : p.taken nameI = some (!t))
    (hm : Spec.Holds mem p.pc (backBytes c ci p.pc v)) (hpc : p.pc + 5 ≤ 65535) (hv : v ≤ p.pc) :
    Spec.ReachesIn (decodeCpu cpu) mem p.pc (p.pc + (backBytes c ci p.pc v).length) p
      { p with pc := if t then v else p.pc + (backBytes c ci p.pc v).length } := by
  unfold backBytes at hm ⊢
  by_cases hbad : branchBad ((v : Int) - ((p.pc : Int) + 2)) = true
  · rw [if_pos hbad] at hm ⊢
    have := exec_long (cpu := cpu) (mem := mem) (p := p) (c := (ci : Int)) (v := (v : Int)) (name := nameI) (t := !t) hdecI htI hm
      (by omega) (by omega) (by omega)
    cases t
    · exact this
    · exact this
  · rw [if_neg hbad] at hm ⊢
    have m0 := hm 0 (by simp)
    have m1 := hm 1 (by simp)
    simp only [List.getElem_cons_zero, List.getElem_cons_succ, Nat.add_zero] at m0 m1
    simp only [branchBad, Bool.or_eq_true, decide_eq_true_eq] at hbad
    refine .next (Nat.le_refl _) (by simp) (q := { p with pc := if t then v else p.pc + 2 }) ?_ (.refl _)
    unfold Spec.step
    rw [m0, hdec, m1]
    simp only [ht, Option.map_some]
    cases t with
    | true =>
      simp only [if_true, Spec.signed]
      congr 2
      split <;> omega
    | false =>
      simp only [Bool.false_eq_true, if_false, Spec.Proc.next]
      congr 2
      omega

/-- Increment or decrement, and compare. -/
theorem exec_count {cpu : Cpu} {mem : Nat → Nat} {q : Spec.Proc} {isX up : Bool} {m : Nat}
    (hm : Spec.Holds mem q.pc [if up then (if isX then 0xE8 else 0xC8) else (if isX then 0xCA else 0x88),
      if isX then 0xE0 else 0xC0, m]) (hpc : q.pc + 3 ≤ 65535) :
    ∃ q', Spec.ReachesIn (decodeCpu cpu) mem q.pc (q.pc + 3) q q' ∧ q'.pc = q.pc + 3 ∧
      q'.reg isX = (if up then (q.reg isX + 1) % 256 else (q.reg isX + 255) % 256) ∧
      q'.c = decide (m ≤ if up then (q.reg isX + 1) % 256 else (q.reg isX + 255) % 256) := by
  have m0 := hm 0 (by simp)
  have m1 := hm 1 (by simp)
  have m2 := hm 2 (by simp)
  simp only [List.getElem_cons_zero, List.getElem_cons_succ, Nat.add_zero] at m0 m1 m2
  obtain ⟨_, _, d2, d3, d4, d5, d6, d7, _, _⟩ := reg_decode cpu
  have e1 : (q.pc + 1) % 65536 = q.pc + 1 := by omega
  have e2 : (q.pc + 1 + 2) % 65536 = q.pc + 3 := by omega
  cases isX <;> cases up <;> simp only [Bool.false_eq_true, if_false, if_true] at m0 m1 ⊢
  all_goals
    refine ⟨_, .next (Nat.le_refl _) (by omega) (by unfold Spec.step; rw [m0]; simp only [*]; rfl)
      (.next (show q.pc ≤ (q.pc + 1) % 65536 by omega) (show (q.pc + 1) % 65536 < q.pc + 3 by omega) (by
        unfold Spec.step
        simp only [Spec.Proc.next, Spec.Proc.nz, e1, m1, d2, d3]
        rfl) (.refl _)), ?_, ?_, ?_⟩
    · simp only [Spec.Proc.next, Spec.Proc.compare, Spec.Proc.nz, e1, e2]
    · rfl
    · simp only [Spec.Proc.next, Spec.Proc.compare, Spec.Proc.nz, Spec.Proc.reg, e1, Nat.add_assoc, Nat.reduceAdd, m2]
      rfl

/-- The code after the body. -/
theorem exec_tail {cpu : Cpu} {mem : Nat → Nat} {q : Spec.Proc} {isX up : Bool} {b start : Nat}
    (hm : Spec.Holds mem q.pc (tailBytes isX up b q.pc start)) (hpc : q.pc + 8 ≤ 65535) (hs : start ≤ q.pc)
    (hb : 1 ≤ b ∧ b ≤ 255) (hup : up = true → b < 255)
    (hr : q.reg isX ≤ 255) (hrb : if up then q.reg isX ≤ b else b ≤ q.reg isX) :
    ∃ q', Spec.ReachesIn (decodeCpu cpu) mem q.pc (q.pc + (tailBytes isX up b q.pc start).length) q q' ∧
      (if q.reg isX = b then q'.pc = q.pc + (tailBytes isX up b q.pc start).length
        else q'.pc = start ∧ q'.reg isX = if up then q.reg isX + 1 else q.reg isX - 1) := by
  obtain ⟨_, _, _, _, _, _, _, _, d8, d9⟩ := reg_decode cpu
  have hlen : (tailBytes isX up b q.pc start).length = 3 + (backBytes (if up then 0x90 else 0xB0) (if up then 0xB0 else 0x90) ((q.pc + 3 : Nat) : Int) start).length := by
    cases up <;> simp [tailBytes] <;> omega
  cases up with
  | true =>
    have hup := hup rfl
    simp only [if_true] at hrb hlen ⊢
    unfold tailBytes at hm
    rw [if_pos rfl] at hm
    obtain ⟨q1, r1, p1, x1, c1⟩ := exec_count (cpu := cpu) (up := true) (isX := isX) (Holds.left hm) (by omega)
    have hm1 := Holds.right hm
    have hm1' : Spec.Holds mem q1.pc (backBytes 0x90 0xB0 q1.pc start) := by
      rw [p1]
      exact hm1
    simp only [if_true] at x1 c1
    rw [Nat.mod_eq_of_lt (by omega)] at x1 c1
    have r2 := exec_back (cpu := cpu) (p := q1) (t := !q1.c) d8 d9 rfl (by simp [Spec.Proc.taken]) hm1' (by omega) (by omega)
    rw [hlen]
    rw [p1] at r2
    refine ⟨_, Reaches.trans (Reaches.wider r1 (Nat.le_refl _) (Nat.add_le_add_left (Nat.le_add_right 3 _) _))
      (Reaches.wider r2 (Nat.le_add_right _ _) (Nat.le_of_eq (Nat.add_assoc _ _ _))), ?_⟩
    by_cases hrb2 : q.reg isX = b
    · rw [if_pos hrb2]
      have : q1.c = true := by rw [c1]; simp; omega
      simp only [this, Bool.not_true, Bool.false_eq_true, if_false]
      omega
    · rw [if_neg hrb2]
      have : q1.c = false := by rw [c1]; simp; omega
      simp only [this]
      exact ⟨rfl, x1⟩
  | false =>
    simp only [Bool.false_eq_true, if_false] at hrb hlen ⊢
    unfold tailBytes at hm
    rw [if_neg (by decide)] at hm
    obtain ⟨q1, r1, p1, x1, c1⟩ := exec_count (cpu := cpu) (up := false) (isX := isX) (Holds.left hm) (by omega)
    have hm1 := Holds.right hm
    have hm1' : Spec.Holds mem q1.pc (backBytes 0xB0 0x90 q1.pc start) := by
      rw [p1]
      exact hm1
    simp only [Bool.false_eq_true, if_false] at x1 c1
    have e : (q.reg isX + 255) % 256 = q.reg isX - 1 := by omega
    rw [e] at x1 c1
    have r2 := exec_back (cpu := cpu) (p := q1) (t := q1.c) d9 d8 rfl rfl hm1' (by omega) (by omega)
    rw [hlen]
    rw [p1] at r2
    refine ⟨_, Reaches.trans (Reaches.wider r1 (Nat.le_refl _) (Nat.add_le_add_left (Nat.le_add_right 3 _) _))
      (Reaches.wider r2 (Nat.le_add_right _ _) (Nat.le_of_eq (Nat.add_assoc _ _ _))), ?_⟩
    by_cases hrb2 : q.reg isX = b
    · rw [if_pos hrb2]
      have : q1.c = false := by rw [c1]; simp; omega
      simp only [this]
      simp only [Bool.false_eq_true, if_false]
      omega
    · rw [if_neg hrb2]
      have : q1.c = true := by rw [c1]; simp; omega
      simp only [this]
      exact ⟨rfl, x1⟩

theorem regValues_up {r b : Nat} (h : r ≤ b) : Spec.regValues true r b = r :: Spec.regValues true (r + 1) b := by
  unfold Spec.regValues
  simp only [if_true]
  rw [show b + 1 - r = (b + 1 - (r + 1)) + 1 by omega, List.range'_succ]

theorem regValues_down {r b : Nat} (h : b ≤ r) (hr : 1 ≤ r) : Spec.regValues false r b = r :: Spec.regValues false (r - 1) b := by
  unfold Spec.regValues
  simp only [Bool.false_eq_true, if_false]
  rw [show r + 1 - b = (r - 1 + 1 - b) + 1 by omega, List.range'_concat, List.reverse_append]
  simp only [List.reverse_cons, List.reverse_nil, List.nil_append, List.cons_append]
  congr 1
  omega

theorem regValues_one (up : Bool) (b : Nat) : Spec.regValues up b b = [b] := by
  unfold Spec.regValues
  cases up <;> simp

/-- All rounds from the value `r` on. -/
theorem exec_rounds {cpu : Cpu} {mem : Nat → Nat} {isX up : Bool} {b start fin : Nat} {body : Nat → Spec.Proc → Spec.Proc}
    (hbody : Spec.Neutral isX start fin body) (hs : start < fin) (hm : Spec.Holds mem fin (tailBytes isX up b fin start))
    (hpc : fin + 8 ≤ 65535) (hb : 1 ≤ b ∧ b ≤ 255) (hup : up = true → b < 255) :
    ∀ (d n : Nat) (p : Spec.Proc), p.pc = start → p.reg isX ≤ 255 →
      (if up then p.reg isX + d = b else p.reg isX = b + d) →
      ∃ r, Spec.Traces (decodeCpu cpu) mem isX start (fin + (tailBytes isX up b fin start).length) body n p
        (Spec.regValues up (p.reg isX) b) r := by
  intro d
  induction d with
  | zero =>
    intro n p hp hr hd
    have hd : p.reg isX = b := by cases up <;> simpa using hd
    obtain ⟨q1, q2⟩ := hbody n p hp
    obtain ⟨q', h1, h2⟩ := exec_tail (cpu := cpu) (mem := mem) (q := body n p) (isX := isX) (up := up) (b := b) (start := start)
      (by rw [q1]; exact hm) (by omega) (by omega) hb hup (by omega) (by cases up <;> simp <;> omega)
    rw [if_pos (by omega)] at h2
    rw [q1] at h1 h2
    refine ⟨q', ?_⟩
    have e : Spec.regValues up (p.reg isX) b = [p.reg isX] := by rw [hd, regValues_one]
    rw [e]
    exact .body (by omega) hp (Reaches.traces hs h1 (.done h2))
  | succ d ih =>
    intro n p hp hr hd
    have hne : p.reg isX ≠ b := by cases up <;> simp at hd <;> omega
    obtain ⟨q1, q2⟩ := hbody n p hp
    obtain ⟨q', h1, h2⟩ := exec_tail (cpu := cpu) (mem := mem) (q := body n p) (isX := isX) (up := up) (b := b) (start := start)
      (by rw [q1]; exact hm) (by omega) (by omega) hb hup (by omega) (by cases up <;> simp at hd ⊢ <;> omega)
    rw [if_neg (by omega)] at h2
    rw [q1] at h1
    rw [q2] at h2
    obtain ⟨r, h3⟩ := ih (n + 1) q' h2.1 (by rw [h2.2]; cases up <;> simp at hd ⊢ <;> omega)
      (by rw [h2.2]; cases up <;> simp at hd ⊢ <;> omega)
    refine ⟨r, ?_⟩
    have e : Spec.regValues up (p.reg isX) b = p.reg isX :: Spec.regValues up (q'.reg isX) b := by
      rw [h2.2]
      cases up with
      | true => exact regValues_up (by simp at hd; omega)
      | false => exact regValues_down (by simp at hd; omega) (by simp at hd; omega)
    rw [e]
    exact .body (by omega) hp (Reaches.traces hs h1 h3)

/-- Execution of a loop. -/
theorem exec_loop {cpu : Cpu} {mem : Nat → Nat} {isX up : Bool} {a b pc : Nat} {bs : List Nat} {body : Nat → Spec.Proc → Spec.Proc}
    {p : Spec.Proc} (hm : Spec.Holds mem pc (loopBytes isX up a b pc bs)) (hne : bs ≠ [])
    (hbody : Spec.Neutral isX (pc + 2) (pc + 2 + bs.length) body) (hpc : pc + 2 + bs.length + 8 ≤ 65535)
    (ha : a ≤ 255) (hb : b ≤ 255) (hab : if up then a ≤ b ∧ (b = 255 → a = 255) else b ≤ a ∧ (b = 0 → a = 0)) (hp : p.pc = pc) :
    ∃ r, Spec.Traces (decodeCpu cpu) mem isX (pc + 2) (pc + (loopBytes isX up a b pc bs).length) body 0 p
      (Spec.regValues up a b) r := by
  have hlen : 0 < bs.length := List.length_pos_iff.2 hne
  obtain ⟨d0, d1, _⟩ := reg_decode cpu
  unfold loopBytes at hm ⊢
  have hm0 := Holds.left (Holds.left hm)
  have m0 := hm0 0 (by simp)
  have m1 := hm0 1 (by simp)
  simp only [List.getElem_cons_zero, List.getElem_cons_succ, Nat.add_zero] at m0 m1
  obtain ⟨q, hq, hq1, hq2⟩ : ∃ q, Spec.step (decodeCpu cpu) mem p = some q ∧ q.pc = pc + 2 ∧ q.reg isX = a := by
    unfold Spec.step
    rw [hp, m0, m1]
    cases isX
    · simp only [Bool.false_eq_true, if_false, d1]
      exact ⟨_, rfl, by simp only [Spec.Proc.next, Spec.Proc.nz]; omega, rfl⟩
    · simp only [if_true, d0]
      exact ⟨_, rfl, by simp only [Spec.Proc.next, Spec.Proc.nz]; omega, rfl⟩
  simp only [List.length_append, List.length_cons, List.length_nil, Nat.zero_add, Nat.reduceAdd]
  by_cases hab2 : a = b
  · rw [if_pos hab2, ← hab2, regValues_one]
    obtain ⟨q1, q2⟩ := hbody 0 q hq1
    refine ⟨body 0 q, .step (by omega) (by omega) hq ?_⟩
    rw [← hq2]
    exact .body (by rw [List.length_nil]; omega) hq1 (.done (by rw [List.length_nil, q1]; omega))
  · rw [if_neg hab2] at hm ⊢
    have hm2 := Holds.right hm
    simp only [List.length_append, List.length_cons, List.length_nil, Nat.zero_add, Nat.reduceAdd] at hm2
    have e : pc + (2 + bs.length) = pc + 2 + bs.length := by omega
    rw [e] at hm2
    obtain ⟨r, hr⟩ := exec_rounds (cpu := cpu) (up := up) (b := b) hbody (by omega) hm2 (by omega)
      (by cases up <;> simp at hab <;> omega) (by intro h; subst h; simp at hab; omega)
      (if up then b - a else a - b) 0 q hq1 (by omega) (by rw [hq2]; cases up <;> simp at hab ⊢ <;> omega)
    rw [hq2] at hr
    refine ⟨r, .step (by omega) (by omega) hq ?_⟩
    rw [show pc + (2 + bs.length + (tailBytes isX up b ((pc : Int) + 2 + bs.length) ((pc : Int) + 2)).length) =
      pc + 2 + bs.length + (tailBytes isX up b ((pc : Int) + 2 + bs.length) ((pc : Int) + 2)).length by omega]
    exact hr

/-! ## The statement -/

theorem forReg_build {C : Spec.Context} {f : Nat} {isX up : Bool} {start stop : Expr} {body : Stmt} (ih : Builds C body f)
    (im : Bool) (s : St) (hcpu : s.cpu = C.cpu ∧ isMacroWord s = C.isMacro) (ht : C.text = textOf) (he : s.endExpansion = false)
    (hb : s.nodeBase ≤ s.nodes.length) (hp : Spec.Parses C (envOf s) s.pc body) :
    ∃ p s', buildStmt (expandNode f) (hasUninit f) im (.forReg isX start stop up body) s = (.ok (some p), s') ∧ Grow s s' ∧
      ∃ q0 q1 q2 q3, Live s' p ⟨.opr (if isX then .regX else .regY), 4, [q0, q1, q2, q3]⟩ ∧ ExAt false s' start q0 ∧ ExAt false s' stop q1 ∧
        StmtAt false s' body q2 ∧ ExAt false s' (.int (if up then 1 else -1)) q3 := by
  obtain ⟨q0, s1, r1, g1, l1⟩ := buildExpr_grow start hb
  obtain ⟨q1, s2, r2, g2, l2⟩ := buildExpr_grow stop (g1.base hb)
  have g12 := g1.trans g2
  obtain ⟨hcpu2, he2, hb2, hp2⟩ := g12.conds hcpu he hb hp
  obtain ⟨q2, s3, r3, g3, l3⟩ := ih im s2 hcpu2 ht he2 hb2 hp2
  have hb3 := g3.base hb2
  obtain ⟨q3, s4, r4, g4, l4⟩ := buildExpr_grow (.int (if up then 1 else -1)) hb3
  have hb4 := g4.base hb3
  obtain ⟨p, s5, r5, g5, l5⟩ := operatorNode_grow (if isX then .regX else .regY) [q0, q1, q2, q3] hb4
  refine ⟨p, s5, ?_, ((g12.trans g3).trans g4).trans g5, q0, q1, q2, q3, l5, l1.keep (((g2.trans g3).trans g4).trans g5).keeps,
    l2.keep ((g3.trans g4).trans g5).keeps, l3.keep (g4.trans g5).keeps, l4.keep g5.keeps⟩
  exact (bind_ok r1).trans ((bind_ok r2).trans ((andThen_run r3).trans (built_run ((bind_ok r4).trans r5))))

/-- A loop without rounds. -/
theorem forReg_empty {f : Nat} {s : St} {k : Spec.Cfg} {isX up : Bool} {a b : Nat}
    {start stop : Expr} {p q0 q1 q2 q3 : Ptr}
    (hd0 : start.depth < f) (hd1 : stop.depth < f) (hf : 1 ≤ f) (href : Ref false s k)
    (hl : Live s p ⟨.opr (if isX then .regX else .regY), 4, [q0, q1, q2, q3]⟩)
    (h0 : ExAt false s start q0) (h1 : ExAt false s stop q1) (h3 : ExAt false s (.int (if up then 1 else -1)) q3)
    (ha : k.value start (a : Int)) (hb : k.value stop (b : Int)) (hcount : forCount isX s = 0)
    (ha' : a ≤ 255) (hb' : b ≤ 255) (hab : if up then b < a else a < b) :
    ∃ s', expandNode (f + 1) p s = (.ok 0, s') ∧ Eff false s s' [] := by
  obtain ⟨s1, r1, e1, href1⟩ := cond_run hd0 href h0 ha
  obtain ⟨s2, r2, e2, href2⟩ := cond_run hd1 href1 (h1.keep e1.keeps) hb
  have hinc : k.value (.int (if up then 1 else -1)) (if up then 1 else -1) := by
    unfold Spec.Cfg.value Spec.eval Spec.rng
    cases up <;> rfl
  obtain ⟨s3, r3, e3, href3⟩ := cond_run (f := f) (by simp only [Expr.depth]; omega) href2 (h3.keep (e1.keeps.trans e2.keeps)) hinc
  have e03 : Eff false s s3 [] := by
    have := (e1.comp href.flat.count e2).comp href.flat.count e3
    simpa using this
  refine ⟨s3, ?_, e03⟩
  rw [expandNode_run href.flat.running hl]
  have hh : expandKind (expandNode f) (hasUninit f) f p
        ⟨.opr (if isX then .regX else .regY), 4, [q0, q1, q2, q3]⟩ s =
      expandForReg (expandNode f) (hasUninit f) isX
        ⟨.opr (if isX then .regX else .regY), 4, [q0, q1, q2, q3]⟩ s := by
    cases isX <;> rfl
  rw [hh]
  unfold expandForReg
  have hab' : (((if up then (1 : Int) else -1) > 0 ∧ (a : Int) > b) ∨ ((if up then (1 : Int) else -1) < 0 ∧ (a : Int) < b)) := by
    cases up <;> simp at hab ⊢ <;> omega
  rw [getS_bind, if_neg (by omega), bind_ok (opAt_run (show [q0, q1, q2, q3][0]? = some q0 from rfl) s), bind_ok r1,
    if_neg (by omega), bind_ok (opAt_run (show [q0, q1, q2, q3][1]? = some q1 from rfl) s1), bind_ok r2, if_neg (by omega),
    bind_ok (opAt_run (show [q0, q1, q2, q3][3]? = some q3 from rfl) s2), bind_ok r3, if_pos hab']
  rfl

end Verif
