import Verif.Lemmas.Eval
import Verif.Lemmas.OutRun

/-! # Exact runs of instructions -/

namespace Verif

theorem evalSt_k0 (s : St) (ns : List Node) : evalSt s ns 0 = { s with nodes := ns } := by
  unfold evalSt
  simp

/-- Evaluation without division by zero only changes the heap. -/
theorem expand_ok {e : Expr} {f : Nat} {p : Ptr} {s : St} {v : Int} (hf : e.depth < f) (he : s.endExpansion = false)
    (ht : ExprAt (look s) s.nodeBase s.nodes e p) (hv : Spec.eval (envOf s) s.pc e = some (v, false)) :
    ∃ ns, expandNode f p s = (.ok v, { s with nodes := ns }) ∧ HeapSim false (look s) s.nodes ns ∧
      (e.complete (envOf s) s.pc = true → Done (look s) s.syms ns e p) := by
  obtain ⟨ns, k, h1, h2, h3, h4⟩ := expand_eval hf he ht hv
  rw [h3.2 rfl, evalSt_k0] at h1
  exact ⟨ns, h1, h2, h4⟩

/-! ## The step relation -/

/-- Output is being written. -/
def emitting (s : St) : Bool := s.finalPass && s.outputOpen && s.originSpecified

/-- The header due before the next byte. -/
def outHdr (s : St) : List Nat := if s.totalBytes = 0 then headerBytes s.format s.origin else []

/-- No gap between the bytes written and the location counter. -/
def Room (s : St) : Prop := emitting s = true → s.pc ≤ s.origin + s.totalBytes + (outHdr s).length

/-- Effect of assembling something: the location counter moves by `n`, in a final pass with output the bytes `bs`
are appended (after the header if it is due) and the listing entries `ls` are added.  Besides only caches and
bookkeeping change. -/
def Asm (s s' : St) (n : Int) (bs : List Nat) (ls : List ListEntry) : Prop :=
  ∃ ns cg ds bd et, HeapSim true (look s) s.nodes ns ∧ s' = { s with
    nodes := ns
    codeGenerated := cg
    dataSize := ds
    byteDelta := bd
    expansionType := et
    pc := s.pc + n
    out := s.out ++ (if emitting s then outHdr s ++ bs else [])
    totalBytes := s.totalBytes + (if emitting s then (((outHdr s).length + bs.length : Nat) : Int) else 0)
    listing := s.listing ++ (if s.finalPass then ls else []) }

/-- After something has been written no header is due. -/
theorem hdr_after (fmt : Format) (o tb : Int) (k : Nat) (h : 0 ≤ tb) :
    (if tb + (((if tb = 0 then headerBytes fmt o else []).length + k : Nat) : Int) = 0 then headerBytes fmt o
      else []) = [] := by
  cases fmt with
  | bin => simp only [headerBytes, ite_self]
  | c64 =>
    rw [if_neg]
    split
    · simp only [headerBytes, List.length_cons, List.length_nil]
      omega
    · omega

theorem Asm.comp {s s1 s2 : St} {n1 n2 : Int} {b1 b2 : List Nat} {l1 l2 : List ListEntry} (h0 : 0 ≤ s.totalBytes)
    (h1 : Asm s s1 n1 b1 l1) (h2 : Asm s1 s2 n2 b2 l2) : Asm s s2 (n1 + n2) (b1 ++ b2) (l1 ++ l2) := by
  obtain ⟨ns, cg, ds, bd, et, g1, rfl⟩ := h1
  obtain ⟨ns', cg', ds', bd', et', g2, rfl⟩ := h2
  refine ⟨ns', cg', ds', bd', et', g1.trans g2, ?_⟩
  by_cases he : emitting s = true
  · have hh := hdr_after s.format s.origin s.totalBytes b1.length h0
    have he' := he
    unfold emitting at he'
    simp only [emitting, he', if_true, outHdr, hh, List.nil_append, List.append_assoc, Int.add_assoc]
    congr 1
    · simp only [List.length_nil, List.length_append]
      split <;> omega
    · split <;> simp
  · unfold emitting at he
    simp only [emitting, he, Bool.false_eq_true, if_false, List.append_nil, Int.add_zero, List.append_assoc,
      Int.add_assoc]
    congr 1
    split <;> simp

/-! ## Effective encoding -/

/-- Mode and opcode used at expansion for an instruction node with the given mode and opcode and operand value
`v`; `none`: reported as an error, or a branch out of range. -/
def effective (get : Mode → Int) (mode : Mode) (code pc v : Int) : Option (Mode × Int) :=
  if (opShape mode).1 = 0 then some (mode, code)
  else if mode = .r then (if branchBad (v - (pc + 2)) then none else some (mode, code))
  else if (opShape mode).1 < 2 then
    if 256 ≤ v ∧ v < 65536 then
      match wideForm mode with
      | some w => if get w ≠ -1 then some (w, get w) else none
      | none => none
    else some (mode, code)
  else
    if 0 ≤ v ∧ v < 256 ∧ get (zpForm mode) ≠ -1 then some (zpForm mode, get (zpForm mode)) else some (mode, code)

theorem opShape_zpForm (m : Mode) : (opShape m).2 = zpForm m := by cases m <;> rfl

/-- The value placed after the opcode. -/
def operandValue (m : Mode) (pc v : Int) : Int := if m = .r then v - (pc + 2) else v

/-- Opcode and operand bytes. -/
def instrBytes (m : Mode) (c pc v : Int) : List Int :=
  c :: (if opByteCount m = 0 then []
    else if opByteCount m = 1 then [operandValue m pc v % 256]
    else [operandValue m pc v % 256, operandValue m pc v % 65536 / 256])

/-- As output bytes. -/
def toBytes (l : List Int) : List Nat := l.map fun x => (x % 256).toNat

theorem instrBytes_length (m : Mode) (c pc v : Int) : ((instrBytes m c pc v).length : Int) = opByteCount m + 1 := by
  cases m <;> rfl

theorem set_self {ns : List Node} {p : Nat} {n : Node} (h : ns[p]? = some n) : ns.set p n = ns := by
  have hlt : p < ns.length := by
    rcases Nat.lt_or_ge p ns.length with h' | h'
    · exact h'
    · rw [List.getElem?_eq_none h'] at h; cases h
  rw [List.getElem?_eq_getElem hlt] at h
  rw [← Option.some.inj h, List.set_getElem_self]

theorem modOpcode_run {s : St} {p : Ptr} {ins code : Int} {mode : Mode} {pc : Int} {k : Nat} {ops : List Ptr}
    (h : Live s p ⟨.opcode ins code mode pc, k, ops⟩) (g : Int → Int → Mode → Int → Kind) :
    modOpcode p g s = (.ok (), { s with nodes := s.nodes.set p ⟨g ins code mode pc, k, ops⟩ }) := by
  unfold modOpcode
  rw [bind_ok h.run]
  exact h.set _

theorem HeapSim.opcode {lk : Str → Option SymPtr} {ns ns' : List Node} (h : HeapSim false lk ns ns') {p : Nat}
    {ins code : Int} {mode : Mode} {pc : Int} {k : Nat} {ops : List Ptr}
    (hn : ns[p]? = some ⟨.opcode ins code mode pc, k, ops⟩) : ns'[p]? = some ⟨.opcode ins code mode pc, k, ops⟩ :=
  h.opr hn (by intro _ c; cases c) (by intro _ _ _ c; cases c) (by intro c; cases c)

theorem opCodeM_run (s : St) (ins : Int) (m : Mode) :
    opCodeM ins m s = (.ok (getOpCode s.cpu s.allowIllegal ins m), s) := rfl

theorem branchDisp_ok {v pc : Int} (h : branchBad (v - (pc + 2)) = false) : branchDisp v pc = some (v - (pc + 2)) := by
  unfold branchDisp cchk
  rw [if_pos]
  simp only [branchBad, Bool.or_eq_false_iff, decide_eq_false_iff_not] at h
  unfold InInt
  omega

theorem wideForm_shape {m w : Mode} (h : wideForm m = some w) : (opShape m).1 = 1 := by
  cases m <;> first | rfl | cases h

/-- The operand part of `expand_op_code_node` replaces mode and opcode by the effective ones. -/
theorem operandPhase_run {e : Expr} {f : Nat} {p q : Ptr} {s : St} {v ins code : Int} {mode m : Mode} {c pc : Int}
    {n : Node} (hf : e.depth < f) (he : s.endExpansion = false)
    (hp : Live s p ⟨.opcode ins code mode s.pc, 1, [q]⟩) (hn : n.numOps = 1 ∧ n.ops = [q]) (hpc : pc = s.pc)
    (ht : ExprAt (look s) s.nodeBase s.nodes e q) (hv : Spec.eval (envOf s) s.pc e = some (v, false))
    (hs : (opShape mode).1 > 0)
    (heff : effective (getOpCode s.cpu s.allowIllegal ins) mode code s.pc v = some (m, c)) :
    ∃ ns, HeapSim false (look s) s.nodes ns ∧ operandPhase (expandNode f) (hasUninit f) p n ins code mode pc s =
      (.ok false, { s with nodes := ns.set p ⟨.opcode ins c m s.pc, 1, [q]⟩ }) := by
  subst hpc
  obtain ⟨ns, h1, h2, _⟩ := expand_ok hf he ht hv
  refine ⟨ns, h2, ?_⟩
  have hq' : ∃ qn, Live { s with nodes := ns } q qn := (ht.sim h2).live
  obtain ⟨qn, hqn⟩ := hq'
  have hp' : Live { s with nodes := ns } p ⟨.opcode ins code mode s.pc, 1, [q]⟩ := ⟨hp.1, h2.opcode hp.2⟩
  have hsame : { s with nodes := ns.set p ⟨.opcode ins code mode s.pc, 1, [q]⟩ } = { s with nodes := ns } := by
    rw [set_self hp'.2]
  unfold operandPhase
  rw [if_neg (by rw [hn.1]; decide), bind_ok (opAt_run (by rw [hn.2]; rfl) s), bind_ok h1, bind_ok hqn.run, getS_bind]
  have hiv := eval_inInt hv
  unfold effective at heff
  rw [if_neg (by omega)] at heff
  by_cases hr : mode = .r
  · subst hr
    rw [if_pos rfl] at heff
    split at heff
    · cases heff
    · rename_i hbad
      cases heff
      rw [if_neg (by intro h; exact absurd h.1 (by decide)), if_pos rfl]
      have hb : branchBad (v - (s.pc + 2)) = false := by simpa using hbad
      have key : ∀ w, w = v ∨ w = s.pc → branchBad (w - (s.pc + 2)) = false := by
        intro w hw
        rcases hw with rfl | rfl
        · exact hb
        · simp only [branchBad, Bool.or_eq_false_iff, decide_eq_false_iff_not]
          omega
      have hw := key (if v = 0 ∧ Mode.r = .r ∧ isLocalRef qn = true then ({ s with nodes := ns } : St).pc else v) (by
        split
        · exact Or.inr rfl
        · exact Or.inl rfl)
      rw [branchDisp_ok hw]
      show (liftO _ >>= _) _ = _
      rw [bind_ok (run_liftO_some _ _), if_neg (by rw [hw]; decide)]
      unfold zpOptimize
      rw [if_neg (fun h => h.2 rfl), hsame]
      rfl
  · rw [if_neg hr] at heff
    rw [if_neg (show ¬ (v = 0 ∧ mode = .r ∧ isLocalRef qn = true) from fun h => hr h.2.1)]
    have c1 := cand_not_ff hiv
    have c2 := cand_not_ffff hiv
    by_cases hsh : (opShape mode).1 < 2
    · rw [if_pos hsh] at heff
      by_cases hl : 256 ≤ v ∧ v < 65536
      · rw [if_pos hl] at heff
        have hcond : (opShape mode).1 < 2 ∧ decide (cand v (cnot 0xFF) ≠ 0) = true ∧ cand v (cnot 0xFFFF) = 0 :=
          ⟨hsh, decide_eq_true (fun h => by omega), by omega⟩
        rw [if_pos hcond]
        cases hw : wideForm mode with
        | none => rw [hw] at heff; cases heff
        | some w =>
          rw [hw] at heff
          simp only at heff
          split at heff
          · rename_i hg
            obtain ⟨rfl, rfl⟩ := Prod.mk.inj (Option.some.inj heff)
            have hwid : widen p ins mode (opShape mode).2 { s with nodes := ns } = (.ok (), { s with
                nodes := ns.set p ⟨.opcode ins (getOpCode s.cpu s.allowIllegal ins w) w s.pc, 1, [q]⟩ }) := by
              unfold widen
              rw [hw, if_neg (by intro h; cases h), pure_bind', bind_ok (opCodeM_run _ _ _)]
              exact (if_pos hg : ite _ _ _ = _) ▸ modOpcode_run hp' _
            rw [bind_ok hwid]
            rfl
          · cases heff
      · rw [if_neg hl] at heff
        cases heff
        rw [if_neg (by
          rintro ⟨_, h3, h4⟩
          have := of_decide_eq_true h3
          omega), if_neg hr]
        unfold zpOptimize
        have hm : mode = (opShape mode).2 := by
          cases mode <;> first | rfl | exact absurd hsh (by decide)
        rw [if_neg (fun h => h.2 hm), hsame]
        rfl
    · rw [if_neg hsh] at heff
      rw [if_neg (fun h => hsh h.1), if_neg hr]
      have hne : mode ≠ zpForm mode := by
        cases mode <;> first | decide | exact absurd hsh (by decide) | exact absurd rfl hr | exact absurd hs (by decide)
      have hz : zpOptimize p ins (decide (cand v (cnot 0xFF) ≠ 0)) mode (opShape mode).2 { s with nodes := ns } =
          (.ok (), { s with nodes := ns.set p ⟨.opcode ins c m s.pc, 1, [q]⟩ }) := by
        unfold zpOptimize
        rw [opShape_zpForm]
        by_cases hsm : 0 ≤ v ∧ v < 256
        · rw [if_pos ⟨decide_eq_false (fun h => h (c1.2 hsm)), hne⟩, bind_ok (opCodeM_run _ _ _)]
          by_cases hg : getOpCode s.cpu s.allowIllegal ins (zpForm mode) = -1
          · rw [if_neg (fun h => h.2.2 hg)] at heff
            cases heff
            rw [if_neg (fun h => h hg), hsame]
            rfl
          · rw [if_pos ⟨hsm.1, hsm.2, hg⟩] at heff
            cases heff
            rw [if_pos hg]
            exact modOpcode_run hp' _
        · rw [if_neg (fun h => hsm ⟨h.1, h.2.1⟩)] at heff
          cases heff
          rw [if_neg (fun h => hsm (c1.1 (by simpa using h.1))), hsame]
          rfl
      rw [bind_ok hz]
      rfl


/-! ## Listing and output of an instruction node -/

/-- The operand of an instruction node with mode `m` at `pc`, if it has operand bytes, has value `v`. -/
def OpVal (f : Nat) (s : St) (m : Mode) (ops : List Ptr) (pc v : Int) : Prop :=
  opByteCount m ≠ 0 → ∃ q e, ops[0]? = some q ∧ e.depth < f ∧ ExprAt (look s) s.nodeBase s.nodes e q ∧
    Spec.eval (envOf s) s.pc e = some (v, false) ∧ (m = .r → branchBad (v - (pc + 2)) = false)

theorem opByteCount_cases (m : Mode) : opByteCount m = 0 ∨ opByteCount m = 1 ∨ opByteCount m = 2 := by
  cases m <;> simp [opByteCount]

/-- The row of an instruction. -/
def opRow (ins : Int) (k : Nat) (m : Mode) (c pc v : Int) : Str := rowHead (pc % 65536) (instrBytes m c pc v) ++ opColumn ins k m v

theorem listOpcode_run {f : Nat} {s : St} {ins c pc v : Int} {m : Mode} {k : Nat} {ops : List Ptr}
    (he : s.endExpansion = false) (hv : OpVal f s m ops pc v) :
    ∃ ns, HeapSim false (look s) s.nodes ns ∧ listOpcode (expandNode f) ⟨.opcode ins c m pc, k, ops⟩ ins c m pc s =
      (.ok (), { s with nodes := ns, listing := s.listing ++ [listRow s (opRow ins k m c pc v)] }) := by
  by_cases h0 : opByteCount m = 0
  · refine ⟨s.nodes, HeapSim.refl _ _ _, ?_⟩
    unfold listOpcode opRow instrBytes opColumn
    rw [if_neg (by omega), if_pos h0, cand_ffff, if_neg (by omega)]
    simp only [if_neg (show ¬ (opByteCount m > 0 ∧ k > 0) by omega)]
    rfl
  · obtain ⟨q, e, hq, hd, ht, hev, hr⟩ := hv h0
    obtain ⟨n1, r1, s1, _⟩ := expand_ok hd he ht hev
    have hpos : opByteCount m > 0 := by have := opByteCount_cases m; omega
    -- the second evaluation, when it takes place
    have second : ∃ n2, HeapSim false (look s) s.nodes n2 ∧ (if k > 0 then expandNode f q else M.pure 0)
        { s with nodes := n1 } = (.ok (if k > 0 then v else 0), { s with nodes := n2 }) := by
      by_cases hk : k > 0
      · obtain ⟨n2, r2, s2, _⟩ := expand_ok (s := { s with nodes := n1 }) hd he (ht.sim s1) hev
        refine ⟨n2, s1.trans s2, ?_⟩
        rw [if_pos hk, if_pos hk, r2]
      · exact ⟨n1, s1, by rw [if_neg hk, if_neg hk]; rfl⟩
    obtain ⟨n2, s2, r2⟩ := second
    refine ⟨n2, s2, ?_⟩
    unfold listOpcode
    rw [if_pos hpos, bind_ok (opAt_run hq s), bind_ok r1]
    have hdisp : (if m = .r then liftO (branchDisp v pc) else M.pure v) ({ s with nodes := n1 } : St) =
        (.ok (operandValue m pc v), { s with nodes := n1 }) := by
      unfold operandValue
      by_cases hm : m = .r
      · rw [if_pos hm, if_pos hm, branchDisp_ok (hr hm)]
        rfl
      · rw [if_neg hm, if_neg hm]
        rfl
    rw [bind_ok hdisp, if_neg (by
      rintro ⟨hm, hb⟩
      rw [operandValue, if_pos hm, hr hm] at hb
      cases hb), bind_ok r2]
    have hbytes : (c :: cand (if m = .r then cand (operandValue m pc v) 0xFF else v) 0xFF ::
        if opByteCount m > 1 then [cand (if m = .r then cand (operandValue m pc v) 0xFF else v) 0xFF00 / 256] else []) =
        instrBytes m c pc v := by
      unfold instrBytes
      rw [if_neg h0, cand_ff, cand_ff00]
      by_cases hm : m = .r
      · subst hm
        rw [if_pos rfl, if_neg (by decide), if_pos (by rfl), cand_ff]
        rw [show operandValue .r pc v % 256 % 256 = operandValue .r pc v % 256 by omega]
      · rw [if_neg hm, operandValue, if_neg hm]
        by_cases h1 : opByteCount m = 1
        · rw [if_pos h1, if_neg (by omega)]
        · rw [if_neg h1, if_pos (by have := opByteCount_cases m; omega)]
    have hcol : opColumn ins k m (if k > 0 then v else 0) = opColumn ins k m v := by
      by_cases hk : k > 0
      · rw [if_pos hk]
      · unfold opColumn
        rw [if_neg (fun h => hk h.2), if_neg (fun h => hk h.2)]
    show addList (rowHead (cand pc 0xFFFF) (c :: cand (if m = .r then cand (operandValue m pc v) 0xFF else v) 0xFF ::
        if opByteCount m > 1 then [cand (if m = .r then cand (operandValue m pc v) 0xFF else v) 0xFF00 / 256] else []) ++
        opColumn ins k m (if k > 0 then v else 0)) _ = _
    rw [hbytes, cand_ffff, hcol]
    rfl

theorem writeOpcode_run {f : Nat} {s : St} {p : Ptr} {ins c pc v : Int} {m : Mode} {k : Nat} {ops : List Ptr}
    (he : s.endExpansion = false) (hp : Live s p ⟨.opcode ins c m pc, k, ops⟩) (hv : OpVal f s m ops pc v) :
    ∃ ns ds, HeapSim false (look s) s.nodes ns ∧ writeOpcodeNode (expandNode f) p s =
      (.ok (), { outBytes s (toBytes (instrBytes m c pc v)) with nodes := ns, dataSize := ds }) := by
  unfold writeOpcodeNode
  rw [bind_ok hp.run]
  show ∃ ns ds, _ ∧ (writeByte c >>= _) s = _
  by_cases h0 : opByteCount m = 0
  · refine ⟨s.nodes, s.dataSize, HeapSim.refl _ _ _, ?_⟩
    rw [bind_ok (writeByte_run c s), if_neg (by omega)]
    unfold instrBytes
    rw [if_pos h0]
    rfl
  · obtain ⟨q, e, hq, hd, ht, hev, hr⟩ := hv h0
    have hpos : opByteCount m > 0 := by have := opByteCount_cases m; omega
    obtain ⟨n1, r1, s1, _⟩ := expand_ok (s := outBytes s [(c % 256).toNat]) hd he ht hev
    refine ⟨n1, opByteCount m, s1, ?_⟩
    rw [bind_ok (writeByte_run c s), if_pos hpos, bind_ok (opAt_run hq _), bind_ok r1]
    have wd : ∀ (x : Int) (s' : St), s'.dataSize = opByteCount m → writeData x s' = (.ok (), outBytes s'
        (if opByteCount m = 1 then [(x % 256).toNat] else [(x % 256).toNat, (x % 65536 / 256).toNat])) := by
      intro x s' hs'
      unfold writeData
      rw [getS_bind]
      by_cases h1 : opByteCount m = 1
      · rw [if_pos (by omega), if_pos h1, writeByte_run]
      · rw [if_neg (by omega), if_pos (by have := opByteCount_cases m; omega), if_neg h1, writeWord_run]
    by_cases hm : m = .r
    · rw [if_pos hm, branchDisp_ok (hr hm), bind_ok (run_liftO_some _ _), if_neg (by rw [hr hm]; decide), modS_bind,
        wd _ _ rfl]
      subst hm
      have hb : instrBytes .r c pc v = [c, (v - (pc + 2)) % 256] := rfl
      rw [hb, if_pos (by rfl), cand_ff]
      simp only [outBytes, toBytes, List.map_cons, List.map_nil, List.append_assoc, List.length_cons, List.length_nil,
        List.cons_append, List.nil_append]
      congr 2
      omega
    · rw [if_neg hm, modS_bind, wd _ _ rfl]
      unfold instrBytes operandValue
      rw [if_neg h0, if_neg hm]
      by_cases h1 : opByteCount m = 1
      · simp only [h1, if_true, outBytes, toBytes, List.map_cons, List.map_nil, List.append_assoc, List.length_cons,
          List.length_nil, List.cons_append, List.nil_append]
        congr 2
        · omega
        · rw [show v % 256 % 256 = v % 256 by omega]
      · simp only [if_neg h1, outBytes, toBytes, List.map_cons, List.map_nil, List.append_assoc, List.length_cons,
          List.length_nil, List.cons_append, List.nil_append]
        congr 2
        · omega
        · rw [show v % 256 % 256 = v % 256 by omega, show v % 65536 / 256 % 256 = v % 65536 / 256 by omega]

/-- Emission of any node whose listing and payload are known. -/
theorem generateOutput_any {f : Nat} (P : Int → Prop) {s : St} {p : Ptr} {n : Node} {bs : List Nat} (hlive : Live s p n)
    (hP : P s.dataSize)
    (hroom : s.outputOpen = true → s.originSpecified = true → s.pc ≤ s.origin + s.totalBytes + (outHdr s).length)
    (hpay : ∀ s1 : St, s1 = { s with byteDelta := s1.byteDelta, out := s1.out, totalBytes := s1.totalBytes } →
      ∃ ns ds, P ds ∧ HeapSim false (look s) s.nodes ns ∧ payload (expandNode f) p n s1 =
        (.ok (), { outBytes s1 bs with nodes := ns, dataSize := ds })) :
    ∃ ns ds bd, P ds ∧ HeapSim false (look s) s.nodes ns ∧ (generateOutput (expandNode f) p s).2 = { s with
        nodes := ns
        dataSize := ds
        byteDelta := bd
        out := s.out ++ (if s.outputOpen && s.originSpecified then outHdr s ++ bs else [])
        totalBytes := s.totalBytes + (if s.outputOpen && s.originSpecified then
          (((outHdr s).length + bs.length : Nat) : Int) else 0) } ∧
      (generateOutput (expandNode f) p s).1 = .ok (if s.outputOpen && s.originSpecified then
          (((outHdr s).length + bs.length : Nat) : Int) else 0) := by
  by_cases hopen : (s.outputOpen && s.originSpecified) = true
  · have ho : s.outputOpen = true := by simp only [Bool.and_eq_true] at hopen; exact hopen.1
    have hs : s.originSpecified = true := by simp only [Bool.and_eq_true] at hopen; exact hopen.2
    have hw : ∃ d, withHeader s = { s with
        byteDelta := d, out := s.out ++ outHdr s, totalBytes := s.totalBytes + ((outHdr s).length : Int) } := by
      obtain ⟨d, hd⟩ := withHeader_eq s
      exact ⟨d, hd⟩
    obtain ⟨d, hd⟩ := hw
    obtain ⟨ns, ds, h0, h1, h2⟩ := hpay (withHeader s) (by rw [hd])
    have hrun := generateOutput_run (ex := expandNode f) (p := p) (s := s) (n := n) ho hs
      (by rw [hd]; have := hroom ho hs; show s.pc ≤ s.origin + (s.totalBytes + _); omega) (by rw [hd]; exact Live.run (s := { s with
        byteDelta := d, out := s.out ++ outHdr s, totalBytes := s.totalBytes + ((outHdr s).length : Int) }) hlive) h2
    refine ⟨ns, ds, d, h0, h1, ?_, ?_⟩
    · rw [hrun, hd]
      simp only [hopen, if_true, outBytes, List.append_assoc]
      congr 1
      omega
    · rw [hrun, hd]
      simp only [hopen, if_true, outBytes]
      congr 1
      omega
  · have hc : s.outputOpen = false ∨ s.originSpecified = false := by
      rw [Bool.not_eq_true, Bool.and_eq_false_iff] at hopen
      exact hopen
    refine ⟨s.nodes, s.dataSize, s.byteDelta, hP, HeapSim.refl _ _ _, ?_, ?_⟩
    · rw [generateOutput_closed hc]
      simp only [hopen, Bool.false_eq_true, if_false, List.append_nil, Int.add_zero]
    · rw [generateOutput_closed hc]
      simp only [hopen, Bool.false_eq_true, if_false]


theorem OpVal.sim {f : Nat} {s s' : St} {m : Mode} {ops : List Ptr} {pc v : Int} (h : OpVal f s m ops pc v)
    (hl : look s' = look s) (hb : s'.nodeBase = s.nodeBase) (he : envOf s' = envOf s) (hp : s'.pc = s.pc)
    (hn : HeapSim false (look s) s.nodes s'.nodes) : OpVal f s' m ops pc v := by
  intro h0
  obtain ⟨q, e, h1, h2, h3, h4, h5⟩ := h h0
  exact ⟨q, e, h1, h2, by rw [hl, hb]; exact h3.sim hn, by rw [he, hp]; exact h4, h5⟩

/-- Listing and output of an instruction. -/
theorem emitOp_run {f : Nat} {s : St} {p : Ptr} {ins c pc v : Int} {m : Mode} {k : Nat} {ops : List Ptr}
    (he : s.endExpansion = false) (hp : Live s p ⟨.opcode ins c m pc, k, ops⟩) (hv : OpVal f s m ops pc v)
    (hroom : s.outputOpen = true → s.originSpecified = true → s.pc ≤ s.origin + s.totalBytes + (outHdr s).length) :
    ∃ ns ds bd, HeapSim false (look s) s.nodes ns ∧ emitNode (expandNode f) p s = (.ok (), { s with
        nodes := ns
        dataSize := ds
        byteDelta := bd
        listing := s.listing ++ [listRow s (opRow ins k m c pc v)]
        out := s.out ++ (if s.outputOpen && s.originSpecified then outHdr s ++ toBytes (instrBytes m c pc v) else [])
        totalBytes := s.totalBytes + (if s.outputOpen && s.originSpecified then
          (((outHdr s).length + (toBytes (instrBytes m c pc v)).length : Nat) : Int) else 0) }) := by
  obtain ⟨n1, s1, r1⟩ := listOpcode_run (ins := ins) (c := c) (k := k) he hv
  let t : St := { s with nodes := n1, listing := s.listing ++ [listRow s (opRow ins k m c pc v)] }
  have hp' : Live t p ⟨.opcode ins c m pc, k, ops⟩ := ⟨hp.1, s1.opcode hp.2⟩
  obtain ⟨n2, ds, bd, _, s2, r2, r3⟩ := generateOutput_any (f := f) (s := t) (bs := toBytes (instrBytes m c pc v))
    (fun _ => True) hp' trivial hroom
    (by
      intro t1 ht1
      have hv1 : OpVal f t1 m ops pc v := by
        rw [ht1]
        exact OpVal.sim hv rfl rfl rfl rfl s1
      have hp1 : Live t1 p ⟨.opcode ins c m pc, k, ops⟩ := by rw [ht1]; exact hp'
      have he1 : t1.endExpansion = false := by rw [ht1]; exact he
      obtain ⟨ns, ds, h1, h2⟩ := writeOpcode_run he1 hp1 hv1
      refine ⟨ns, ds, trivial, ?_, h2⟩
      rw [ht1] at h1
      exact h1)
  refine ⟨n2, ds, bd, s1.trans s2, ?_⟩
  unfold emitNode
  have hl : generateListNode (expandNode f) p s = (.ok (), t) := by
    unfold generateListNode
    rw [bind_ok hp.run]
    exact r1
  rw [bind_ok hl]
  cases hg : generateOutput (expandNode f) p t with
  | mk a b =>
    rw [hg] at r2 r3
    simp only at r2 r3
    rw [r3] at hg
    rw [bind_ok hg, r2]
    rfl

/-- Origin bookkeeping at an instruction (expand.cc:806-807). -/
def orig (s : St) : St := if s.pcAssigned > 0 then { s with originSpecified := true } else s

theorem orig_eq (s : St) : orig s = { s with originSpecified := (orig s).originSpecified } := by
  unfold orig
  split <;> rfl

/-- The value of the operand used for mode selection, and that all its symbols are known. -/
def OpKnown (f : Nat) (s : St) (mode : Mode) (k : Nat) (ops : List Ptr) (v : Int) : Prop :=
  (opShape mode).1 > 0 → ∃ q e, k = 1 ∧ ops = [q] ∧ e.depth + 1 < f ∧ ExprAt (look s) s.nodeBase s.nodes e q ∧
    Done (look s) s.syms s.nodes e q ∧ Spec.eval (envOf s) s.pc e = some (v, false)

theorem shape_count {m : Mode} (h : (opShape m).1 = 0) : opByteCount m = 0 := by
  cases m <;> first | rfl | exact absurd h (by decide)

theorem shape_pos (m : Mode) : (opShape m).1 = 0 ∨ (opShape m).1 > 0 := by
  cases m <;> simp [opShape]

/-- `has_uninitialized_symbol` on an instruction with a resolved operand. -/
theorem hasUninit_op {f : Nat} {s : St} {p q : Ptr} {e : Expr} {ins c : Int} {m : Mode} {pc : Int}
    (hp : Live s p ⟨.opcode ins c m pc, 1, [q]⟩) (hd : e.depth + 1 < f)
    (ht : ExprAt (look s) s.nodeBase s.nodes e q) (hdone : Done (look s) s.syms s.nodes e q) :
    hasUninit f p s = (.ok false, s) := by
  obtain ⟨f, rfl⟩ : ∃ g, f = g + 1 := ⟨f - 1, by omega⟩
  obtain ⟨r1, r2⟩ := Done.run (f := f) (by omega) ht hdone
  show (node p >>= _) s = _
  rw [bind_ok hp.run, bind_ok (operands_run (by simp) s)]
  simp only [List.take, eachM]
  rw [run_bind, run_bind, run_bind, r1]
  simp only [if_neg Bool.false_ne_true]
  rw [run_bind, r2]
  rfl

theorem opNodeBytes_run {s : St} {p : Ptr} {ins c pc : Int} {m : Mode} {k : Nat} {ops : List Ptr}
    (hp : Live s p ⟨.opcode ins c m pc, k, ops⟩) : opNodeBytes p s = (.ok (opByteCount m), s) := by
  unfold opNodeBytes
  rw [bind_ok hp.run]
  rfl

theorem effective_r {get : Mode → Int} {mode : Mode} {code pc v c : Int}
    (h : effective get mode code pc v = some (.r, c)) : branchBad (v - (pc + 2)) = false := by
  unfold effective at h
  split at h
  · rename_i hz
    cases h
    exact absurd hz (by decide)
  · split at h
    · split at h
      · cases h
      · rename_i hb; simpa using hb
    · rename_i hz hr
      exfalso
      split at h
      · split at h
        · cases mode <;> simp only [wideForm] at h <;> first
            | (split at h <;> cases h; done)
            | cases h
        · cases h; exact hr rfl
      · split at h
        · cases mode <;> first
            | (cases h; done)
            | exact absurd rfl hr
        · cases h; exact hr rfl

/-- Assembling an instruction whose operand is known, in any pass. -/
theorem expandOp_run {f : Nat} {s : St} {p : Ptr} {ins code pc0 v : Int} {mode m : Mode} {c : Int} {k : Nat}
    {ops : List Ptr} (he : s.endExpansion = false) (hp : Live s p ⟨.opcode ins code mode pc0, k, ops⟩)
    (hk : OpKnown f s mode k ops v)
    (heff : effective (getOpCode s.cpu s.allowIllegal ins) mode code s.pc v = some (m, c))
    (hroom : Room (orig s)) :
    ∃ s', expandOpCode (expandNode f) (hasUninit f) p s = (.ok 0, s') ∧
      Asm (orig s) s' (opByteCount m + 1) (toBytes (instrBytes m c s.pc v))
        [listRow s (opRow ins k m c s.pc v)] := by
  -- the node with its address
  let N : Node := ⟨.opcode ins code mode s.pc, k, ops⟩
  have hsim0 : HeapSim true (look s) s.nodes (s.nodes.set p N) :=
    HeapSim.set hp.2 ⟨rfl, rfl, Or.inr (Or.inr (Or.inr ⟨_, _, _, _, s.pc, rfl, rfl, rfl⟩))⟩
  have hlt : p < s.nodes.length := hp.lt
  let t0 : St := orig s
  have ht0 : t0 = { s with originSpecified := t0.originSpecified } := orig_eq s
  let t1 : St := { t0 with nodes := s.nodes.set p N }
  have hlook : look t1 = look s := by simp only [t1]; rw [ht0]; rfl
  have henv : envOf t1 = envOf s := by simp only [t1]; rw [ht0]; rfl
  have hpc1 : t1.pc = s.pc := by simp only [t1]; rw [ht0]
  have hb1 : t1.nodeBase = s.nodeBase := by simp only [t1]; rw [ht0]
  have he1 : t1.endExpansion = false := by simp only [t1]; rw [ht0]; exact he
  have hsy1 : t1.syms = s.syms := by simp only [t1]; rw [ht0]
  have hp1 : Live t1 p N := ⟨by rw [hb1]; exact hp.1, by simp only [t1]; rw [List.getElem?_set_self hlt]⟩
  -- operand phase
  have hphase : ∃ ns, HeapSim false (look s) t1.nodes ns ∧ (if (opShape mode).1 > 0 then (hasUninit f p >>= fun u =>
        if u then M.pure false else operandPhase (expandNode f) (hasUninit f) p ⟨.opcode ins code mode pc0, k, ops⟩ ins
          code mode s.pc) else M.pure false) t1 =
      (.ok false, { t1 with nodes := ns.set p ⟨.opcode ins c m s.pc, k, ops⟩ }) ∧
      OpVal f { t1 with nodes := ns.set p ⟨.opcode ins c m s.pc, k, ops⟩ } m ops s.pc v ∧
      ns[p]? = some N := by
    by_cases hsh : (opShape mode).1 > 0
    · obtain ⟨q, e, rfl, rfl, hd, hte, hdone, hev⟩ := hk hsh
      have hte1 : ExprAt (look t1) t1.nodeBase t1.nodes e q := by rw [hlook, hb1]; exact hte.sim hsim0
      have hdone1 : Done (look t1) t1.syms t1.nodes e q := by rw [hlook, hsy1]; exact hdone.sim hsim0
      have hev1 : Spec.eval (envOf t1) t1.pc e = some (v, false) := by rw [henv, hpc1]; exact hev
      have heff1 : effective (getOpCode t1.cpu t1.allowIllegal ins) mode code t1.pc v = some (m, c) := by
        simp only [t1]; rw [ht0]; exact heff
      obtain ⟨ns, g1, g2⟩ := operandPhase_run (n := ⟨.opcode ins code mode pc0, 1, [q]⟩) (show e.depth < f by omega) he1
        (by rw [hpc1]; exact hp1) ⟨rfl, rfl⟩ hpc1.symm hte1 hev1 hsh heff1
      rw [hlook] at g1
      have hN : ns[p]? = some N := g1.opcode hp1.2
      refine ⟨ns, g1, ?_, ?_, hN⟩
      · rw [if_pos hsh, bind_ok (hasUninit_op hp1 hd hte1 hdone1), if_neg Bool.false_ne_true, g2, hpc1]
      · intro h0
        refine ⟨q, e, rfl, by omega, ?_, hev1, ?_⟩
        · -- the tree does not contain the instruction node
          have hte2 : ExprAt (look s) s.nodeBase ns e q := (hte.sim hsim0).sim g1
          have : ExprAt (look s) s.nodeBase (ns.set p ⟨.opcode ins c m s.pc, 1, [q]⟩) e q := by
            clear g2 hev1 hev hdone hdone1 hte1 hte hk hp
            revert hte2
            generalize s.nodeBase = base
            have key : ∀ {x : Nat} {n : Node}, ns[x]? = some n → (∀ i c m a, n.kind ≠ .opcode i c m a) →
                (ns.set p ⟨.opcode ins c m s.pc, 1, [q]⟩)[x]? = some n := by
              intro x n hx hn
              rw [List.getElem?_set]
              split
              · rename_i hpx
                subst hpx
                rw [hN] at hx
                cases hx
                exact absurd rfl (hn _ _ _ _)
              · exact hx
            clear hp1 hd
            have gen : ∀ (e : Expr) (x : Ptr), ExprAt (look s) base ns e x →
                ExprAt (look s) base (ns.set p ⟨.opcode ins c m s.pc, 1, [q]⟩) e x := by
              intro e
              induction e with
              | int v => exact fun x h => ⟨h.1, key h.2 (by intro _ _ _ _ c; cases c)⟩
              | pc => intro x ⟨h, v, hv⟩; exact ⟨h, v, key hv (by intro _ _ _ _ c; cases c)⟩
              | sym nm => intro x ⟨h, v, hv, hc⟩; exact ⟨h, v, key hv (by intro _ _ _ _ c; cases c), hc⟩
              | un op e ih => intro x ⟨h, v, hv, hc⟩; exact ⟨h, v, key hv (by intro _ _ _ _ c; cases c), ih _ hc⟩
              | bin op a b iha ihb =>
                intro x ⟨h, v, w, hv, hc, hc'⟩
                exact ⟨h, v, w, key hv (by intro _ _ _ _ c; cases c), iha _ hc, ihb _ hc'⟩
            exact gen e q
          show ExprAt (look t1) t1.nodeBase _ e q
          rw [hlook, hb1]
          exact this
        · intro hmr
          subst hmr
          exact effective_r heff
    · have hz : (opShape mode).1 = 0 := by have := shape_pos mode; omega
      unfold effective at heff
      rw [if_pos hz] at heff
      cases heff
      refine ⟨t1.nodes, HeapSim.refl _ _ _, ?_, fun h0 => absurd (shape_count hz) h0, hp1.2⟩
      rw [if_neg hsh, set_self hp1.2]
      rfl
  obtain ⟨ns, hsim1, hrun, hval, hN⟩ := hphase
  have hltn : p < ns.length := by
    rcases Nat.lt_or_ge p ns.length with h' | h'
    · exact h'
    · rw [List.getElem?_eq_none h'] at hN; cases hN
  let t2 : St := { t1 with nodes := ns.set p ⟨.opcode ins c m s.pc, k, ops⟩ }
  have hp2 : Live t2 p ⟨.opcode ins c m s.pc, k, ops⟩ := ⟨hp1.1, by simp only [t2]; rw [List.getElem?_set_self hltn]⟩
  -- output
  have hout : ∃ n3 ds bd, HeapSim false (look s) t2.nodes n3 ∧
      (if t2.finalPass then emitNode (expandNode f) p else M.pure ()) t2 = (.ok (), { t2 with
        nodes := n3
        dataSize := ds
        byteDelta := bd
        listing := t2.listing ++ (if t2.finalPass then [listRow s (opRow ins k m c s.pc v)] else [])
        out := t2.out ++ (if emitting t2 then outHdr t2 ++ toBytes (instrBytes m c s.pc v) else [])
        totalBytes := t2.totalBytes + (if emitting t2 then
          (((outHdr t2).length + (toBytes (instrBytes m c s.pc v)).length : Nat) : Int) else 0) }) := by
    by_cases hfin : t2.finalPass = true
    · have hr2 : t2.outputOpen = true → t2.originSpecified = true →
          t2.pc ≤ t2.origin + t2.totalBytes + (outHdr t2).length := by
        intro ho hs
        have := hroom (by
          show (t0.finalPass && t0.outputOpen && t0.originSpecified) = true
          have h1 : t0.finalPass = true := hfin
          have h2 : t0.outputOpen = true := ho
          have h3 : t0.originSpecified = true := hs
          rw [h1, h2, h3]; rfl)
        exact this
      obtain ⟨n3, ds, bd, g1, g2⟩ := emitOp_run (s := t2) he1 hp2 hval hr2
      refine ⟨n3, ds, bd, ?_, ?_⟩
      · have : look t2 = look s := hlook
        rw [← this]; exact g1
      · rw [if_pos hfin, g2]
        have hem : emitting t2 = (t2.outputOpen && t2.originSpecified) := by
          unfold emitting
          rw [hfin, Bool.true_and]
        have hfl : listRow t2 (opRow ins k m c s.pc v) = listRow s (opRow ins k m c s.pc v) := by
          simp only [t2, t1]; rw [ht0]; rfl
        rw [hem, hfl, if_pos hfin]
    · refine ⟨t2.nodes, t2.dataSize, t2.byteDelta, HeapSim.refl _ _ _, ?_⟩
      have hem : emitting t2 = false := by
        unfold emitting
        simp only [Bool.not_eq_true] at hfin
        rw [hfin, Bool.false_and, Bool.false_and]
      rw [if_neg hfin, hem, if_neg hfin]
      simp only [Bool.false_eq_true, if_false, List.append_nil, Int.add_zero]
      rfl
  obtain ⟨n3, ds, bd, hsim2, hrun2⟩ := hout
  have hp3 : n3[p]? = some ⟨.opcode ins c m s.pc, k, ops⟩ := hsim2.opcode hp2.2
  have hlt3 : p < n3.length := by
    rcases Nat.lt_or_ge p n3.length with h' | h'
    · exact h'
    · rw [List.getElem?_eq_none h'] at hp3; cases hp3
  let t3 : St := { t2 with
    nodes := n3
    dataSize := ds
    byteDelta := bd
    listing := t2.listing ++ (if t2.finalPass then [listRow s (opRow ins k m c s.pc v)] else [])
    out := t2.out ++ (if emitting t2 then outHdr t2 ++ toBytes (instrBytes m c s.pc v) else [])
    totalBytes := t2.totalBytes + (if emitting t2 then
      (((outHdr t2).length + (toBytes (instrBytes m c s.pc v)).length : Nat) : Int) else 0) }
  have hl3 : Live t3 p ⟨.opcode ins c m s.pc, k, ops⟩ := ⟨hp2.1, hp3⟩
  refine ⟨_, ?_, n3.set p N, t2.codeGenerated + opByteCount m + 1, ds, bd, t2.expansionType, ?_, rfl⟩
  · unfold expandOpCode
    rw [bind_ok hp.run]
    show (modS _ >>= _) s = _
    rw [modS_bind]
    show (getS >>= _) t0 = _
    have hpt : Live t0 p ⟨.opcode ins code mode pc0, k, ops⟩ := by rw [ht0]; exact hp
    have hnt : t0.nodes = s.nodes := by rw [ht0]
    have hpct : t0.pc = s.pc := by rw [ht0]
    rw [getS_bind, bind_ok (hpt.set _)]
    have e1 : ({ t0 with nodes := t0.nodes.set p ⟨.opcode ins code mode t0.pc, k, ops⟩ } : St) = t1 := by
      simp only [t1, N]; rw [hnt, hpct]
    rw [e1, hpct, bind_ok hrun, if_neg Bool.false_ne_true]
    show (getS >>= _) t2 = _
    rw [getS_bind, bind_ok hrun2, bind_ok (opNodeBytes_run hl3)]
    show (modS _ >>= _) t3 = _
    rw [modS_bind, modS_bind]
    rw [bind_ok (modOpcode_run (s := { t3 with
      pc := t3.pc + (opByteCount m + 1), codeGenerated := t3.codeGenerated + opByteCount m + 1 }) hl3 _)]
    rw [run_pure]
    congr 2
    show t0.pc + _ = _
    rw [hpct]
  · -- heap
    have hlk : look t0 = look s := by rw [ht0]; rfl
    have hnt : t0.nodes = s.nodes := by rw [ht0]
    show HeapSim true (look t0) t0.nodes _
    rw [hlk, hnt]
    refine ⟨?_, ?_⟩
    · have a1 := hsim1.1
      have a2 := hsim2.1
      simp only [t1, t2, List.length_set] at a1 a2 ⊢
      omega
    · intro x n hx
      rw [List.getElem?_set]
      by_cases hpx : p = x
      · subst hpx
        rw [if_pos rfl]
        rw [hp.2] at hx
        cases hx
        exact ⟨N, by simp [hlt3], rfl, rfl, Or.inr (Or.inr (Or.inr ⟨_, _, _, _, s.pc, rfl, rfl, rfl⟩))⟩
      · rw [if_neg hpx]
        have h1 : t1.nodes[x]? = some n := by
          simp only [t1]; rw [List.getElem?_set, if_neg hpx]; exact hx
        obtain ⟨n1, h2, h3⟩ := hsim1.mono.2 x n h1
        have h4 : t2.nodes[x]? = some n1 := by
          simp only [t2]; rw [List.getElem?_set, if_neg hpx]; exact h2
        obtain ⟨n2, h5, h6⟩ := hsim2.mono.2 x n1 h4
        exact ⟨n2, h5, h3.trans h6⟩


/-- A node of a valued expression is not the accumulator. -/
theorem notAcc {e : Expr} {q : Ptr} {s : St} {r : Int × Bool} {base : Nat} {ns : List Node} {lk : Str → Option SymPtr}
    (ht : ExprAt lk base ns e q) (hv : Spec.eval (envOf s) s.pc e = some r) :
    ∃ n, base ≤ q ∧ ns[q]? = some n ∧ isAccNode n = false := by
  cases e with
  | int v => exact ⟨_, ht.1, ht.2, rfl⟩
  | pc => obtain ⟨hb, v, hv⟩ := ht; exact ⟨_, hb, hv, rfl⟩
  | un op e => obtain ⟨hb, v, hv, _⟩ := ht; exact ⟨_, hb, hv, rfl⟩
  | bin op a b => obtain ⟨hb, v, w, hv, _⟩ := ht; exact ⟨_, hb, hv, rfl⟩
  | sym name =>
    obtain ⟨hb, c, hc, _⟩ := ht
    refine ⟨_, hb, hc, ?_⟩
    simp only [Spec.eval, Option.map_eq_some_iff, Option.bind_eq_some_iff] at hv
    obtain ⟨a, ⟨b, h1, _⟩, _⟩ := hv
    unfold envOf at h1
    split at h1
    · rename_i hp
      simp only [plainName, Bool.and_eq_true, bne_iff_ne, ne_eq] at hp
      show (stricmp name [65] == 0) = false
      simpa using hp.1.1.2
    · cases h1

theorem isAcc_false {e : Expr} {q : Ptr} {s : St} {r : Int × Bool} (mode : Mode)
    (ht : ExprAt (look s) s.nodeBase s.nodes e q) (hv : Spec.eval (envOf s) s.pc e = some r) :
    isAccOperand mode [q] s = (.ok false, s) := by
  unfold isAccOperand
  obtain ⟨n, h1, h2, h3⟩ := notAcc ht hv
  cases mode
  case a =>
    show ((node q >>= fun on => M.pure (isAccNode on)) : M Bool) s = _
    rw [bind_ok (Live.run ⟨h1, h2⟩), h3]
    rfl
  all_goals rfl

/-- Replacing an instruction node keeps the trees. -/
theorem ExprAt.setOp {lk : Str → Option SymPtr} {base : Nat} {ns : List Node} {p : Nat} {n m : Node}
    (hn : ns[p]? = some n) (hk : ∃ i c m a, n.kind = .opcode i c m a) :
    ∀ {e : Expr} {x : Ptr}, ExprAt lk base ns e x → ExprAt lk base (ns.set p m) e x := by
  have key : ∀ {x : Nat} {n' : Node}, ns[x]? = some n' → (∀ i c m a, n'.kind ≠ .opcode i c m a) →
      (ns.set p m)[x]? = some n' := by
    intro x n' hx hn'
    rw [List.getElem?_set]
    split
    · rename_i hpx
      subst hpx
      rw [hn] at hx
      cases hx
      obtain ⟨i, c, m, a, h⟩ := hk
      exact absurd h (hn' _ _ _ _)
    · exact hx
  intro e
  induction e with
  | int v => exact fun h => ⟨h.1, key h.2 (by intro _ _ _ _ c; cases c)⟩
  | pc => intro x ⟨h, v, hv⟩; exact ⟨h, v, key hv (by intro _ _ _ _ c; cases c)⟩
  | sym nm => intro x ⟨h, v, hv, hc⟩; exact ⟨h, v, key hv (by intro _ _ _ _ c; cases c), hc⟩
  | un op e ih => intro x ⟨h, v, hv, hc⟩; exact ⟨h, v, key hv (by intro _ _ _ _ c; cases c), ih hc⟩
  | bin op a b iha ihb =>
    intro x ⟨h, v, w, hv, hc, hc'⟩
    exact ⟨h, v, w, key hv (by intro _ _ _ _ c; cases c), iha hc, ihb hc'⟩

theorem Done.setOp {lk : Str → Option SymPtr} {syms : List Sym} {ns : List Node} {p : Nat} {n m : Node}
    (hn : ns[p]? = some n) (hk : ∃ i c m a, n.kind = .opcode i c m a) :
    ∀ {e : Expr} {x : Ptr}, Done lk syms ns e x → Done lk syms (ns.set p m) e x := by
  have key : ∀ {x : Nat} {n' : Node}, ns[x]? = some n' → (∀ i c m a, n'.kind ≠ .opcode i c m a) →
      (ns.set p m)[x]? = some n' := by
    intro x n' hx hn'
    rw [List.getElem?_set]
    split
    · rename_i hpx
      subst hpx
      rw [hn] at hx
      cases hx
      obtain ⟨i, c, m, a, h⟩ := hk
      exact absurd h (hn' _ _ _ _)
    · exact hx
  intro e
  induction e with
  | int v => exact fun h => trivial
  | pc => exact fun h => trivial
  | sym nm => intro x ⟨i, y, hv, hc⟩; exact ⟨i, y, key hv (by intro _ _ _ _ c; cases c), hc⟩
  | un op e ih => intro x ⟨v, hv, hc⟩; exact ⟨v, key hv (by intro _ _ _ _ c; cases c), ih hc⟩
  | bin op a b iha ihb =>
    intro x ⟨v, w, hv, hc, hc'⟩
    exact ⟨v, w, key hv (by intro _ _ _ _ c; cases c), iha hc, ihb hc'⟩

/-- `opcode_node` with an operand whose value is known, up to the final check. -/
theorem opcodeNode_pre {e : Expr} {f : Nat} {q : Ptr} {s : St} {v ins : Int} {mode0 : Mode}
    (hd : e.depth + 1 < f) (he : s.endExpansion = false) (hb : s.nodeBase ≤ s.nodes.length)
    (ht : ExprAt (look s) s.nodeBase s.nodes e q) (hv : Spec.eval (envOf s) s.pc e = some (v, false))
    (hc : e.complete (envOf s) s.pc = true) {mode mode2 : Mode} {code : Int}
    (hm : mode = if getOpCode s.cpu s.allowIllegal ins .r ≠ -1 then .r else mode0)
    (hch : chooseMode (getOpCode s.cpu s.allowIllegal ins) mode (decide (0 ≤ v ∧ v < 256)) = (mode2, code)) :
    ∃ ns p, opcodeNode (expandNode f) (hasUninit f) ins mode0 [q] s =
        ((if code < 0 then error .invalidOpcodeOrMode else M.pure ()) >>= fun _ => M.pure p) { s with nodes := ns } ∧
      HeapSim false (look s) s.nodes ns ∧ s.nodes.length ≤ p ∧ ns[p]? = some ⟨.opcode ins code mode2 0, 1, [q]⟩ ∧
      ExprAt (look s) s.nodeBase ns e q ∧ Done (look s) s.syms ns e q := by
  have hdf : e.depth < f := by omega
  let N0 : Node := ⟨.opcode ins 0 mode 0, 1, [q]⟩
  let N1 : Node := ⟨.opcode ins code mode2 0, 1, [q]⟩
  let p := s.nodes.length
  let s1 : St := { s with nodes := s.nodes ++ [N0] }
  obtain ⟨n2, r2, g2, d2⟩ := expand_ok (s := s1) hdf he (ht.append [N0]) hv
  let s2 : St := { s with nodes := n2 }
  have hN1 : s1.nodes[p]? = some N0 := by simp [s1, p]
  have hp2 : Live s2 p N0 := ⟨hb, g2.opcode hN1⟩
  have ht2 : ExprAt (look s) s.nodeBase n2 e q := (ht.append [N0]).sim g2
  have hd2 : Done (look s) s.syms n2 e q := d2 hc
  let s3 : St := { s with nodes := n2.set p N1 }
  have ht3 : ExprAt (look s) s.nodeBase (n2.set p N1) e q := ht2.setOp hp2.2 ⟨_, _, _, _, rfl⟩
  have hd3 : Done (look s) s.syms (n2.set p N1) e q := hd2.setOp hp2.2 ⟨_, _, _, _, rfl⟩
  obtain ⟨n4, r4, g4, d4⟩ := expand_ok (s := s3) hdf he ht3 hv
  have hp3 : (n2.set p N1)[p]? = some N1 := by rw [List.getElem?_set_self hp2.lt]
  have hlast : lastValue (expandNode f) [q] s1 = (.ok v, s2) := by
    unfold lastValue
    simp only [eachM]
    rw [run_bind, run_bind, run_bind, r2]
    rfl
  have hsmall : (decide (cand v (cnot 0xFF) = 0) && !false) = decide (0 ≤ v ∧ v < 256) := by
    rw [Bool.not_false, Bool.and_true]
    exact decide_eq_decide.2 (cand_not_ff (eval_inInt hv))
  refine ⟨n4, p, ?_, ?_, Nat.le_refl _, g4.opcode hp3, ht3.sim g4, d4 hc⟩
  · unfold opcodeNode
    rw [getS_bind, bind_ok (alloc_run _ _ s)]
    have e1 : ({ s with nodes := s.nodes ++ [⟨.opcode ins 0 (if getOpCode s.cpu s.allowIllegal ins .r ≠ -1 then
        .r else mode0) 0, [q].length, [q]⟩] } : St) = s1 := by
      rw [← hm]
      rfl
    rw [e1, bind_ok hlast, bind_ok (hasUninit_op hp2 hd ht2 hd2), ← hm, bind_ok (isAcc_false (s := s2) mode ht2 hv),
      getS_bind]
    rw [hsmall, if_neg Bool.false_ne_true]
    have hch' : chooseMode (getOpCode s2.cpu s2.allowIllegal ins) mode (decide (0 ≤ v ∧ v < 256)) =
        (mode2, code) := hch
    rw [hch']
    show (setNode p N1 >>= _) s2 = _
    rw [bind_ok (hp2.set N1)]
    have hfe : forEachM (fun o => expandNode f o >>= fun _ => M.pure ()) [q] s3 = (.ok (), { s with nodes := n4 }) := by
      simp only [forEachM]
      rw [run_bind, run_bind, r4]
      rfl
    show (forEachM _ [q] >>= _) s3 = _
    rw [bind_ok hfe]
  · -- heap
    refine ⟨?_, ?_⟩
    · have a1 := g2.1
      have a2 := g4.1
      simp only [s1, s3, List.length_set, List.length_append, List.length_cons, List.length_nil] at a1 a2
      omega
    · intro x n hx
      have hxl : x < s.nodes.length := by
        rcases Nat.lt_or_ge x s.nodes.length with h' | h'
        · exact h'
        · rw [List.getElem?_eq_none h'] at hx; cases hx
      obtain ⟨n1, a1, a2⟩ := ((HeapSim.append false (look s) s.nodes [N0]).trans g2).2 x n hx
      have a3 : s3.nodes[x]? = some n1 := by
        simp only [s3]
        rw [List.getElem?_set, if_neg (by simp only [p]; omega)]
        exact a1
      obtain ⟨n2, a4, a5⟩ := g4.2 x n1 a3
      exact ⟨n2, a4, a2.trans a5⟩

/-- `opcode_node` with an operand whose value is known. -/
theorem opcodeNode_run {e : Expr} {f : Nat} {q : Ptr} {s : St} {v ins : Int} {mode0 : Mode}
    (hd : e.depth + 1 < f) (he : s.endExpansion = false) (hb : s.nodeBase ≤ s.nodes.length)
    (ht : ExprAt (look s) s.nodeBase s.nodes e q) (hv : Spec.eval (envOf s) s.pc e = some (v, false))
    (hc : e.complete (envOf s) s.pc = true) {mode mode2 : Mode} {code : Int}
    (hm : mode = if getOpCode s.cpu s.allowIllegal ins .r ≠ -1 then .r else mode0)
    (hch : chooseMode (getOpCode s.cpu s.allowIllegal ins) mode (decide (0 ≤ v ∧ v < 256)) = (mode2, code))
    (hcode : 0 ≤ code) :
    ∃ ns p, opcodeNode (expandNode f) (hasUninit f) ins mode0 [q] s = (.ok p, { s with nodes := ns }) ∧
      HeapSim false (look s) s.nodes ns ∧ s.nodes.length ≤ p ∧ ns[p]? = some ⟨.opcode ins code mode2 0, 1, [q]⟩ ∧
      ExprAt (look s) s.nodeBase ns e q ∧ Done (look s) s.syms ns e q := by
  obtain ⟨ns, p, h1, h2⟩ := opcodeNode_pre hd he hb ht hv hc hm hch
  rw [if_neg (by omega)] at h1
  exact ⟨ns, p, h1, h2⟩

/-- The operand part of `expand_op_code_node` reports values that cannot be encoded. -/
theorem operandPhase_reject {e : Expr} {f : Nat} {p q : Ptr} {s : St} {v ins code : Int} {mode : Mode} {pc : Int}
    {n : Node} (hf : e.depth < f) (he : s.endExpansion = false)
    (hp : Live s p ⟨.opcode ins code mode s.pc, 1, [q]⟩) (hn : n.numOps = 1 ∧ n.ops = [q])
    (ht : ExprAt (look s) s.nodeBase s.nodes e q) (hv : Spec.eval (envOf s) s.pc e = some (v, false))
    (hs : (opShape mode).1 > 0) (hr : mode ≠ .r)
    (heff : effective (getOpCode s.cpu s.allowIllegal ins) mode code s.pc v = none) :
    s.errorCount < (operandPhase (expandNode f) (hasUninit f) p n ins code mode pc s).2.errorCount := by
  obtain ⟨ns, h1, h2, _⟩ := expand_ok hf he ht hv
  have hq' : ∃ qn, Live { s with nodes := ns } q qn := (ht.sim h2).live
  obtain ⟨qn, hqn⟩ := hq'
  have hp' : Live { s with nodes := ns } p ⟨.opcode ins code mode s.pc, 1, [q]⟩ := ⟨hp.1, h2.opcode hp.2⟩
  unfold operandPhase
  rw [if_neg (by rw [hn.1]; decide), bind_ok (opAt_run (by rw [hn.2]; rfl) s), bind_ok h1, bind_ok hqn.run, getS_bind]
  have hiv := eval_inInt hv
  unfold effective at heff
  rw [if_neg (by omega), if_neg hr] at heff
  rw [if_neg (show ¬ (v = 0 ∧ mode = .r ∧ isLocalRef qn = true) from fun h => hr h.2.1)]
  have c1 := cand_not_ff hiv
  have c2 := cand_not_ffff hiv
  by_cases hsh : (opShape mode).1 < 2
  · rw [if_pos hsh] at heff
    by_cases hl : 256 ≤ v ∧ v < 65536
    · rw [if_pos hl] at heff
      have hcond : (opShape mode).1 < 2 ∧ decide (cand v (cnot 0xFF) ≠ 0) = true ∧ cand v (cnot 0xFFFF) = 0 :=
        ⟨hsh, decide_eq_true (fun h => by omega), by omega⟩
      rw [if_pos hcond]
      have hwid : s.errorCount < (widen p ins mode (opShape mode).2 { s with nodes := ns }).2.errorCount := by
        unfold widen
        cases hw : wideForm mode with
        | none =>
          rw [if_pos rfl]
          let t : St := { s with nodes := ns, errorCount := s.errorCount + 1, log := s.log ++ [.valueOutOfRange] }
          have he' : error .valueOutOfRange { s with nodes := ns } = (.ok (), t) := rfl
          rw [bind_ok he', bind_ok (opCodeM_run _ _ _)]
          by_cases hg : getOpCode t.cpu t.allowIllegal ins ((none : Option Mode).getD (opShape mode).2) ≠ -1
          · rw [if_pos hg, modOpcode_run (s := t) hp']
            exact Nat.lt_succ_self _
          · rw [if_neg hg]
            show s.errorCount < s.errorCount + 1 + 1
            omega
        | some w =>
          rw [hw] at heff
          simp only at heff
          rw [if_neg (by intro h; cases h), pure_bind', bind_ok (opCodeM_run _ _ _)]
          split at heff
          · cases heff
          · rename_i hg
            have hg' : ¬ getOpCode ({ s with nodes := ns } : St).cpu ({ s with nodes := ns } : St).allowIllegal ins
              ((some w).getD (opShape mode).2) ≠ -1 := hg
            rw [if_neg hg']
            exact Nat.lt_succ_self _
      rw [run_bind]
      rcases hres : widen p ins mode (opShape mode).2 { s with nodes := ns } with ⟨r, s'⟩
      rw [hres] at hwid
      cases r <;> exact hwid
    · rw [if_neg hl] at heff
      cases heff
  · rw [if_neg hsh] at heff
    split at heff <;> cases heff

end Verif
