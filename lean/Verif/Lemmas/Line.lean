import Verif.Lemmas.Congr
import Verif.Lemmas.Load
import Verif.Lemmas.Assembled

/-! # Lines of a flat program

A statement is built first; a label on the same line is entered afterwards; then the statement is expanded.  `Built`
separates the two halves so that both kinds of lines share the analysis of the statement. -/

namespace Verif

/-- A heap after evaluations.  With `mb`, nothing is known about references to local names: the body of a macro is expanded
under another label. -/
def WSim (mb : Bool) (lk : Str → Option SymPtr) (ns ns' : List Node) : Prop :=
  ns.length ≤ ns'.length ∧ ∀ (p : Nat) (n : Node), ns[p]? = some n →
    (mb = true → ∀ k nm c, n.kind = .id k nm c → globalName nm = true) → ∃ n', ns'[p]? = some n' ∧ NodeSim true lk n n'

theorem HeapSim.weak {lk : Str → Option SymPtr} {ns ns' : List Node} (h : HeapSim true lk ns ns') (mb : Bool) : WSim mb lk ns ns' :=
  ⟨h.1, fun p n hn _ => h.2 p n hn⟩

theorem WSim.refl (mb : Bool) (lk : Str → Option SymPtr) (ns : List Node) : WSim mb lk ns ns := (HeapSim.refl true lk ns).weak mb

/-- The kind of a node, up to what has been filled in. -/
theorem NodeSim.idName {o : Bool} {lk : Str → Option SymPtr} {n n' : Node} (h : NodeSim o lk n n') {k : IdKind} {nm : Str}
    {c : Option SymPtr} (hk : n'.kind = .id k nm c) : ∃ c', n.kind = .id k nm c' := by
  rcases h.2.2 with h | ⟨v, w, h, h'⟩ | ⟨k', nm', cc, h, h', _⟩ | ⟨_, _, _, _, _, _, h, h'⟩
  · exact ⟨c, h ▸ hk⟩
  · rw [h'] at hk; cases hk
  · rw [h'] at hk; cases hk; exact ⟨cc, h⟩
  · rw [h'] at hk; cases hk

theorem WSim.trans {mb : Bool} {lk : Str → Option SymPtr} {a b c : List Node} (h : WSim mb lk a b) (h' : WSim mb lk b c) :
    WSim mb lk a c := by
  refine ⟨Nat.le_trans h.1 h'.1, fun p n hn hg => ?_⟩
  obtain ⟨n1, h1, h2⟩ := h.2 p n hn hg
  obtain ⟨n2, h3, h4⟩ := h'.2 p n1 h1 fun hm k nm c hk => by
    obtain ⟨c', hc'⟩ := h2.idName hk
    exact hg hm k nm c' hc'
  exact ⟨n2, h3, h2.trans h4⟩

/-- Only the symbols of global names matter. -/
theorem WSim.congr {mb : Bool} {lk lk' : Str → Option SymPtr} {a b : List Node}
    (hl : ∀ n, (mb = true → globalName n = true) → lk n = lk' n) (h : WSim mb lk a b) : WSim mb lk' a b := by
  refine ⟨h.1, fun p n hn hg => ?_⟩
  obtain ⟨n', h1, h2, h3, h4⟩ := h.2 p n hn hg
  refine ⟨n', h1, h2, h3, ?_⟩
  rcases h4 with h4 | h4 | ⟨k, nm, c, h4, h5, h6⟩ | h4
  · exact Or.inl h4
  · exact Or.inr (Or.inl h4)
  · have := hl nm fun hm => hg hm k nm c h4
    exact Or.inr (Or.inr (Or.inl ⟨k, nm, c, h4, by rw [← this]; exact h5, by rw [← this]; exact h6⟩))
  · exact Or.inr (Or.inr (Or.inr h4))

theorem WSim.toTrue {mb : Bool} {lk : Str → Option SymPtr} {a b : List Node} (h : WSim mb lk a b) : WSim true lk a b :=
  ⟨h.1, fun p n hn hg => h.2 p n hn fun _ => hg rfl⟩

theorem WSim.append (mb : Bool) (lk : Str → Option SymPtr) (ns l : List Node) : WSim mb lk ns (ns ++ l) :=
  (HeapSim.append true lk ns l).weak mb

/-- Effect of a line: the bytes `bs` are assembled, `ll` becomes the last label, nothing else that matters changes.  There may
be warnings for long branches. -/
def Laid (s s' : St) (ll : Option Str) (bs : List Nat) : Prop :=
  ∃ ns cg ds bd et fl ln h ls w ic, WSim true (look s) s.nodes ns ∧ (h = outHdr s ∨ (h = [] ∧ bs = [])) ∧ s' = { s with
    nodes := ns
    codeGenerated := cg
    dataSize := ds
    byteDelta := bd
    expansionType := et
    file := fl
    line := ln
    lastLabel := ll
    warningCount := s.warningCount + w
    log := s.log ++ List.replicate w .branchOutOfRange
    incs := ic
    pc := s.pc + bs.length
    out := s.out ++ (if emitting s then h ++ bs else [])
    totalBytes := s.totalBytes + (if emitting s then ((h.length + bs.length : Nat) : Int) else 0)
    listing := s.listing ++ (if s.finalPass then ls else []) }

/-- Without warnings and new files. -/
theorem Laid.silent {s s' : St} {ll : Option Str} {bs : List Nat} {ns : List Node} {cg ds bd : Int} {et : ExpType} {fl : Str}
    {ln : Int} (h : List Nat) (ls : List ListEntry) (h1 : WSim true (look s) s.nodes ns) (h2 : h = outHdr s ∨ (h = [] ∧ bs = []))
    (h3 : s' = { s with
      nodes := ns
      codeGenerated := cg
      dataSize := ds
      byteDelta := bd
      expansionType := et
      file := fl
      line := ln
      lastLabel := ll
      pc := s.pc + bs.length
      out := s.out ++ (if emitting s then h ++ bs else [])
      totalBytes := s.totalBytes + (if emitting s then ((h.length + bs.length : Nat) : Int) else 0)
      listing := s.listing ++ (if s.finalPass then ls else []) }) : Laid s s' ll bs := by
  refine ⟨ns, cg, ds, bd, et, fl, ln, h, ls, 0, s.incs, h1, h2, ?_⟩
  rw [h3]
  simp

theorem Laid.of {s s' : St} {bs : List Nat} {ls : List ListEntry} (h : Asm s s' bs.length bs ls) :
    Laid s s' s.lastLabel bs := by
  obtain ⟨ns, cg, ds, bd, et, g, rfl⟩ := h
  exact Laid.silent (outHdr s) ls (g.weak true) (Or.inl rfl) rfl

/-- Only the heap grew. -/
theorem Laid.heap {s : St} {ns : List Node} (h : WSim true (look s) s.nodes ns) :
    Laid s { s with nodes := ns } s.lastLabel [] := by
  refine ⟨ns, s.codeGenerated, s.dataSize, s.byteDelta, s.expansionType, s.file, s.line, [], [], 0, s.incs, h, Or.inr ⟨rfl, rfl⟩, ?_⟩
  simp

/-- Position, heap and last label do not matter at the start. -/
theorem Laid.pre {s s' : St} {ll : Option Str} {bs : List Nat} (fl : Str) (ln : Int) (ll0 : Option Str) {ns : List Node}
    (h : WSim true (look s) s.nodes ns)
    (hl : Laid { s with file := fl, line := ln, lastLabel := ll0, nodes := ns } s' ll bs) : Laid s s' ll bs := by
  obtain ⟨ns', cg, ds, bd, et, fl', ln', hd, ls, w, ic, h1, h2, rfl⟩ := hl
  exact ⟨ns', cg, ds, bd, et, fl', ln', hd, ls, w, ic, h.trans (h1.congr fun n hn => look_label (s := s) ll0 ns (hn rfl)), h2, rfl⟩

theorem Laid.comp {s s1 s2 : St} {l1 l2 : Option Str} {b1 b2 : List Nat} (h0 : 0 ≤ s.totalBytes)
    (h1 : Laid s s1 l1 b1) (h2 : Laid s1 s2 l2 b2) : Laid s s2 l2 (b1 ++ b2) := by
  obtain ⟨ns, cg, ds, bd, et, fl, ln, hd, ls, w, ic, g1, g2, rfl⟩ := h1
  obtain ⟨ns', cg', ds', bd', et', fl', ln', hd', ls', w', ic', g1', g2', rfl⟩ := h2
  have g := g1.trans (g1'.congr fun n hn => look_label (s := s) l1 ns (hn rfl))
  by_cases he : emitting s = true
  · have hh := hdr_after s.format s.origin s.totalBytes b1.length h0
    have he' := he
    unfold emitting at he'
    simp only [emitting, outHdr, he', if_true] at g2'
    -- the header
    have key : ∃ h, (h = outHdr s ∨ (h = [] ∧ b1 ++ b2 = [])) ∧ hd ++ b1 ++ (hd' ++ b2) = h ++ (b1 ++ b2) := by
      rcases g2 with rfl | ⟨rfl, rfl⟩
      · refine ⟨outHdr s, Or.inl rfl, ?_⟩
        unfold outHdr at g2'
        rw [hh] at g2'
        rcases g2' with rfl | ⟨rfl, rfl⟩ <;> simp
      · simp only [List.length_nil, Nat.add_zero, Int.natCast_zero, Int.add_zero] at g2'
        exact ⟨hd', by simpa [outHdr] using g2', by simp⟩
    obtain ⟨h, k1, k2⟩ := key
    refine ⟨ns', cg', ds', bd', et', fl', ln', h, ls ++ ls', w + w', ic', g, k1, ?_⟩
    have k3 := congrArg List.length k2
    simp only [List.length_append] at k3
    simp only [emitting, he', if_true]
    congr 1
    · simp only [List.length_append]; omega
    · omega
    · rw [List.append_assoc, List.replicate_append_replicate]
    · simp only [List.length_append]; omega
    · rw [← k2]; simp
    · split <;> simp
  · refine ⟨ns', cg', ds', bd', et', fl', ln', outHdr s, ls ++ ls', w + w', ic', g, Or.inl rfl, ?_⟩
    unfold emitting at he
    simp only [emitting, he, Bool.false_eq_true, if_false, List.append_nil, Int.add_zero]
    congr 1
    · simp only [List.length_append]; omega
    · omega
    · rw [List.append_assoc, List.replicate_append_replicate]
    · split <;> simp

/-- The names whose meaning may depend on the last label. -/
def Stmt.globals : Stmt → Bool
  | .empty => true
  | .op _ _ none => true
  | .op _ _ (some e) => e.names.all globalName
  | .data _ hd tl => (hd :: tl).all fun x => x.names.all globalName
  | .fill v n => v.names.all globalName && n.names.all globalName
  | .load _ => true
  | .inc _ => true
  | .assign name e => globalName name && e.names.all globalName
  | _ => false

/-- In the final pass the rows that were added to the listing satisfy `R`. -/
def Rowed (R : List ListEntry → Prop) (s s' : St) : Prop :=
  s.finalPass = true → ∃ ls, s'.listing = s.listing ++ ls ∧ R ls

theorem Laid.rowed {s s' : St} {ll : Option Str} {bs : List Nat} (h : Laid s s' ll bs) : Rowed (fun _ => True) s s' := by
  obtain ⟨ns, cg, ds, bd, et, fl, ln, hd, ls, w, ic, g1, g2, rfl⟩ := h
  intro hf
  exact ⟨ls, by simp only [hf, if_true], trivial⟩

theorem Rowed.none {s s' : St} (h : s'.listing = s.listing) : Rowed (· = []) s s' := fun _ => ⟨[], by simp [h], rfl⟩

theorem Asm.rowed {s s' : St} {n : Int} {bs : List Nat} {ls : List ListEntry} (h : Asm s s' n bs ls) : Rowed (· = ls) s s' := by
  obtain ⟨ns, cg, ds, bd, et, g, rfl⟩ := h
  intro hf
  exact ⟨ls, by simp only [hf, if_true], rfl⟩

/-- The names mean the same in both states. -/
def NamesSame (s t : St) (ns : List Str) : Prop := ∀ n ∈ ns, look s n = look t n ∧ envOf s n = envOf t n ∧
  ∀ i, look s n = some i → s.syms[i]? = t.syms[i]?

/-- The names of the statement mean the same in both states. -/
def StmtSame (s t : St) : Stmt → Prop
  | .op _ _ (some e) => NamesSame s t e.names
  | .data _ hd tl => ∀ x ∈ hd :: tl, NamesSame s t x.names
  | .fill v n => NamesSame s t v.names ∧ NamesSame s t n.names
  | .assign name e => envOf s name = envOf t name ∧ NamesSame s t e.names
  | _ => True

/-- The statement can be built in `s`; expanded afterwards, possibly after a label was entered, it assembles `bs`;
its rows satisfy `R`. -/
def Built (f : Nat) (s : St) (st : Stmt) (bs : List Nat) (R : List ListEntry → Prop) : Prop :=
  ∃ ns p, buildStmt (expandNode (f + 1)) (hasUninit (f + 1)) false st s = (.ok (some p), { s with nodes := ns }) ∧
    WSim true (look s) s.nodes ns ∧
    ∀ (l : List Node) (ll : Option Str) (ys : List Sym) (sc : Nat),
      StmtSame s { s with nodes := ns ++ l, lastLabel := ll, syms := ys, symValueChanged := sc } st →
      ∃ v s', expandNode (f + 1) p { s with nodes := ns ++ l, lastLabel := ll, syms := ys, symValueChanged := sc } = (.ok v, s') ∧
        Laid { s with nodes := ns ++ l, lastLabel := ll, syms := ys, symValueChanged := sc } s' ll bs ∧ Rowed R s s'

/-- As `Built`, seen from the heap before the statement was built: its own nodes may have been changed. -/
def BuiltL (f : Nat) (s : St) (st : Stmt) (bs : List Nat) (R : List ListEntry → Prop) : Prop :=
  ∃ ns p, buildStmt (expandNode (f + 1)) (hasUninit (f + 1)) false st s = (.ok (some p), { s with nodes := ns }) ∧
    WSim true (look s) s.nodes ns ∧
    ∀ (l : List Node) (ll : Option Str), ll = s.lastLabel ∨ st.globals = true →
      ∃ v s', expandNode (f + 1) p { s with nodes := ns ++ l, lastLabel := ll } = (.ok v, s') ∧
        Laid { s with lastLabel := ll } s' ll bs ∧ Rowed R s s'

theorem BuiltL.mono {f : Nat} {s : St} {st : Stmt} {bs : List Nat} {R R' : List ListEntry → Prop} (h : BuiltL f s st bs R)
    (hR : s.finalPass = true → ∀ ls, R ls → R' ls) : BuiltL f s st bs R' := by
  obtain ⟨ns, p, h1, h2, h3⟩ := h
  refine ⟨ns, p, h1, h2, fun l ll hll => ?_⟩
  obtain ⟨v, s', r, a, b⟩ := h3 l ll hll
  refine ⟨v, s', r, a, fun hf => ?_⟩
  obtain ⟨ls, k1, k2⟩ := b hf
  exact ⟨ls, k1, hR hf ls k2⟩

theorem Built.mono {f : Nat} {s : St} {st : Stmt} {bs : List Nat} {R R' : List ListEntry → Prop} (h : Built f s st bs R)
    (hR : s.finalPass = true → ∀ ls, R ls → R' ls) : Built f s st bs R' := by
  obtain ⟨ns, p, h1, h2, h3⟩ := h
  refine ⟨ns, p, h1, h2, fun l ll ys sc hll => ?_⟩
  obtain ⟨v, s', r, a, b⟩ := h3 l ll ys sc hll
  refine ⟨v, s', r, a, fun hf => ?_⟩
  obtain ⟨ls, k1, k2⟩ := b hf
  exact ⟨ls, k1, hR hf ls k2⟩

theorem names_look {s : St} {e : Expr} {ll : Option Str} (ns : List Node)
    (h : ll = s.lastLabel ∨ e.names.all globalName = true) :
    (∀ n ∈ e.names, look s n = look { s with lastLabel := ll, nodes := ns } n) ∧
    (∀ n ∈ e.names, envOf s n = envOf { s with lastLabel := ll, nodes := ns } n) := by
  rcases h with rfl | h
  · exact ⟨fun _ _ => rfl, fun _ _ => rfl⟩
  · rw [List.all_eq_true] at h
    exact ⟨fun n hn => (look_label ll ns (h n hn)).symm, fun n hn => (envOf_label ll ns (h n hn)).symm⟩

/-- A label in between does not change the meaning of global names. -/
theorem agree_label {s : St} {st : Stmt} {ll : Option Str} (ns : List Node) (h : ll = s.lastLabel ∨ st.globals = true) :
    StmtSame s { s with nodes := ns, lastLabel := ll } st := by
  have one : ∀ {e : Expr}, ll = s.lastLabel ∨ e.names.all globalName = true →
      NamesSame s { s with nodes := ns, lastLabel := ll } e.names := fun he n hn => ⟨(names_look ns he).1 n hn, (names_look ns he).2 n hn, fun _ _ => rfl⟩
  cases st with
  | op ins mode e =>
    cases e with
    | none => trivial
    | some e => exact one h
  | data size hd tl =>
    intro x hx n hn
    rcases h with rfl | h
    · exact ⟨rfl, rfl, fun _ _ => rfl⟩
    · have := List.all_eq_true.1 (List.all_eq_true.1 h x hx) n hn
      exact ⟨(look_label ll ns this).symm, (envOf_label ll ns this).symm, fun _ _ => rfl⟩
  | fill v n =>
    refine ⟨one (h.imp id fun h => ?_), one (h.imp id fun h => ?_)⟩
    all_goals simp only [Stmt.globals, Bool.and_eq_true] at h
    · exact h.1
    · exact h.2
  | assign name e =>
    refine ⟨?_, one (h.imp id fun h => ?_)⟩
    · rcases h with rfl | h
      · rfl
      · simp only [Stmt.globals, Bool.and_eq_true] at h
        exact (envOf_label ll ns h.1).symm
    · simp only [Stmt.globals, Bool.and_eq_true] at h
      exact h.2
  | _ => trivial

theorem Built.line {f : Nat} {s : St} {st : Stmt} {bs : List Nat} {R : List ListEntry → Prop} (h : Built f s st bs R) :
    BuiltL f s st bs R := by
  obtain ⟨ns, p, h1, h2, h3⟩ := h
  refine ⟨ns, p, h1, h2, fun l ll hll => ?_⟩
  obtain ⟨v, s', r, a, b⟩ := h3 l ll s.syms s.symValueChanged (agree_label (ns ++ l) hll)
  refine ⟨v, s', r, Laid.pre (s := { s with lastLabel := ll }) s.file s.line ll (ns := ns ++ l) ?_ a, b⟩
  exact (h2.congr fun n hn => (look_label (s := s) ll s.nodes (hn rfl)).symm).trans (WSim.append _ _ _ _)

theorem built_empty (f : Nat) {s : St} (he : s.endExpansion = false) (hb : s.nodeBase ≤ s.nodes.length) :
    Built f s .empty [] (· = []) := by
  let N : Node := ⟨.opr .statement, 0, []⟩
  refine ⟨s.nodes ++ [N], s.nodes.length, rfl, WSim.append _ _ _ _, fun l ll ys sc _ => ?_⟩
  let t : St := { s with nodes := s.nodes ++ [N] ++ l, lastLabel := ll, syms := ys, symValueChanged := sc }
  have hl : Live t s.nodes.length N := ⟨hb, by simp [t]⟩
  exact ⟨0, t, (expandNode_run (s := t) he hl).trans rfl, Laid.heap (s := t) (WSim.refl _ _ _), .none rfl⟩

theorem built_op {e : Expr} {f : Nat} {s : St} {v ins : Int} {mode0 m : Mode} {c : Int}
    (hd : e.depth + 1 < f) (he : s.endExpansion = false) (hb : s.nodeBase ≤ s.nodes.length)
    (hv : Spec.eval (envOf s) s.pc e = some (v, false)) (hc : e.complete (envOf s) s.pc = true)
    (henc : encode (getOpCode s.cpu s.allowIllegal ins) mode0 s.pc v = some (m, c)) (hroom : Room s)
    (ho : s.originSpecified = true) :
    Built f s (.op ins mode0 (some e)) (toBytes (instrBytes m c s.pc v)) (· = [listRow s (opRow ins 1 m c s.pc v)]) := by
  unfold encode at henc
  split at henc
  · cases henc
  · rename_i hcode
    obtain ⟨ns, p, q, h1, h2, h3, h4, h5, h6⟩ := buildOp_run (s := s) (ins := ins) (mode0 := mode0) (f := f + 1)
      (by omega) he hb hv hc (Int.not_lt.1 hcode) false
    refine ⟨ns, p, h1, h2.mono.weak true, ?_⟩
    intro l ll ys sc hll
    let t : St := { s with nodes := ns ++ l, lastLabel := ll, syms := ys, symValueChanged := sc }
    have hlk : ∀ n ∈ e.names, look s n = look t n := fun n hn => (hll n hn).1
    have hev : ∀ n ∈ e.names, envOf s n = envOf t n := fun n hn => (hll n hn).2.1
    have hl : Live t p _ := ⟨Nat.le_trans hb h3, by
      show (ns ++ l)[p]? = _
      rw [List.getElem?_append_left (by
        rcases Nat.lt_or_ge p ns.length with h' | h'
        · exact h'
        · rw [List.getElem?_eq_none h'] at h4; cases h4)]
      exact h4⟩
    have hs2 : HeapSim false (look s) ns (ns ++ l) := HeapSim.append _ _ _ _
    have ht : orig t = t := orig_id ho
    obtain ⟨s', r, a⟩ := expandOp_run (f := f) (s := t) (v := v) (m := m) (c := c) he hl
      (fun _ => ⟨q, e, rfl, rfl, hd, (h5.sim hs2).congr hlk, ((h6.sim hs2).entries fun n hn i hi => (hll n hn).2.2 i hi).congr hlk, by
        rw [← eval_congr (env := envOf s) (env' := envOf t) hev]; exact hv⟩) henc (by rw [ht]; exact hroom)
    refine ⟨0, s', ?_, ?_⟩
    · exact (expandNode_run (s := t) he hl).trans r
    · rw [ht] at a
      have hlen : opByteCount m + 1 = ((toBytes (instrBytes m c s.pc v)).length : Int) := instrBytes_len ..
      rw [hlen] at a
      exact ⟨Laid.of a, a.rowed⟩

theorem built_implied (f : Nat) {s : St} {ins : Int} (he : s.endExpansion = false)
    (hb : s.nodeBase ≤ s.nodes.length)
    (hr : getOpCode s.cpu s.allowIllegal ins .r = -1) (hi : 0 ≤ getOpCode s.cpu s.allowIllegal ins .i)
    (hroom : Room s) (ho : s.originSpecified = true) :
    Built f s (.op ins .i none) (toBytes [getOpCode s.cpu s.allowIllegal ins .i])
      (· = [listRow s (opRow ins 0 .i (getOpCode s.cpu s.allowIllegal ins .i) s.pc 0)]) := by
  let N1 : Node := ⟨.opcode ins (getOpCode s.cpu s.allowIllegal ins .i) .i 0, 0, []⟩
  have h1' : buildStmt (expandNode (f + 1)) (hasUninit (f + 1)) false (.op ins .i none) s = (.ok (some s.nodes.length),
      { s with nodes := s.nodes ++ [N1] }) := buildImplied_run (s := s) (ins := ins) hb hr hi false
  refine ⟨_, _, h1', WSim.append _ _ _ _, ?_⟩
  intro l ll ys sc _
  let t : St := { s with nodes := s.nodes ++ [N1] ++ l, lastLabel := ll, syms := ys, symValueChanged := sc }
  have hl : Live t s.nodes.length N1 := ⟨hb, by simp [t]⟩
  have ht : orig t = t := orig_id ho
  obtain ⟨s', r, a⟩ := expandOp_run (f := f) (s := t) (v := 0) (mode := .i) (m := .i)
    (code := getOpCode s.cpu s.allowIllegal ins .i) (c := getOpCode s.cpu s.allowIllegal ins .i)
    he hl (fun h => absurd h (Int.lt_irrefl 0)) (by unfold effective; exact if_pos rfl)
    (by rw [ht]; exact hroom)
  refine ⟨0, s', (expandNode_run (s := t) he hl).trans r, ?_⟩
  rw [ht] at a
  exact ⟨Laid.of a, a.rowed⟩

theorem built_acc {f : Nat} {s : St} {ins : Int} {nm : Str} (hf : 1 ≤ f) (hA : isA nm)
    (he : s.endExpansion = false) (hb : s.nodeBase ≤ s.nodes.length)
    (hr : getOpCode s.cpu s.allowIllegal ins .r = -1) (hi : 0 ≤ getOpCode s.cpu s.allowIllegal ins .A)
    (hroom : Room s) (ho : s.originSpecified = true) :
    Built f s (.op ins .a (some (.sym nm))) (toBytes [getOpCode s.cpu s.allowIllegal ins .A])
      (· = [listRow s (opRow ins 1 .A (getOpCode s.cpu s.allowIllegal ins .A) s.pc 0)]) := by
  obtain ⟨f, rfl⟩ : ∃ g, f = g + 1 := ⟨f - 1, by omega⟩
  obtain ⟨l0, q, p, h1, h2, h3⟩ := buildAcc_run (f := f) (s := s) (ins := ins) hA hb he hr hi false
  refine ⟨_, _, h1, WSim.append _ _ _ _, ?_⟩
  intro l ll ys sc _
  let t : St := { s with nodes := s.nodes ++ l0 ++ l, lastLabel := ll, syms := ys, symValueChanged := sc }
  have hl : Live t p _ := ⟨h2, by
    show (s.nodes ++ l0 ++ l)[p]? = _
    rw [List.getElem?_append_left (by
      rcases Nat.lt_or_ge p (s.nodes ++ l0).length with h' | h'
      · exact h'
      · rw [List.getElem?_eq_none h'] at h3; cases h3)]
    exact h3⟩
  have ht : orig t = t := orig_id ho
  obtain ⟨s', r, a⟩ := expandOp_run (f := f + 1) (s := t) (v := 0) (mode := .A) (m := .A)
    (code := getOpCode s.cpu s.allowIllegal ins .A) (c := getOpCode s.cpu s.allowIllegal ins .A)
    he hl (fun h => absurd h (Int.lt_irrefl 0)) (by unfold effective; exact if_pos rfl)
    (by rw [ht]; exact hroom)
  refine ⟨0, s', (expandNode_run (s := t) he hl).trans r, ?_⟩
  rw [ht] at a
  exact ⟨Laid.of a, a.rowed⟩

theorem built_data {f : Nat} {s : St} {size : Int} {hd : Item} {tl : List Item} {bs : List Nat}
    (hsize : size = 0 ∨ size = 1 ∨ size = 2)
    (hdepth : ∀ x ∈ hd :: tl, x.depth + (hd :: tl).length < f) (he : s.endExpansion = false)
    (hb : s.nodeBase ≤ s.nodes.length) (h0 : 0 ≤ s.totalBytes)
    (hv : Spec.items textOf (envOf s) size s.pc (hd :: tl) = some bs)
    (ho : s.originSpecified = true) (hroom : Room s) : Built f s (.data size hd tl) bs (fun ls =>
      ∀ q, (∀ x ∈ hd :: tl, Spec.Printable q textOf size x) → Spec.Prints q s.file s.line s.pc ls bs) := by
  obtain ⟨l0, q, h1, h2⟩ := buildItems_run (lk := look s) hd tl s hb (items_text hv)
  let s1 : St := { s with nodes := s.nodes ++ l0 }
  let N : Node := ⟨.data size q, 0, []⟩
  refine ⟨s.nodes ++ l0 ++ [N], s1.nodes.length, ?_, (WSim.append _ _ _ _).trans (WSim.append _ _ _ _), ?_⟩
  · refine built_run ?_
    show (buildItems hd tl >>= fun p => dataNode size p) s = _
    rw [bind_ok h1]
    exact alloc_run _ _ _
  · intro l ll ys sc hll
    let s2 : St := { s with nodes := s.nodes ++ l0 ++ [N] ++ l, lastLabel := ll, syms := ys, symValueChanged := sc }
    have hb2 : s2.nodeBase ≤ s1.nodes.length := by
      simp only [s1, s2, List.length_append]
      omega
    have hl : Live s2 s1.nodes.length N := ⟨hb2, by simp [s1, s2]⟩
    have hagree : ∀ x ∈ hd :: tl, (∀ n ∈ x.names, look s n = look s2 n) ∧ (∀ n ∈ x.names, envOf s n = envOf s2 n) :=
      fun x hx => ⟨fun n hn => (hll x hx n hn).1, fun n hn => (hll x hx n hn).2.1⟩
    have hlist : ListAt (look s2) s2.nodeBase s2.nodes ((hd :: tl).reverse) q :=
      ListAt.congr (fun x hx => (hagree x (List.mem_reverse.1 hx)).1)
        ((h2.sim (HeapSim.append false _ _ [N])).sim (HeapSim.append false _ _ l))
    let s3 : St := dataSt s2 size
    have hds : DataState s3 := by
      rcases hsize with h | h | h
      · exact Or.inr ⟨by simp [s3, dataSt, h], h⟩
      · exact Or.inl ⟨by simp [s3, dataSt, h], Or.inl h⟩
      · exact Or.inl ⟨by simp [s3, dataSt, h], Or.inr h⟩
    have hs3 : emitting s3 = emitting s := by
      unfold emitting
      rw [ho]
      rfl
    have hroom3 : Room s3 := by
      intro hem
      rw [hs3] at hem
      exact hroom hem
    obtain ⟨s', ls, r, a, _, _, hpr⟩ := dataList_run ((hd :: tl).reverse) (f := f) (s := s3) (bs := bs)
      (fun x hx => by rw [List.length_reverse]; exact hdepth x (List.mem_reverse.1 hx)) he hds h0 hlist
      (by
        rw [List.reverse_reverse]
        show Spec.items textOf (envOf s2) size s.pc (hd :: tl) = _
        rw [← items_congr (env := envOf s) (fun x hx => (hagree x hx).2)]
        exact hv) hroom3
    refine ⟨0, s', (expandNode_run (s := s2) he hl).trans r, ?_⟩
    refine ⟨?_, fun hfp => ?_⟩
    rotate_left
    · obtain ⟨ls', k1, rfl⟩ := a.rowed hfp
      exact ⟨ls', k1, fun q hq => hpr hfp q fun x hx => hq x (List.mem_reverse.1 hx)⟩
    obtain ⟨ns, cg, ds, bd, et, sim, rfl⟩ := a
    refine Laid.silent (outHdr s2) ls (sim.weak true) (Or.inl rfl) (cg := cg) (ds := ds) (bd := bd) (et := et) (fl := s2.file)
      (ln := s2.line) ?_
    have : s3 = { s2 with dataSize := size, expansionType := s3.expansionType, originSpecified := true } := rfl
    rw [← show s2.originSpecified = true from ho] at this
    rw [this]
    rfl

theorem built_fill {f : Nat} {s : St} {ve ne : Expr} {v : Int} {n : Nat}
    (hf : 2 ≤ f) (hfn : n ≤ 2 * f) (hd1 : ve.depth < f) (hd2 : ne.depth < f) (he : s.endExpansion = false)
    (hb : s.nodeBase ≤ s.nodes.length) (h0 : 0 ≤ s.totalBytes)
    (hv : Spec.eval (envOf s) s.pc ve = some (v, false)) (hn : Spec.eval (envOf s) s.pc ne = some ((n : Int), false))
    (hrange : 0 ≤ v ∧ v ≤ 255)
    (hpos : s.finalPass = false → 0 < n) (ho : s.originSpecified = true) (hroom : Room s) (hh : NoHdr s) :
    Built f s (.fill ve ne) (List.replicate n v.toNat) (fun ls =>
      ∀ q, Spec.Prints q s.file s.line s.pc ls (List.replicate n v.toNat)) := by
  obtain ⟨l1, q1, h1, h2⟩ := buildExpr_run (lk := look s) ve s hb
  let s1 : St := { s with nodes := s.nodes ++ l1 }
  have hb1 : s1.nodeBase ≤ s1.nodes.length := by simp only [s1, List.length_append]; omega
  obtain ⟨l2, q2, h3, h4⟩ := buildExpr_run (lk := look s) ne s1 hb1
  let s2 : St := { s1 with nodes := s1.nodes ++ l2 }
  have hb2 : s2.nodeBase ≤ s2.nodes.length := by simp only [s2, List.length_append]; omega
  let N : Node := ⟨.opr .fill, 2, [q1, q2]⟩
  refine ⟨s2.nodes ++ [N], s2.nodes.length, ?_,
    ((WSim.append _ _ _ _).trans (WSim.append _ _ _ _)).trans (WSim.append _ _ _ _), ?_⟩
  · refine built_run ?_
    show (buildExpr ve >>= fun p => buildExpr ne >>= fun q => operatorNode .fill [p, q]) s = _
    rw [bind_ok h1]
    show (buildExpr ne >>= fun q => operatorNode .fill [q1, q]) s1 = _
    rw [bind_ok h3]
    exact alloc_run _ _ _
  · intro l ll ys sc hll
    let s3 : St := { s2 with nodes := s2.nodes ++ [N] ++ l, lastLabel := ll, syms := ys, symValueChanged := sc }
    have hl : Live s3 s2.nodes.length N := ⟨hb2, by simp [s3]⟩
    have hlk1 : ∀ n ∈ ve.names, look s n = look s3 n := fun n hn => (hll.1 n hn).1
    have hev1 : ∀ n ∈ ve.names, envOf s n = envOf s3 n := fun n hn => (hll.1 n hn).2.1
    have hlk2 : ∀ n ∈ ne.names, look s n = look s3 n := fun n hn => (hll.2 n hn).1
    have hev2 : ∀ n ∈ ne.names, envOf s n = envOf s3 n := fun n hn => (hll.2 n hn).2.1
    have t1 : ExprAt (look s3) s.nodeBase s3.nodes ve q1 :=
      (((h2.sim (HeapSim.append false _ _ l2)).sim (HeapSim.append false _ _ [N])).sim (HeapSim.append false _ _ l)).congr
        hlk1
    have t2 : ExprAt (look s3) s.nodeBase s3.nodes ne q2 :=
      ((h4.sim (HeapSim.append false _ _ [N])).sim (HeapSim.append false _ _ l)).congr hlk2
    have hv3 : Spec.eval (envOf s3) s3.pc ve = some (v, false) := by
      rw [← eval_congr (env := envOf s) hev1]
      exact hv
    have hn3 : Spec.eval (envOf s3) s3.pc ne = some ((n : Int), false) := by
      rw [← eval_congr (env := envOf s) hev2]
      exact hn
    obtain ⟨n4, r4, sim4, _⟩ := expand_ok (f := f) (s := s3) hd1 he t1 hv3
    let s4 : St := { s3 with nodes := n4 }
    obtain ⟨n5, r5, sim5, _⟩ := expand_ok (f := f) (s := s4) hd2 he (t2.sim sim4) hn3
    let s5 : St := { s4 with nodes := n5 }
    have sim : HeapSim true (look s3) s3.nodes n5 := (sim4.trans sim5).mono
    have hb5 : s5.nodeBase ≤ s5.nodes.length := by
      refine Nat.le_trans ?_ sim.1
      show s2.nodeBase ≤ (s2.nodes ++ [N] ++ l).length
      simp only [List.length_append]
      omega
    have pre : ∀ {s'}, (if s5.finalPass then do
            modS fun s => { s with dataSize := 0 }
            let c2 ← constantNode (v * 256 + v) false
            let two ← dataNode 2 c2
            let c1 ← constantNode v false
            let one ← dataNode 1 c1
            fillLoop (expandNode f) two one f n
          else addPc (if (n : Int) > 0 then (n : Int) else 1)) s5 = (.ok (), s') →
        expandNode (f + 1) s2.nodes.length s3 = (.ok v, s') := by
      intro s' hs'
      rw [expandNode_run (s := s3) he hl]
      show expandFill (expandNode f) f N s3 = _
      unfold expandFill
      rw [bind_ok (opAt_run (show N.ops[0]? = some q1 from rfl) s3), bind_ok r4,
        bind_ok (opAt_run (show N.ops[1]? = some q2 from rfl) _), bind_ok r5, if_neg (by omega), getS_bind, bind_ok hs']
      rfl
    by_cases hfp : s.finalPass = true
    · let C2 : Node := ⟨.con (v * 256 + v) false, 0, []⟩
      let T : Node := ⟨.data 2 s5.nodes.length, 0, []⟩
      let C1 : Node := ⟨.con v false, 0, []⟩
      let O : Node := ⟨.data 1 (s5.nodes.length + 2), 0, []⟩
      let s6 : St := { s5 with dataSize := 0, nodes := s5.nodes ++ [C2] ++ [T] ++ [C1] ++ [O] }
      have hat : FillAt s6 v (s5.nodes.length + 1) (s5.nodes.length + 3) := by
        have hb6 : s6.nodeBase ≤ s5.nodes.length := hb5
        refine ⟨⟨s5.nodes.length, ⟨Nat.le_trans hb6 (by omega), ?_⟩, ⟨hb6, ?_⟩⟩,
          ⟨s5.nodes.length + 2, ⟨Nat.le_trans hb6 (by omega), ?_⟩, ⟨Nat.le_trans hb6 (by omega), ?_⟩⟩⟩
        all_goals
          show (s5.nodes ++ [C2] ++ [T] ++ [C1] ++ [O])[_]? = _
          simp [C2, T, C1, O]
      obtain ⟨g, rfl⟩ : ∃ g, f = g + 2 := ⟨f - 2, by omega⟩
      obtain ⟨s', ls, r, a, p⟩ := fillLoop_run (g := g) hrange (g + 2) n s6 hfn he hat hfp ho hroom hh h0
      refine ⟨v, s', pre ?_, ?_⟩
      · rw [if_pos (show s5.finalPass = true from hfp), modS_bind]
        unfold constantNode dataNode
        rw [bind_assoc', getS_bind, bind_ok (alloc_run _ _ _), bind_ok (alloc_run _ _ _), bind_assoc', getS_bind,
          bind_ok (alloc_run _ _ _), bind_ok (alloc_run _ _ _)]
        simp only [List.length_append, List.length_cons, List.length_nil, Nat.zero_add, Nat.add_assoc, Nat.reduceAdd]
        exact r
      · have : Asm s3 s' ((List.replicate n v.toNat).length : Nat) (List.replicate n v.toNat) ls := by
          rw [List.length_replicate]
          obtain ⟨ns, cg, ds, bd, et, sim', rfl⟩ := a
          refine ⟨ns, cg, ds, bd, et, ?_, rfl⟩
          refine HeapSim.trans sim (HeapSim.trans ?_ sim')
          show HeapSim true _ n5 (n5 ++ [C2] ++ [T] ++ [C1] ++ [O])
          exact (((HeapSim.append _ _ _ _).trans (HeapSim.append _ _ _ _)).trans (HeapSim.append _ _ _ _)).trans
            (HeapSim.append _ _ _ _)
        exact ⟨Laid.of this, fun h => let ⟨_, e1, e2⟩ := this.rowed h; ⟨_, e1, by rw [e2]; exact p⟩⟩
    · have hfp' : s.finalPass = false := by simpa using hfp
      refine ⟨v, { s5 with pc := s5.pc + n }, pre ?_, ?_⟩
      · rw [if_neg (show ¬ s5.finalPass = true from hfp), if_pos (by have := hpos hfp'; omega)]
        rfl
      · have : Asm s3 { s5 with pc := s5.pc + n } ((List.replicate n v.toNat).length : Nat) (List.replicate n v.toNat) [] := by
          rw [List.length_replicate]
          refine ⟨n5, s.codeGenerated, s.dataSize, s.byteDelta, s.expansionType, sim, ?_⟩
          have : emitting s3 = false := emitting_final hfp'
          simp only [this, Bool.false_eq_true, if_false, List.append_nil, Int.add_zero, ite_self]
          rfl
        exact ⟨Laid.of this, fun h => absurd h hfp⟩

theorem built_load {f : Nat} {s : St} {raw name nm : Str} {bytes : List Nat}
    (hf : 4 ≤ f) (he : s.endExpansion = false) (hb : s.nodeBase ≤ s.nodes.length) (h0 : 0 ≤ s.totalBytes)
    (hraw : textOf raw = some name) (hfile : s.files.find? (fun e => e.1 == name) = some (nm, bytes))
    (ho : s.originSpecified = true) (hroom : Room s) : Built f s (.load raw) (bytes.map (· % 256)) (fun ls =>
      ∀ q, Spec.Prints q s.file s.line s.pc ls (bytes.map (· % 256))) := by
  let S : Node := ⟨.str name, 0, []⟩
  let N : Node := ⟨.opr .load, 1, [s.nodes.length]⟩
  let s1 : St := { s with nodes := s.nodes ++ [S] }
  refine ⟨s.nodes ++ [S] ++ [N], s.nodes.length + 1, ?_, (WSim.append _ _ _ _).trans (WSim.append _ _ _ _), ?_⟩
  · refine built_run ?_
    show (stringNode raw >>= fun p => operatorNode .load [p]) s = _
    rw [bind_ok (stringNode_run s hraw)]
    refine (alloc_run _ _ s1).trans ?_
    have : s1.nodes.length = s.nodes.length + 1 := by
      show (s.nodes ++ [S]).length = _
      simp
    rw [this]
    rfl
  · intro l ll ys sc _
    let s2 : St := { s with nodes := s.nodes ++ [S] ++ [N] ++ l, lastLabel := ll, syms := ys, symValueChanged := sc }
    have hl : Live s2 (s.nodes.length + 1) N :=
      ⟨Nat.le_trans hb (Nat.le_add_right _ _), by show (s.nodes ++ [S] ++ [N] ++ l)[_]? = _; simp⟩
    have hS : Live s2 s.nodes.length S := ⟨hb, by show (s.nodes ++ [S] ++ [N] ++ l)[_]? = _; simp⟩
    have hb2 : s2.nodeBase ≤ s2.nodes.length := by
      show s.nodeBase ≤ (s.nodes ++ [S] ++ [N] ++ l).length
      simp only [List.length_append]
      omega
    have pre : ∀ {s'}, loadLoop (expandNode f) bytes s2 = (.ok (), s') →
        expandNode (f + 1) (s.nodes.length + 1) s2 = (.ok 1, s') := by
      intro s' r
      rw [expandNode_run (s := s2) he hl]
      show expandLoad (expandNode f) N s2 = _
      unfold expandLoad
      rw [bind_ok (opAt_run (show N.ops[0]? = some s.nodes.length from rfl) s2), bind_ok hS.run]
      show (getS >>= _) s2 = _
      rw [getS_bind]
      have hf2 : s2.files.find? (fun e => e.1 == name) = some (nm, bytes) := hfile
      rw [hf2]
      show (loadLoop (expandNode f) bytes >>= fun _ => M.pure 1) s2 = _
      rw [bind_ok r]
      rfl
    by_cases hne : bytes = []
    · subst hne
      exact ⟨1, s2, pre rfl, Laid.heap (s := s2) (WSim.refl _ _ _), fun _ => ⟨[], by simp [s2], fun _ => .nil _⟩⟩
    · obtain ⟨s', ls, r, a, p⟩ := loadLoop_run hf bytes s2 he hb2 h0 ho hroom (fun h => absurd h hne)
      rw [← List.length_map (f := (· % 256))] at a
      exact ⟨1, s', pre r, Laid.of (ls := ls) a, fun h => let ⟨_, e1, e2⟩ := a.rowed h; ⟨_, e1, by rw [e2]; exact p h⟩⟩


/-! ## Assignments and labels that are consistent -/

theorem envOf_some {s : St} {name : Str} {v : Int} (h : envOf s name = some v) :
    plainName name = true ∧ ∃ i x, look s name = some i ∧ s.syms[i]? = some x ∧ x.isInit = true ∧ x.value = v := by
  unfold envOf at h
  split at h
  · refine ⟨by assumption, ?_⟩
    split at h
    · split at h
      · split at h
        · cases h
          exact ⟨_, _, by assumption, by assumption, by assumption, rfl⟩
        · cases h
      · cases h
    · cases h
  · cases h

theorem stricmp_pm {name : Str} (h : plainName name = true) : stricmp name [45] ≠ 0 ∧ stricmp name [43] ≠ 0 := by
  simp only [plainName, Bool.and_eq_true, Bool.not_eq_true'] at h
  have h1 := h.1.1.1
  cases name with
  | nil => exact absurd h.1.2 (by simp)
  | cons c cs =>
    have hc : c ≠ 43 ∧ c ≠ 45 := by
      constructor <;> (rintro rfl; simp [isPmName] at h1)
    have key : ∀ d, d = 43 ∨ d = 45 → stricmp (c :: cs) [d] ≠ 0 := by
      intro d hd h
      have : c ≠ d := by omega
      have h1 : tolower c ≠ tolower d := by
        unfold tolower
        split <;> split <;> omega
      simp only [stricmp] at h
      rw [if_pos (by omega)] at h
      omega
    exact ⟨key 45 (Or.inr rfl), key 43 (Or.inl rfl)⟩

/-- An assignment of the value the symbol already has. -/
theorem equ_run {f : Nat} {s : St} {p q0 q1 : Ptr} {k : IdKind} {name : Str} {e : Expr} {v : Int}
    (he : s.endExpansion = false) (hl : Live s p ⟨.opr .equ, 2, [q0, q1]⟩) (h0 : Live s q0 ⟨.id k name none, 0, []⟩)
    (h1 : ExprAt (look s) s.nodeBase s.nodes e q1) (hd : e.depth < f) (hv : Spec.eval (envOf s) s.pc e = some (v, false))
    (hn : envOf s name = some v) :
    ∃ ns, expandNode (f + 1) p s = (.ok v, { s with nodes := ns }) ∧ HeapSim true (look s) s.nodes ns := by
  obtain ⟨n1, r1, sim1, _⟩ := expand_ok (f := f) (s := s) hd he h1 hv
  let s1 : St := { s with nodes := n1 }
  obtain ⟨N0, hN0, hsim⟩ := sim1.2 q0 _ h0.2
  obtain ⟨c, rfl, hc⟩ : ∃ c, N0 = ⟨.id k name c, 0, []⟩ ∧ (c = none ∨ c = look s name) := by
    obtain ⟨g1, g2, g3⟩ := hsim
    obtain ⟨k0, m0, o0⟩ := N0
    simp only at g1 g2 g3
    subst g1 g2
    rcases g3 with g3 | ⟨v, w, g3, _⟩ | ⟨k', nm, cc, g3, g4, g5⟩ | ⟨_, _, _, _, _, g, _⟩
    · subst g3; exact ⟨none, rfl, Or.inl rfl⟩
    · cases g3
    · cases g3; subst g4; exact ⟨_, rfl, Or.inr rfl⟩
    · cases g
  obtain ⟨hp, i, x, hi, hx, hinit, hval⟩ := envOf_some hn
  have hL : Live s1 q0 ⟨.id k name c, 0, []⟩ := ⟨h0.1, hN0⟩
  have hr : ∃ n2, resolveId (name.head? == some 64) q0 s1 = (.ok (some i), { s1 with nodes := n2 }) ∧
      HeapSim true (look s) n1 n2 := by
    have hslow : (addSymbol name >>= fun j => setNode q0 ⟨.id k name j, 0, []⟩ >>= fun _ => M.pure j) s1 =
        (.ok (some i), { s1 with nodes := n1.set q0 ⟨.id k name (some i), 0, []⟩ }) := by
      rw [bind_ok (addSymbol_run (s := s1) hp hi), bind_ok (hL.set _)]
      rfl
    by_cases hfast : ∃ j, c = some j ∧ (name.head? == some 64) = false
    · obtain ⟨j, rfl, hloc⟩ := hfast
      refine ⟨n1, ?_, HeapSim.refl _ _ _⟩
      unfold resolveId
      rw [bind_ok hL.run, hloc]
      rcases hc with hc | hc
      · cases hc
      · rw [hi] at hc
        cases hc
        rfl
    · refine ⟨n1.set q0 ⟨.id k name (some i), 0, []⟩, ?_, HeapSim.set hN0 ⟨rfl, rfl, Or.inr (Or.inr (Or.inl ⟨k, name, c, rfl, by rw [hi], by rw [hi]; rfl⟩))⟩⟩
      · unfold resolveId
        rw [bind_ok hL.run]
        cases hloc : (name.head? == some 64) with
        | true => cases c <;> exact hslow
        | false =>
          cases c with
          | none => exact hslow
          | some j => exact absurd ⟨j, rfl, hloc⟩ hfast
  obtain ⟨n2, r2, h2⟩ := hr
  refine ⟨n2, ?_, sim1.mono.trans h2⟩
  rw [expandNode_run he hl]
  show expandEqu (expandNode f) _ s = _
  unfold expandEqu
  rw [bind_ok (opAt_run (show [q0, q1][1]? = some q1 from rfl) s), bind_ok r1,
    bind_ok (opAt_run (show [q0, q1][0]? = some q0 from rfl) s1), bind_ok hL.run]
  show (if stricmp name [45] = 0 then equMinus v else if stricmp name [43] = 0 then equPlus v else _) s1 = _
  rw [if_neg (stricmp_pm hp).1, if_neg (stricmp_pm hp).2, bind_ok r2]
  show (needSym (some i) >>= _) { s1 with nodes := n2 } = _
  rw [show needSym (some i) = M.pure i from rfl, pure_bind', bind_ok (sym_run (s := { s1 with nodes := n2 }) (x := x) hx)]
  rw [if_neg (by simp [hinit, hval])]
  rfl

theorem built_assign {f : Nat} {s : St} {name : Str} {e : Expr} {v : Int} (hd : e.depth < f)
    (he : s.endExpansion = false) (hb : s.nodeBase ≤ s.nodes.length)
    (hv : Spec.eval (envOf s) s.pc e = some (v, false)) (hn : envOf s name = some v) :
    Built f s (.assign name e) [] (· = []) := by
  obtain ⟨l1, q1, h1, h2⟩ := buildExpr_run (lk := look s) e s hb
  let I : Node := ⟨.id .id name none, 0, []⟩
  let s1 : St := { s with nodes := s.nodes ++ l1 }
  let N : Node := ⟨.opr .equ, 2, [s1.nodes.length, q1]⟩
  let s2 : St := { s with nodes := s1.nodes ++ [I] }
  refine ⟨s1.nodes ++ [I] ++ [N], s2.nodes.length, ?_,
    ((WSim.append _ _ _ _).trans (WSim.append _ _ _ _)).trans (WSim.append _ _ _ _), ?_⟩
  · refine built_run ?_
    show (buildExpr e >>= fun p => idNode .id name >>= fun i => operatorNode .equ [i, p]) s = _
    rw [bind_ok h1]
    show (idNode .id name >>= fun i => operatorNode .equ [i, q1]) s1 = _
    rw [bind_ok (show idNode .id name s1 = (.ok s1.nodes.length, s2) from alloc_run _ _ _)]
    exact alloc_run _ _ _
  · intro l ll ys sc hll
    let s3 : St := { s with nodes := s1.nodes ++ [I] ++ [N] ++ l, lastLabel := ll, syms := ys, symValueChanged := sc }
    have hlk : ∀ n ∈ e.names, look s n = look s3 n := fun n hn => (hll.2 n hn).1
    have hev : ∀ n ∈ e.names, envOf s n = envOf s3 n := fun n hn => (hll.2 n hn).2.1
    have hname : envOf s3 name = some v := hll.1.symm.trans hn
    have hb1 : s.nodeBase ≤ s1.nodes.length := by simp only [s1, List.length_append]; omega
    obtain ⟨ns, r, hlen⟩ := equ_run (f := f) (s := s3) (p := s2.nodes.length) (q0 := s1.nodes.length) (q1 := q1)
      (k := .id) (name := name) (e := e) (v := v) he
      ⟨by simp only [s2, List.length_append]; exact Nat.le_trans hb1 (Nat.le_add_right _ _), by simp [s3, s2, N]⟩
      ⟨hb1, by simp [s3, I]⟩
      ((((h2.sim (HeapSim.append false _ _ [I])).sim (HeapSim.append false _ _ [N])).sim
        (HeapSim.append false _ _ l)).congr hlk) hd (by rw [← eval_congr (env := envOf s) hev]; exact hv) hname
    exact ⟨v, _, r, Laid.heap (s := s3) (hlen.weak true), .none rfl⟩

/-- The last label after the definition of a label. -/
def labelLL (ll : Option Str) (name : Str) : Option Str := if name.head? = some 64 then ll else some name

/-- The name of the symbol defined by a label. -/
def labelId (ll : Option Str) (name : Str) : Str :=
  match name, ll with
  | 64 :: _, some l => formatLocal name l
  | _, _ => name

theorem labelNode_run (s : St) {name : Str} (h : isPmName name = false) : labelNode name s = (.ok s.nodes.length,
    { s with lastLabel := labelLL s.lastLabel name, nodes := s.nodes ++ [⟨.id .label (labelId s.lastLabel name) none, 0, []⟩] }) := by
  unfold labelNode
  rw [getS_bind]
  cases name with
  | nil => rfl
  | cons c cs =>
    by_cases h64 : c = 64
    · subst h64
      cases hll : s.lastLabel with
      | none =>
        show idNode .label _ s = _
        simp only [labelLL, List.head?_cons, if_true, labelId]
        rw [← hll]
        rfl
      | some l =>
        show idNode .label _ s = _
        simp only [labelLL, List.head?_cons, if_true, labelId]
        rw [← hll]
        rfl
    · have e1 : labelLL s.lastLabel (c :: cs) = some (c :: cs) := by
        unfold labelLL
        rw [if_neg (by simpa using h64)]
      have e2 : labelId s.lastLabel (c :: cs) = c :: cs := by
        unfold labelId
        split
        · rename_i heq _
          cases heq
          exact absurd rfl h64
        · rfl
      rw [e1, e2]
      have hpm : c ≠ 45 ∧ c ≠ 43 := by
        constructor <;> (rintro rfl; simp [isPmName] at h)
      have key : ∀ A B C D : M Ptr, (match c :: cs with
          | 64 :: _ => A
          | 45 :: _ => B
          | 43 :: _ => C
          | _ => D) = D := by
        intro A B C D
        split
        · rename_i heq; exact absurd (List.cons.inj heq).1 h64
        · rename_i heq; exact absurd (List.cons.inj heq).1 hpm.1
        · rename_i heq; exact absurd (List.cons.inj heq).1 hpm.2
        · rfl
      exact congrFun (key _ _ _ _) s

/-- Entering a label that already has the current address. -/
theorem label_run {f : Nat} {s : St} {name : Str} (hf : 1 ≤ f) (he : s.endExpansion = false)
    (hb : s.nodeBase ≤ s.nodes.length) (hpm : isPmName name = false)
    (hn : envOf { s with lastLabel := labelLL s.lastLabel name } (labelId s.lastLabel name) = some s.pc) :
    ∃ p l l', buildLabel name s = (.ok p, { s with lastLabel := labelLL s.lastLabel name, nodes := s.nodes ++ l }) ∧
      expandNode (f + 1) p { s with lastLabel := labelLL s.lastLabel name, nodes := s.nodes ++ l } =
        (.ok s.pc, { s with lastLabel := labelLL s.lastLabel name, nodes := s.nodes ++ l' }) := by
  let ll := labelLL s.lastLabel name
  let id := labelId s.lastLabel name
  let C : Node := ⟨.con s.pc true, 0, []⟩
  let I : Node := ⟨.id .label id none, 0, []⟩
  let E : Node := ⟨.opr .equ, 2, [s.nodes.length + 1, s.nodes.length]⟩
  let s1 : St := { s with nodes := s.nodes ++ [C] }
  let s2 : St := { s with lastLabel := ll, nodes := s.nodes ++ [C] ++ [I] }
  let s3 : St := { s with lastLabel := ll, nodes := s.nodes ++ [C, I, E] }
  obtain ⟨hp, i, x, hi, hx, hinit, hval⟩ := envOf_some hn
  let J : Node := ⟨.id .label id (some i), 0, []⟩
  refine ⟨s.nodes.length + 2, [C, I, E], [C, J, E], ?_, ?_⟩
  · unfold buildLabel
    rw [bind_ok (show constantNode 0 true s = (.ok s.nodes.length, s1) from rfl), bind_ok (labelNode_run s1 hpm)]
    have : s1.nodes.length = s.nodes.length + 1 := by simp [s1]
    rw [this]
    refine (alloc_run _ _ s2).trans ?_
    simp only [s2, List.length_append, List.length_cons, List.length_nil, Nat.zero_add, Nat.reduceAdd,
      List.append_assoc, List.cons_append, List.nil_append]
    rfl
  · obtain ⟨f, rfl⟩ : ∃ g, f = g + 1 := ⟨f - 1, by omega⟩
    have hC : Live s3 s.nodes.length C := ⟨hb, by simp [s3]⟩
    have hI : Live s3 (s.nodes.length + 1) I := ⟨Nat.le_trans hb (Nat.le_add_right _ _), by simp [s3]⟩
    have hE : Live s3 (s.nodes.length + 2) E := ⟨Nat.le_trans hb (Nat.le_add_right _ _), by simp [s3]⟩
    have rC : expandNode (f + 1) s.nodes.length s3 = (.ok s.pc, s3) := by
      rw [expandNode_run (s := s3) he hC]
      show expandConstant _ _ _ s3 = _
      unfold expandConstant
      rw [if_pos rfl, getS_bind, bind_ok hC.run, bind_ok (hC.set _)]
      show (Res.ok s.pc, _) = _
      have : s3.nodes.set s.nodes.length ⟨.con s3.pc true, 0, []⟩ = s3.nodes := by
        have h2 := hC.2
        rw [List.getElem?_eq_getElem hC.lt] at h2
        have h3 : (⟨.con s3.pc true, 0, []⟩ : Node) = C := rfl
        rw [h3, ← Option.some.inj h2, List.set_getElem_self]
      rw [this]
    have rI : resolveId (id.head? == some 64) (s.nodes.length + 1) s3 =
        (.ok (some i), { s3 with nodes := s.nodes ++ [C, J, E] }) := by
      unfold resolveId
      rw [bind_ok hI.run]
      show (addSymbol id >>= fun j => setNode (s.nodes.length + 1) ⟨.id .label id j, 0, []⟩ >>= fun _ => M.pure j) s3 = _
      rw [bind_ok (addSymbol_run (s := s3) hp hi), bind_ok (hI.set _)]
      show (Res.ok (some i), _) = _
      have : s3.nodes.set (s.nodes.length + 1) J = s.nodes ++ [C, J, E] := by
        show (s.nodes ++ [C, I, E]).set _ _ = _
        rw [List.set_append_right _ _ (Nat.le_add_right _ _), Nat.add_sub_cancel_left]
        rfl
      rw [this]
    show expandNode (f + 1 + 1) (s.nodes.length + 2) s3 = _
    rw [expandNode_run (s := s3) he hE]
    show expandEqu (expandNode (f + 1)) E s3 = _
    unfold expandEqu
    rw [bind_ok (opAt_run (show E.ops[1]? = some s.nodes.length from rfl) s3), bind_ok rC,
      bind_ok (opAt_run (show E.ops[0]? = some (s.nodes.length + 1) from rfl) s3), bind_ok hI.run]
    show (if stricmp id [45] = 0 then equMinus s.pc else if stricmp id [43] = 0 then equPlus s.pc else _) s3 = _
    rw [if_neg (stricmp_pm hp).1, if_neg (stricmp_pm hp).2, bind_ok rI]
    show (needSym (some i) >>= _) { s3 with nodes := s.nodes ++ [C, J, E] } = _
    rw [show needSym (some i) = M.pure i from rfl, pure_bind',
      bind_ok (sym_run (s := { s3 with nodes := s.nodes ++ [C, J, E] }) (x := x) hx)]
    rw [if_neg (by simp [hinit, hval])]
    rfl

/-! ## Lines -/

theorem runTop_built {f : Nat} {s : St} {file : Str} {line : Int} {st : Stmt} {bs : List Nat} {R : List ListEntry → Prop}
    (hw : ∀ b n a, st ≠ .word b n a) (h : BuiltL f (atLine s file line) st bs R) :
    ∃ s', runTop (expandNode (f + 1)) (hasUninit (f + 1)) (.stmt file line st) s = (.ok true, s') ∧
      Laid s s' s.lastLabel bs ∧ Rowed R s s' := by
  obtain ⟨ns, p, h1, h2, h3⟩ := h
  obtain ⟨v, s', r, a, b⟩ := h3 [] s.lastLabel (Or.inl rfl)
  rw [List.append_nil] at r
  exact ⟨s', runTop_stmt (v := v) hw h1 r, Laid.pre file line s.lastLabel (WSim.refl _ _ _) a, b⟩

theorem runLabelled_built {f : Nat} {s : St} {name : Str} {st : Stmt} {bs : List Nat} {R : List ListEntry → Prop} (hf : 1 ≤ f)
    (he : s.endExpansion = false) (hb : s.nodeBase ≤ s.nodes.length) (hpm : isPmName name = false)
    (hn : envOf { s with lastLabel := labelLL s.lastLabel name } (labelId s.lastLabel name) = some s.pc)
    (hg : labelLL s.lastLabel name = s.lastLabel ∨ st.globals = true) (h : BuiltL f s st bs R) :
    ∃ s', runLabelled (expandNode (f + 1)) (hasUninit (f + 1)) name st s = (.ok true, s') ∧
      Laid s s' (labelLL s.lastLabel name) bs ∧ Rowed R s s' := by
  obtain ⟨ns, p, h1, h2, h3⟩ := h
  let s1 : St := { s with nodes := ns }
  obtain ⟨q, l, l', r1, r2⟩ := label_run (f := f) (s := s1) hf he (Nat.le_trans hb h2.1) hpm hn
  obtain ⟨v, s', r3, a, b⟩ := h3 l' (labelLL s.lastLabel name) hg
  refine ⟨s', ?_, Laid.pre s.file s.line (labelLL s.lastLabel name) (WSim.refl _ _ _) a, b⟩
  unfold runLabelled
  rw [bind_ok h1]
  show (buildLabel name >>= _) s1 = _
  rw [bind_ok r1, bind_ok r2, bind_ok r3]
  rfl

end Verif
