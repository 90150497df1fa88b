import Verif.Lemmas.Instr
import Verif.Lemmas.StepsParse

/-! # Exact runs of statements with known operands -/

namespace Verif

/-- The mode `opcode_node` starts with. -/
def srcMode (get : Mode → Int) (mode0 : Mode) : Mode := if get .r ≠ -1 then .r else mode0

/-- Mode and opcode of the node built for an instruction with operand value `v`. -/
def nodeMode (get : Mode → Int) (mode0 : Mode) (v : Int) : Mode × Int :=
  chooseMode get (srcMode get mode0) (decide (0 ≤ v ∧ v < 256))

/-- Mode and opcode of the emitted instruction; `none`: not encodable, or a branch out of range. -/
def encode (get : Mode → Int) (mode0 : Mode) (pc v : Int) : Option (Mode × Int) :=
  if (nodeMode get mode0 v).2 < 0 then none
  else effective get (nodeMode get mode0 v).1 (nodeMode get mode0 v).2 pc v

/-- The state at the start of a statement. -/
def atLine (s : St) (file : Str) (line : Int) : St := { s with file := file, line := line }

theorem orig_nodes (s : St) (ns : List Node) : orig { s with nodes := ns } = { orig s with nodes := ns } := by
  unfold orig
  split <;> rfl

theorem orig_atLine (s : St) (file : Str) (line : Int) : orig (atLine s file line) = atLine (orig s) file line := by
  unfold orig
  by_cases h : s.pcAssigned > 0
  · rw [if_pos h, if_pos (show (atLine s file line).pcAssigned > 0 from h)]
    rfl
  · rw [if_neg h, if_neg (show ¬ (atLine s file line).pcAssigned > 0 from h)]

theorem room_atLine {s : St} (file : Str) (line : Int) (hroom : Room (orig s)) : Room (orig (atLine s file line)) := by
  rw [orig_atLine]
  exact hroom

theorem room_nodes {s : St} (ns : List Node) (h : Room s) : Room { s with nodes := ns } := h

theorem look_orig (s : St) : look (orig s) = look s := by
  rw [orig_eq]
  rfl

theorem Asm.nodes {s s' : St} {ns : List Node} {n : Int} {bs : List Nat} {ls : List ListEntry}
    (hs : HeapSim true (look s) s.nodes ns) (h : Asm { s with nodes := ns } s' n bs ls) : Asm s s' n bs ls := by
  obtain ⟨ns', cg, ds, bd, et, g, rfl⟩ := h
  exact ⟨ns', cg, ds, bd, et, hs.trans g, rfl⟩

/-- Does the operand occupy bytes in the source mode? -/
def takesOperand (mode0 : Mode) : Prop := (opShape mode0).1 > 0

/-- Building an instruction with a known operand. -/
theorem buildOp_run {e : Expr} {f : Nat} {s : St} {v ins : Int} {mode0 : Mode}
    (hd : e.depth + 1 < f) (he : s.endExpansion = false) (hb : s.nodeBase ≤ s.nodes.length)
    (hv : Spec.eval (envOf s) s.pc e = some (v, false)) (hc : e.complete (envOf s) s.pc = true)
    (hcode : 0 ≤ (nodeMode (getOpCode s.cpu s.allowIllegal ins) mode0 v).2) (im : Bool) :
    ∃ ns p q, buildStmt (expandNode f) (hasUninit f) im (.op ins mode0 (some e)) s =
        (.ok (some p), { s with nodes := ns }) ∧
      HeapSim false (look s) s.nodes ns ∧ s.nodes.length ≤ p ∧
      ns[p]? = some ⟨.opcode ins (nodeMode (getOpCode s.cpu s.allowIllegal ins) mode0 v).2
        (nodeMode (getOpCode s.cpu s.allowIllegal ins) mode0 v).1 0, 1, [q]⟩ ∧
      ExprAt (look s) s.nodeBase ns e q ∧ Done (look s) s.syms ns e q := by
  obtain ⟨l, q, h1, h2⟩ := buildExpr_run (lk := look s) e s hb
  let s1 : St := { s with nodes := s.nodes ++ l }
  have hb1 : s1.nodeBase ≤ s1.nodes.length := by simp only [s1, List.length_append]; omega
  obtain ⟨ns, p, h3, h4, h5, h6, h7, h8⟩ := opcodeNode_run (s := s1) (mode0 := mode0) (ins := ins) hd he hb1 h2 hv hc
    rfl (show chooseMode _ _ _ = (_, _) from rfl) hcode
  refine ⟨ns, p, q, ?_, (HeapSim.append _ _ _ _).trans h4,
    Nat.le_trans (by simp only [s1, List.length_append]; omega) h5, h6, h7, h8⟩
  refine built_run ?_
  show (buildExpr e >>= fun p => opcodeNode (expandNode f) (hasUninit f) ins mode0 [p]) s = _
  rw [bind_ok h1]
  exact h3

/-- Assembling an instruction with a known operand, in any pass. -/
theorem opStmt_run {e : Expr} {f : Nat} {s : St} {v ins : Int} {mode0 m : Mode} {c : Int} (file : Str) (line : Int)
    (hd : e.depth + 1 < f) (he : s.endExpansion = false) (hb : s.nodeBase ≤ s.nodes.length)
    (hv : Spec.eval (envOf s) s.pc e = some (v, false)) (hc : e.complete (envOf s) s.pc = true)
    (henc : encode (getOpCode s.cpu s.allowIllegal ins) mode0 s.pc v = some (m, c)) (hroom : Room (orig s)) :
    ∃ s', runTop (expandNode (f + 1)) (hasUninit (f + 1)) (.stmt file line (.op ins mode0 (some e))) s =
        (.ok true, s') ∧
      Asm (orig (atLine s file line)) s' (opByteCount m + 1) (toBytes (instrBytes m c s.pc v))
        [listRow (atLine s file line) (opRow ins 1 m c s.pc v)] := by
  unfold encode at henc
  split at henc
  · cases henc
  · rename_i hcode
    let s0 := atLine s file line
    obtain ⟨ns, p, q, h1, h2, h3, h4, h5, h6⟩ := buildOp_run (s := s0) (ins := ins) (mode0 := mode0) (f := f + 1)
      (by omega) he hb hv hc (Int.not_lt.1 hcode) false
    let s1 : St := { s0 with nodes := ns }
    have hl : Live s1 p _ := ⟨Nat.le_trans hb h3, h4⟩
    have hroom' : Room (orig s0) := room_atLine _ _ hroom
    obtain ⟨s', r, a⟩ := expandOp_run (f := f) (s := s1) (v := v) (m := m) (c := c) he hl
      (fun _ => ⟨q, e, rfl, rfl, hd, h5, h6, hv⟩) henc (by rw [show s1 = { s0 with nodes := ns } from rfl, orig_nodes]; exact room_nodes _ hroom')
    refine ⟨s', ?_, ?_⟩
    · refine runTop_stmt (v := 0) (by intro _ _ _ h; cases h) h1 ?_
      rw [expandNode_run (s := s1) he hl]
      exact r
    · rw [show s1 = { s0 with nodes := ns } from rfl, orig_nodes] at a
      refine Asm.nodes ?_ a
      rw [look_orig]
      have : (orig s0).nodes = s0.nodes := by rw [orig_eq]
      rw [this]
      exact h2.mono

/-! ## Instructions without operand, and with the accumulator as operand -/

/-- Building an instruction without operand. -/
theorem buildImplied_run {ex : Ptr → M Int} {f : Nat} {s : St} {ins : Int} (hb : s.nodeBase ≤ s.nodes.length)
    (hr : getOpCode s.cpu s.allowIllegal ins .r = -1) (hi : 0 ≤ getOpCode s.cpu s.allowIllegal ins .i) (im : Bool) :
    buildStmt ex (hasUninit (f + 1)) im (.op ins .i none) s = (.ok (some s.nodes.length),
      { s with nodes := s.nodes ++ [⟨.opcode ins (getOpCode s.cpu s.allowIllegal ins .i) .i 0, 0, []⟩] }) := by
  refine built_run ?_
  show (opcodeNode ex (hasUninit (f + 1)) ins .i []) s = _
  let N0 : Node := ⟨.opcode ins 0 .i 0, 0, []⟩
  let N1 : Node := ⟨.opcode ins (getOpCode s.cpu s.allowIllegal ins .i) .i 0, 0, []⟩
  let s1 : St := { s with nodes := s.nodes ++ [N0] }
  have hp : Live s1 s.nodes.length N0 := Live.alloc hb N0
  unfold opcodeNode
  rw [getS_bind, bind_ok (alloc_run _ _ s)]
  have e1 : ({ s with nodes := s.nodes ++ [⟨.opcode ins 0 (if getOpCode s.cpu s.allowIllegal ins .r ≠ -1 then
      .r else .i) 0, ([] : List Ptr).length, []⟩] } : St) = s1 := by
    rw [hr]
    rfl
  have hl : lastValue ex [] s1 = (.ok 0, s1) := rfl
  have hu : hasUninit (f + 1) s.nodes.length s1 = (.ok false, s1) := by
    show (node s.nodes.length >>= _) s1 = _
    rw [bind_ok hp.run]
    rfl
  rw [e1, bind_ok hl, bind_ok hu]
  simp only [hr, ne_eq, not_true_eq_false, if_false]
  have hacc : isAccOperand .i [] s1 = (.ok false, s1) := rfl
  rw [bind_ok hacc, getS_bind]
  have hch : chooseMode (getOpCode s1.cpu s1.allowIllegal ins) .i (decide (cand 0 (cnot 255) = 0) && !false) =
      (.i, getOpCode s.cpu s.allowIllegal ins .i) := by
    unfold chooseMode
    simp [zpForm, s1]
  simp only [Bool.false_eq_true, if_false]
  rw [hch]
  show (setNode _ N1 >>= _) s1 = _
  rw [bind_ok (hp.set N1)]
  have : s1.nodes.set s.nodes.length N1 = s.nodes ++ [N1] := by
    simp [s1]
  rw [this]
  show (forEachM _ ([] : List Ptr) >>= _) _ = _
  simp only [forEachM]
  rw [if_neg (by omega)]
  rfl

/-- Assembling an instruction without operand, in any pass. -/
theorem impliedStmt_run {f : Nat} {s : St} {ins : Int} (file : Str) (line : Int) (he : s.endExpansion = false)
    (hb : s.nodeBase ≤ s.nodes.length)
    (hr : getOpCode s.cpu s.allowIllegal ins .r = -1) (hi : 0 ≤ getOpCode s.cpu s.allowIllegal ins .i)
    (hroom : Room (orig s)) :
    ∃ s', runTop (expandNode (f + 1)) (hasUninit (f + 1)) (.stmt file line (.op ins .i none)) s = (.ok true, s') ∧
      Asm (orig (atLine s file line)) s' 1 (toBytes [getOpCode s.cpu s.allowIllegal ins .i])
        [listRow (atLine s file line) (opRow ins 0 .i (getOpCode s.cpu s.allowIllegal ins .i) s.pc 0)] := by
  let s0 := atLine s file line
  let N1 : Node := ⟨.opcode ins (getOpCode s.cpu s.allowIllegal ins .i) .i 0, 0, []⟩
  have h1' : buildStmt (expandNode (f + 1)) (hasUninit (f + 1)) false (.op ins .i none) s0 = (.ok (some s.nodes.length),
      { s0 with nodes := s.nodes ++ [N1] }) := buildImplied_run (s := s0) (ins := ins) hb hr hi false
  let s1 : St := { s0 with nodes := s.nodes ++ [N1] }
  have hl : Live s1 s.nodes.length N1 := Live.alloc hb N1
  have hroom' : Room (orig s0) := room_atLine _ _ hroom
  obtain ⟨s', r, a⟩ := expandOp_run (f := f) (s := s1) (v := 0) (mode := .i) (m := .i)
    (code := getOpCode s.cpu s.allowIllegal ins .i) (c := getOpCode s.cpu s.allowIllegal ins .i)
    he hl (fun h => absurd h (Int.lt_irrefl 0)) (by unfold effective; exact if_pos rfl)
    (by rw [show s1 = { s0 with nodes := s.nodes ++ [N1] } from rfl, orig_nodes]; exact room_nodes _ hroom')
  refine ⟨s', ?_, ?_⟩
  · refine runTop_stmt (v := 0) (by intro _ _ _ h; cases h) h1' ?_
    exact (expandNode_run (s := s1) he hl).trans r
  · rw [show s1 = { s0 with nodes := s.nodes ++ [N1] } from rfl, orig_nodes] at a
    refine Asm.nodes ?_ a
    rw [look_orig]
    have : (orig s0).nodes = s.nodes := by rw [orig_eq]; rfl
    rw [this]
    exact HeapSim.append _ _ _ _

/-- The operand `A`. -/
def isA (nm : Str) : Prop := nm = [65] ∨ nm = [97]

theorem expandA_run {f : Nat} {s : St} {q : Ptr} {nm : Str} (hA : isA nm) (he : s.endExpansion = false)
    (hq : Live s q ⟨.id .id nm none, 0, []⟩) : expandNode (f + 1) q s = (.ok 0, s) := by
  rw [expandNode_run he hq]
  show expandId q nm s = _
  have hset : setNode q ⟨.id .id nm none, 0, []⟩ s = (.ok (), s) := by
    rw [hq.set, set_self hq.2]
  have hadd : addSymbol nm s = (.ok none, s) := by
    rcases hA with rfl | rfl <;> rfl
  have hr : ∀ b, resolveId b q s = (.ok none, s) := by
    intro b
    unfold resolveId
    rw [bind_ok hq.run]
    show (addSymbol nm >>= fun j => setNode q ⟨.id .id nm j, 0, []⟩ >>= fun _ => M.pure j) s = _
    rw [bind_ok hadd, bind_ok hset]
    rfl
  unfold expandId
  rw [if_neg (by rcases hA with rfl | rfl <;> decide), bind_ok (hr _)]
  rfl

/-- Building an instruction with the accumulator as operand. -/
theorem buildAcc_run {f : Nat} {s : St} {ins : Int} {nm : Str} (hA : isA nm) (hb : s.nodeBase ≤ s.nodes.length)
    (he : s.endExpansion = false) (hr : getOpCode s.cpu s.allowIllegal ins .r = -1)
    (hi : 0 ≤ getOpCode s.cpu s.allowIllegal ins .A) (im : Bool) :
    ∃ l q p, buildStmt (expandNode (f + 2)) (hasUninit (f + 2)) im (.op ins .a (some (.sym nm))) s = (.ok (some p),
      { s with nodes := s.nodes ++ l }) ∧ s.nodeBase ≤ p ∧
      (s.nodes ++ l)[p]? = some ⟨.opcode ins (getOpCode s.cpu s.allowIllegal ins .A) .A 0, 0, [q]⟩ := by
  let q := s.nodes.length
  let p := s.nodes.length + 1
  let Q : Node := ⟨.id .id nm none, 0, []⟩
  let N0 : Node := ⟨.opcode ins 0 .a 0, 1, [q]⟩
  let N1 : Node := ⟨.opcode ins (getOpCode s.cpu s.allowIllegal ins .A) .A 0, 0, [q]⟩
  let s1 : St := { s with nodes := s.nodes ++ [Q, N0] }
  let s2 : St := { s with nodes := s.nodes ++ [Q, N1] }
  have hq1 : Live s1 q Q := ⟨hb, by simp [s1, q]⟩
  have hp1 : Live s1 p N0 := ⟨by show s.nodeBase ≤ s.nodes.length + 1; omega, by simp [s1, p]⟩
  have hq2 : Live s2 q Q := ⟨hb, by simp [s2, q]⟩
  have hset : s1.nodes.set p N1 = s2.nodes := by simp [s1, s2, p]
  refine ⟨[Q, N1], q, p, ?_, hp1.1, by simp [p, N1]⟩
  refine built_run ?_
  show (buildExpr (.sym nm) >>= fun p => opcodeNode (expandNode (f + 2)) (hasUninit (f + 2)) ins .a [p]) s = _
  have hbe : buildExpr (.sym nm) s = (.ok q, { s with nodes := s.nodes ++ [Q] }) := rfl
  rw [bind_ok hbe]
  unfold opcodeNode
  rw [getS_bind, bind_ok (alloc_run _ _ _)]
  have e1 : ({ s with nodes := (s.nodes ++ [Q]) ++ [⟨.opcode ins 0 (if getOpCode s.cpu s.allowIllegal ins .r ≠ -1 then
      .r else .a) 0, [q].length, [q]⟩] } : St) = s1 := by
    rw [hr]
    simp [s1, N0]
  have e2 : ({ s with nodes := s.nodes ++ [Q] } : St).nodes.length = p := by simp [p]
  have hx1 := expandA_run (f := f + 1) (s := s1) hA he hq1
  have hx2 := expandA_run (f := f + 1) (s := s2) hA he hq2
  have hl : lastValue (expandNode (f + 2)) [q] s1 = (.ok 0, s1) := by
    unfold lastValue
    simp only [eachM]
    rw [run_bind, run_bind, run_bind, hx1]
    rfl
  have huq : hasUninit (f + 1) q s1 = (.ok false, s1) := by
    show (node q >>= _) s1 = _
    rw [bind_ok hq1.run]
    rfl
  have hiu : isUninitSym q s1 = (.ok true, s1) := by
    unfold isUninitSym
    rw [bind_ok hq1.run]
    rfl
  have hu : hasUninit (f + 2) p s1 = (.ok true, s1) := by
    show (node p >>= _) s1 = _
    rw [bind_ok hp1.run, bind_ok (operands_run (by simp [N0]) s1)]
    simp only [N0, List.take, eachM]
    rw [run_bind, run_bind, run_bind, huq]
    simp only [if_neg Bool.false_ne_true]
    rw [run_bind, hiu]
    rfl
  rw [e2]
  show (lastValue (expandNode (f + 2)) [q] >>= _) { s with nodes := (s.nodes ++ [Q]) ++ [⟨.opcode ins 0 (if getOpCode s.cpu s.allowIllegal ins .r ≠ -1 then
      .r else .a) 0, [q].length, [q]⟩] } = _
  rw [e1, bind_ok hl, bind_ok hu]
  simp only [hr, ne_eq, not_true_eq_false, if_false]
  have hacc : isAccOperand .a [q] s1 = (.ok true, s1) := by
    show (node q >>= fun on => M.pure (isAccNode on)) s1 = _
    rw [bind_ok hq1.run]
    rcases hA with rfl | rfl <;> rfl
  rw [bind_ok hacc, getS_bind]
  have hch : chooseMode (getOpCode s1.cpu s1.allowIllegal ins) .A (decide (cand 0 (cnot 255) = 0) && !true) =
      (.A, getOpCode s.cpu s.allowIllegal ins .A) := by
    unfold chooseMode
    simp [zpForm, s1]
  simp only [if_true]
  rw [hch]
  show (setNode p N1 >>= _) s1 = _
  rw [bind_ok (hp1.set N1), hset]
  have hfe : forEachM (fun o => expandNode (f + 2) o >>= fun _ => M.pure ()) [q] s2 = (.ok (), s2) := by
    simp only [forEachM]
    rw [run_bind, run_bind, hx2]
    rfl
  show (forEachM _ [q] >>= _) s2 = _
  rw [bind_ok hfe, if_neg (by omega)]
  rfl

/-- Assembling an instruction with the accumulator as operand, in any pass. -/
theorem accStmt_run {f : Nat} {s : St} {ins : Int} {nm : Str} (file : Str) (line : Int) (hA : isA nm)
    (he : s.endExpansion = false) (hb : s.nodeBase ≤ s.nodes.length)
    (hr : getOpCode s.cpu s.allowIllegal ins .r = -1) (hi : 0 ≤ getOpCode s.cpu s.allowIllegal ins .A)
    (hroom : Room (orig s)) :
    ∃ s', runTop (expandNode (f + 2)) (hasUninit (f + 2)) (.stmt file line (.op ins .a (some (.sym nm)))) s =
        (.ok true, s') ∧
      Asm (orig (atLine s file line)) s' 1 (toBytes [getOpCode s.cpu s.allowIllegal ins .A])
        [listRow (atLine s file line) (opRow ins 1 .A (getOpCode s.cpu s.allowIllegal ins .A) s.pc 0)] := by
  let s0 := atLine s file line
  obtain ⟨l, q, p, h1, h2, h3⟩ := buildAcc_run (f := f) (s := s0) (ins := ins) hA hb he hr hi false
  let s1 : St := { s0 with nodes := s.nodes ++ l }
  have hl : Live s1 p _ := ⟨h2, h3⟩
  obtain ⟨s', r, a⟩ := expandOp_run (f := f + 1) (s := s1) (v := 0) (mode := .A) (m := .A)
    (code := getOpCode s.cpu s.allowIllegal ins .A) (c := getOpCode s.cpu s.allowIllegal ins .A)
    he hl (fun h => absurd h (Int.lt_irrefl 0)) (by unfold effective; exact if_pos rfl)
    (by rw [show s1 = { s0 with nodes := s.nodes ++ l } from rfl, orig_nodes]; exact room_nodes _ (room_atLine _ _ hroom))
  refine ⟨s', ?_, ?_⟩
  · refine runTop_stmt (v := 0) (by intro _ _ _ h; cases h) h1 ?_
    exact (expandNode_run (s := s1) he hl).trans r
  · rw [show s1 = { s0 with nodes := s.nodes ++ l } from rfl, orig_nodes] at a
    refine Asm.nodes ?_ a
    rw [look_orig]
    have : (orig s0).nodes = s.nodes := by rw [orig_eq]; rfl
    rw [this]
    exact HeapSim.append _ _ _ _

/-! ## Values that cannot be encoded -/

/-- Reported errors stay reported. -/
theorem fails_bind {α β : Type} {T : Opr → Bool} {b o : Bool} {m : M α} {f : α → M β} {s : St} {k : Nat}
    (hm : Pr T b o m) (hc : Cond T b o s) (h : k < (m s).2.errorCount) (hf : ∀ a, Pr T b o (f a)) :
    k < ((m >>= f) s).2.errorCount := by
  have h1 := hm s hc
  rw [run_bind]
  rcases hr : m s with ⟨r, s'⟩
  rw [hr] at h1 h
  cases r with
  | ok a => exact Nat.lt_of_lt_of_le h (hf a s' (hc.steps h1)).frame.errorCount
  | _ => exact h

theorem chooseMode_fst (get : Mode → Int) (m : Mode) (b : Bool) :
    (chooseMode get m b).1 = m ∨ (chooseMode get m b).1 = zpForm m := by
  unfold chooseMode
  simp only
  split
  · split
    · exact Or.inr rfl
    · exact Or.inl rfl
  · left
    split <;> rfl

/-- An instruction node whose operand value cannot be encoded. -/
theorem expandOp_reject {f : Nat} {s : St} {p q : Ptr} {ins code pc0 v : Int} {mode : Mode} {e : Expr} {b o : Bool}
    (hcond : Cond (fun _ => true) b o s) (he : s.endExpansion = false) (hp : Live s p ⟨.opcode ins code mode pc0, 1, [q]⟩)
    (hd : e.depth + 1 < f) (hte : ExprAt (look s) s.nodeBase s.nodes e q) (hdone : Done (look s) s.syms s.nodes e q)
    (hev : Spec.eval (envOf s) s.pc e = some (v, false)) (hsh : (opShape mode).1 > 0) (hr : mode ≠ .r)
    (heff : effective (getOpCode s.cpu s.allowIllegal ins) mode code s.pc v = none) :
    s.errorCount < (expandOpCode (expandNode f) (hasUninit f) p s).2.errorCount := by
  let N : Node := ⟨.opcode ins code mode s.pc, 1, [q]⟩
  have hsim0 : HeapSim true (look s) s.nodes (s.nodes.set p N) :=
    HeapSim.set hp.2 ⟨rfl, rfl, Or.inr (Or.inr (Or.inr ⟨_, _, _, _, s.pc, rfl, rfl, rfl⟩))⟩
  have hlt : p < s.nodes.length := hp.lt
  let t0 : St := orig s
  have ht0 : t0 = { s with originSpecified := t0.originSpecified } := orig_eq s
  let t1 : St := { t0 with nodes := s.nodes.set p N }
  have hlook : look t1 = look s := by simp only [t1]; rw [ht0]; rfl
  have henv : envOf t1 = envOf s := by simp only [t1]; rw [ht0]; rfl
  have hpc1 : t1.pc = s.pc := by simp only [t1]; rw [ht0]
  have hb1 : t1.nodeBase = s.nodeBase := by simp only [t1]; rw [ht0]
  have he1 : t1.endExpansion = false := by simp only [t1]; rw [ht0]; exact he
  have hec1 : t1.errorCount = s.errorCount := by simp only [t1]; rw [ht0]
  have hsy1 : t1.syms = s.syms := by simp only [t1]; rw [ht0]
  have hp1 : Live t1 p N := ⟨by rw [hb1]; exact hp.1, by simp only [t1]; rw [List.getElem?_set_self hlt]⟩
  have hte1 : ExprAt (look t1) t1.nodeBase t1.nodes e q := by rw [hlook, hb1]; exact hte.sim hsim0
  have hdone1 : Done (look t1) t1.syms t1.nodes e q := by rw [hlook, hsy1]; exact hdone.sim hsim0
  have hev1 : Spec.eval (envOf t1) t1.pc e = some (v, false) := by rw [henv, hpc1]; exact hev
  have heff1 : effective (getOpCode t1.cpu t1.allowIllegal ins) mode code t1.pc v = none := by
    simp only [t1]; rw [ht0]; exact heff
  have hc1 : Cond (fun _ => true) b o t1 := by
    have : t1.finalPass = s.finalPass ∧ t1.outputOpen = s.outputOpen ∧ t1.totalBytes = s.totalBytes := by
      simp only [t1]; rw [ht0]; exact ⟨rfl, rfl, rfl⟩
    exact ⟨this.1.trans hcond.finalPass, this.2.1.trans hcond.outputOpen, (by rw [this.2.2]; exact hcond.totalBytes),
      fun h => absurd h (by decide)⟩
  have hex : ∀ p, Pr (fun _ => true) b o (expandNode f p) := expandNode_pr b o f
  have hhu : ∀ p, Pr (fun _ => true) b o (hasUninit f p) := Pr.hasUninit f
  have hrej := operandPhase_reject (n := ⟨.opcode ins code mode pc0, 1, [q]⟩) (pc := s.pc) (show e.depth < f by omega) he1
    (by rw [hpc1]; exact hp1) ⟨rfl, rfl⟩ hte1 hev1 hsh hr heff1
  unfold expandOpCode
  rw [bind_ok hp.run]
  show s.errorCount < ((modS _ >>= _) s).2.errorCount
  rw [modS_bind]
  show s.errorCount < ((getS >>= _) t0).2.errorCount
  have hpt : Live t0 p ⟨.opcode ins code mode pc0, 1, [q]⟩ := by rw [ht0]; exact hp
  have hnt : t0.nodes = s.nodes := by rw [ht0]
  have hpct : t0.pc = s.pc := by rw [ht0]
  rw [getS_bind, bind_ok (hpt.set _)]
  have e1 : ({ t0 with nodes := t0.nodes.set p ⟨.opcode ins code mode t0.pc, 1, [q]⟩ } : St) = t1 := by
    simp only [t1, N]; rw [hnt, hpct]
  rw [e1, hpct, ← hec1]
  refine fails_bind (T := fun _ => true) (b := b) (o := o) (by pr) hc1 ?_ (fun a => by pr)
  rw [if_pos hsh, bind_ok (hasUninit_op hp1 hd hte1 hdone1), if_neg Bool.false_ne_true]
  exact hrej

/-- Values that cannot be encoded in any mode of the instruction are reported. -/
theorem opStmt_reject {e : Expr} {f : Nat} {s : St} {v ins : Int} {mode0 : Mode} (file : Str) (line : Int)
    (hd : e.depth + 1 < f) (he : s.endExpansion = false) (hb : s.nodeBase ≤ s.nodes.length)
    (ht0 : s.finalPass = true → 0 ≤ s.totalBytes)
    (hv : Spec.eval (envOf s) s.pc e = some (v, false)) (hc : e.complete (envOf s) s.pc = true)
    (hr : getOpCode s.cpu s.allowIllegal ins .r = -1)
    (hmode : (opShape mode0).1 > 0) (hmr : mode0 ≠ .r)
    (henc : encode (getOpCode s.cpu s.allowIllegal ins) mode0 s.pc v = none) :
    s.errorCount < (runTop (expandNode (f + 1)) (hasUninit (f + 1)) (.stmt file line (.op ins mode0 (some e)))
      s).2.errorCount := by
  let s0 := atLine s file line
  obtain ⟨l, q, h1, h2⟩ := buildExpr_run (lk := look s0) e s0 hb
  let s1 : St := { s0 with nodes := s0.nodes ++ l }
  have hb1 : s1.nodeBase ≤ s1.nodes.length := by simp only [s1, List.length_append]; exact Nat.le_trans hb (Nat.le_add_right _ _)
  obtain ⟨ns, p, h3, h4, h5, h6, h7, h8⟩ := opcodeNode_pre (f := f + 1) (s := s1) (mode0 := mode0) (ins := ins)
    (mode2 := (nodeMode (getOpCode s.cpu s.allowIllegal ins) mode0 v).1)
    (code := (nodeMode (getOpCode s.cpu s.allowIllegal ins) mode0 v).2) (by omega) he hb1 h2 hv hc rfl rfl
  let s2 : St := { s0 with nodes := ns }
  have hcond : Cond (fun _ => true) s.finalPass s.outputOpen s2 := ⟨rfl, rfl, ht0, fun h => absurd h (by decide)⟩
  have hex : ∀ p, Pr (fun _ => true) s.finalPass s.outputOpen (expandNode (f + 1) p) := expandNode_pr _ _ _
  have hrun : ∀ {m : M Ptr}, opcodeNode (expandNode (f + 1)) (hasUninit (f + 1)) ins mode0 [q] s1 = m s2 →
      Pr (fun _ => true) s.finalPass s.outputOpen m →
      s.errorCount < ((m >>= fun p => expandNode (f + 1) p >>= fun _ => M.pure true) s2).2.errorCount →
      s.errorCount < (runTop (expandNode (f + 1)) (hasUninit (f + 1)) (.stmt file line (.op ins mode0 (some e)))
        s).2.errorCount := by
    intro m hm _ hlt
    show s.errorCount < ((buildStmt (expandNode (f + 1)) (hasUninit (f + 1)) false (.op ins mode0 (some e)) >>= fun r =>
      match r with
        | none => M.pure false
        | some p => expandNode (f + 1) p >>= fun _ => M.pure true) s0).2.errorCount
    have hbs : buildStmt (expandNode (f + 1)) (hasUninit (f + 1)) false (.op ins mode0 (some e)) s0 =
        (m >>= fun p => M.pure (some p)) s2 := by
      show (built (buildExpr e >>= fun p => opcodeNode (expandNode (f + 1)) (hasUninit (f + 1)) ins mode0 [p])) s0 = _
      unfold built
      rw [run_bind, bind_ok h1]
      rw [show opcodeNode (expandNode (f + 1)) (hasUninit (f + 1)) ins mode0 [q] { s0 with nodes := s0.nodes ++ l } =
        m s2 from hm]
      rfl
    rw [run_bind, hbs]
    rw [run_bind] at hlt ⊢
    rcases hres : m s2 with ⟨r, s'⟩
    rw [hres] at hlt
    cases r <;> exact hlt
  refine hrun h3 (by pr) ?_
  by_cases hcode : (nodeMode (getOpCode s.cpu s.allowIllegal ins) mode0 v).2 < 0
  · rw [if_pos hcode]
    refine fails_bind (T := fun _ => true) (by pr) hcond ?_ (fun a => by pr)
    exact Nat.lt_succ_self _
  · unfold encode at henc
    rw [if_neg hcode] at henc
    rw [if_neg hcode]
    show s.errorCount < ((expandNode (f + 1) p >>= fun _ => M.pure true) s2).2.errorCount
    refine fails_bind (T := fun _ => true) (hex p) hcond ?_ (fun a => Pr.pure _)
    have hl : Live s2 p _ := ⟨Nat.le_trans hb1 h5, h6⟩
    rw [expandNode_run (s := s2) he hl]
    have hnm : (opShape (nodeMode (getOpCode s.cpu s.allowIllegal ins) mode0 v).1).1 > 0 ∧
        (nodeMode (getOpCode s.cpu s.allowIllegal ins) mode0 v).1 ≠ .r := by
      have hsrc : srcMode (getOpCode s.cpu s.allowIllegal ins) mode0 = mode0 := by
        unfold srcMode
        rw [if_neg (fun h => h hr)]
      unfold nodeMode
      rw [hsrc]
      rcases chooseMode_fst (getOpCode s.cpu s.allowIllegal ins) mode0 (decide (0 ≤ v ∧ v < 256)) with h | h <;> rw [h]
      · exact ⟨hmode, hmr⟩
      · revert hmode hmr
        cases mode0 <;> decide
    exact expandOp_reject (f := f) (s := s2) hcond he hl hd h7 h8 hv hnm.1 hnm.2 henc

end Verif
