import Verif.Lemmas.Steps
import Verif.Lemmas.CInt
import Verif.Lemmas.Keep

/-! # Every run of the interpreter is a sequence of elementary effects -/

namespace Verif

set_option linter.unusedSectionVars false

variable {T : Opr → Bool} [TOk T] {b o : Bool}

/-! ## Symbols -/

theorem modify_eq_set {α : Type} {l : List α} {i : Nat} {x : α} (f : α → α) (h : l[i]? = some x) :
    l.modify i f = l.set i (f x) := by
  apply List.ext_getElem?
  intro j
  rw [List.getElem?_modify, List.getElem?_set]
  by_cases hij : i = j
  · subst hij
    have := (List.getElem?_eq_some_iff.mp h).1
    have e : l[i] = x := by
      rw [List.getElem?_eq_getElem this] at h
      exact Option.some.inj h
    simp [this, e]
  · simp [hij]

/-- `modSym` either fails or replaces the symbol. -/
theorem modSym_cases (i : SymPtr) (f : Sym → Sym) (s : St) :
    (modSym i f s = (.ub, s)) ∨
    ∃ x, s.syms[i]? = some x ∧ modSym i f s = (.ok (), { s with syms := s.syms.set i (f x) }) := by
  unfold modSym
  split
  · rename_i h
    right
    refine ⟨s.syms[i], List.getElem?_eq_getElem h, ?_⟩
    rw [modify_eq_set f (List.getElem?_eq_getElem h)]
  · exact Or.inl rfl

theorem Pr.modSym (i : SymPtr) {f : Sym → Sym} (h : ∀ x, SymUpd x (f x))
    (hm : ∀ x, (f x).isMacroName = x.isMacroName) : Pr T b o (modSym i f) := by
  intro s _
  rcases modSym_cases i f s with e | ⟨x, hx, e⟩
  · rw [e]; exact .refl s
  · rw [e]; exact (Step.symUpd s i x (f x) hx (h x) (.inl (hm x))).one

/-- Solve `SymUpd x (f x)` for concrete `f`. -/
macro "symupd" : tactic => `(tactic| (
  intro x
  constructor <;> first | rfl | exact id | exact fun _ => rfl | (simp; done)))

macro_rules | `(tactic| pr_leaf) => `(tactic| (with_reducible refine Pr.modSym _ ?_ fun _ => rfl; symupd; done))

theorem sanitizeSym_new {x : Sym} (h : SymNew x) : SymNew (sanitizeSym x) := by
  unfold sanitizeSym
  split
  · exact ⟨h.value, h.isMacroName, h.isVar⟩
  · split
    · exact h
    · exact ⟨h.value, h.isMacroName, h.isVar⟩

theorem Pr.insertSym {x : Sym} (h : SymNew x) : Pr T b o (insertSym x) := by
  intro s _
  exact (Step.newSym s _ (sanitizeSym_new h)).one

theorem Pr.addPlusMinusSym (name : Str) : Pr T b o (addPlusMinusSym name) := by
  unfold Verif.addPlusMinusSym
  pr
  all_goals
    refine Pr.insertSym ?_
    constructor <;> rfl

theorem Pr.addSymbol (name : Str) : Pr T b o (addSymbol name) := by
  unfold Verif.addSymbol
  pr
  all_goals first
    | (with_reducible exact Pr.addPlusMinusSym _)
    | (refine Pr.insertSym ?_; constructor <;> rfl)

macro_rules | `(tactic| pr_leaf) => `(tactic| with_reducible exact Pr.addSymbol _)

theorem Pr.setSymbolValue (i : SymPtr) (v : Int) : Pr T b o (setSymbolValue i v) := by
  intro s _
  unfold Verif.setSymbolValue
  rw [run_bind]
  unfold Verif.sym
  rcases hx : s.syms[i]? with _ | x
  · exact .refl s
  · simp only
    split
    · split
      · exact (Step.err s _).one
      · rw [run_bind]
        rcases modSym_cases i (fun x => { x with value := v }) s with e | ⟨x', hx', e⟩
        · rw [e]; exact .refl s
        · rw [e]
          rw [hx] at hx'
          cases hx'
          simp only
          split
          · exact (Step.symSet s i x v hx).one
          · rename_i hc
            refine (Step.symUpd s i x _ hx ?_ (.inl (by rfl))).one
            constructor <;> try (first | rfl | exact id)
            right
            by_cases h1 : x.isVar = true
            · exact Or.inl h1
            · right; left
              by_cases h2 : x.isMacroParam = true
              · exact h2
              · exact absurd ⟨by simpa using h2, by simpa using h1⟩ hc
    · exact .refl s

macro_rules | `(tactic| pr_leaf) => `(tactic| with_reducible exact Pr.setSymbolValue _ _)

theorem Pr.addMinus (v : Int) : Pr T b o (addMinus v) := by
  unfold Verif.addMinus
  pr
macro_rules | `(tactic| pr_leaf) => `(tactic| with_reducible exact Pr.addMinus _)

theorem Pr.addPlus (v : Int) : Pr T b o (addPlus v) := by
  unfold Verif.addPlus
  pr
macro_rules | `(tactic| pr_leaf) => `(tactic| with_reducible exact Pr.addPlus _)

theorem Pr.pushMacroParams : Pr T b o pushMacroParams := by
  unfold Verif.pushMacroParams
  pr
macro_rules | `(tactic| pr_leaf) => `(tactic| with_reducible exact Pr.pushMacroParams)

theorem Pr.restoreParams : ∀ (vs : List Int) (k : Nat), Pr T b o (restoreParams k vs)
  | [], _ => Pr.pure _
  | v :: vs, k => by
    have ih := Pr.restoreParams vs (k + 1)
    unfold Verif.restoreParams
    pr

theorem Pr.popMacroParams : Pr T b o popMacroParams := by
  unfold Verif.popMacroParams
  pr
  exact Pr.restoreParams _ _
macro_rules | `(tactic| pr_leaf) => `(tactic| with_reducible exact Pr.popMacroParams)

/-! ## Output -/

section
variable {ex : Ptr → M Int} {hu : Ptr → M Bool}

/-- Within `generate_output`: the output is open, the origin is known and a C64 header has been written. -/
structure OutCond (T : Opr → Bool) (s : St) : Prop where
  finalPass : s.finalPass = true
  outputOpen : s.outputOpen = true
  originSpecified : s.originSpecified = true
  header : s.format = .c64 → 0 < s.totalBytes
  totalBytes : 0 ≤ s.totalBytes
  org : T .org = false → OrgDone s

theorem OutCond.steps {s s' : St} (h : OutCond T s) (hs : Steps T s s') : OutCond T s' := by
  have f := hs.frame
  refine ⟨f.finalPass.trans h.finalPass, f.outputOpen.trans h.outputOpen, f.originSpecified h.originSpecified,
    ?_, Int.le_trans h.totalBytes f.totalBytes, fun hT => (h.org hT).steps hT hs⟩
  intro hc
  have := h.header (by rw [← f.format]; exact hc)
  have := f.totalBytes
  omega

theorem OutCond.cond {s : St} (h : OutCond T s) : Cond T true true s :=
  ⟨h.finalPass, h.outputOpen, fun _ => h.totalBytes, h.org⟩

/-- `Pr` under `OutCond`. -/
def PrO (T : Opr → Bool) {α : Type} (m : M α) : Prop := ∀ s, OutCond T s → Steps T s (m s).2

theorem PrO.bind {α β : Type} {m : M α} {f : α → M β} (hm : PrO T m) (hf : ∀ a, PrO T (f a)) :
    PrO T (m >>= f) := by
  intro s hc
  have h1 := hm s hc
  rw [run_bind]
  rcases hr : m s with ⟨r, s'⟩
  rw [hr] at h1
  cases r with
  | ok a => exact h1.trans (hf a s' (hc.steps h1))
  | _ => exact h1

theorem PrO.of {α : Type} {m : M α} (h : Pr T true true m) : PrO T m := fun s hc => h s hc.cond
theorem PrO.ite {α : Type} {c : Prop} [Decidable c] {m m' : M α} (h : c → PrO T m) (h' : ¬c → PrO T m') :
    PrO T (if c then m else m') := by
  split
  · exact h ‹_›
  · exact h' ‹_›

theorem PrO.writeByte (v : Int) : PrO T (writeByte v) := by
  intro s hc
  refine (Step.payload s [(v % 256).toNat] hc.finalPass hc.outputOpen ?_ hc.header hc.originSpecified).one
  intro x hx
  rw [List.mem_singleton.mp hx]
  omega

theorem PrO.writeBytes (v : Str) : PrO T (writeBytes v) := by
  intro s hc
  have h := (Step.payload (T := T) s (v.map (· % 256)) hc.finalPass hc.outputOpen ?_ hc.header hc.originSpecified).one
  · rw [List.length_map] at h; exact h
  · intro x hx
    obtain ⟨y, _, rfl⟩ := List.mem_map.mp hx
    exact Nat.mod_lt _ (by decide)

theorem PrO.writeWord (v : Int) : PrO T (writeWord v) := by
  unfold Verif.writeWord
  exact PrO.bind (PrO.writeByte _) fun _ => PrO.writeByte _

theorem PrO.writeData (v : Int) : PrO T (writeData v) := by
  unfold Verif.writeData
  refine PrO.bind (PrO.of Pr.getS') fun s => PrO.ite (fun _ => PrO.writeByte _) fun _ =>
    PrO.ite (fun _ => PrO.writeWord _) fun _ => PrO.of (Pr.pure _)

theorem PrO.writeStringNode (v : Str) : PrO T (writeStringNode v) := by
  unfold Verif.writeStringNode
  refine PrO.bind (PrO.writeBytes _) fun _ => PrO.bind (PrO.of Pr.getS') fun s =>
    PrO.ite (fun _ => PrO.writeByte _) fun _ => PrO.of (Pr.pure _)

theorem PrO.writeDataValue (v : Int) : PrO T (writeDataValue v) := by
  unfold Verif.writeDataValue
  refine PrO.bind (PrO.of Pr.getS') fun s => ?_
  repeat' first
    | exact PrO.of (Pr.error _) | exact PrO.writeWord _ | exact PrO.writeByte _
    | (refine PrO.ite ?_ ?_) | intro _

theorem PrO.writeDataNode (hex : ∀ p, Pr T true true (ex p)) (p : Ptr) : PrO T (writeDataNode ex p) := by
  unfold Verif.writeDataNode
  exact PrO.bind (PrO.of (hex p)) fun _ => PrO.ite (fun _ => PrO.of Pr.ub) fun _ => PrO.writeDataValue _

theorem PrO.writeOpcodeNode (hex : ∀ p, Pr T true true (ex p)) (p : Ptr) : PrO T (writeOpcodeNode ex p) := by
  unfold Verif.writeOpcodeNode
  refine PrO.bind (PrO.of (Pr.node _)) fun n => ?_
  split
  · refine PrO.bind (PrO.writeByte _) fun _ => PrO.ite (fun _ => ?_) fun _ => PrO.of (Pr.pure _)
    refine PrO.bind (PrO.of (Pr.opAt _ _)) fun o => PrO.bind (PrO.of (hex o)) fun v => PrO.ite (fun _ => ?_) fun _ => ?_
    · refine PrO.bind (PrO.of (Pr.liftO _)) fun d => PrO.ite (fun _ => PrO.of (Pr.error _)) fun _ => ?_
      exact PrO.bind (PrO.of (by pr)) fun _ => PrO.writeData _
    · exact PrO.bind (PrO.of (by pr)) fun _ => PrO.writeData _
  · exact PrO.of Pr.ub

theorem PrO.payload (hex : ∀ p, Pr T true true (ex p)) (p : Ptr) (n : Node) : PrO T (payload ex p n) := by
  unfold Verif.payload
  split
  · exact PrO.writeStringNode _
  · exact PrO.writeOpcodeNode hex _
  · exact PrO.writeDataNode hex _

theorem writeHeader_run (s : St) (hs : s.originSpecified = true) :
    writeHeader s = (.ok (), { s with
        byteDelta := (headerBytes s.format s.origin).length
        out := s.out ++ headerBytes s.format s.origin
        totalBytes := s.totalBytes + (headerBytes s.format s.origin).length }) := by
  unfold writeHeader headerBytes
  simp only [run_bind, run_modS, run_getS, hs, if_true]
  cases hf : s.format with
  | bin => simp [run_pure]
  | c64 =>
    simp only [run_bind, writeWord, writeByte, run_modS, cand_ff, cand_ff00]
    simp
    omega

theorem Pr.generateOutput (hex : ∀ p, Pr T true o (ex p)) (p : Ptr) : Pr T true o (generateOutput ex p) := by
  intro s hc
  unfold Verif.generateOutput
  rw [getS_bind]
  split
  · exact .refl s
  · rename_i hn
    have ho : s.outputOpen = true := by
      cases h : s.outputOpen
      · exact absurd (Or.inl h) hn
      · rfl
    have hs : s.originSpecified = true := by
      cases h : s.originSpecified
      · exact absurd (Or.inr h) hn
      · rfl
    have hoo : o = true := hc.outputOpen.symm.trans ho
    subst hoo
    have key : ∀ t, OutCond T t → Steps T s t → Steps T s ((do
        let s1 ← Verif.getS
        if s1.pc - (s1.origin + s1.totalBytes) > 0 then do
          Verif.error .valueOutOfRange
          exitM (-1)
        else do
          let n ← Verif.node p
          Verif.payload ex p n
          let s2 ← Verif.getS
          M.pure (s2.totalBytes - s.totalBytes) : M Int) t).2 := by
      intro t ht hst
      refine hst.trans ?_
      rw [getS_bind]
      split
      · exact (Pr.bind (Pr.error _) fun _ => Pr.exit _) t ht.cond
      · refine (PrO.bind (PrO.of (Pr.node _)) fun n => PrO.bind (PrO.payload hex p n) fun _ =>
          PrO.bind (PrO.of Pr.getS') fun _ => PrO.of (Pr.pure _)) t ht
    rw [run_bind]
    by_cases hz : s.totalBytes = 0
    · rw [if_pos hz, writeHeader_run s hs]
      refine key _ ⟨hc.finalPass, ho, hs, ?_, ?_, hc.org⟩ (Step.header s hc.finalPass ho hz hs).one
      · intro hf
        simp only at hf
        simp [headerBytes, hf, hz]
      · have := hc.totalBytes rfl
        simp only
        omega
    · rw [if_neg hz]
      refine key s ⟨hc.finalPass, ho, hs, ?_, hc.totalBytes rfl, hc.org⟩ (.refl s)
      intro _
      have := hc.totalBytes rfl
      omega

theorem Pr.addList (t : Str) : Pr T true o (addList t) := fun s hc =>
  (Step.list s _ hc.finalPass).one
macro_rules | `(tactic| pr_leaf) => `(tactic| with_reducible exact Pr.addList _)

theorem Pr.addDirective : Pr T true o addDirective := fun s hc => (Step.list s _ hc.finalPass).one
macro_rules | `(tactic| pr_leaf) => `(tactic| with_reducible exact Pr.addDirective)

theorem Pr.listString (pad : Bool) : ∀ (n : Nat) (v : Str), v.length ≤ n → ∀ (pc : Int) (prev : Str × Nat),
    Pr T true o (listString pad pc prev v) := by
  intro n
  induction n with
  | zero =>
    intro v hv pc prev
    have : v = [] := List.length_eq_zero_iff.mp (Nat.le_zero.mp hv)
    subst this
    unfold Verif.listString
    pr
  | succ n ih =>
    intro v hv pc prev
    unfold Verif.listString
    split
    · refine Pr.bind (Pr.addList _) fun _ => ih _ ?_ _ _
      simp only [List.length_cons] at hv
      omega
    all_goals pr

theorem Pr.generateListNode (hex : ∀ p, Pr T true o (ex p)) (p : Ptr) : Pr T true o (generateListNode ex p) := by
  unfold Verif.generateListNode
  refine Pr.bind (Pr.node _) fun n => ?_
  split
  · unfold Verif.listPrintState; pr
  · refine Pr.getS fun s _ => ?_
    exact Pr.listString _ _ _ (Nat.le_refl _) _ _
  · unfold Verif.listOpcode; pr
  · unfold Verif.listData; pr

/-! ## Nodes -/

theorem Pr.constantNode (v : Int) (i : Bool) : Pr T b o (constantNode v i) := by
  unfold Verif.constantNode; pr
macro_rules | `(tactic| pr_leaf) => `(tactic| with_reducible exact Pr.constantNode _ _)
theorem Pr.stringNode (r : Str) : Pr T b o (stringNode r) := by
  unfold Verif.stringNode; pr
macro_rules | `(tactic| pr_leaf) => `(tactic| with_reducible exact Pr.stringNode _)
theorem Pr.idNode (k : IdKind) (n : Str) : Pr T b o (idNode k n) := by
  unfold Verif.idNode; pr
macro_rules | `(tactic| pr_leaf) => `(tactic| with_reducible exact Pr.idNode _ _)
theorem Pr.labelNode (n : Str) : Pr T b o (labelNode n) := by
  unfold Verif.labelNode; pr
macro_rules | `(tactic| pr_leaf) => `(tactic| with_reducible exact Pr.labelNode _)
theorem Pr.macroExpandNode (n : Str) (q : Option Ptr) : Pr T b o (macroExpandNode n q) := by
  unfold Verif.macroExpandNode; pr
macro_rules | `(tactic| pr_leaf) => `(tactic| with_reducible exact Pr.macroExpandNode _ _)
theorem Pr.dataNode (n : Int) (q : Ptr) : Pr T b o (dataNode n q) := by
  unfold Verif.dataNode; pr
macro_rules | `(tactic| pr_leaf) => `(tactic| with_reducible exact Pr.dataNode _ _)
theorem Pr.operatorNode (n : Opr) (q : List Ptr) (h : T n = true) : Pr T b o (operatorNode n q) :=
  Pr.allocNode _ _ h
macro_rules | `(tactic| pr_leaf) => `(tactic| with_reducible exact Pr.operatorNode _ _ TOk.exprList)
macro_rules | `(tactic| pr_leaf) => `(tactic| with_reducible exact Pr.operatorNode _ _ TOk.equ)
macro_rules | `(tactic| pr_leaf) => `(tactic| with_reducible exact Pr.operatorNode _ _ TOk.statement)
macro_rules | `(tactic| pr_leaf) => `(tactic| with_reducible exact Pr.operatorNode _ _ (TOk.un _))
macro_rules | `(tactic| pr_leaf) => `(tactic| with_reducible exact Pr.operatorNode _ _ (TOk.bin _))
macro_rules | `(tactic| pr_leaf) => `(tactic| with_reducible exact Pr.operatorNode _ _ (by assumption))
theorem Pr.isUninitSym (q : Ptr) : Pr T b o (isUninitSym q) := by
  unfold Verif.isUninitSym; pr
macro_rules | `(tactic| pr_leaf) => `(tactic| with_reducible exact Pr.isUninitSym _)
theorem Pr.hasUninit : ∀ (f : Nat) (q : Ptr), Pr T b o (hasUninit f q)
  | 0, _ => Pr.timeout
  | f + 1, q => by
    have ih := Pr.hasUninit f
    unfold Verif.hasUninit
    pr
macro_rules | `(tactic| pr_leaf) => `(tactic| with_reducible exact Pr.hasUninit _ _)
theorem Pr.opCodeM (i : Int) (m : Mode) : Pr T b o (opCodeM i m) := by
  unfold Verif.opCodeM; pr
macro_rules | `(tactic| pr_leaf) => `(tactic| with_reducible exact Pr.opCodeM _ _)
theorem Pr.lastValue (hex : ∀ p, Pr T b o (ex p)) (q : List Ptr) : Pr T b o (lastValue ex q) := by
  unfold Verif.lastValue; pr
macro_rules | `(tactic| pr_leaf) => `(tactic| with_reducible exact Pr.lastValue (by assumption) _)
theorem Pr.isAccOperand (m : Mode) (q : List Ptr) : Pr T b o (isAccOperand m q) := by
  unfold Verif.isAccOperand; pr
macro_rules | `(tactic| pr_leaf) => `(tactic| with_reducible exact Pr.isAccOperand _ _)
theorem Pr.opcodeNode (hex : ∀ p, Pr T b o (ex p)) (hhu : ∀ p, Pr T b o (hu p)) (op : Int) (m : Mode) (q : List Ptr) :
    Pr T b o (opcodeNode ex hu op m q) := by
  unfold Verif.opcodeNode
  refine Pr.getS fun s hs => ?_
  dsimp only
  refine Pr.allocBind rfl fun p => PrT.bind (PrT.of (by pr)) fun v => PrT.bind (PrT.of (by pr)) fun un =>
    PrT.bind (PrT.of (by pr)) fun acc => PrT.getS fun s hs => PrT.bind (PrT.setNode rfl) fun _ =>
    PrT.of ?_
  pr
macro_rules | `(tactic| pr_leaf) => `(tactic| with_reducible exact Pr.opcodeNode (by assumption) (by assumption) _ _ _)

/-! ## Handlers -/

theorem Pr.modOpcode (p : Ptr) (g : Int → Int → Mode → Int → Kind)
    (hg : ∀ i c m pc, (g i c m pc).tag = .opcode 0 0 .i 0) : Pr T b o (modOpcode p g) := by
  unfold Verif.modOpcode
  refine Pr.nodeBind fun n => ?_
  split
  · rename_i h
    rw [h]
    exact PrT.setNode (hg _ _ _ _)
  · exact PrT.of Pr.ub
macro_rules | `(tactic| pr_leaf) => `(tactic| ((with_reducible refine Pr.modOpcode _ _ ?_); exact fun _ _ _ _ => rfl))
theorem Pr.addPc (d : Int) : Pr T b o (addPc d) := by
  unfold Verif.addPc; pr
macro_rules | `(tactic| pr_leaf) => `(tactic| with_reducible exact Pr.addPc _)
theorem Pr.resolveId (f : Bool) (p : Ptr) : Pr T b o (resolveId f p) := by
  unfold Verif.resolveId
  refine Pr.nodeBind fun n => ?_
  split
  · rename_i h
    rw [h]
    split
    · exact PrT.of (Pr.pure _)
    · exact PrT.bind (PrT.of (Pr.addSymbol _)) fun j => PrT.bind (PrT.setNode rfl) fun _ => PrT.of (Pr.pure _)
  · exact PrT.of Pr.ub
macro_rules | `(tactic| pr_leaf) => `(tactic| with_reducible exact Pr.resolveId _ _)
theorem PrT.expandConstant (p : Ptr) (v : Int) (i : Bool) :
    PrT T b o p (.con 0 i) (expandConstant p v i) := by
  unfold Verif.expandConstant
  refine PrT.ite (fun hi => ?_) fun _ => PrT.of (Pr.pure _)
  subst hi
  exact PrT.getS fun s hs => PrT.bind (PrT.of (Pr.node _)) fun n => PrT.bind (PrT.setNode rfl) fun _ =>
    PrT.of (Pr.pure _)

/-- Assigning to a plus/minus symbol. -/
theorem pmValue_steps (i : SymPtr) (v : Int) (s : St) (x : Sym) (hx : s.syms[i]? = some x)
    (hp : x.isPlusMinus = true) : Steps T s (Verif.modSym i (fun x => { x with value := v, isInit := true }) s).2 := by
  rcases modSym_cases i (fun x => { x with value := v, isInit := true }) s with e | ⟨x', hx', e⟩
  · rw [e]; exact .refl s
  · rw [e]
    rw [hx] at hx'
    cases hx'
    refine (Step.symUpd s i x _ hx ?_ (.inl (by rfl))).one
    constructor <;> first | rfl | exact id | exact fun _ => rfl | (simp [hp]; done)

theorem Pr.pmUpdate (i : SymPtr) (e? : Option (Option PmSym)) :
    Pr T b o ((Verif.modSym i fun x => { x with isPlusMinus := true }) >>= fun _ =>
      (match e? with
        | some e => do
          let e ← Verif.liftO e
          Verif.modSym i fun x => { x with value := e.value, isInit := true }
        | none => M.pure ())) := by
  intro s hc
  rw [run_bind]
  rcases modSym_cases i (fun x => { x with isPlusMinus := true }) s with e | ⟨x, hx, e⟩
  · rw [e]; exact .refl s
  · rw [e]
    have h1 : Steps T s { s with syms := s.syms.set i { x with isPlusMinus := true } } := by
      refine (Step.symUpd s i x _ hx ?_ (.inl (by rfl))).one
      constructor <;> first | rfl | exact id | exact fun _ => rfl | (simp; done)
    refine h1.trans ?_
    simp only
    split
    · rename_i e
      cases e with
      | none => exact .refl _
      | some e =>
        refine pmValue_steps i e.value _ { x with isPlusMinus := true } ?_ rfl
        have := (List.getElem?_eq_some_iff.mp hx).1
        simp [this]
    · exact .refl _

theorem Pr.expandPlusMinus (p : Ptr) : Pr T b o (expandPlusMinus p) := by
  unfold Verif.expandPlusMinus
  refine Pr.bind (Pr.node _) fun n => ?_
  split
  · refine Pr.ite (fun _ => ?_) fun _ => by pr
    refine Pr.getS fun s hs => ?_
    dsimp only
    refine Pr.bind (Pr.resolveId _ _) fun r => Pr.bind (Pr.liftO _) fun i => ?_
    rename_i k name i? _ _
    generalize (if (name.head? == some 45) = true then findMinus s.minusTab name.length s.file s.line else
      findPlus s.plusTab name.length s.file s.line) = index
    generalize (if (name.head? == some 45) = true then s.minusTab else s.plusTab) = tab
    have key := Pr.pmUpdate (T := T) (b := b) (o := o) i (index.map fun ix => tab[ix]?)
    have : ∀ k : Unit → M Int, (∀ a, Pr T b o (k a)) → Pr T b o
        ((Verif.modSym i fun x => { x with isPlusMinus := true }) >>= fun _ =>
        (match index with
          | some ix => do
            let e ← Verif.liftO tab[ix]?
            Verif.modSym i fun x => { x with value := e.value, isInit := true }
          | none => M.pure ()) >>= k) := by
      intro k hk
      rw [← bind_assoc']
      refine Pr.bind ?_ hk
      cases index <;> exact key
    refine this _ fun _ => ?_
    pr
  · exact Pr.ub
macro_rules | `(tactic| pr_leaf) => `(tactic| with_reducible exact Pr.expandPlusMinus _)

theorem Pr.symValue (i : SymPtr) : Pr T b o (symValue i) := by
  unfold Verif.symValue; pr
macro_rules | `(tactic| pr_leaf) => `(tactic| with_reducible exact Pr.symValue _)
theorem Pr.expandId (p : Ptr) (n : Str) : Pr T b o (expandId p n) := by
  unfold Verif.expandId; pr
macro_rules | `(tactic| pr_leaf) => `(tactic| with_reducible exact Pr.expandId _ _)
theorem Pr.expandLabel (p : Ptr) (n : Str) : Pr T b o (expandLabel p n) := by
  unfold Verif.expandLabel; pr
macro_rules | `(tactic| pr_leaf) => `(tactic| with_reducible exact Pr.expandLabel _ _)

theorem Pr.expandData (hex : ∀ p, Pr T b o (ex p)) (n : Int) (p : Ptr) : Pr T b o (expandData ex n p) := by
  unfold Verif.expandData; pr
macro_rules | `(tactic| pr_leaf) => `(tactic| with_reducible exact Pr.expandData (by assumption) _ _)

/-- Emitting needs the final pass. -/
theorem Pr.emitNode (hex : ∀ p, Pr T b o (ex p)) (hb : b = true) (p : Ptr) : Pr T b o (emitNode ex p) := by
  subst hb
  unfold Verif.emitNode
  exact Pr.bind (Pr.generateListNode hex _) fun _ => Pr.bind (Pr.generateOutput hex _) fun _ => Pr.pure _

theorem Cond.isFinal {s : St} (h : Cond T b o s) (hf : s.finalPass = true) : b = true := h.finalPass.symm.trans hf

/-- Find out that this is the final pass. -/
macro "isfinal" : tactic => `(tactic| first
  | (exact Cond.isFinal (by assumption) (by assumption))
  | (rename_i h; exact Cond.isFinal (by assumption) h.2))
macro_rules | `(tactic| pr_leaf) => `(tactic| with_reducible exact Pr.emitNode (by assumption) (by isfinal) _)

theorem Pr.fillLoop (hex : ∀ p, Pr T true o (ex p)) (two one : Ptr) : ∀ (f : Nat) (c : Int),
    Pr T true o (fillLoop ex two one f c)
  | 0, c => by unfold Verif.fillLoop; pr
  | f + 1, c => by
    unfold Verif.fillLoop
    refine Pr.ite (fun _ => Pr.bind ?_ fun _ => Pr.fillLoop hex two one f _) fun _ => Pr.pure _
    unfold Verif.fillStep
    have h1 := Pr.generateOutput hex
    have h2 := Pr.generateListNode hex
    pr

theorem Pr.expandFill (hex : ∀ p, Pr T b o (ex p)) (f : Nat) (n : Node) : Pr T b o (expandFill ex f n) := by
  unfold Verif.expandFill
  pr
  obtain rfl : b = true := by isfinal
  exact Pr.fillLoop hex _ _ _ _

theorem Pr.loadEmit (hex : ∀ p, Pr T b o (ex p)) (n : Int) (v : Int) : Pr T b o (loadEmit ex n v) := by
  unfold Verif.loadEmit; pr

theorem Pr.loadLoop (hex : ∀ p, Pr T b o (ex p)) : ∀ (n : Nat) (bs : List Nat), bs.length ≤ n →
    Pr T b o (loadLoop ex bs) := by
  intro n
  induction n with
  | zero =>
    intro bs h
    have : bs = [] := List.length_eq_zero_iff.mp (Nat.le_zero.mp h)
    subst this
    exact Pr.pure _
  | succ n ih =>
    intro bs h
    unfold Verif.loadLoop
    split
    · refine Pr.bind (Pr.loadEmit hex _ _) fun _ => ih _ ?_
      simp only [List.length_cons] at h
      omega
    · exact Pr.loadEmit hex _ _
    · exact Pr.pure _

theorem Pr.expandLoad (hex : ∀ p, Pr T b o (ex p)) (n : Node) : Pr T b o (expandLoad ex n) := by
  unfold Verif.expandLoad
  pr
  exact Pr.loadLoop hex _ _ (Nat.le_refl _)

theorem Pr.expandInclude (n : Node) : Pr T b o (expandInclude n) := by
  unfold Verif.expandInclude
  pr
  all_goals
    obtain rfl : b = true := by isfinal
    exact Pr.addList _
theorem Pr.expandSection (n : Node) : Pr T b o (expandSection n) := by
  unfold Verif.expandSection; pr
theorem Pr.expandEndSection : Pr T b o expandEndSection := by
  unfold Verif.expandEndSection; pr
theorem Pr.opNodeBytes (p : Ptr) : Pr T b o (opNodeBytes p) := by
  unfold Verif.opNodeBytes; pr
macro_rules | `(tactic| pr_leaf) => `(tactic| with_reducible exact Pr.opNodeBytes _)
theorem Pr.longBranch (hex : ∀ p, Pr T b o (ex p)) (hhu : ∀ p, Pr T b o (hu p)) (p t : Ptr) (c c2 : Int) (m : Mode) :
    Pr T b o (longBranch ex hu p t c c2 m) := by
  have key : ∀ c, b = true → Pr T b o (do
      let n ← Verif.node p
      Verif.setNode p { n with ops := n.ops.set 0 c }
      Verif.emitNode ex p) := fun c hb =>
    Pr.nodeBind fun n => PrT.bind (PrT.setNode rfl) fun _ => PrT.of (Pr.emitNode hex hb p)
  unfold Verif.longBranch
  refine Pr.bind (by pr) fun jmp => Pr.bind (by pr) fun _ => Pr.getS fun s hs => Pr.bind ?_ fun _ => by pr
  refine Pr.ite (fun hf => Pr.bind (by pr) fun c => key c (by isfinal)) fun _ => by pr
macro_rules
  | `(tactic| pr_leaf) => `(tactic| with_reducible exact Pr.longBranch (by assumption) (by assumption) _ _ _ _ _)
theorem Pr.zpOptimize (p : Ptr) (i : Int) (l : Bool) (m m' : Mode) : Pr T b o (zpOptimize p i l m m') := by
  unfold Verif.zpOptimize; pr
macro_rules | `(tactic| pr_leaf) => `(tactic| with_reducible exact Pr.zpOptimize _ _ _ _ _)
theorem Pr.widen (p : Ptr) (i : Int) (m m' : Mode) : Pr T b o (widen p i m m') := by
  unfold Verif.widen; pr
macro_rules | `(tactic| pr_leaf) => `(tactic| with_reducible exact Pr.widen _ _ _ _)
theorem Pr.operandPhase (hex : ∀ p, Pr T b o (ex p)) (hhu : ∀ p, Pr T b o (hu p)) (p : Ptr) (n : Node) (i c : Int)
    (m : Mode) (pc : Int) : Pr T b o (operandPhase ex hu p n i c m pc) := by
  unfold Verif.operandPhase; pr
macro_rules
  | `(tactic| pr_leaf) => `(tactic| with_reducible exact Pr.operandPhase (by assumption) (by assumption) _ _ _ _ _ _)
theorem Pr.expandOpCode (hex : ∀ p, Pr T b o (ex p)) (hhu : ∀ p, Pr T b o (hu p)) (p : Ptr) :
    Pr T b o (expandOpCode ex hu p) := by
  unfold Verif.expandOpCode
  refine Pr.nodeBind fun n => ?_
  split
  · rename_i h
    rw [h]
    refine PrT.bind (PrT.of (by pr)) fun _ => PrT.getS fun s hs => PrT.bind (PrT.setNode rfl) fun _ => PrT.of ?_
    pr
  · exact PrT.of Pr.ub
theorem Pr.injectOp (hex : ∀ p, Pr T b o (ex p)) (hhu : ∀ p, Pr T b o (hu p)) (i : Int) (m : Mode) (a : Option Int) :
    Pr T b o (injectOp ex hu i m a) := by
  unfold Verif.injectOp; pr
macro_rules
  | `(tactic| pr_leaf) => `(tactic| with_reducible exact Pr.injectOp (by assumption) (by assumption) _ _ _)
theorem Pr.addForCount (x : Bool) (d : Int) : Pr T b o (addForCount x d) := by
  unfold Verif.addForCount; pr
macro_rules | `(tactic| pr_leaf) => `(tactic| with_reducible exact Pr.addForCount _ _)
theorem Pr.leaveForReg (x : Bool) : Pr T b o (leaveForReg x) := by
  unfold Verif.leaveForReg; pr
macro_rules | `(tactic| pr_leaf) => `(tactic| with_reducible exact Pr.leaveForReg _)
theorem Pr.forRegTail (hex : ∀ p, Pr T b o (ex p)) (hhu : ∀ p, Pr T b o (hu p)) (x : Bool) (e i p : Int) :
    Pr T b o (forRegTail ex hu x e i p) := by
  unfold Verif.forRegTail
  refine Pr.bind (Pr.injectOp hex hhu _ _ _) fun _ => ?_
  pr
macro_rules
  | `(tactic| pr_leaf) => `(tactic| with_reducible exact Pr.forRegTail (by assumption) (by assumption) _ _ _ _)
theorem Pr.expandForReg (hex : ∀ p, Pr T b o (ex p)) (hhu : ∀ p, Pr T b o (hu p)) (x : Bool) (n : Node) :
    Pr T b o (expandForReg ex hu x n) := by
  unfold Verif.expandForReg; pr
theorem PrT.expandPcAssign (hex : ∀ p, Pr T b o (ex p)) (p : Ptr) (n : Node) :
    PrT T b o p (.opr .pcAssign) (expandPcAssign ex n) := by
  unfold Verif.expandPcAssign
  refine PrT.bind (PrT.of (by pr)) fun _ => PrT.bind (PrT.of (by pr)) fun q => PrT.bind (PrT.of (by pr)) fun v =>
    PrT.bind (PrT.modOrigin ?_ (Or.inl rfl)) fun _ => PrT.of (Pr.pure _)
  quiet
theorem PrT.expandOrg (hex : ∀ p, Pr T b o (ex p)) (p : Ptr) (n : Node) :
    PrT T b o p (.opr .org) (expandOrg ex n) := by
  cases hT : T .org with
  | true =>
    unfold Verif.expandOrg
    refine PrT.bind (PrT.of (by pr)) fun _ => PrT.getS fun s hs => PrT.ite (fun _ => PrT.of (by pr)) fun _ =>
      PrT.bind (PrT.of (by pr)) fun q => PrT.bind (PrT.of (by pr)) fun v =>
      PrT.bind (PrT.modOrigin ?_ (Or.inr hT)) fun _ => PrT.of (Pr.pure _)
    quiet
  | false =>
    intro s hc ht
    obtain ⟨m, hm, hk⟩ := ht.mem
    have hd : s.orgOriginSpecified = true := (hc.org hT).resolve_right fun h => h m hm hk
    have e : Verif.expandOrg ex n s = (do
        Verif.modS fun s => { s with pcAssigned := s.pcAssigned + 1 }
        Verif.error .orgTwice
        M.pure 0 : M Int) s := by
      unfold Verif.expandOrg
      simp only [run_bind, run_modS, run_getS, hd, if_true]
    rw [e]
    exact (Pr.bind (by pr) fun _ => Pr.bind (Pr.error _) fun _ => Pr.pure _) s hc
theorem Pr.expandDs (hex : ∀ p, Pr T b o (ex p)) (n : Node) : Pr T b o (expandDs ex n) := by
  unfold Verif.expandDs; pr

/-! ### Lists -/

theorem Keep.addSymbol_exp (name : Str) : Keep St.expansionType (Verif.addSymbol name) := by
  unfold Verif.addSymbol Verif.addPlusMinusSym; keep

theorem Keep.resolveId_exp (f : Bool) (p : Ptr) : Keep St.expansionType (Verif.resolveId f p) := by
  have := Keep.addSymbol_exp
  unfold Verif.resolveId; keep

theorem varSet_steps (i : SymPtr) (fresh : Prop) [Decidable fresh] (lab : Bool) (s : St)
    (ht : s.expansionType = .symbol) :
    Steps T s ((do
      (if fresh then Verif.modSym i (fun x => { x with isVar := true }) else M.pure ())
      let s ← Verif.getS
      Verif.modSym i fun x => { x with value := if lab then s.pc else 0, isInit := true }
      M.pure (some (some i)) : M (Option (Option SymPtr))) s).2 := by
  by_cases hf : fresh
  · rw [if_pos hf, run_bind]
    rcases modSym_cases i (fun x => { x with isVar := true }) s with e | ⟨x, hx, e⟩
    · rw [e]; exact .refl s
    · rw [e]
      simp only [getS_bind]
      have hl := (List.getElem?_eq_some_iff.mp hx).1
      rw [run_bind]
      rcases modSym_cases i (fun x => { x with value := if lab then s.pc else 0, isInit := true })
        { s with syms := s.syms.set i { x with isVar := true } } with e | ⟨x', hx', e⟩
      · simp only [e]
        refine (Step.symUpd s i x _ hx ?_ (.inl (by rfl))).one
        constructor <;> first | rfl | exact id | exact fun _ => rfl | (simp; done)
      · simp only [e, run_pure]
        have : x' = { x with isVar := true } := by
          simp [hl] at hx'
          exact hx'.symm
        subst this
        rw [List.set_set]
        refine (Step.symUpd s i x _ hx ?_ (.inl (by rfl))).one
        constructor <;> first | rfl | exact id | exact fun _ => rfl | (simp; done)
  · rw [if_neg hf, pure_bind', getS_bind, run_bind]
    rcases modSym_cases i (fun x => { x with value := if lab then s.pc else 0, isInit := true }) s with e | ⟨x, hx, e⟩
    · rw [e]; exact .refl s
    · rw [e]
      exact (Step.varReset s i x _ hx ht).one

theorem varName_steps (lab cached : Bool) (pp : Ptr) (s : St)
    (hc : Cond T b o s) (ht : s.expansionType = .symbol) : Steps T s (varName lab cached pp s).2 := by
  unfold varName
  rw [run_bind]
  have h1 := Pr.resolveId (T := T) false pp s hc
  have h2 := Keep.resolveId_exp false pp s
  rcases hr : Verif.resolveId false pp s with ⟨r, s'⟩
  rw [hr] at h1 h2
  cases r with
  | ok r =>
    refine h1.trans ?_
    cases r with
    | none => exact (Pr.bind (Pr.error _) fun _ => Pr.pure _) s' (hc.steps h1)
    | some j => exact varSet_steps j (cached = false) lab s' (h2.trans ht)
  | _ => exact h1

theorem varItem_steps (hex : ∀ p, Pr T b o (ex p)) (acc : Option SymPtr) (pp : Ptr) (n : Node) (s : St)
    (hc : Cond T b o s) (ht : s.expansionType = .symbol) : Steps T s (varItem ex acc pp n s).2 := by
  unfold varItem
  have rest : Pr T b o (match acc with
      | some j => do
        let v ← ex pp
        Verif.setSymbolValue j v
        M.pure (some none)
      | none => do
        Verif.error .initializingVariable
        M.pure none : M (Option (Option SymPtr))) := by pr
  generalize n.kind = k
  cases k with
  | id k name i =>
    cases k
    · exact varName_steps _ _ _ _ hc ht
    · exact varName_steps _ _ _ _ hc ht
    · exact rest s hc
  | _ => exact rest s hc

theorem Pr.macroArg (hex : ∀ p, Pr T b o (ex p)) (p : Ptr) (n : Node) : Pr T b o (macroArg ex p n) := by
  unfold Verif.macroArg; pr
macro_rules | `(tactic| pr_leaf) => `(tactic| with_reducible exact Pr.macroArg (by assumption) _ _)
theorem Pr.dataBytesItem (hex : ∀ p, Pr T b o (ex p)) (hhu : ∀ p, Pr T b o (hu p)) (a : Option SymPtr) (p : Ptr)
    (n : Node) : Pr T b o (dataBytesItem ex hu a p n) := by
  unfold Verif.dataBytesItem; pr
macro_rules
  | `(tactic| pr_leaf) => `(tactic| with_reducible exact Pr.dataBytesItem (by assumption) (by assumption) _ _ _)
theorem Pr.dataStringsItem (hex : ∀ p, Pr T b o (ex p)) (a : Option SymPtr) (p : Ptr) (n : Node) :
    Pr T b o (dataStringsItem ex a p n) := by
  unfold Verif.dataStringsItem; pr
macro_rules | `(tactic| pr_leaf) => `(tactic| with_reducible exact Pr.dataStringsItem (by assumption) _ _ _)
theorem Pr.printItem (hex : ∀ p, Pr T b o (ex p)) (l : Bool) (a : Option SymPtr) (p : Ptr) (n : Node) :
    Pr T b o (printItem ex l a p n) := by
  unfold Verif.printItem; pr
macro_rules | `(tactic| pr_leaf) => `(tactic| with_reducible exact Pr.printItem (by assumption) _ _ _ _)

theorem Pr.exprListItem (hex : ∀ p, Pr T b o (ex p)) (hhu : ∀ p, Pr T b o (hu p)) (a : Option SymPtr) (p : Ptr) :
    Pr T b o (exprListItem ex hu a p) := by
  unfold Verif.exprListItem
  refine Pr.bind (Pr.node _) fun n => Pr.ite (fun _ => by pr) fun _ => ?_
  refine Pr.bind (Pr.operands _) fun os => Pr.bind (by pr) fun _ => Pr.bind (Pr.node _) fun n => ?_
  intro s hc
  rw [getS_bind]
  cases ht : s.expansionType with
  | symbol => exact varItem_steps hex _ _ _ _ hc ht
  | macroParameter => exact Pr.macroArg hex _ _ s hc
  | dataBytes => exact Pr.dataBytesItem hex hhu _ _ _ s hc
  | dataStrings => exact Pr.dataStringsItem hex _ _ _ s hc
  | printAll => exact Pr.printItem hex _ _ _ _ s hc
  | print => exact Pr.printItem hex _ _ _ _ s hc

theorem Pr.expandExprList (hex : ∀ p, Pr T b o (ex p)) (hhu : ∀ p, Pr T b o (hu p)) (n : Node) :
    Pr T b o (expandExprList ex hu n) := by
  unfold Verif.expandExprList
  have := Pr.exprListItem hex hhu
  pr
theorem PrT.expandVariable (hex : ∀ p, Pr T b o (ex p)) (p : Ptr) (n : Node) :
    PrT T b o p (.opr .var) (expandVariable ex n) := by
  unfold Verif.expandVariable
  refine PrT.bind (PrT.of (by pr)) fun q => PrT.bind ?_ fun _ => PrT.of (hex _)
  exact fun s _ ht => (Step.expType s .symbol fun _ => ht.mem).one
theorem Pr.expandPrint (hex : ∀ p, Pr T b o (ex p)) (l : Bool) (n : Node) : Pr T b o (expandPrint ex l n) := by
  unfold Verif.expandPrint; pr

/-! ### Macros -/

theorem Pr.createMacroEntry (n : Str) : Pr T b o (createMacroEntry n) := by
  unfold Verif.createMacroEntry; pr
macro_rules | `(tactic| pr_leaf) => `(tactic| with_reducible exact Pr.createMacroEntry _)
theorem Pr.entryCount (n : Str) (f : Bool) : Pr T b o (entryCount n f) := by
  unfold Verif.entryCount; pr
macro_rules | `(tactic| pr_leaf) => `(tactic| with_reducible exact Pr.entryCount _ _)
theorem Pr.bumpMacro (n : Str) (f : Bool) : Pr T b o (bumpMacro n f) := by
  unfold Verif.bumpMacro; pr
macro_rules | `(tactic| pr_leaf) => `(tactic| with_reducible exact Pr.bumpMacro _ _)
theorem Pr.expandMacroId (hex : ∀ p, Pr T b o (ex p)) (p : Ptr) (n : Str) : Pr T b o (expandMacroId ex p n) := by
  unfold Verif.expandMacroId; pr
theorem Pr.expandMacroEx (hex : ∀ p, Pr T b o (ex p)) (n : Str) (p : Ptr) (q : Option Ptr) :
    Pr T b o (expandMacroEx ex n p q) := by
  unfold Verif.expandMacroEx; pr
theorem PrT.expandMacroDef (p : Ptr) (n : Node) : PrT T b o p (.opr .macroDef) (expandMacroDef n) := by
  unfold Verif.expandMacroDef
  refine PrT.bind (PrT.of (by pr)) fun q => PrT.bind (PrT.of (by pr)) fun on => ?_
  split
  · refine PrT.bind (PrT.of (by pr)) fun _ => PrT.bind (PrT.of (by pr)) fun r => ?_
    split
    · refine PrT.bind (PrT.of (by pr)) fun bd => PrT.bind (PrT.of (by pr)) fun s0 => PrT.bind ?_ fun _ => PrT.of (by pr)
      intro s _ ht
      rcases modSym_cases _ (fun x : Sym => { x with isMacroName := true, isInit := true, macroNode := some bd, value := s0.pc }) s with e | ⟨x, hx, e⟩
      · rw [e]; exact .refl s
      · rw [e]; exact (Step.symUpd s _ x _ hx (by
          constructor <;> first | rfl | exact id | exact fun _ => rfl | (simp; done)) (.inr (.inr ht.mem))).one
    · exact PrT.of (by pr)
  · exact PrT.of (by pr)

/-! ### Control flow, assignment, operators -/

theorem Pr.pcOverflow : Pr T b o pcOverflow := by
  unfold Verif.pcOverflow; pr
macro_rules | `(tactic| pr_leaf) => `(tactic| with_reducible exact Pr.pcOverflow)
theorem Pr.expandWhile (hex : ∀ p, Pr T b o (ex p)) (f : Nat) (n : Node) : Pr T b o (expandWhile ex f n) := by
  unfold Verif.expandWhile; pr
theorem Pr.expandRepeat (hex : ∀ p, Pr T b o (ex p)) (f : Nat) (u : Bool) (n : Node) :
    Pr T b o (expandRepeat ex f u n) := by
  unfold Verif.expandRepeat; pr
theorem Pr.forStep (hex : ∀ p, Pr T b o (ex p)) (i : SymPtr) (x e : Int) (p : Ptr) : Pr T b o (forStep ex i x e p) := by
  unfold Verif.forStep; pr
macro_rules | `(tactic| pr_leaf) => `(tactic| with_reducible exact Pr.forStep (by assumption) _ _ _ _)
theorem Pr.needSym (r : Option SymPtr) : Pr T b o (needSym r) := by
  unfold Verif.needSym; pr
macro_rules | `(tactic| pr_leaf) => `(tactic| with_reducible exact Pr.needSym _)
theorem Pr.expandFor (hex : ∀ p, Pr T b o (ex p)) (f : Nat) (n : Node) : Pr T b o (expandFor ex f n) := by
  unfold Verif.expandFor; pr
theorem Pr.expandIf (hex : ∀ p, Pr T b o (ex p)) (n : Node) : Pr T b o (expandIf ex n) := by
  unfold Verif.expandIf; pr
theorem Pr.expandStatement (hex : ∀ p, Pr T b o (ex p)) (n : Node) : Pr T b o (expandStatement ex n) := by
  unfold Verif.expandStatement; pr
theorem Pr.pmMinus (g : St → List PmSym) :
    Pr T b o (Verif.modS fun s => { s with minusTab := g s, symValueChanged := s.symValueChanged + 1 }) :=
  fun s _ => (Step.pmMinus s (g s)).one
theorem Pr.pmPlus (g : St → List PmSym) :
    Pr T b o (Verif.modS fun s => { s with plusTab := g s, symValueChanged := s.symValueChanged + 1 }) :=
  fun s _ => (Step.pmPlus s (g s)).one
theorem Pr.equMinus (v : Int) : Pr T b o (equMinus v) := by
  unfold Verif.equMinus; pr
  exact Pr.pmMinus _
macro_rules | `(tactic| pr_leaf) => `(tactic| with_reducible exact Pr.equMinus _)
theorem Pr.equPlus (v : Int) : Pr T b o (equPlus v) := by
  unfold Verif.equPlus; pr
  exact Pr.pmPlus _
macro_rules | `(tactic| pr_leaf) => `(tactic| with_reducible exact Pr.equPlus _)
theorem Pr.equTarget (i : SymPtr) (x : Sym) : Pr T b o (equTarget i x) := by
  unfold Verif.equTarget; pr
macro_rules | `(tactic| pr_leaf) => `(tactic| with_reducible exact Pr.equTarget _ _)
theorem Pr.expandEqu (hex : ∀ p, Pr T b o (ex p)) (n : Node) : Pr T b o (expandEqu ex n) := by
  unfold Verif.expandEqu; pr
theorem Pr.bin (hex : ∀ p, Pr T b o (ex p)) (n : Node) (g : Int → Int → Option Int) : Pr T b o (bin ex n g) := by
  unfold Verif.bin; pr
theorem Pr.una (hex : ∀ p, Pr T b o (ex p)) (n : Node) (g : Int → Option Int) : Pr T b o (una ex n g) := by
  unfold Verif.una; pr
theorem Pr.expandDivide (hex : ∀ p, Pr T b o (ex p)) (n : Node) : Pr T b o (expandDivide ex n) := by
  have := Pr.bin hex n
  unfold Verif.expandDivide; pr
theorem Pr.shortCircuit (hex : ∀ p, Pr T b o (ex p)) (n : Node) (x : Bool) : Pr T b o (shortCircuit ex n x) := by
  unfold Verif.shortCircuit; pr

theorem PrT.expandEnd (p : Ptr) : PrT T b o p (.opr .endProg) (do
    modS fun s => { s with endExpansion := true }
    M.pure (0 : Int)) :=
  fun s _ ht => (Step.stop s ht.mem).one

theorem PrT.expandOperator (hex : ∀ p, Pr T b o (ex p)) (hhu : ∀ p, Pr T b o (hu p)) (f : Nat) (op : Opr)
    (p : Ptr) (n : Node) :
    PrT T b o p (.opr op) (expandOperator ex hu f op n) := by
  cases op
  case pcAssign => exact PrT.expandPcAssign hex p n
  case org => exact PrT.expandOrg hex p n
  case var => exact PrT.expandVariable hex p n
  case macroDef => exact PrT.expandMacroDef p n
  case endProg => exact PrT.expandEnd p
  all_goals refine PrT.of ?_
  case exprList => exact Pr.expandExprList hex hhu n
  case whileLoop => exact Pr.expandWhile hex f n
  case repeatLoop => exact Pr.expandRepeat hex f true n
  case sect => exact Pr.expandSection n
  case endSect => exact Pr.expandEndSection
  case doLoop => exact Pr.expandRepeat hex f false n
  case forLoop => exact Pr.expandFor hex f n
  case regX => exact Pr.expandForReg hex hhu true n
  case regY => exact Pr.expandForReg hex hhu false n
  case ifThen => exact Pr.expandIf hex n
  case print => exact Pr.expandPrint hex false n
  case printAll => exact Pr.expandPrint hex true n
  case ds => exact Pr.expandDs hex n
  case statement => exact Pr.expandStatement hex n
  case equ => exact Pr.expandEqu hex n
  case div => exact Pr.expandDivide hex n
  case load => exact Pr.expandLoad hex n
  case fill => exact Pr.expandFill hex f n
  case inc => exact Pr.expandInclude n
  case lor => exact Pr.shortCircuit hex n _
  case land => exact Pr.shortCircuit hex n _
  all_goals first | exact Pr.una hex n _ | exact Pr.bin hex n _

theorem PrT.expandKind (hex : ∀ p, Pr T b o (ex p)) (hhu : ∀ p, Pr T b o (hu p)) (f : Nat) (p : Ptr) (n : Node) :
    PrT T b o p n.kind.tag (expandKind ex hu f p n) := by
  unfold Verif.expandKind
  split
  · rename_i h; rw [h]; exact PrT.expandConstant _ _ _
  · exact PrT.of (Pr.expandId _ _)
  · exact PrT.of (Pr.expandLabel _ _)
  · exact PrT.of (Pr.expandMacroId hex _ _)
  · exact PrT.of (Pr.expandMacroEx hex _ _ _)
  · exact PrT.of (Pr.expandData hex _ _)
  · exact PrT.of (Pr.expandOpCode hex hhu _)
  · unfold Verif.expandPrintState
    refine PrT.of (Pr.getS fun s hs => Pr.bind (Pr.ite (fun hf => ?_) fun _ => Pr.pure _) fun _ => Pr.pure _)
    obtain rfl : b = true := by isfinal
    refine Pr.bind (Pr.generateListNode hex _) fun _ => Pr.bind (Pr.node _) fun _ => ?_
    split <;> pr
  · rename_i h; rw [h]; exact PrT.expandOperator hex hhu _ _ _ _
  · refine PrT.of ?_
    pr

end

/-- Every expansion is a sequence of elementary effects. -/
theorem expandNode_pr (b o : Bool) : ∀ (f : Nat) (p : Ptr), Pr T b o (expandNode f p)
  | 0, _ => Pr.timeout
  | f + 1, p => by
    unfold expandNode
    exact Pr.getS fun s hs => Pr.ite (fun _ => Pr.pure _) fun _ => Pr.nodeBind fun n =>
      PrT.expandKind (expandNode_pr b o f) (Pr.hasUninit f) _ _ _

theorem expandNode_steps (f : Nat) (p : Ptr) (s : St) (h : s.finalPass = true → 0 ≤ s.totalBytes)
    (hd : T .org = false → OrgDone s := by exact fun h => absurd h (by decide)) :
    Steps T s (expandNode f p s).2 :=
  expandNode_pr s.finalPass s.outputOpen f p s ⟨rfl, rfl, h, hd⟩

end Verif
