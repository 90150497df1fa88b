import Verif.Lemmas.Monad

/-! # Everything an expansion can do to the state

`Step` lists the elementary effects of the interpreter, `Steps` their sequences.  Every run of
`expandNode`, of the parser actions and of a whole pass (after `resetLex`) is such a sequence. -/

namespace Verif

/-- Counters of macro calls do not decrease. -/
def DictLe (d d' : List (Str × Nat)) : Prop :=
  ∀ name c, macroCount d name = some c → ∃ c', macroCount d' name = some c' ∧ c ≤ c'

theorem DictLe.refl (d : List (Str × Nat)) : DictLe d d := fun _ c h => ⟨c, h, Nat.le_refl _⟩

theorem DictLe.trans {a b c : List (Str × Nat)} (h : DictLe a b) (h' : DictLe b c) : DictLe a c := by
  intro name n hn
  obtain ⟨m, h1, h2⟩ := h name n hn
  obtain ⟨k, h3, h4⟩ := h' name m h1
  exact ⟨k, h3, by omega⟩

theorem DictLe.append (d e : List (Str × Nat)) : DictLe d (d ++ e) := by
  intro name c h
  refine ⟨c, ?_, Nat.le_refl _⟩
  unfold macroCount at h ⊢
  rw [List.find?_append]
  cases hf : d.find? (fun e => stricmp e.1 name == 0) with
  | none => rw [hf] at h; cases h
  | some x => rw [hf] at h; exact h

theorem DictLe.bump (d : List (Str × Nat)) (name : Str) :
    DictLe d (d.map fun e => if stricmp e.1 name == 0 then (e.1, e.2 + 1) else e) := by
  intro nm c h
  unfold macroCount at h ⊢
  rw [List.find?_map]
  have : ((fun e : Str × Nat => stricmp e.1 nm == 0) ∘ fun e : Str × Nat => if stricmp e.1 name == 0 then (e.1, e.2 + 1) else e) =
      fun e : Str × Nat => stricmp e.1 nm == 0 := by
    funext e
    simp only [Function.comp]
    split <;> rfl
  rw [this]
  cases hf : d.find? (fun e => stricmp e.1 nm == 0) with
  | none => rw [hf] at h; cases h
  | some x =>
    rw [hf] at h
    cases h
    refine ⟨_, rfl, ?_⟩
    dsimp only
    split <;> simp

/-- Effects that touch none of: output, symbols, counters, listing, switches. -/
structure Quiet (s s' : St) : Prop where
  finalPass : s'.finalPass = s.finalPass
  outputOpen : s'.outputOpen = s.outputOpen
  errorCount : s'.errorCount = s.errorCount
  warningCount : s'.warningCount = s.warningCount
  log : s'.log = s.log
  totalBytes : s'.totalBytes = s.totalBytes
  byteDelta : s'.byteDelta = s.byteDelta
  out : s'.out = s.out
  format : s'.format = s.format
  cpu : s'.cpu = s.cpu
  allowIllegal : s'.allowIllegal = s.allowIllegal
  syms : s'.syms = s.syms
  listing : s'.listing = s.listing
  symValueChanged : s'.symValueChanged = s.symValueChanged
  files : s'.files = s.files
  nodeBase : s'.nodeBase = s.nodeBase
  nodes : s'.nodes = s.nodes
  expansionType : s'.expansionType = s.expansionType
  origin : s'.origin = s.origin
  endExpansion : s'.endExpansion = s.endExpansion
  originSpecified : s.originSpecified = true → s'.originSpecified = true
  orgOriginSpecified : s.orgOriginSpecified = true → s'.orgOriginSpecified = true
  maxMacroParam : s.maxMacroParam ≤ s'.maxMacroParam
  plusTab : s.plusTab.Sublist s'.plusTab
  minusTab : s.minusTab.Sublist s'.minusTab
  macroDict : DictLe s.macroDict s'.macroDict

theorem insertPm_sublist (e : PmSym) : ∀ l : List PmSym, l.Sublist (insertPm e l)
  | [] => List.nil_sublist _
  | x :: xs => by
    unfold insertPm
    split
    · exact (List.Sublist.refl _).cons _
    · exact (insertPm_sublist e xs).cons₂ _

/-- The part of a node's kind that never changes. -/
def Kind.tag : Kind → Kind
  | .con _ isPc => .con 0 isPc
  | .id k name _ => .id k name none
  | .opcode _ _ _ _ => .opcode 0 0 .i 0
  | k => k

/-- Operators that may occur in new nodes. -/
def allowed (T : Opr → Bool) : Kind → Bool
  | .opr op => T op
  | _ => true

/-- Operators that every program may use: the interpreter creates expression lists (for `.load`), labels are
assignments, and the expression operators. -/
class TOk (T : Opr → Bool) : Prop where
  exprList : T .exprList = true
  equ : T .equ = true
  statement : T .statement = true
  un : ∀ op : UnOp, T op.opr = true
  bin : ∀ op : BinOp, T op.opr = true

instance : TOk fun _ => true := ⟨rfl, rfl, rfl, fun _ => rfl, fun _ => rfl⟩

/-- Change of a symbol that is not counted as a change of value. -/
structure SymUpd (x x' : Sym) : Prop where
  name : x'.name = x.name
  fullname : x'.fullname = x.fullname
  scope : x'.scope = x.scope
  isMacroParam : x'.isMacroParam = x.isMacroParam
  isInit : x.isInit = true → x'.isInit = true
  isMacroName : x.isMacroName = true → x'.isMacroName = true
  isVar : x.isVar = true → x'.isVar = true
  isPlusMinus : x.isPlusMinus = true → x'.isPlusMinus = true
  value : x'.value = x.value ∨ x'.isVar = true ∨ x'.isMacroParam = true ∨ x'.isMacroName = true ∨
    x'.isPlusMinus = true

/-- A new symbol. -/
structure SymNew (x : Sym) : Prop where
  value : x.value = 0
  isMacroName : x.isMacroName = false
  isVar : x.isVar = false

/-- The bytes of the header. -/
def headerBytes (f : Format) (origin : Int) : List Nat :=
  match f with
  | .c64 => [(origin % 256).toNat, (origin % 65536 / 256).toNat]
  | .bin => []

/-- Elementary effects. -/
inductive Step (T : Opr → Bool) : St → St → Prop
  | quiet {s s' : St} (h : Quiet s s') : Step T s s'
  | err (s : St) (e : Err) : Step T s { s with errorCount := s.errorCount + 1, log := s.log ++ [e] }
  | warn (s : St) (e : Err) : Step T s { s with warningCount := s.warningCount + 1, log := s.log ++ [e] }
  | header (s : St) (hf : s.finalPass = true) (ho : s.outputOpen = true) (h0 : s.totalBytes = 0)
      (hs : s.originSpecified = true) :
      Step T s { s with
        byteDelta := (headerBytes s.format s.origin).length
        out := s.out ++ headerBytes s.format s.origin
        totalBytes := s.totalBytes + (headerBytes s.format s.origin).length }
  | payload (s : St) (bs : List Nat) (hf : s.finalPass = true) (ho : s.outputOpen = true)
      (hb : ∀ b ∈ bs, b < 256) (hc : s.format = .c64 → 0 < s.totalBytes) (hs : s.originSpecified = true) :
      Step T s { s with out := s.out ++ bs, totalBytes := s.totalBytes + bs.length }
  | list (s : St) (e : ListEntry) (hf : s.finalPass = true) : Step T s { s with listing := s.listing ++ [e] }
  | newSym (s : St) (x : Sym) (h : SymNew x) : Step T s { s with syms := s.syms ++ [x] }
  | symUpd (s : St) (i : Nat) (x x' : Sym) (hx : s.syms[i]? = some x) (h : SymUpd x x')
      (hm : x'.isMacroName = x.isMacroName ∨ T .macroDef = true ∨ ∃ n ∈ s.nodes, n.kind = .opr .macroDef) :
      Step T s { s with syms := s.syms.set i x' }
  | symSet (s : St) (i : Nat) (x : Sym) (v : Int) (hx : s.syms[i]? = some x) :
      Step T s { s with syms := s.syms.set i { x with value := v }, symValueChanged := s.symValueChanged + 1 }
  | pmMinus (s : St) (t : List PmSym) : Step T s { s with minusTab := t, symValueChanged := s.symValueChanged + 1 }
  | pmPlus (s : St) (t : List PmSym) : Step T s { s with plusTab := t, symValueChanged := s.symValueChanged + 1 }
  | varReset (s : St) (i : Nat) (x : Sym) (v : Int) (hx : s.syms[i]? = some x) (ht : s.expansionType = .symbol) :
      Step T s { s with syms := s.syms.set i { x with value := v, isInit := true } }
  | alloc (s : St) (n : Node) (h : allowed T n.kind = true) : Step T s { s with nodes := s.nodes ++ [n] }
  | setNode (s : St) (p : Nat) (n n' : Node) (hn : s.nodes[p]? = some n) (h : n'.kind.tag = n.kind.tag) :
      Step T s { s with nodes := s.nodes.set p n' }
  | expType (s : St) (t : ExpType) (h : t = .symbol → ∃ n ∈ s.nodes, n.kind = .opr .var) :
      Step T s { s with expansionType := t }
  | origin (s : St) (v : Int) (h : (∃ n ∈ s.nodes, n.kind = .opr .pcAssign) ∨ T .org = true) :
      Step T s { s with origin := v }
  | stop (s : St) (h : ∃ n ∈ s.nodes, n.kind = .opr .endProg) : Step T s { s with endExpansion := true }

/-- Sequences of effects. -/
inductive Steps (T : Opr → Bool) : St → St → Prop
  | refl (s : St) : Steps T s s
  | tail {s t u : St} (h : Steps T s t) (h' : Step T t u) : Steps T s u

variable {T : Opr → Bool}

theorem Step.one {s t : St} (h : Step T s t) : Steps T s t := .tail (.refl s) h

theorem Steps.trans {s t u : St} (h : Steps T s t) (h' : Steps T t u) : Steps T s u := by
  induction h' with
  | refl => exact h
  | tail _ h2 ih => exact .tail ih h2

theorem Quiet.refl (s : St) : Quiet s s := by
  constructor <;> first | rfl | exact id | exact Nat.le_refl _ | exact List.Sublist.refl _ | exact DictLe.refl _

/-- Tags of nodes are permanent. -/
def TagsLe (ns ns' : List Node) : Prop :=
  ∀ (p : Nat) (n : Node), ns[p]? = some n → ∃ n' : Node, ns'[p]? = some n' ∧ n'.kind.tag = n.kind.tag

theorem TagsLe.refl (ns : List Node) : TagsLe ns ns := fun _ n h => ⟨n, h, rfl⟩
theorem TagsLe.trans {a b c : List Node} (h : TagsLe a b) (h' : TagsLe b c) : TagsLe a c := by
  intro p n hn
  obtain ⟨n1, h1, e1⟩ := h p n hn
  obtain ⟨n2, h2, e2⟩ := h' p n1 h1
  exact ⟨n2, h2, e2.trans e1⟩
theorem TagsLe.append (a b : List Node) : TagsLe a (a ++ b) := by
  intro p n hn
  refine ⟨n, ?_, rfl⟩
  have := (List.getElem?_eq_some_iff.mp hn).1
  rw [List.getElem?_append_left this]
  exact hn
theorem TagsLe.set {a : List Node} {p : Nat} {n n' : Node} (hn : a[p]? = some n) (h : n'.kind.tag = n.kind.tag) :
    TagsLe a (a.set p n') := by
  intro q m hm
  rw [List.getElem?_set]
  by_cases hpq : p = q
  · subst hpq
    have := (List.getElem?_eq_some_iff.mp hn).1
    rw [hn] at hm
    cases hm
    simp [this, h]
  · simp [hpq, hm]

/-- Facts that hold along all sequences. -/
structure Frame (s s' : St) : Prop where
  finalPass : s'.finalPass = s.finalPass
  outputOpen : s'.outputOpen = s.outputOpen
  format : s'.format = s.format
  cpu : s'.cpu = s.cpu
  allowIllegal : s'.allowIllegal = s.allowIllegal
  files : s'.files = s.files
  nodeBase : s'.nodeBase = s.nodeBase
  nodes : s.nodes.length ≤ s'.nodes.length
  tags : TagsLe s.nodes s'.nodes
  totalBytes : s.totalBytes ≤ s'.totalBytes
  bytes : s'.totalBytes - s.totalBytes = s'.out.length - s.out.length
  out : s.out <+: s'.out
  listing : s.listing <+: s'.listing
  log : s.log <+: s'.log
  errorCount : s.errorCount ≤ s'.errorCount
  symValueChanged : s.symValueChanged ≤ s'.symValueChanged
  endExpansion : s.endExpansion = true → s'.endExpansion = true
  originSpecified : s.originSpecified = true → s'.originSpecified = true
  orgOriginSpecified : s.orgOriginSpecified = true → s'.orgOriginSpecified = true
  maxMacroParam : s.maxMacroParam ≤ s'.maxMacroParam
  syms : s.syms.length ≤ s'.syms.length

theorem Frame.refl (s : St) : Frame s s := by
  constructor <;> first | rfl | exact id | exact Nat.le_refl _ | exact Int.le_refl _ | exact List.prefix_rfl | exact TagsLe.refl _ | omega

theorem Frame.trans {s t u : St} (h : Frame s t) (h' : Frame t u) : Frame s u := by
  constructor
  case finalPass => rw [h'.finalPass, h.finalPass]
  case outputOpen => rw [h'.outputOpen, h.outputOpen]
  case format => rw [h'.format, h.format]
  case cpu => rw [h'.cpu, h.cpu]
  case allowIllegal => rw [h'.allowIllegal, h.allowIllegal]
  case files => rw [h'.files, h.files]
  case nodeBase => rw [h'.nodeBase, h.nodeBase]
  case nodes => exact Nat.le_trans h.nodes h'.nodes
  case tags => exact h.tags.trans h'.tags
  case totalBytes => exact Int.le_trans h.totalBytes h'.totalBytes
  case bytes => have := h.bytes; have := h'.bytes; omega
  case out => exact h.out.trans h'.out
  case listing => exact h.listing.trans h'.listing
  case log => exact h.log.trans h'.log
  case errorCount => exact Nat.le_trans h.errorCount h'.errorCount
  case symValueChanged => exact Nat.le_trans h.symValueChanged h'.symValueChanged
  case endExpansion => exact fun x => h'.endExpansion (h.endExpansion x)
  case originSpecified => exact fun x => h'.originSpecified (h.originSpecified x)
  case orgOriginSpecified => exact fun x => h'.orgOriginSpecified (h.orgOriginSpecified x)
  case maxMacroParam => exact Nat.le_trans h.maxMacroParam h'.maxMacroParam
  case syms => exact Nat.le_trans h.syms h'.syms

theorem Step.frame {s s' : St} (h : Step T s s') : Frame s s' := by
  cases h with
  | quiet h =>
    constructor
    case totalBytes => rw [h.totalBytes]; exact Int.le_refl _
    case bytes => rw [h.totalBytes, h.out]; omega
    case out => rw [h.out]; exact List.prefix_rfl
    case listing => rw [h.listing]; exact List.prefix_rfl
    case log => rw [h.log]; exact List.prefix_rfl
    case errorCount => rw [h.errorCount]; exact Nat.le_refl _
    case symValueChanged => rw [h.symValueChanged]; exact Nat.le_refl _
    case syms => rw [h.syms]; exact Nat.le_refl _
    case finalPass => exact h.finalPass
    case outputOpen => exact h.outputOpen
    case format => exact h.format
    case cpu => exact h.cpu
    case allowIllegal => exact h.allowIllegal
    case files => exact h.files
    case nodeBase => exact h.nodeBase
    case nodes => rw [h.nodes]; exact Nat.le_refl _
    case tags => rw [h.nodes]; exact TagsLe.refl _
    case endExpansion => exact fun x => h.endExpansion.trans x
    case originSpecified => exact h.originSpecified
    case orgOriginSpecified => exact h.orgOriginSpecified
    case maxMacroParam => exact h.maxMacroParam
  | _ =>
    constructor <;> first
      | rfl | exact id | exact Nat.le_refl _ | exact Int.le_refl _ | exact List.prefix_rfl
      | exact List.prefix_append _ _
      | exact TagsLe.refl _ | exact TagsLe.append _ _ | (exact TagsLe.set ‹_› ‹_›)
      | (simp only [List.length_append, List.length_set]; omega)
      | (simp; done)
      | omega

theorem Steps.frame {s s' : St} (h : Steps T s s') : Frame s s' := by
  induction h with
  | refl => exact .refl _
  | tail _ h' ih => exact ih.trans h'.frame

/-- No `.org` can take effect: one has been executed, or there is none. -/
def OrgDone (s : St) : Prop := s.orgOriginSpecified = true ∨ ∀ n ∈ s.nodes, n.kind ≠ .opr .org

theorem OrgDone.step (hT : T .org = false) {s t : St} (h : Step T s t) (hs : OrgDone s) : OrgDone t := by
  rcases hs with hs | hs
  · exact .inl (h.frame.orgOriginSpecified hs)
  · refine .inr ?_
    cases h with
    | quiet h => rw [h.nodes]; exact hs
    | alloc n h =>
      intro m hm
      rcases List.mem_append.mp hm with hm | hm
      · exact hs m hm
      · rw [List.mem_singleton.mp hm]
        intro hk
        rw [hk] at h
        exact absurd (h.symm.trans hT) (by decide)
    | setNode p n n' hn h =>
      intro m hm
      rcases List.mem_or_eq_of_mem_set hm with hm | rfl
      · exact hs m hm
      · have := hs n (List.mem_of_getElem? hn)
        intro hk
        rw [hk] at h
        cases hk' : n.kind <;> rw [hk'] at h <;> first | (cases h; done) | (cases h; exact this hk')
    | _ => exact hs

theorem OrgDone.steps (hT : T .org = false) {s t : St} (h : Steps T s t) (hs : OrgDone s) : OrgDone t := by
  induction h with
  | refl => exact hs
  | tail _ h' ih => exact ih.step hT h'

/-- What is known throughout a run: the pass, whether the output is open, that the byte counter is not
negative, and that no `.org` takes effect when `T` excludes it. -/
structure Cond (T : Opr → Bool) (b o : Bool) (s : St) : Prop where
  finalPass : s.finalPass = b
  outputOpen : s.outputOpen = o
  totalBytes : b = true → 0 ≤ s.totalBytes
  org : T .org = false → OrgDone s

theorem Cond.steps {b o : Bool} {s s' : St} (h : Cond T b o s) (hs : Steps T s s') : Cond T b o s' :=
  ⟨hs.frame.finalPass.trans h.finalPass, hs.frame.outputOpen.trans h.outputOpen,
    fun hb => Int.le_trans (h.totalBytes hb) hs.frame.totalBytes, fun hT => (h.org hT).steps hT hs⟩

/-- All runs of `m` are sequences of effects. -/
def Pr (T : Opr → Bool) (b o : Bool) {α : Type} (m : M α) : Prop := ∀ s, Cond T b o s → Steps T s (m s).2

variable {b o : Bool}

theorem Pr.bind {α β : Type} {m : M α} {f : α → M β} (hm : Pr T b o m) (hf : ∀ a, Pr T b o (f a)) :
    Pr T b o (m >>= f) := by
  intro s hc
  have h1 := hm s hc
  rw [run_bind]
  rcases hr : m s with ⟨r, s'⟩
  rw [hr] at h1
  cases r with
  | ok a => exact h1.trans (hf a s' (hc.steps h1))
  | _ => exact h1

theorem Pr.getS {β : Type} {f : St → M β} (hf : ∀ s, Cond T b o s → Pr T b o (f s)) :
    Pr T b o (getS >>= f) := fun s hc => hf s hc s hc

theorem Pr.pure {α : Type} (a : α) : Pr T b o (M.pure a) := fun s _ => .refl s
theorem Pr.exit {α : Type} (c : Int) : Pr T b o (exitM c : M α) := fun s _ => .refl s
theorem Pr.ub {α : Type} : Pr T b o (ubM : M α) := fun s _ => .refl s
theorem Pr.timeout {α : Type} : Pr T b o (timeoutM : M α) := fun s _ => .refl s
theorem Pr.liftO {α : Type} (x : Option α) : Pr T b o (liftO x) := by
  cases x
  · exact Pr.ub
  · exact Pr.pure _
theorem Pr.getS' : Pr T b o Verif.getS := fun s _ => .refl s
theorem Pr.error (e : Err) : Pr T b o (error e) := fun s _ => (Step.err s e).one
theorem Pr.warn (e : Err) : Pr T b o (warn e) := fun s _ => (Step.warn s e).one
theorem Pr.modS {g : St → St} (h : ∀ s, Quiet s (g s)) : Pr T b o (modS g) := fun s _ => (Step.quiet (h s)).one
theorem Pr.node (p : Ptr) : Pr T b o (node p) := by
  intro s _
  unfold Verif.node
  split
  · exact .refl s
  · split <;> exact .refl s
theorem Pr.opAt (n : Node) (i : Nat) : Pr T b o (opAt n i) := Pr.liftO _
theorem Pr.sym (i : SymPtr) : Pr T b o (sym i) := by
  intro s _
  unfold Verif.sym
  split <;> exact .refl s

/-- Overwriting a node with one of the same tag. -/
theorem setNode_steps (p : Ptr) (n : Node) (s : St)
    (h : ∀ m, s.nodes[p]? = some m → n.kind.tag = m.kind.tag) : Steps T s (setNode p n s).2 := by
  unfold Verif.setNode
  split
  · exact .refl s
  · rename_i hp
    have hl : p < s.nodes.length := Nat.lt_of_not_le fun h => hp (Or.inr h)
    have hm := List.getElem?_eq_getElem hl
    exact (Step.setNode s p _ n hm (h _ hm)).one

/-- The node a pointer refers to. -/
theorem node_cases (p : Ptr) (s : St) :
    (node p s = (.ub, s)) ∨ ∃ n, s.nodes[p]? = some n ∧ s.nodeBase ≤ p ∧ node p s = (.ok n, s) := by
  unfold Verif.node
  split
  · exact Or.inl rfl
  · split
    · rename_i hp _ n hn
      exact Or.inr ⟨n, hn, Nat.le_of_not_lt hp, rfl⟩
    · exact Or.inl rfl

/-- The tag of a node is `k`. -/
def HasTag (p : Ptr) (k : Kind) (s : St) : Prop := ∃ n, s.nodes[p]? = some n ∧ n.kind.tag = k

theorem HasTag.steps {p : Ptr} {k : Kind} {s s' : St} (h : HasTag p k s) (hs : Steps T s s') : HasTag p k s' := by
  obtain ⟨n, hn, e⟩ := h
  obtain ⟨n', hn', e'⟩ := hs.frame.tags p n hn
  exact ⟨n', hn', e'.trans e⟩

theorem HasTag.mem {p : Ptr} {op : Opr} {s : St} (h : HasTag p (.opr op) s) :
    ∃ n ∈ s.nodes, n.kind = .opr op := by
  obtain ⟨n, hn, e⟩ := h
  refine ⟨n, List.mem_of_getElem? hn, ?_⟩
  cases hk : n.kind <;> rw [hk] at e <;> first | (cases e; done) | exact e

/-- `Pr` for runs in which the tag of node `p` is known to be `k`. -/
def PrT (T : Opr → Bool) (b o : Bool) (p : Ptr) (k : Kind) {α : Type} (m : M α) : Prop :=
  ∀ s, Cond T b o s → HasTag p k s → Steps T s (m s).2

section PrT
variable {p : Ptr} {k : Kind}

theorem PrT.of {α : Type} {m : M α} (h : Pr T b o m) : PrT T b o p k m := fun s hc _ => h s hc

theorem PrT.bind {α β : Type} {m : M α} {f : α → M β} (hm : PrT T b o p k m) (hf : ∀ a, PrT T b o p k (f a)) :
    PrT T b o p k (m >>= f) := by
  intro s hc ht
  have h1 := hm s hc ht
  rw [run_bind]
  rcases hr : m s with ⟨r, s'⟩
  rw [hr] at h1
  cases r with
  | ok a => exact h1.trans (hf a s' (hc.steps h1) (ht.steps h1))
  | _ => exact h1

theorem PrT.getS {β : Type} {f : St → M β} (hf : ∀ s, Cond T b o s → PrT T b o p k (f s)) :
    PrT T b o p k (getS >>= f) := fun s hc ht => hf s hc s hc ht

theorem PrT.ite {α : Type} {c : Prop} [Decidable c] {m m' : M α} (h : c → PrT T b o p k m)
    (h' : ¬c → PrT T b o p k m') : PrT T b o p k (if c then m else m') := by
  split
  · exact h ‹_›
  · exact h' ‹_›

theorem PrT.setNode {n : Node} (h : n.kind.tag = k) : PrT T b o p k (Verif.setNode p n) := by
  intro s _ ht
  refine setNode_steps p n s fun m hm => ?_
  obtain ⟨m', hm', e⟩ := ht
  rw [hm] at hm'
  cases hm'
  exact h.trans e.symm

end PrT

/-- Reading a node: what follows may use the tag of the node. -/
theorem Pr.nodeBind {β : Type} {p : Ptr} {f : Node → M β}
    (hf : ∀ n : Node, PrT T b o p n.kind.tag (f n)) : Pr T b o (Verif.node p >>= f) := by
  intro s hc
  rw [run_bind]
  rcases node_cases p s with e | ⟨n, hn, _, e⟩
  · rw [e]; exact .refl s
  · rw [e]; exact hf n s hc ⟨n, hn, rfl⟩

/-- Creating a node: what follows may use its tag. -/
theorem Pr.allocBind {β : Type} {k : Kind} {ops : List Ptr} {f : Ptr → M β} (h : allowed T k = true)
    (hf : ∀ p, PrT T b o p k.tag (f p)) : Pr T b o (Verif.allocNode k ops >>= f) := by
  intro s hc
  rw [run_bind]
  have h1 : Steps T s { s with nodes := s.nodes ++ [⟨k, ops.length, ops⟩] } :=
    (Step.alloc s ⟨k, ops.length, ops⟩ h).one
  refine h1.trans (hf _ _ (hc.steps h1) ⟨⟨k, ops.length, ops⟩, ?_, rfl⟩)
  simp

theorem Pr.allocNode (k : Kind) (ops : List Ptr) (h : allowed T k = true) : Pr T b o (allocNode k ops) :=
  fun s _ => (Step.alloc s ⟨k, ops.length, ops⟩ h).one

/-- A change of the expansion type, other than by `.var`. -/
theorem Pr.modExp {g : St → St} (h : ∀ s, Quiet s { g s with expansionType := s.expansionType })
    (ht : ∀ s, (g s).expansionType ≠ .symbol) : Pr T b o (Verif.modS g) := fun s _ =>
  (Step.quiet (h s)).one.trans (Step.expType _ (g s).expansionType fun e => absurd e (ht s)).one

/-- A change of the origin. -/
theorem PrT.modOrigin {p : Ptr} {op : Opr} {g : St → St} (h : ∀ s, Quiet s { g s with origin := s.origin })
    (ho : op = .pcAssign ∨ T .org = true) : PrT T b o p (.opr op) (Verif.modS g) := by
  intro s _ ht
  refine (Step.quiet (h s)).one.trans (Step.origin _ (g s).origin ?_).one
  rcases ho with rfl | ho
  · obtain ⟨n, hn, e⟩ := ht.mem
    refine .inl ⟨n, ?_, e⟩
    show n ∈ (g s).nodes
    have := (h s).nodes
    rw [show (g s).nodes = s.nodes from this]
    exact hn
  · exact .inr ho

theorem Pr.ite {α : Type} {c : Prop} [Decidable c] {m m' : M α} (h : c → Pr T b o m) (h' : ¬c → Pr T b o m') :
    Pr T b o (if c then m else m') := by
  split
  · exact h ‹_›
  · exact h' ‹_›

theorem Pr.loopM (f : Nat) {body : M Bool} (h : Pr T b o body) : Pr T b o (loopM f body) := by
  induction f with
  | zero => exact Pr.timeout
  | succ n ih =>
    unfold Verif.loopM
    refine Pr.bind h fun a => ?_
    split
    · exact ih
    · exact Pr.pure _

theorem Pr.eachM {α σ : Type} {body : σ → α → M (Option σ)} (h : ∀ a x, Pr T b o (body a x)) :
    ∀ (xs : List α) (a : σ), Pr T b o (eachM body xs a)
  | [], a => Pr.pure _
  | x :: xs, a => by
    unfold Verif.eachM
    refine Pr.bind (h a x) fun r => ?_
    cases r with
    | none => exact Pr.pure _
    | some a' => exact Pr.eachM h xs a'

theorem Pr.forEachM {α : Type} {body : α → M Unit} (h : ∀ x, Pr T b o (body x)) :
    ∀ (xs : List α), Pr T b o (forEachM body xs)
  | [] => Pr.pure _
  | x :: xs => by
    unfold Verif.forEachM
    exact Pr.bind (h x) fun _ => Pr.forEachM h xs

theorem Pr.operands (n : Node) : Pr T b o (operands n) := by
  unfold Verif.operands
  split
  · exact Pr.pure _
  · exact Pr.ub

/-- Solve `Quiet s (g s)` for concrete `g`. -/
macro "quiet" : tactic => `(tactic| (
  intro s
  (try split) <;>
  (constructor <;> first
    | with_reducible rfl | with_reducible exact id | with_reducible exact Nat.le_refl _
    | with_reducible exact List.Sublist.refl _ | with_reducible exact insertPm_sublist _ _
    | with_reducible exact DictLe.refl _ | with_reducible exact DictLe.append _ _ | with_reducible exact DictLe.bump _ _
    | with_reducible exact fun _ => rfl | with_reducible exact Nat.le_max_left _ _)))

/-- Leaf rules; extended below. -/
syntax "pr_leaf" : tactic
macro_rules | `(tactic| pr_leaf) => `(tactic| with_reducible exact Pr.pure _)
macro_rules | `(tactic| pr_leaf) => `(tactic| with_reducible exact Pr.exit _)
macro_rules | `(tactic| pr_leaf) => `(tactic| with_reducible exact Pr.ub)
macro_rules | `(tactic| pr_leaf) => `(tactic| with_reducible exact Pr.timeout)
macro_rules | `(tactic| pr_leaf) => `(tactic| with_reducible exact Pr.liftO _)
macro_rules | `(tactic| pr_leaf) => `(tactic| with_reducible exact Pr.getS')
macro_rules | `(tactic| pr_leaf) => `(tactic| with_reducible exact Pr.error _)
macro_rules | `(tactic| pr_leaf) => `(tactic| with_reducible exact Pr.warn _)
macro_rules | `(tactic| pr_leaf) => `(tactic| with_reducible exact Pr.node _)
macro_rules | `(tactic| pr_leaf) => `(tactic| with_reducible exact Pr.opAt _ _)
macro_rules | `(tactic| pr_leaf) => `(tactic| with_reducible exact Pr.sym _)
macro_rules | `(tactic| pr_leaf) => `(tactic| with_reducible exact Pr.allocNode _ _ rfl)
macro_rules | `(tactic| pr_leaf) => `(tactic| with_reducible exact Pr.operands _)
macro_rules | `(tactic| pr_leaf) => `(tactic| (with_reducible refine Pr.modS ?_; quiet; done))
macro_rules | `(tactic| pr_leaf) => `(tactic| (
  with_reducible refine Pr.modExp ?_ ?_
  · quiet
  · (intro s; (try dsimp only); (try split) <;> decide)))

/-- Decompose a goal `Pr T b o m`. -/
macro "pr" : tactic => `(tactic| repeat' first
  | assumption
  | (with_reducible intro _)
  | (with_reducible apply_assumption; done)
  | pr_leaf
  | (with_reducible refine Pr.getS ?_; intro s hs)
  | (with_reducible apply Pr.loopM)
  | (with_reducible apply Pr.forEachM)
  | (with_reducible apply Pr.eachM)
  | (with_reducible refine Pr.bind ?_ ?_)
  | (with_reducible refine Pr.ite ?_ ?_)
  | (dsimp only)
  | split)

end Verif
