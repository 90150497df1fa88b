import Verif.Lemmas.Keep
import Verif.Lemmas.PassInv

/-! # A typing of the parse tree

Every node gets a colour, which says where it may be used; the names declared by `.var` are only used there.  The
interpreter keeps the typing and, with it, the values of ordinary symbols unless it counts a change. -/

namespace Verif.Heap

/-- What a node is. -/
inductive Col where
  /-- a name or label in an expression -/
  | id
  /-- any other expression, or a text -/
  | expr
  /-- an instruction -/
  | opc
  /-- any other statement -/
  | code
  /-- a list of expressions -/
  | arg
  /-- the list of a `.var` statement -/
  | list
  /-- a name in such a list -/
  | item
deriving DecidableEq

/-- The node has this colour. -/
def Has (w : List Col) (p : Ptr) (c : Col) : Prop := w[p]? = some c

/-- The node is an expression. -/
def Ex (w : List Col) (p : Ptr) : Prop := Has w p .id ∨ Has w p .expr

/-- The node is an expression or a statement. -/
def Any (w : List Col) (p : Ptr) : Prop := Ex w p ∨ Has w p .code ∨ Has w p .opc

/-- The node is not declared by `.var`. -/
def Other (w : List Col) (p : Ptr) : Prop := ∃ c, Has w p c ∧ c ≠ .item

theorem Has.mono {w v : List Col} (h : w <+: v) {p : Ptr} {c : Col} (hp : Has w p c) : Has v p c := by
  obtain ⟨r, rfl⟩ := h
  unfold Has at *
  rw [List.getElem?_append_left (List.getElem?_eq_some_iff.mp hp).1, hp]

theorem Ex.mono {w v : List Col} (h : w <+: v) {p : Ptr} (hp : Ex w p) : Ex v p := hp.imp (·.mono h) (·.mono h)

theorem Any.mono {w v : List Col} (h : w <+: v) {p : Ptr} (hp : Any w p) : Any v p :=
  hp.imp (·.mono h) (Or.imp (·.mono h) (·.mono h))

theorem Other.mono {w v : List Col} (h : w <+: v) {p : Ptr} (hp : Other w p) : Other v p :=
  let ⟨c, h1, h2⟩ := hp
  ⟨c, h1.mono h, h2⟩

theorem Ex.other {w : List Col} {p : Ptr} (h : Ex w p) : Other w p := by
  rcases h with h | h
  · exact ⟨_, h, by decide⟩
  · exact ⟨_, h, by decide⟩

theorem Any.other {w : List Col} {p : Ptr} (h : Any w p) : Other w p := by
  rcases h with h | h | h
  · exact h.other
  · exact ⟨_, h, by decide⟩
  · exact ⟨_, h, by decide⟩

/-- Operators of expressions. -/
def exprOp : Opr → Bool
  | .loByte | .hiByte | .uminus | .compl | .lnot | .add | .sub | .mul | .div | .bitOr | .bitAnd | .xor | .lt | .gt | .eq
  | .ne | .ge | .le | .lor | .land | .shl | .shr => true
  | _ => false

/-- Nodes of expressions other than names. -/
def exprKind : Kind → Bool
  | .con _ _ => true
  | .str _ => true
  | .opr op => exprOp op
  | _ => false

/-- Statements and the nodes they may use. -/
def CodeOk (w : List Col) (ops : List Ptr) : Kind → Prop
  | .opr .exprList => False
  | .opr .var => ∀ o ∈ ops, Has w o .list
  | .opr .print => ∀ o ∈ ops, Has w o .arg
  | .opr .printAll => ∀ o ∈ ops, Has w o .arg
  | .opr _ => ∀ o ∈ ops, Any w o
  | .data _ d => (Has w d .arg ∨ Ex w d) ∧ ops = []
  | .macroEx _ b ps => (Has w b .code ∧ ∀ q, ps = some q → Has w q .arg) ∧ ops = []
  | .id k _ _ => k = .macroId ∧ ops = []
  | .printState _ => ops = []
  | _ => False

/-- The node may have this colour. -/
def NodeOk (w : List Col) (c : Col) (n : Node) : Prop :=
  match c with
  | .id => (∃ k name i, n.kind = .id k name i ∧ k ≠ .macroId) ∧ n.ops = []
  | .expr => exprKind n.kind = true ∧ ∀ o ∈ n.ops, Ex w o
  | .opc => (∃ a b m d, n.kind = .opcode a b m d) ∧ ∀ o ∈ n.ops, Ex w o
  | .code => CodeOk w n.ops n.kind
  | .arg => n.kind = .opr .exprList ∧ ∀ o ∈ n.ops, Has w o .arg ∨ Ex w o
  | .list => n.kind = .opr .exprList ∧ ∀ o ∈ n.ops, Has w o .list ∨ Has w o .item ∨ Has w o .expr
  | .item => (∃ name i, n.kind = .id .id name i) ∧ n.ops = []

theorem CodeOk.mono {w v : List Col} (h : w <+: v) {ops : List Ptr} {k : Kind} (hk : CodeOk w ops k) : CodeOk v ops k := by
  cases k with
  | opr op =>
    cases op
    all_goals first
      | exact hk
      | exact fun o ho => (hk o ho : Has w o .list).mono h
      | exact fun o ho => (hk o ho : Has w o .arg).mono h
      | exact fun o ho => (hk o ho : Any w o).mono h
  | data _ d => exact ⟨hk.1.imp (·.mono h) (·.mono h), hk.2⟩
  | macroEx _ b ps => exact ⟨⟨hk.1.1.mono h, fun q hq => (hk.1.2 q hq).mono h⟩, hk.2⟩
  | _ => exact hk

theorem NodeOk.mono {w v : List Col} (h : w <+: v) {c : Col} {n : Node} (hn : NodeOk w c n) : NodeOk v c n := by
  cases c with
  | id => exact hn
  | expr => exact ⟨hn.1, fun o ho => (hn.2 o ho).mono h⟩
  | opc => exact ⟨hn.1, fun o ho => (hn.2 o ho).mono h⟩
  | code => exact CodeOk.mono h hn
  | arg => exact ⟨hn.1, fun o ho => (hn.2 o ho).imp (·.mono h) (·.mono h)⟩
  | list => exact ⟨hn.1, fun o ho => (hn.2 o ho).imp (·.mono h) (Or.imp (·.mono h) (·.mono h))⟩
  | item => exact hn

/-- No statement or expression uses a name declared by `.var` directly. -/
theorem NodeOk.kid_other {w : List Col} {p : Ptr} {c : Col} {n : Node} (hn : NodeOk w c n) (ha : Any w p) (hc : Has w p c) :
    ∀ o ∈ n.ops, Other w o := by
  intro o ho
  have hcs : c = .id ∨ c = .expr ∨ c = .code ∨ c = .opc := by
    unfold Any Ex Has at ha
    unfold Has at hc
    rw [hc] at ha
    simp only [Option.some.injEq] at ha
    rcases ha with (h | h) | h | h <;> simp [h]
  rcases hcs with rfl | rfl | rfl | rfl
  · rw [hn.2] at ho; cases ho
  · exact (hn.2 o ho).other
  · unfold NodeOk at hn
    simp only at hn
    cases hk : n.kind with
    | opr op =>
      rw [hk] at hn
      cases op
      all_goals first
        | exact hn.elim
        | exact ⟨_, (hn o ho : Has w o .list), by decide⟩
        | exact ⟨_, (hn o ho : Has w o .arg), by decide⟩
        | exact (hn o ho : Any w o).other
    | con _ _ => rw [hk] at hn; exact hn.elim
    | str _ => rw [hk] at hn; exact hn.elim
    | opcode _ _ _ _ => rw [hk] at hn; exact hn.elim
    | printState _ =>
      rw [hk] at hn
      rw [show n.ops = [] from hn] at ho
      cases ho
    | _ =>
      rw [hk] at hn
      rw [hn.2] at ho
      cases ho
  · exact (hn.2 o ho).other

/-! ## States -/

/-- The heap is typed; declared names are bound to variables; macro bodies are statements. -/
structure Good (w : List Col) (s : St) : Prop where
  len : w.length = s.nodes.length
  nodes : ∀ q n c, s.nodes[q]? = some n → Has w q c → NodeOk w c n
  items : ∀ q n k name j, s.nodes[q]? = some n → Has w q .item → n.kind = .id k name (some j) →
    ∃ x, s.syms[j]? = some x ∧ x.isVar = true
  macros : ∀ (i : Nat) x b, s.syms[i]? = some x → x.macroNode = some b → Any w b

/-- Symbols stay, and so do the values of ordinary ones unless a change is counted. -/
structure Zr (s t : St) : Prop where
  syms : SymsLe s.syms t.syms
  svc : s.symValueChanged ≤ t.symValueChanged
  val : t.symValueChanged = s.symValueChanged → ValLe s.syms t.syms

theorem Zr.refl (s : St) : Zr s s := ⟨.refl _, Nat.le_refl _, fun _ => .refl _⟩

theorem Zr.trans {s t u : St} (h : Zr s t) (h' : Zr t u) : Zr s u := by
  have a := h.svc
  have b := h'.svc
  exact ⟨h.syms.trans h'.syms, by omega, fun e => (h.val (by omega)).trans h.syms (h'.val (by omega)) h'.syms⟩

/-- `m` keeps the typing (extended by the nodes it makes), its result satisfies `Q`; with `τ = some e` the expansion type
is `e` and stays so. -/
def Hq {α : Type} (w : List Col) (τ : Option ExpType) (Q : List Col → α → Prop) (m : M α) : Prop :=
  ∀ v s, w <+: v → Good v s → (∀ e, τ = some e → s.expansionType = e) →
    ∃ v', v <+: v' ∧ Good v' (m s).2 ∧ Zr s (m s).2 ∧ (∀ e, τ = some e → (m s).2.expansionType = e) ∧
      ∀ a, (m s).1 = .ok a → Q v' a

/-- The same without a statement about the result. -/
def Hp {α : Type} (w : List Col) (τ : Option ExpType) (m : M α) : Prop := Hq w τ (fun _ _ => True) m

variable {α β : Type} {w v : List Col} {τ : Option ExpType} {Q : List Col → α → Prop} {R : List Col → β → Prop}

theorem Hq.mono {m : M α} (h : Hq w τ Q m) (hw : w <+: v) : Hq v τ Q m :=
  fun u s hu => h u s (hw.trans hu)

theorem Hp.mono {m : M α} (h : Hp w τ m) (hw : w <+: v) : Hp v τ m := Hq.mono h hw

theorem Hq.weak {m : M α} (h : Hq w τ Q m) {Q' : List Col → α → Prop} (hq : ∀ v a, w <+: v → Q v a → Q' v a) :
    Hq w τ Q' m := by
  intro v s hv hs ht
  obtain ⟨v', a, b, c, d, e⟩ := h v s hv hs ht
  exact ⟨v', a, b, c, d, fun x hx => hq v' x (hv.trans a) (e x hx)⟩

theorem Hq.hp {m : M α} (h : Hq w τ Q m) : Hp w τ m := h.weak fun _ _ _ _ => trivial

/-- Sequencing; the second part may use what is known about the result of the first. -/
theorem Hq.bind' {m : M α} {f : α → M β} (hm : Hq w τ Q m) (hf : ∀ v a, w <+: v → Q v a → Hq v τ R (f a)) :
    Hq w τ R (m >>= f) := by
  intro v s hv hs ht
  obtain ⟨v1, a1, b1, c1, d1, e1⟩ := hm v s hv hs ht
  rw [run_bind]
  rcases hr : m s with ⟨r, s1⟩
  rw [hr] at b1 c1 d1 e1
  cases r with
  | ok x =>
    obtain ⟨v2, a2, b2, c2, d2, e2⟩ := hf v1 x (hv.trans a1) (e1 x rfl) v1 s1 (List.prefix_refl _) b1 d1
    exact ⟨v2, a1.trans a2, b2, c1.trans c2, d2, e2⟩
  | exit _ => exact ⟨v1, a1, b1, c1, d1, fun a h => by cases h⟩
  | ub => exact ⟨v1, a1, b1, c1, d1, fun a h => by cases h⟩
  | timeout => exact ⟨v1, a1, b1, c1, d1, fun a h => by cases h⟩

theorem Hq.bind {m : M α} {f : α → M β} (hm : Hp w τ m) (hf : ∀ a, Hq w τ R (f a)) : Hq w τ R (m >>= f) :=
  Hq.bind' hm fun _ a hw _ => (hf a).mono hw

/-- The part of the state that matters here. -/
def view (s : St) : List Node × List Sym × ExpType × Nat := (s.nodes, s.syms, s.expansionType, s.symValueChanged)

theorem Good.of {s t : St} (h : Good w s) (h1 : t.nodes = s.nodes) (h2 : t.syms = s.syms) : Good w t :=
  ⟨by rw [h1]; exact h.len, by rw [h1]; exact h.nodes, by rw [h1, h2]; exact h.items, by rw [h2]; exact h.macros⟩

theorem Hp.of_state {m : M α} (h : ∀ s, (m s).2.nodes = s.nodes ∧ (m s).2.syms = s.syms ∧
    (m s).2.expansionType = s.expansionType ∧ s.symValueChanged ≤ (m s).2.symValueChanged) : Hp w τ m := by
  intro v s hv hs ht
  obtain ⟨h1, h2, h3, h4⟩ := h s
  refine ⟨v, List.prefix_refl _, hs.of h1 h2, ⟨?_, h4, fun _ => ?_⟩, fun e he => ?_, fun _ _ => trivial⟩
  · rw [h2]; exact .refl _
  · rw [h2]; exact .refl _
  · rw [h3]; exact ht e he

theorem Hp.keep {m : M α} (h : Keep view m) : Hp w τ m := Hp.of_state fun s => by
  have e := h s
  simp only [view, Prod.mk.injEq] at e
  exact ⟨e.1, e.2.1, e.2.2.1, by omega⟩

theorem Hq.pure (a : α) (h : ∀ v, w <+: v → Q v a) : Hq w τ Q (M.pure a) :=
  fun v s hv hs ht => ⟨v, List.prefix_refl _, hs, .refl _, ht, fun _ e => by cases e; exact h v hv⟩

theorem Hq.exit (c : Int) : Hq w τ Q (exitM c : M α) :=
  fun v s _ hs ht => ⟨v, List.prefix_refl _, hs, .refl _, ht, fun _ e => by cases e⟩
theorem Hq.ub : Hq w τ Q (ubM : M α) := fun v s _ hs ht => ⟨v, List.prefix_refl _, hs, .refl _, ht, fun _ e => by cases e⟩
theorem Hq.timeout : Hq w τ Q (timeoutM : M α) :=
  fun v s _ hs ht => ⟨v, List.prefix_refl _, hs, .refl _, ht, fun _ e => by cases e⟩
theorem Hp.pure (a : α) : Hp w τ (M.pure a) := Hq.pure a fun _ _ => trivial
theorem Hp.exit (c : Int) : Hp w τ (exitM c : M α) := Hq.exit c
theorem Hp.ub : Hp w τ (ubM : M α) := Hq.ub
theorem Hp.timeout : Hp w τ (timeoutM : M α) := Hq.timeout
theorem Hp.liftO (x : Option α) : Hp w τ (liftO x) := .keep (.liftO _)
theorem Hp.getS : Hp w τ getS := .keep .getS
theorem Hp.error (e : Err) : Hp w τ (error e) := .keep (.modS fun _ => rfl)
theorem Hp.warn (e : Err) : Hp w τ (warn e) := .keep (.modS fun _ => rfl)
theorem Hp.node (p : Ptr) : Hp w τ (node p) := .keep (.node _)
theorem Hp.sym (i : SymPtr) : Hp w τ (sym i) := .keep (.sym _)
theorem Hp.opAt (n : Node) (i : Nat) : Hp w τ (opAt n i) := .liftO _
theorem Hp.operands (n : Node) : Hp w τ (operands n) := .keep (.operands _)
theorem Hp.modS {g : St → St} (h : ∀ s, (g s).nodes = s.nodes ∧ (g s).syms = s.syms ∧
    (g s).expansionType = s.expansionType ∧ s.symValueChanged ≤ (g s).symValueChanged) : Hp w τ (modS g) :=
  .of_state h
theorem Hq.ite {c : Prop} [Decidable c] {m m' : M α} (h : Hq w τ Q m) (h' : Hq w τ Q m') :
    Hq w τ Q (if c then m else m') := by
  split <;> assumption
theorem Hp.ite {c : Prop} [Decidable c] {m m' : M α} (h : Hp w τ m) (h' : Hp w τ m') : Hp w τ (if c then m else m') :=
  Hq.ite h h'
theorem Hp.bind {m : M α} {f : α → M β} (hm : Hp w τ m) (hf : ∀ a, Hp w τ (f a)) : Hp w τ (m >>= f) := Hq.bind hm hf
theorem Hp.bind' {m : M α} {f : α → M β} (hm : Hq w τ Q m) (hf : ∀ v a, w <+: v → Q v a → Hp v τ (f a)) :
    Hp w τ (m >>= f) := Hq.bind' hm hf

/-- An operand of a node. -/
theorem Hq.opAt (n : Node) (i : Nat) : Hq w τ (fun _ o => o ∈ n.ops) (opAt n i) := by
  intro v s hv hs ht
  refine ⟨v, List.prefix_refl _, ?_, ?_, ?_, ?_⟩
  all_goals
    unfold Verif.opAt
    cases h : n.ops[i]?
  · exact hs
  · exact hs
  · exact .refl _
  · exact .refl _
  · exact ht
  · exact ht
  · intro a e; cases e
  · intro a e; cases e; exact List.mem_of_getElem? h

theorem Hp.opAt_bind {n : Node} {i : Nat} {f : Ptr → M β} (hf : ∀ o ∈ n.ops, Hp w τ (f o)) : Hp w τ (Verif.opAt n i >>= f) :=
  Hp.bind' (Hq.opAt n i) fun _ o hw ho => (hf o ho).mono hw

theorem Hq.operands (n : Node) : Hq w τ (fun _ os => ∀ o ∈ os, o ∈ n.ops) (operands n) := by
  unfold Verif.operands
  split
  · exact Hq.pure _ fun _ _ o ho => List.mem_of_mem_take ho
  · exact Hq.ub

theorem Hp.operands_bind {n : Node} {f : List Ptr → M β} (hf : ∀ os, (∀ o ∈ os, o ∈ n.ops) → Hp w τ (f os)) :
    Hp w τ (Verif.operands n >>= f) :=
  Hp.bind' (Hq.operands n) fun _ os hw ho => (hf os ho).mono hw

theorem Hp.loopM (f : Nat) {body : M Bool} (h : Hp w τ body) : Hp w τ (loopM f body) := by
  induction f with
  | zero => exact Hp.timeout
  | succ n ih =>
    unfold Verif.loopM
    exact Hp.bind h fun a => Hp.ite ih (Hp.pure _)

theorem Hp.eachM {σ γ : Type} {body : σ → γ → M (Option σ)} : ∀ (xs : List γ) (a : σ), (∀ a, ∀ x ∈ xs, Hp w τ (body a x)) →
    Hp w τ (eachM body xs a)
  | [], a, _ => Hp.pure _
  | x :: xs, a, h => by
    unfold Verif.eachM
    refine Hp.bind (h a x List.mem_cons_self) fun r => ?_
    cases r with
    | none => exact Hp.pure _
    | some a' => exact Hp.eachM xs a' fun a y hy => h a y (List.mem_cons_of_mem _ hy)

theorem Hp.forEachM {γ : Type} {body : γ → M Unit} : ∀ (xs : List γ), (∀ x ∈ xs, Hp w τ (body x)) →
    Hp w τ (forEachM body xs)
  | [], _ => Hp.pure _
  | x :: xs, h => by
    unfold Verif.forEachM
    exact Hp.bind (h x List.mem_cons_self) fun _ => Hp.forEachM xs fun y hy => h y (List.mem_cons_of_mem _ hy)

/-! ## Nodes -/

/-- Reading a node of known colour. -/
theorem Hq.node {p : Ptr} {c : Col} (hp : Has w p c) : Hq w τ (fun v n => NodeOk v c n) (node p) := by
  intro v s hv hs ht
  unfold Verif.node
  split
  · exact ⟨v, List.prefix_refl _, hs, .refl _, ht, fun _ e => by cases e⟩
  · split
    · rename_i n hn
      exact ⟨v, List.prefix_refl _, hs, .refl _, ht, fun _ e => by cases e; exact hs.nodes p n c hn (hp.mono hv)⟩
    · exact ⟨v, List.prefix_refl _, hs, .refl _, ht, fun _ e => by cases e⟩

theorem Good.set {s : St} (h : Good w s) {p : Ptr} {c : Col} (hc : Has w p c) {n : Node} (hn : NodeOk w c n)
    (hi : c = .item → ∀ k name j, n.kind = .id k name (some j) → ∃ x, s.syms[j]? = some x ∧ x.isVar = true) :
    Good w { s with nodes := s.nodes.set p n } := by
  refine ⟨by simp only [List.length_set]; exact h.len, ?_, ?_, h.macros⟩
  · intro q m c' hm hq
    simp only [List.getElem?_set] at hm
    split at hm
    · rename_i e
      subst e
      unfold Has at hc hq
      rw [hc] at hq
      cases hq
      split at hm <;> cases hm
      exact hn
    · exact h.nodes q m c' hm hq
  · intro q m k name j hm hq hk
    simp only [List.getElem?_set] at hm
    split at hm
    · rename_i e
      subst e
      unfold Has at hc hq
      rw [hc] at hq
      cases hq
      split at hm <;> cases hm
      exact hi rfl k name j hk
    · exact h.items q m k name j hm hq hk

/-- Storing a node of the same colour. -/
theorem Hp.setNode {p : Ptr} {c : Col} {n : Node} (hc : Has w p c) (hne : c ≠ .item) (hn : NodeOk w c n) :
    Hp w τ (setNode p n) := by
  intro v s hv hs ht
  unfold Verif.setNode
  split
  · exact ⟨v, List.prefix_refl _, hs, .refl _, ht, fun _ _ => trivial⟩
  · exact ⟨v, List.prefix_refl _, hs.set (hc.mono hv) (hn.mono hv) (fun e => absurd e hne), ⟨.refl _, Nat.le_refl _, fun _ => .refl _⟩,
      ht, fun _ _ => trivial⟩

/-- A new node. -/
theorem Hq.alloc {k : Kind} {ops : List Ptr} {c : Col} (hn : NodeOk w c ⟨k, ops.length, ops⟩)
    (hi : c = .item → ∀ a b j, k ≠ .id a b (some j)) : Hq w τ (fun v p => Has v p c) (allocNode k ops) := by
  intro v s hv hs ht
  have hp : v <+: v ++ [c] := List.prefix_append _ _
  have hl : Has (v ++ [c]) s.nodes.length c := by
    unfold Has
    rw [← hs.len]
    simp
  have old : ∀ q n, (s.nodes ++ [⟨k, ops.length, ops⟩])[q]? = some n → q ≠ s.nodes.length → s.nodes[q]? = some n := by
    intro q n hq hne
    rw [List.getElem?_append] at hq
    split at hq
    · exact hq
    · have := (List.getElem?_eq_some_iff.mp hq).1
      simp only [List.length_cons, List.length_nil] at this
      omega
  have oldc : ∀ (q : Nat) c', Has (v ++ [c]) q c' → q ≠ s.nodes.length → Has v q c' := by
    intro q c' hq hne
    unfold Has at *
    rw [List.getElem?_append] at hq
    split at hq
    · exact hq
    · have h1 := (List.getElem?_eq_some_iff.mp hq).1
      have h2 := hs.len
      simp only [List.length_cons, List.length_nil] at h1
      omega
  refine ⟨v ++ [c], hp, ⟨?_, ?_, ?_, ?_⟩, ⟨.refl _, Nat.le_refl _, fun _ => .refl _⟩, ht, fun _ e => by cases e; exact hl⟩
  · simp only [allocNode, List.length_append, hs.len, List.length_cons, List.length_nil]
  · intro q n c' hq hc'
    simp only [allocNode] at hq
    by_cases he : q = s.nodes.length
    · subst he
      unfold Has at hl hc'
      rw [hl] at hc'
      cases hc'
      simp at hq
      subst hq
      exact hn.mono (hv.trans hp)
    · exact (hs.nodes q n c' (old q n hq he) (oldc q c' hc' he)).mono hp
  · intro q n a b j hq hc' hk
    simp only [allocNode] at hq
    by_cases he : q = s.nodes.length
    · subst he
      unfold Has at hl hc'
      rw [hl] at hc'
      cases hc'
      simp at hq
      subst hq
      exact absurd hk (hi rfl a b j)
    · exact hs.items q n a b j (old q n hq he) (oldc q _ hc' he) hk
  · intro i x b hx hb
    exact (hs.macros i x b hx hb).mono hp

/-! ## Symbols -/

/-- An update of a symbol that loses no flag and changes the value only of a special symbol. -/
structure SymOk (x x' : Sym) : Prop where
  name : x'.name = x.name
  fullname : x'.fullname = x.fullname
  scope : x'.scope = x.scope
  isMacroParam : x'.isMacroParam = x.isMacroParam
  isInit : x.isInit = true → x'.isInit = true
  isMacroName : x.isMacroName = true → x'.isMacroName = true
  isVar : x.isVar = true → x'.isVar = true
  isPlusMinus : x.isPlusMinus = true → x'.isPlusMinus = true
  value : x'.ordinary = true → x'.value = x.value

theorem Good.syms {s : St} (h : Good w s) {ys : List Sym} (hle : SymsLe s.syms ys)
    (hm : ∀ (i : Nat) x b, ys[i]? = some x → x.macroNode = some b → Any w b) : Good w { s with syms := ys } := by
  refine ⟨h.len, h.nodes, ?_, hm⟩
  intro q n k name j hn hq hk
  obtain ⟨x, hx, hv⟩ := h.items q n k name j hn hq hk
  obtain ⟨x', hx', _, _, _, _, _, _, h7, _⟩ := hle j x hx
  exact ⟨x', hx', h7 hv⟩

theorem modify_eq {s : St} {i : SymPtr} {x : Sym} (hx : s.syms[i]? = some x) (g : Sym → Sym) :
    s.syms.modify i g = s.syms.set i (g x) := by
  apply List.ext_getElem?
  intro j
  rw [List.getElem?_modify, List.getElem?_set]
  split
  · rename_i e
    subst e
    rw [hx, if_pos (List.getElem?_eq_some_iff.mp hx).1]
    rfl
  · simp

theorem Good.modify {s : St} (h : Good w s) {i : SymPtr} {x : Sym} (hx : s.syms[i]? = some x) {g : Sym → Sym}
    (hg : SymOk x (g x)) (hm : ∀ b, (g x).macroNode = some b → x.macroNode = some b ∨ Any w b) :
    Good w { s with syms := s.syms.modify i g } ∧ Zr s { s with syms := s.syms.modify i g } := by
  rw [modify_eq hx]
  have hle : SymsLe s.syms (s.syms.set i (g x)) :=
    .set hx hg.name hg.fullname hg.scope hg.isMacroParam hg.isInit hg.isMacroName hg.isVar hg.isPlusMinus
  refine ⟨h.syms hle ?_, hle, Nat.le_refl _, fun _ => .set hx hg.value⟩
  intro j y b hy hb
  simp only [List.getElem?_set] at hy
  split at hy
  · rename_i e
    subst e
    split at hy <;> cases hy
    rcases hm b hb with h' | h'
    · exact h.macros i x b hx h'
    · exact h'
  · exact h.macros j y b hy hb

theorem Hp.modSym {i : SymPtr} {g : Sym → Sym} (hg : ∀ x, SymOk x (g x))
    (hm : ∀ x b, (g x).macroNode = some b → x.macroNode = some b ∨ Any w b) : Hp w τ (modSym i g) := by
  intro v s hv hs ht
  unfold Verif.modSym
  split
  · rename_i hi
    obtain ⟨h1, h2⟩ := hs.modify (List.getElem?_eq_getElem hi) (hg _) fun b hb => (hm _ b hb).imp id (·.mono hv)
    exact ⟨v, List.prefix_refl _, h1, h2, ht, fun _ _ => trivial⟩
  · exact ⟨v, List.prefix_refl _, hs, .refl _, ht, fun _ _ => trivial⟩

theorem sanitize_macroNode (x : Sym) : (sanitizeSym x).macroNode = x.macroNode := by
  unfold sanitizeSym
  split
  · rfl
  · split <;> rfl

theorem Hp.insertSym (x : Sym) (hx : x.macroNode = none) : Hp w τ (insertSym x) := by
  intro v s hv hs ht
  have hle : SymsLe s.syms (s.syms ++ [sanitizeSym x]) := .append _ _
  refine ⟨v, List.prefix_refl _, hs.syms hle ?_, ⟨hle, Nat.le_refl _, fun _ => ?_⟩, ht, fun _ _ => trivial⟩
  · intro i y b hy hb
    rw [List.getElem?_append] at hy
    split at hy
    · exact hs.macros i y b hy hb
    · have : y = sanitizeSym x := by
        have := List.mem_of_getElem? hy
        simpa using this
      subst this
      rw [sanitize_macroNode, hx] at hb
      cases hb
  · intro i y y' hy hy' _
    simp only [Verif.insertSym] at hy'
    rw [List.getElem?_append_left (List.getElem?_eq_some_iff.mp hy).1, hy] at hy'
    cases hy'
    rfl

/-- The symbol that was read. -/
theorem Hq.sym (i : SymPtr) : Hq w τ (fun v x => ∀ b, x.macroNode = some b → Any v b) (sym i) := by
  intro v s hv hs ht
  unfold Verif.sym
  split
  · rename_i x hx
    exact ⟨v, List.prefix_refl _, hs, .refl _, ht, fun _ e => by cases e; exact fun b hb => hs.macros i x b hx hb⟩
  · exact ⟨v, List.prefix_refl _, hs, .refl _, ht, fun _ e => by cases e⟩

/-- Leaf rules; extended below. -/
syntax "hp_leaf" : tactic
macro_rules | `(tactic| hp_leaf) => `(tactic| with_reducible exact Hp.pure _)
macro_rules | `(tactic| hp_leaf) => `(tactic| with_reducible exact Hp.exit _)
macro_rules | `(tactic| hp_leaf) => `(tactic| with_reducible exact Hp.ub)
macro_rules | `(tactic| hp_leaf) => `(tactic| with_reducible exact Hp.timeout)
macro_rules | `(tactic| hp_leaf) => `(tactic| with_reducible exact Hp.liftO _)
macro_rules | `(tactic| hp_leaf) => `(tactic| with_reducible exact Hp.getS)
macro_rules | `(tactic| hp_leaf) => `(tactic| with_reducible exact Hp.error _)
macro_rules | `(tactic| hp_leaf) => `(tactic| with_reducible exact Hp.warn _)
macro_rules | `(tactic| hp_leaf) => `(tactic| with_reducible exact Hp.node _)
macro_rules | `(tactic| hp_leaf) => `(tactic| with_reducible exact Hp.opAt _ _)
macro_rules | `(tactic| hp_leaf) => `(tactic| with_reducible exact Hp.sym _)
macro_rules | `(tactic| hp_leaf) => `(tactic| with_reducible exact Hp.operands _)
macro_rules
  | `(tactic| hp_leaf) => `(tactic| with_reducible exact Hp.modS (fun _ =>
      ⟨rfl, rfl, rfl, by first | exact Nat.le_refl _ | exact Nat.le_succ _⟩))
theorem Hp.modS_ite {c : St → Prop} [∀ s, Decidable (c s)] {g : St → St} (h : ∀ s, (g s).nodes = s.nodes ∧
    (g s).syms = s.syms ∧ (g s).expansionType = s.expansionType ∧ s.symValueChanged ≤ (g s).symValueChanged) :
    Hp w τ (Verif.modS fun s => if c s then g s else s) :=
  .modS fun s => by
    split
    · exact h s
    · exact ⟨rfl, rfl, rfl, Nat.le_refl _⟩
macro_rules
  | `(tactic| hp_leaf) => `(tactic| with_reducible exact Hp.modS_ite (fun _ => ⟨rfl, rfl, rfl, Nat.le_refl _⟩))

/-- Decompose a goal `Hp w τ m`. -/
macro "hp" : tactic => `(tactic| repeat' first
  | assumption
  | (with_reducible intro _)
  | (with_reducible solve_by_elim; done)
  | hp_leaf
  | (with_reducible apply Hp.loopM)
  | (with_reducible apply Hp.forEachM)
  | (with_reducible apply Hp.eachM)
  | (with_reducible refine Hp.opAt_bind ?_)
  | (with_reducible refine Hp.operands_bind ?_)
  | (with_reducible refine Hp.bind ?_ ?_)
  | (with_reducible refine Hp.ite ?_ ?_)
  | (dsimp only)
  | split)

end Verif.Heap
