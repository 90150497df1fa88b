import Verif.Lemmas.Heap

/-! # The interpreter keeps the typing of the parse tree -/

namespace Verif.Heap

variable {α β : Type} {w v : List Col} {τ : Option ExpType}

/-! ## Symbols -/

/-- The expansion type is known. -/
theorem Hp.getS_bind {f : St → M β} (h : ∀ s, (∀ e, τ = some e → s.expansionType = e) → Hp w τ (f s)) :
    Hp w τ (Verif.getS >>= f) := by
  intro v s hv hs ht
  exact h s ht v s hv hs ht

/-- Setting the expansion type, for the next part only. -/
theorem Hp.setExp {m : M α} {f : α → M β} {g : St → St} {e : ExpType}
    (hg : ∀ s, (g s).nodes = s.nodes ∧ (g s).syms = s.syms ∧ (g s).expansionType = e ∧
      s.symValueChanged ≤ (g s).symValueChanged)
    (hm : Hp w (some e) m) (hf : ∀ a, Hp w none (f a)) : Hp w none (Verif.modS g >>= fun _ => m >>= f) := by
  intro v s hv hs _
  rw [modS_bind, run_bind]
  obtain ⟨h1, h2, h3, h4⟩ := hg s
  have hz : Zr s (g s) := ⟨by rw [h2]; exact .refl _, h4, fun _ => by rw [h2]; exact .refl _⟩
  obtain ⟨v1, a1, b1, c1, _, _⟩ := hm v (g s) hv (hs.of h1 h2) (fun e' he => by cases he; exact h3)
  rcases hr : m (g s) with ⟨r, s1⟩
  rw [hr] at b1 c1
  cases r with
  | ok x =>
    obtain ⟨v2, a2, b2, c2, d2, e2⟩ := hf x v1 s1 (hv.trans a1) b1 (fun e he => by cases he)
    exact ⟨v2, a1.trans a2, b2, (hz.trans c1).trans c2, d2, e2⟩
  | exit _ => exact ⟨v1, a1, b1, hz.trans c1, (fun e he => by cases he), fun _ _ => trivial⟩
  | ub => exact ⟨v1, a1, b1, hz.trans c1, (fun e he => by cases he), fun _ _ => trivial⟩
  | timeout => exact ⟨v1, a1, b1, hz.trans c1, (fun e he => by cases he), fun _ _ => trivial⟩

theorem Hp.setExp' {m : M α} {g : St → St} {e : ExpType}
    (hg : ∀ s, (g s).nodes = s.nodes ∧ (g s).syms = s.syms ∧ (g s).expansionType = e ∧
      s.symValueChanged ≤ (g s).symValueChanged)
    (hm : Hp w (some e) m) : Hp w none (Verif.modS g >>= fun _ => m) := by
  have h := Hp.setExp (f := fun a => M.pure a) hg hm fun a => Hp.pure a
  have e : (Verif.modS g >>= fun _ => m >>= fun a => M.pure a) = (Verif.modS g >>= fun _ => m) := by
    funext s
    simp only [run_bind, run_modS]
    rcases m (g s) with ⟨r, s1⟩
    cases r <;> rfl
  rw [← e]
  exact h

theorem Hp.addPlusMinusSym (name : Str) : Hp w τ (addPlusMinusSym name) := by
  unfold Verif.addPlusMinusSym
  refine Hp.bind (by hp) fun _ => Hp.bind (by hp) fun _ => Hp.insertSym _ rfl
macro_rules | `(tactic| hp_leaf) => `(tactic| with_reducible exact Hp.addPlusMinusSym _)

theorem Hp.addSymbol (name : Str) : Hp w τ (addSymbol name) := by
  have h : ∀ x : Sym, x.macroNode = none → Hp w τ (Verif.insertSym x) := fun x => Hp.insertSym x
  unfold Verif.addSymbol
  repeat' first
    | exact Hp.insertSym _ rfl
    | hp_leaf
    | (with_reducible refine Hp.bind ?_ ?_)
    | (with_reducible refine Hp.ite ?_ ?_)
    | (with_reducible intro _)
    | dsimp only
    | split
macro_rules | `(tactic| hp_leaf) => `(tactic| with_reducible exact Hp.addSymbol _)

theorem Keep.addSymbol_nodes (name : Str) : Keep St.nodes (Verif.addSymbol name) := by
  unfold Verif.addSymbol Verif.addPlusMinusSym; keep

theorem Keep.addSymbol_base (name : Str) : Keep St.nodeBase (Verif.addSymbol name) := by
  unfold Verif.addSymbol Verif.addPlusMinusSym; keep

theorem symFindAux_lt (key : Str) : ∀ (l : List Sym) (k j : Nat), symFindAux key l k = some j → j < k + l.length
  | [], k, j, h => by cases h
  | x :: xs, k, j, h => by
    unfold symFindAux at h
    split at h
    · rename_i j' h'
      cases h
      have := symFindAux_lt key xs (k + 1) j h'
      simp only [List.length_cons]
      omega
    · split at h <;> cases h
      simp only [List.length_cons]
      omega

theorem symFind_lt {l : List Sym} {key : Str} {j : Nat} (h : symFind l key = some j) : j < l.length := by
  have := symFindAux_lt key l 0 j h
  omega

theorem lookUpSymbol_lt {sc : Option Str} {l : List Sym} {key : Str} {j : Nat} (h : lookUpSymbol sc l key = some j) :
    j < l.length := by
  unfold lookUpSymbol at h
  split at h
  · split at h
    · rename_i h'
      cases h
      exact symFind_lt h'
    · exact symFind_lt h
  · exact symFind_lt h

/-- The symbol found or made exists. -/
theorem addSymbol_lt {name : Str} {s s' : St} {j : SymPtr} (h : addSymbol name s = (.ok (some j), s')) :
    j < s'.syms.length := by
  unfold addSymbol at h
  split at h
  · cases h
  · split at h
    · obtain ⟨i, s1, h1, h⟩ := bind_ok_inv h
      cases h
      cases h1
      simp
    · obtain ⟨i, s1, h1, h⟩ := bind_ok_inv h
      cases h
      cases h1
      simp
    · rw [Verif.getS_bind] at h
      split at h
      · cases h
      · cases hl : lookUpSymbol (addSymbolKey s name).1 s.syms (addSymbolKey s name).2 with
        | some i =>
          simp only [hl] at h
          cases h
          exact lookUpSymbol_lt hl
        | none =>
          simp only [hl] at h
          obtain ⟨i, s1, h1, h⟩ := bind_ok_inv h
          cases h
          cases h1
          simp

/-- Assigning a value: counted, unless the symbol is special. -/
theorem Hp.setSymbolValue (i : SymPtr) (value : Int) : Hp w τ (setSymbolValue i value) := by
  intro v s hv hs ht
  have same : ∀ (r : Res Unit), ∃ v', v <+: v' ∧ Good v' ((r, s) : Res Unit × St).2 ∧ Zr s ((r, s) : Res Unit × St).2 ∧
      (∀ e, τ = some e → ((r, s) : Res Unit × St).2.expansionType = e) ∧
      ∀ a, ((r, s) : Res Unit × St).1 = .ok a → True :=
    fun r => ⟨v, List.prefix_refl _, hs, .refl _, ht, fun _ _ => trivial⟩
  unfold Verif.setSymbolValue
  rw [run_bind]
  unfold Verif.sym
  cases hx : s.syms[i]? with
  | none => exact same _
  | some x =>
    simp only
    by_cases hval : x.value ≠ value
    · rw [if_pos hval]
      split
      · exact Hp.error _ v s hv hs ht
      · rw [run_bind]
        unfold Verif.modSym
        have hl := (List.getElem?_eq_some_iff.mp hx).1
        rw [if_pos hl]
        simp only
        have hle : SymsLe s.syms (s.syms.set i { x with value := value }) := .set hx rfl rfl rfl rfl id id id id
        have hgood : Good v { s with syms := s.syms.set i { x with value := value } } := by
          refine hs.syms hle ?_
          intro j y b hy hb
          simp only [List.getElem?_set] at hy
          split at hy
          · rename_i e
            subst e
            first
            | (split at hy <;> cases hy
               exact hs.macros i x b hx hb)
            | (cases hy
               exact hs.macros i x b hx hb)
          · exact hs.macros j y b hy hb
        rw [modify_eq hx]
        split
        · exact ⟨v, List.prefix_refl _, hgood.of rfl rfl, ⟨hle, Nat.le_succ _, fun e => absurd e (Nat.succ_ne_self _)⟩, ht,
            fun _ _ => trivial⟩
        · rename_i hn
          refine ⟨v, List.prefix_refl _, hgood, ⟨hle, Nat.le_refl _, fun _ => .set hx fun ho => ?_⟩, ht, fun _ _ => trivial⟩
          simp only [Sym.ordinary, Bool.and_eq_true, Bool.not_eq_true'] at ho
          exact absurd ⟨ho.1.1.2, ho.1.1.1⟩ hn
    · rw [if_neg hval]
      exact same _
macro_rules | `(tactic| hp_leaf) => `(tactic| with_reducible exact Hp.setSymbolValue _ _)

theorem Hp.setInit (i : SymPtr) : Hp w τ (Verif.modSym i fun x => { x with isInit := true }) :=
  .modSym (fun _ => ⟨rfl, rfl, rfl, rfl, fun _ => rfl, id, id, id, fun _ => rfl⟩) fun _ _ h => .inl h
macro_rules | `(tactic| hp_leaf) => `(tactic| with_reducible exact Hp.setInit _)

theorem Hp.restoreParams : ∀ (vs : List Int) (k : Nat), Hp w τ (restoreParams k vs)
  | [], _ => Hp.pure _
  | v :: vs, k => by
    have ih := Hp.restoreParams vs
    unfold Verif.restoreParams
    hp

/-! ## Reading only -/

theorem Keep.isUninitSym {γ : Type} {g : St → γ} (p : Ptr) : Keep g (isUninitSym p) := by
  unfold Verif.isUninitSym; keep

theorem Keep.hasUninit {γ : Type} {g : St → γ} : ∀ (f : Nat) (p : Ptr), Keep g (hasUninit f p)
  | 0, _ => .timeout
  | f + 1, p => by
    have := Keep.hasUninit (g := g) f
    have := Keep.isUninitSym (g := g)
    unfold Verif.hasUninit
    keep

/-! ## Names -/

/-- Binding a name that is not declared by `.var`. -/
theorem Hp.resolveId (force : Bool) {p : Ptr} (hp : Other w p) : Hp w τ (resolveId force p) := by
  obtain ⟨c, hc, hne⟩ := hp
  unfold Verif.resolveId
  refine Hp.bind' (Hq.node hc) fun v n hv hn => ?_
  split
  · rename_i k name i hk
    split
    · exact Hp.pure _
    · refine Hp.bind (Hp.addSymbol _) fun j => Hp.bind (Hp.setNode (hc.mono hv) hne ?_) fun _ => Hp.pure _
      cases c with
      | id =>
        obtain ⟨⟨k', n', i', h1, h2⟩, h3⟩ := hn
        rw [hk] at h1
        cases h1
        exact ⟨⟨k, name, j, rfl, h2⟩, h3⟩
      | expr => rw [NodeOk, hk] at hn; exact absurd hn.1 Bool.false_ne_true
      | opc =>
        obtain ⟨⟨_, _, _, _, h1⟩, _⟩ := hn
        rw [hk] at h1
        cases h1
      | code =>
        unfold NodeOk at hn ⊢
        simp only [hk] at hn ⊢
        exact hn
      | arg => rw [NodeOk, hk] at hn; cases hn.1
      | list => rw [NodeOk, hk] at hn; cases hn.1
      | item => exact absurd rfl hne
  · exact Hp.ub

/-- `Hp` in states with the property `P`. -/
def Hs (w : List Col) (τ : Option ExpType) (P : St → Prop) (m : M α) : Prop :=
  ∀ v s, w <+: v → Good v s → (∀ e, τ = some e → s.expansionType = e) → P s →
    ∃ v', v <+: v' ∧ Good v' (m s).2 ∧ Zr s (m s).2 ∧ (∀ e, τ = some e → (m s).2.expansionType = e) ∧
      ∀ a, (m s).1 = .ok a → True

theorem Hs.bind {P : St → Prop} {m : M α} {f : α → M β} (hm : Hs w τ P m) (hf : ∀ a, Hp w τ (f a)) :
    Hs w τ P (m >>= f) := by
  intro v s hv hs ht hP
  obtain ⟨v1, a1, b1, c1, d1, e1⟩ := hm v s hv hs ht hP
  rw [run_bind]
  rcases hr : m s with ⟨r, s1⟩
  rw [hr] at b1 c1 d1 e1
  cases r with
  | ok x =>
    obtain ⟨v2, a2, b2, c2, d2, e2⟩ := hf x v1 s1 (hv.trans a1) b1 d1
    exact ⟨v2, a1.trans a2, b2, c1.trans c2, d2, e2⟩
  | exit _ => exact ⟨v1, a1, b1, c1, d1, fun _ _ => trivial⟩
  | ub => exact ⟨v1, a1, b1, c1, d1, fun _ _ => trivial⟩
  | timeout => exact ⟨v1, a1, b1, c1, d1, fun _ _ => trivial⟩

theorem Hp.hs {P : St → Prop} {m : M α} (h : Hp w τ m) : Hs w τ P m := fun v s hv hs ht _ => h v s hv hs ht

theorem Hs.liftO_bind {P : St → Prop} {x : Option α} {f : α → M β} (hf : ∀ a, Hs w τ P (f a)) :
    Hs w τ P (liftO x >>= f) := by
  cases x with
  | none => exact fun v s hv hs ht _ => ⟨v, List.prefix_refl _, hs, .refl _, ht, fun _ _ => trivial⟩
  | some a => exact hf a

/-- The symbol is special. -/
def Special (i : SymPtr) (s : St) : Prop := ∃ x, s.syms[i]? = some x ∧ x.ordinary = false

/-- The value of a special symbol may change. -/
theorem Hs.modValue {i : SymPtr} {g : Sym → Sym} (hg : ∀ x, x.ordinary = false → SymOk x (g x))
    (hm : ∀ x b, (g x).macroNode = some b → x.macroNode = some b) : Hs w τ (Special i) (Verif.modSym i g) := by
  intro v s hv hs ht hP
  obtain ⟨x, hx, ho⟩ := hP
  have hi := (List.getElem?_eq_some_iff.mp hx).1
  unfold Verif.modSym
  rw [if_pos hi]
  obtain ⟨h1, h2⟩ := hs.modify hx (hg x ho) fun b hb => .inl (hm x b hb)
  exact ⟨v, List.prefix_refl _, h1, h2, ht, fun _ _ => trivial⟩

/-- Making a symbol special. -/
theorem Hp.modSpecial {i : SymPtr} {g : Sym → Sym} {f : Unit → M β} (hg : ∀ x, SymOk x (g x))
    (ho : ∀ x, (g x).ordinary = false) (hm : ∀ x b, (g x).macroNode = some b → x.macroNode = some b ∨ Any w b)
    (hf : Hs w τ (Special i) (f ())) : Hp w τ (Verif.modSym i g >>= f) := by
  intro v s hv hs ht
  by_cases hi : i < s.syms.length
  · have e0 : Verif.modSym i g s = (.ok (), { s with syms := s.syms.modify i g }) := if_pos hi
    rw [bind_ok e0]
    obtain ⟨h1, h2⟩ := hs.modify (List.getElem?_eq_getElem hi) (hg _) fun b hb => (hm _ b hb).imp id (·.mono hv)
    obtain ⟨v', a, b, c, d, e⟩ := hf v { s with syms := s.syms.modify i g } hv h1 ht
      ⟨g s.syms[i], by simp [hi], ho _⟩
    exact ⟨v', a, b, h2.trans c, d, e⟩
  · have e0 : Verif.modSym i g s = (.ub, s) := if_neg hi
    rw [run_bind, e0]
    exact ⟨v, List.prefix_refl _, hs, .refl _, ht, fun _ _ => trivial⟩

theorem Hp.expandPlusMinus {p : Ptr} (hp : Other w p) : Hp w τ (expandPlusMinus p) := by
  unfold Verif.expandPlusMinus
  refine Hp.bind (by hp) fun n => ?_
  split
  · refine Hp.ite (Hp.bind (by hp) fun s0 => ?_) (by hp)
    refine Hp.bind (Hp.resolveId _ hp) fun i? => Hp.bind (by hp) fun i => ?_
    refine Hp.modSpecial (fun x => ⟨rfl, rfl, rfl, rfl, id, id, id, fun _ => rfl, fun _ => rfl⟩) (fun x => by simp [Sym.ordinary])
      (fun x b h => .inl h) (Hs.bind ?_ fun _ => by hp)
    split
    · exact Hs.liftO_bind fun e => Hs.modValue (fun x ho => ⟨rfl, rfl, rfl, rfl, fun _ => rfl, id, id, id,
        fun h => absurd (ho.symm.trans h) Bool.false_ne_true⟩) fun x b h => h
    · exact (Hp.pure _).hs
  · exact Hp.ub

theorem Hp.symValue (i : SymPtr) : Hp w τ (symValue i) := by
  unfold Verif.symValue; hp
macro_rules | `(tactic| hp_leaf) => `(tactic| with_reducible exact Hp.symValue _)

theorem Hp.expandId {p : Ptr} (name : Str) (hp : Other w p) : Hp w τ (expandId p name) := by
  have h1 := Hp.expandPlusMinus (τ := τ) hp
  have h2 := fun b => Hp.resolveId (τ := τ) b hp
  unfold Verif.expandId; hp

theorem Hp.expandLabel {p : Ptr} (name : Str) (hp : Other w p) : Hp w τ (expandLabel p name) := by
  have h1 := Hp.expandPlusMinus (τ := τ) hp
  have h2 := fun b => Hp.resolveId (τ := τ) b hp
  unfold Verif.expandLabel; hp

theorem Hp.expandConstant {p : Ptr} (value : Int) (isPc : Bool) (hp : Has w p .expr) : Hp w τ (expandConstant p value isPc) := by
  unfold Verif.expandConstant
  refine Hp.ite (Hp.bind (by hp) fun s => Hp.bind' (Hq.node hp) fun v n hv hn => ?_) (by hp)
  exact Hp.bind (Hp.setNode (hp.mono hv) (by decide) ⟨rfl, hn.2⟩) fun _ => Hp.pure _

/-! ## What is known about recursive calls -/

/-- The recursive call keeps the typing, and in expressions and lists also the expansion type. -/
structure Sem (ex : Ptr → M Int) (hu : Ptr → M Bool) : Prop where
  x : ∀ v τ p, Ex v p → Hp v τ (ex p)
  c : ∀ v p, Any v p → Hp v none (ex p)
  a : ∀ v p e, Has v p .arg → e ≠ .symbol → Hp v (some e) (ex p)
  l : ∀ v p, Has v p .list → Hp v (some .symbol) (ex p)
  u : ∀ v τ p, Hp v τ (hu p)

variable {ex : Ptr → M Int} {hu : Ptr → M Bool}

/-! ## Output and listing -/

theorem Hp.writeByte (v : Int) : Hp w τ (writeByte v) := by
  unfold Verif.writeByte; hp
macro_rules | `(tactic| hp_leaf) => `(tactic| with_reducible exact Hp.writeByte _)
theorem Hp.writeWord (v : Int) : Hp w τ (writeWord v) := by
  unfold Verif.writeWord; hp
macro_rules | `(tactic| hp_leaf) => `(tactic| with_reducible exact Hp.writeWord _)
theorem Hp.writeBytes (v : Str) : Hp w τ (writeBytes v) := by
  unfold Verif.writeBytes; hp
macro_rules | `(tactic| hp_leaf) => `(tactic| with_reducible exact Hp.writeBytes _)
theorem Hp.writeData (v : Int) : Hp w τ (writeData v) := by
  unfold Verif.writeData; hp
macro_rules | `(tactic| hp_leaf) => `(tactic| with_reducible exact Hp.writeData _)
theorem Hp.writeHeader : Hp w τ Verif.writeHeader := by
  unfold Verif.writeHeader; hp
macro_rules | `(tactic| hp_leaf) => `(tactic| with_reducible exact Hp.writeHeader)
theorem Hp.writeStringNode (v : Str) : Hp w τ (writeStringNode v) := by
  unfold Verif.writeStringNode; hp
macro_rules | `(tactic| hp_leaf) => `(tactic| with_reducible exact Hp.writeStringNode _)
theorem Hp.writeDataValue (op : Int) : Hp w τ (writeDataValue op) := by
  unfold Verif.writeDataValue; hp
macro_rules | `(tactic| hp_leaf) => `(tactic| with_reducible exact Hp.writeDataValue _)
theorem Hp.addList (t : Str) : Hp w τ (addList t) := by
  unfold Verif.addList; hp
macro_rules | `(tactic| hp_leaf) => `(tactic| with_reducible exact Hp.addList _)
theorem Hp.addDirective : Hp w τ addDirective := by
  unfold Verif.addDirective; hp
macro_rules | `(tactic| hp_leaf) => `(tactic| with_reducible exact Hp.addDirective)
theorem Hp.listPrintState (st : Bool) : Hp w τ (listPrintState st) := by
  unfold Verif.listPrintState; hp
macro_rules | `(tactic| hp_leaf) => `(tactic| with_reducible exact Hp.listPrintState _)
theorem Hp.addPc (d : Int) : Hp w τ (addPc d) := by
  unfold Verif.addPc; hp
macro_rules | `(tactic| hp_leaf) => `(tactic| with_reducible exact Hp.addPc _)
theorem Hp.opNodeBytes (p : Ptr) : Hp w τ (opNodeBytes p) := by
  unfold Verif.opNodeBytes; hp
macro_rules | `(tactic| hp_leaf) => `(tactic| with_reducible exact Hp.opNodeBytes _)
theorem Hp.opCodeM (ins : Int) (mode : Mode) : Hp w τ (opCodeM ins mode) := by
  unfold Verif.opCodeM; hp
macro_rules | `(tactic| hp_leaf) => `(tactic| with_reducible exact Hp.opCodeM _ _)

theorem Hp.listString (pad : Bool) : ∀ (n : Nat) (v : Str), v.length ≤ n → ∀ (pc : Int) (prev : Str × Nat),
    Hp w τ (listString pad pc prev v) := by
  intro n
  induction n with
  | zero =>
    intro v hv pc prev
    have : v = [] := List.length_eq_zero_iff.mp (Nat.le_zero.mp hv)
    subst this
    unfold Verif.listString
    hp
  | succ n ih =>
    intro v hv pc prev
    unfold Verif.listString
    split
    · refine Hp.bind (Hp.addList _) fun _ => ih _ ?_ _ _
      simp only [List.length_cons] at hv
      omega
    all_goals hp
macro_rules | `(tactic| hp_leaf) => `(tactic| with_reducible exact Hp.listString _ _ _ (Nat.le_refl _) _ _)

/-- The operands of an instruction are expressions. -/
theorem NodeOk.opcode_ops {c : Col} {n : Node} (hn : NodeOk w c n) {a b : Int} {m : Mode} {d : Int}
    (hk : n.kind = .opcode a b m d) : ∀ o ∈ n.ops, Ex w o := by
  cases c with
  | id => obtain ⟨⟨_, _, _, h, _⟩, _⟩ := hn; rw [hk] at h; cases h
  | expr => rw [NodeOk, hk] at hn; exact absurd hn.1 Bool.false_ne_true
  | opc => exact hn.2
  | code => rw [NodeOk, hk] at hn; exact hn.elim
  | arg => rw [NodeOk, hk] at hn; cases hn.1
  | list => rw [NodeOk, hk] at hn; cases hn.1
  | item => obtain ⟨⟨_, _, h⟩, _⟩ := hn; rw [hk] at h; cases h

theorem Hp.generateOutput (hs : Sem ex hu) {p : Ptr} {c : Col} (hc : Has w p c) (he : Hp w τ (ex p)) :
    Hp w τ (generateOutput ex p) := by
  have hw : Hp w τ (writeOpcodeNode ex p) := by
    unfold Verif.writeOpcodeNode
    refine Hp.bind' (Hq.node hc) fun v n hv hn => ?_
    split
    · rename_i hk
      have ho : ∀ o ∈ n.ops, Hp v τ (ex o) := fun o h => hs.x v τ o (hn.opcode_ops hk o h)
      hp
    · hp
  have hd : Hp w τ (writeDataNode ex p) := by
    unfold Verif.writeDataNode; hp
  have hpay : ∀ n, Hp w τ (payload ex p n) := by
    intro n
    unfold Verif.payload; hp
  unfold Verif.generateOutput
  hp

theorem Hp.generateListNode (hs : Sem ex hu) {p : Ptr} {c : Col} (hc : Has w p c) (he : Hp w τ (ex p)) :
    Hp w τ (generateListNode ex p) := by
  unfold Verif.generateListNode
  refine Hp.bind' (Hq.node hc) fun v n hv hn => ?_
  have he := he.mono hv
  split
  · hp
  · hp
  · rename_i hk
    have ho : ∀ o ∈ n.ops, Hp v τ (ex o) := fun o h => hs.x v τ o (hn.opcode_ops hk o h)
    unfold Verif.listOpcode
    hp
  · unfold Verif.listData
    hp

theorem Hp.emitNode (hs : Sem ex hu) {p : Ptr} {c : Col} (hc : Has w p c) (he : Hp w τ (ex p)) : Hp w τ (emitNode ex p) := by
  unfold Verif.emitNode
  exact Hp.bind (Hp.generateListNode hs hc he) fun _ => Hp.bind (Hp.generateOutput hs hc he) fun _ => Hp.pure _

/-- The same for an expression or a statement. -/
theorem Hp.emitEx (hs : Sem ex hu) {p : Ptr} (h : Ex w p) : Hp w τ (Verif.emitNode ex p) := by
  have he := hs.x w τ p h
  rcases h with h | h <;> exact Hp.emitNode hs h he

theorem Hp.emitOpc (hs : Sem ex hu) {p : Ptr} (h : Has w p .opc) : Hp w none (Verif.emitNode ex p) :=
  Hp.emitNode hs h (hs.c w p (.inr (.inr h)))

/-! ## New nodes -/

theorem Hq.constantNode (value : Int) (isPc : Bool) : Hq w τ (fun v p => Has v p .expr) (constantNode value isPc) := by
  unfold Verif.constantNode
  exact Hq.bind Hp.getS fun s => Hq.alloc ⟨rfl, fun o ho => by cases ho⟩ (fun h => by cases h)

theorem Hq.dataNode (size : Int) {d : Ptr} (hd : Has w d .arg ∨ Ex w d) :
    Hq w τ (fun v p => Has v p .code) (dataNode size d) :=
  Hq.alloc (c := .code) ⟨hd, rfl⟩ (fun h => by cases h)

theorem Hp.lastValue {ops : List Ptr} (h : ∀ o ∈ ops, Hp w τ (ex o)) : Hp w τ (lastValue ex ops) := by
  unfold Verif.lastValue
  hp

theorem Hp.isAccOperand (mode : Mode) (ops : List Ptr) : Hp w τ (isAccOperand mode ops) := by
  unfold Verif.isAccOperand; hp

theorem Hq.opcodeNode (hs : Sem ex hu) (op : Int) (mode : Mode) {ops : List Ptr} (h : ∀ o ∈ ops, Ex w o) :
    Hq w τ (fun v p => Has v p .opc) (opcodeNode ex hu op mode ops) := by
  unfold Verif.opcodeNode
  refine Hq.bind Hp.getS fun s0 => ?_
  refine Hq.bind' (Hq.alloc (c := .opc) ⟨⟨_, _, _, _, rfl⟩, h⟩ (fun h => by cases h)) fun v p hv hp => ?_
  have ho : ∀ o ∈ ops, Ex v o := fun o hm => (h o hm).mono hv
  have hx : ∀ o ∈ ops, Hp v τ (ex o) := fun o hm => hs.x v τ o (ho o hm)
  refine Hq.bind (Hp.lastValue hx) fun val => Hq.bind (hs.u _ _ _) fun un => Hq.bind (Hp.isAccOperand _ _) fun acc =>
    Hq.bind Hp.getS fun s => ?_
  dsimp only
  refine Hq.bind (Hp.setNode hp (by decide) ⟨⟨_, _, _, _, rfl⟩, ho⟩) fun _ => ?_
  refine Hq.bind (by hp) fun _ => Hq.bind (by hp) fun _ => Hq.pure _ fun u hu => hp.mono hu

/-! ## Instructions -/

theorem Hp.modOpcode {p : Ptr} (h : Has w p .opc) {g : Int → Int → Mode → Int → Kind}
    (hg : ∀ a b m d, ∃ a' b' m' d', g a b m d = .opcode a' b' m' d') : Hp w τ (modOpcode p g) := by
  unfold Verif.modOpcode
  refine Hp.bind' (Hq.node h) fun v n hv hn => ?_
  split
  · exact Hp.setNode (h.mono hv) (by decide) ⟨hg _ _ _ _, hn.2⟩
  · exact Hp.ub

theorem Hp.zpOptimize {p : Ptr} (h : Has w p .opc) (ins : Int) (large : Bool) (mode mc : Mode) :
    Hp w τ (zpOptimize p ins large mode mc) := by
  unfold Verif.zpOptimize
  refine Hp.ite (Hp.bind (by hp) fun c => Hp.ite (Hp.modOpcode h fun a b m d => ⟨_, _, _, _, rfl⟩) (by hp)) (by hp)

theorem Hp.widen {p : Ptr} (h : Has w p .opc) (ins : Int) (mode mc : Mode) : Hp w τ (widen p ins mode mc) := by
  unfold Verif.widen
  refine Hp.bind (by hp) fun _ => Hp.bind (by hp) fun c => Hp.ite (Hp.modOpcode h fun a b m d => ⟨_, _, _, _, rfl⟩) (by hp)

theorem Hp.longBranch (hs : Sem ex hu) {p t : Ptr} (h : Has w p .opc) (ht : Ex w t) (c c2 : Int) (m : Mode) :
    Hp w none (longBranch ex hu p t c c2 m) := by
  unfold Verif.longBranch
  refine Hp.bind' (Hq.opcodeNode hs _ _ (ops := [t]) (by simpa using ht)) fun v j hv hj => ?_
  have h := h.mono hv
  refine Hp.bind (Hp.modOpcode h fun a b m d => ⟨_, _, _, _, rfl⟩) fun _ => Hp.bind (by hp) fun s => ?_
  refine Hp.bind (Hp.ite (Hp.bind' (Hq.constantNode _ _) fun v1 c hv1 hc => ?_) (by hp)) fun _ => ?_
  · refine Hp.bind' (Hq.node (h.mono hv1)) fun v2 n hv2 hn => ?_
    refine Hp.bind (Hp.setNode ((h.mono hv1).mono hv2) (by decide) ⟨hn.1, fun o ho => ?_⟩) fun _ =>
      Hp.emitOpc hs ((h.mono hv1).mono hv2)
    rcases List.mem_or_eq_of_mem_set ho with ho | rfl
    · exact hn.2 o ho
    · exact .inr (hc.mono hv2)
  · refine Hp.bind (by hp) fun b => Hp.bind (by hp) fun _ => Hp.bind (by hp) fun s => ?_
    refine Hp.bind (Hp.ite (Hp.bind (Hp.modOpcode hj fun a b m d => ⟨_, _, _, _, rfl⟩) fun _ =>
      Hp.bind (Hp.emitOpc hs hj) fun _ => by hp) (by hp)) fun _ => ?_
    exact Hp.bind (by hp) fun _ => Hp.bind (by hp) fun _ => Hp.modOpcode h fun a b m d => ⟨_, _, _, _, rfl⟩

theorem Hp.operandPhase (hs : Sem ex hu) {p : Ptr} (h : Has w p .opc) {n : Node} (hn : ∀ o ∈ n.ops, Ex w o) (ins code : Int)
    (mode : Mode) (pc : Int) : Hp w none (operandPhase ex hu p n ins code mode pc) := by
  have h1 := fun a b c d => Hp.zpOptimize (τ := none) h a b c d
  have h2 := fun a b c => Hp.widen (τ := none) h a b c
  have h3 : ∀ t, Ex w t → ∀ a b c, Hp w none (Verif.longBranch ex hu p t a b c) := fun t ht a b c => Hp.longBranch hs h ht a b c
  have h4 : ∀ i : Int, Hp w none (Verif.modOpcode p fun _ c m pc => .opcode i c m pc) := fun i =>
    Hp.modOpcode h fun a b m d => ⟨_, _, _, _, rfl⟩
  unfold Verif.operandPhase
  dsimp only
  refine Hp.ite (by hp) (Hp.opAt_bind fun o ho => ?_)
  have h5 := h3 o (hn o ho)
  have h6 := hs.x w none o (hn o ho)
  clear h3
  hp

theorem Hp.expandOpCode (hs : Sem ex hu) {p : Ptr} (h : Has w p .opc) : Hp w none (expandOpCode ex hu p) := by
  unfold Verif.expandOpCode
  refine Hp.bind' (Hq.node h) fun v n hv hn => ?_
  have h := h.mono hv
  split
  · have h1 := Hp.emitOpc hs h
    have h2 := hs.u v none p
    have h3 := fun a b c d => Hp.operandPhase hs h hn.2 a b c d
    refine Hp.bind (by hp) fun _ => Hp.bind (by hp) fun s => ?_
    refine Hp.bind (Hp.setNode h (by decide) ⟨⟨_, _, _, _, rfl⟩, hn.2⟩) fun _ => ?_
    refine Hp.bind (by hp) fun d => Hp.ite (by hp) ?_
    refine Hp.bind (by hp) fun _ => Hp.bind (by hp) fun _ => Hp.bind (by hp) fun _ => Hp.bind (by hp) fun _ => Hp.bind (by hp) fun _ => ?_
    exact Hp.bind (Hp.modOpcode h fun a b m d => ⟨_, _, _, _, rfl⟩) fun _ => Hp.pure _
  · hp

/-! ## Register loops -/

theorem Hp.injectOp (hs : Sem ex hu) (ins : Int) (mode : Mode) (arg : Option Int) : Hp w none (injectOp ex hu ins mode arg) := by
  unfold Verif.injectOp
  have h : Hq w none (fun v ops => ∀ o ∈ ops, Ex v o) (match arg with
    | some v => do
      let c ← Verif.constantNode v false
      M.pure [c]
    | none => M.pure [] : M (List Ptr)) := by
    cases arg with
    | none => exact Hq.pure _ fun v _ o ho => by cases ho
    | some x =>
      exact Hq.bind' (Hq.constantNode _ _) fun v c hv hc => Hq.pure _ fun u hu o ho => by
        rw [List.mem_singleton.mp ho]
        exact .inr (hc.mono hu)
  refine Hp.bind' h fun v ops hv ho => ?_
  refine Hp.bind' (Hq.opcodeNode hs _ _ ho) fun u p hu hp => ?_
  exact Hp.bind (hs.c u p (.inr (.inr hp))) fun _ => Hp.pure _

theorem Hp.addForCount (isX : Bool) (d : Int) : Hp w τ (addForCount isX d) := by
  unfold Verif.addForCount
  refine Hp.modS fun s => ?_
  split <;> exact ⟨rfl, rfl, rfl, Nat.le_refl _⟩
macro_rules | `(tactic| hp_leaf) => `(tactic| with_reducible exact Hp.addForCount _ _)

theorem Hp.leaveForReg (isX : Bool) : Hp w τ (leaveForReg isX) := by
  unfold Verif.leaveForReg; hp
macro_rules | `(tactic| hp_leaf) => `(tactic| with_reducible exact Hp.leaveForReg _)

theorem Hp.forRegTail (hs : Sem ex hu) (isX : Bool) (endV inc startPc : Int) : Hp w none (forRegTail ex hu isX endV inc startPc) := by
  have h := fun a b c => Hp.injectOp (w := w) hs a b c
  unfold Verif.forRegTail; hp

theorem Hp.expandForReg (hs : Sem ex hu) (isX : Bool) {n : Node} (hk : ∀ o ∈ n.ops, Hp w none (ex o)) :
    Hp w none (expandForReg ex hu isX n) := by
  have h := fun a b c => Hp.injectOp (w := w) hs a b c
  have h2 := fun a b c => Hp.forRegTail (w := w) hs isX a b c
  unfold Verif.expandForReg; hp

/-! ## Statements whose operands are expanded as they are -/

section
variable {n : Node} (hk : ∀ o ∈ n.ops, Hp w τ (ex o))
include hk

theorem Hp.expandPcAssign : Hp w τ (expandPcAssign ex n) := by
  unfold Verif.expandPcAssign; hp
theorem Hp.expandOrg : Hp w τ (expandOrg ex n) := by
  unfold Verif.expandOrg; hp
theorem Hp.expandDs : Hp w τ (expandDs ex n) := by
  unfold Verif.expandDs; hp
theorem Hp.pcOverflow' : Hp w τ Verif.pcOverflow := by
  unfold Verif.pcOverflow; hp
theorem Hp.expandWhile (f : Nat) : Hp w τ (expandWhile ex f n) := by
  have := Hp.pcOverflow' hk
  unfold Verif.expandWhile; hp
theorem Hp.expandRepeat (f : Nat) (untl : Bool) : Hp w τ (expandRepeat ex f untl n) := by
  have := Hp.pcOverflow' hk
  unfold Verif.expandRepeat; hp
theorem Hp.expandIf : Hp w τ (expandIf ex n) := by
  unfold Verif.expandIf; hp
theorem Hp.expandStatement : Hp w τ (expandStatement ex n) := by
  unfold Verif.expandStatement
  refine Hp.operands_bind fun os ho => Hp.bind (Hp.forEachM _ fun o hm => ?_) fun _ => Hp.pure _
  exact Hp.bind (hk o (ho o hm)) fun _ => Hp.pure _
theorem Hp.bin (g : Int → Int → Option Int) : Hp w τ (bin ex n g) := by
  unfold Verif.bin; hp
theorem Hp.una (g : Int → Option Int) : Hp w τ (una ex n g) := by
  unfold Verif.una; hp
theorem Hp.expandDivide : Hp w τ (expandDivide ex n) := by
  have := Hp.bin hk cdiv
  unfold Verif.expandDivide; hp
theorem Hp.shortCircuit (stop : Bool) : Hp w τ (shortCircuit ex n stop) := by
  unfold Verif.shortCircuit; hp

end

theorem Hp.expandInclude (n : Node) : Hp w τ (expandInclude n) := by
  unfold Verif.expandInclude; hp
theorem Hp.expandSection (n : Node) : Hp w τ (expandSection n) := by
  unfold Verif.expandSection; hp
theorem Hp.expandEndSection : Hp w τ expandEndSection := by
  unfold Verif.expandEndSection; hp

/-! ## Data -/

theorem Hp.expandData (hs : Sem ex hu) (size : Int) {d : Ptr} (hd : Has w d .arg ∨ Ex w d) :
    Hp w none (expandData ex size d) := by
  unfold Verif.expandData
  refine Hp.setExp' (e := if size = 0 then .dataStrings else .dataBytes) (fun s => ⟨rfl, rfl, rfl, Nat.le_refl _⟩) ?_
  rcases hd with hd | hd
  · exact hs.a _ _ _ hd (by split <;> decide)
  · exact hs.x _ _ _ hd

theorem Hp.fillStep (hs : Sem ex hu) (count : Int) {two one : Ptr} (h2 : Has w two .code) (h1 : Has w one .code) :
    Hp w none (fillStep ex count two one) := by
  have h : Has w (if count > 1 then two else one) .code := by split <;> assumption
  have a := Hp.generateOutput hs h (hs.c w _ (.inr (.inl h)))
  have b := Hp.generateListNode hs h (hs.c w _ (.inr (.inl h)))
  unfold Verif.fillStep
  dsimp only
  exact Hp.bind (by hp) fun _ => Hp.bind a fun _ => Hp.bind b fun _ => by hp

theorem Hp.fillLoop (hs : Sem ex hu) {two one : Ptr} (h2 : Has w two .code) (h1 : Has w one .code) :
    ∀ (f : Nat) (c : Int), Hp w none (fillLoop ex two one f c)
  | 0, c => by unfold Verif.fillLoop; hp
  | f + 1, c => by
    have ih := Hp.fillLoop hs h2 h1 f
    have h := fun c => Hp.fillStep hs c h2 h1
    unfold Verif.fillLoop
    hp

theorem Hp.expandFill (hs : Sem ex hu) (f : Nat) {n : Node} (hk : ∀ o ∈ n.ops, Hp w none (ex o)) :
    Hp w none (expandFill ex f n) := by
  unfold Verif.expandFill
  refine Hp.opAt_bind fun o ho => Hp.bind (hk o ho) fun byt => Hp.opAt_bind fun o1 ho1 => Hp.bind (hk o1 ho1) fun count => ?_
  refine Hp.ite (by hp) (Hp.bind (by hp) fun s => Hp.bind (Hp.ite ?_ (by hp)) fun _ => by hp)
  refine Hp.bind (by hp) fun _ => ?_
  refine Hp.bind' (Hq.constantNode _ _) fun v1 c2 w1 hc2 => ?_
  refine Hp.bind' (Hq.dataNode _ (.inr (.inr hc2))) fun v2 two w2 ht => ?_
  refine Hp.bind' (Hq.constantNode _ _) fun v3 c1 w3 hc1 => ?_
  refine Hp.bind' (Hq.dataNode _ (.inr (.inr hc1))) fun v4 one w4 h1 => ?_
  exact Hp.fillLoop hs ((ht.mono w3).mono w4) h1 _ _

theorem Hp.loadEmit (hs : Sem ex hu) (size value : Int) : Hp w none (loadEmit ex size value) := by
  unfold Verif.loadEmit
  refine Hp.bind (by hp) fun _ => ?_
  refine Hp.bind' (Hq.constantNode _ _) fun v1 c w1 hc => ?_
  refine Hp.bind' (Hq.alloc (c := .arg) (k := .opr .exprList) (ops := [c]) ⟨rfl, fun o ho => ?_⟩ (fun h => by cases h))
    fun v2 l w2 hl => ?_
  · rw [List.mem_singleton.mp ho]
    exact .inr (.inr hc)
  · refine Hp.bind' (Hq.dataNode _ (.inl hl)) fun v3 d w3 hd => ?_
    exact Hp.bind (hs.c _ _ (.inr (.inl hd))) fun _ => Hp.pure _

theorem Hp.loadLoop (hs : Sem ex hu) : ∀ (n : Nat) (bs : List Nat), bs.length ≤ n → Hp w none (loadLoop ex bs) := by
  intro n
  induction n with
  | zero =>
    intro bs h
    have : bs = [] := List.length_eq_zero_iff.mp (Nat.le_zero.mp h)
    subst this
    exact Hp.pure _
  | succ n ih =>
    intro bs h
    unfold Verif.loadLoop
    split
    · refine Hp.bind (Hp.loadEmit hs _ _) fun _ => ih _ ?_
      simp only [List.length_cons] at h
      omega
    · exact Hp.loadEmit hs _ _
    · exact Hp.pure _

theorem Hp.expandLoad (hs : Sem ex hu) (n : Node) : Hp w none (expandLoad ex n) := by
  have h := fun bs => Hp.loadLoop (w := w) hs _ bs (Nat.le_refl _)
  unfold Verif.expandLoad; hp

/-! ## Lists -/

theorem Hp.macroArg (hs : Sem ex hu) {pp : Ptr} (h : Ex w pp) (n : Node) : Hp w τ (macroArg ex pp n) := by
  have h1 := hs.x w τ pp h
  unfold Verif.macroArg; hp

theorem Hp.dataBytesItem (hs : Sem ex hu) (acc : Option SymPtr) {pp : Ptr} (h : Ex w pp) (n : Node) :
    Hp w τ (dataBytesItem ex hu acc pp n) := by
  have h1 := hs.x w τ pp h
  have h2 := Hp.emitEx (τ := τ) hs h
  have h3 := hs.u w τ pp
  unfold Verif.dataBytesItem; hp

theorem Hp.dataStringsItem (hs : Sem ex hu) (acc : Option SymPtr) {pp : Ptr} (h : Ex w pp) (n : Node) :
    Hp w τ (dataStringsItem ex acc pp n) := by
  have h1 := hs.x w τ pp h
  have h2 := Hp.emitEx (τ := τ) hs h
  unfold Verif.dataStringsItem; hp

theorem Hp.printItem (hs : Sem ex hu) (all : Bool) (acc : Option SymPtr) {pp : Ptr} (h : Ex w pp) (n : Node) :
    Hp w τ (printItem ex all acc pp n) := by
  have h1 := hs.x w τ pp h
  unfold Verif.printItem; hp

/-- Expressions are not lists, and their operands are expressions. -/
theorem Ex.node {pp : Ptr} (h : Ex w pp) : Hq w τ (fun v n => n.kind ≠ .opr .exprList ∧ ∀ o ∈ n.ops, Ex v o) (node pp) := by
  rcases h with h | h
  · refine (Hq.node h).weak fun v n _ hn => ⟨?_, by rw [hn.2]; intro o ho; cases ho⟩
    obtain ⟨⟨_, _, _, h1, _⟩, _⟩ := hn
    rw [h1]
    exact fun h => by cases h
  · refine (Hq.node h).weak fun v n _ hn => ⟨fun h1 => ?_, hn.2⟩
    have := hn.1
    rw [h1] at this
    exact absurd this Bool.false_ne_true

/-- An item of an expression list. -/
theorem Hp.argItem (hs : Sem ex hu) (acc : Option SymPtr) {pp : Ptr} (h : Has w pp .arg ∨ Ex w pp) {e : ExpType}
    (he : e ≠ .symbol) : Hp w (some e) (exprListItem ex hu acc pp) := by
  unfold Verif.exprListItem
  rcases h with h | h
  · refine Hp.bind' (Hq.node h) fun v n hv hn => ?_
    rw [if_pos hn.1]
    exact Hp.bind (hs.a _ _ _ (h.mono hv) he) fun _ => Hp.pure _
  · refine Hp.bind' h.node fun v n hv hn => ?_
    rw [if_neg hn.1]
    have h := h.mono hv
    refine Hp.operands_bind fun os ho => Hp.bind (Hp.forEachM _ fun o hm => ?_) fun _ => ?_
    · exact Hp.bind (hs.x _ _ _ (hn.2 o (ho o hm))) fun _ => Hp.pure _
    · refine Hp.bind (by hp) fun m => Hp.getS_bind fun s hst => ?_
      have := hst e rfl
      split
      · rename_i h'
        rw [h'] at this
        exact absurd this.symm he
      · exact Hp.macroArg hs h _
      · exact Hp.dataBytesItem hs _ h _
      · exact Hp.dataStringsItem hs _ h _
      · exact Hp.printItem hs _ _ h _
      · exact Hp.printItem hs _ _ h _

/-- A name declared by `.var`: it is bound to a variable. -/
theorem Hp.varItem_name (acc : Option SymPtr) {pp : Ptr} (h : Has w pp .item) :
    Hp w τ (Verif.node pp >>= fun n => varItem ex acc pp n) := by
  intro v s hv hs ht
  have hv' := h.mono hv
  have same : ∀ {γ : Type} (r : Res γ), ∃ v', v <+: v' ∧ Good v' ((r, s) : Res γ × St).2 ∧ Zr s ((r, s) : Res γ × St).2 ∧
      (∀ e, τ = some e → ((r, s) : Res γ × St).2.expansionType = e) ∧ ∀ a, ((r, s) : Res γ × St).1 = .ok a → True :=
    fun r => ⟨v, List.prefix_refl _, hs, .refl _, ht, fun _ _ => trivial⟩
  by_cases hb : pp < s.nodeBase
  · have e0 : Verif.node pp s = (.ub, s) := if_pos hb
    rw [run_bind, e0]
    exact same _
  · cases hn : s.nodes[pp]? with
    | none =>
      have e0 : Verif.node pp s = (.ub, s) := by unfold Verif.node; rw [if_neg hb, hn]
      rw [run_bind, e0]
      exact same _
    | some n =>
      have e0 : Verif.node pp s = (.ok n, s) := by unfold Verif.node; rw [if_neg hb, hn]
      obtain ⟨⟨name, i, hk⟩, hops⟩ := hs.nodes pp n .item hn hv'
      rw [bind_ok e0]
      unfold Verif.varItem
      rw [hk]
      simp only
      unfold Verif.varName
      cases i with
      | some j =>
        obtain ⟨x, hx, hvar⟩ := hs.items pp n .id name j hn hv' hk
        have hl := (List.getElem?_eq_some_iff.mp hx).1
        have e1 : Verif.resolveId false pp s = (.ok (some j), s) := by
          unfold Verif.resolveId
          rw [bind_ok e0, hk]
          rfl
        rw [bind_ok e1]
        simp only [Option.isSome_some, Bool.true_eq_false, if_false]
        rw [pure_bind', Verif.getS_bind]
        have := Hs.modValue (w := v) (τ := τ) (i := j) (g := fun x => { x with value := 0, isInit := true })
          (fun x ho => ⟨rfl, rfl, rfl, rfl, fun _ => rfl, id, id, id, fun h => absurd (ho.symm.trans h) Bool.false_ne_true⟩)
          (fun x b h => h)
        exact (this.bind fun _ => Hp.pure (some (some j))) v s (List.prefix_refl _) hs ht
          ⟨x, hx, by simp [Sym.ordinary, hvar]⟩
      | none =>
        have e1 : Verif.resolveId false pp s = (Verif.addSymbol name >>= fun j =>
            Verif.setNode pp { n with kind := .id .id name j } >>= fun _ => M.pure j) s := by
          unfold Verif.resolveId
          rw [bind_ok e0, hk]
        obtain ⟨v1, a1, b1, c1, d1, _⟩ := Hp.addSymbol (w := v) (τ := τ) name v s (List.prefix_refl _) hs ht
        have kn := Keep.addSymbol_nodes name s
        have kb := Keep.addSymbol_base name s
        rw [run_bind, e1, run_bind]
        rcases hr : Verif.addSymbol name s with ⟨r, s1⟩
        rw [hr] at b1 c1 d1 kn kb
        simp only at b1 c1 d1 kn kb
        cases r with
        | exit _ => exact ⟨v1, a1, b1, c1, d1, fun _ _ => trivial⟩
        | ub => exact ⟨v1, a1, b1, c1, d1, fun _ _ => trivial⟩
        | timeout => exact ⟨v1, a1, b1, c1, d1, fun _ _ => trivial⟩
        | ok j =>
          have hset : ∀ m : Node, Verif.setNode pp m s1 = (.ok (), { s1 with nodes := s1.nodes.set pp m }) := by
            intro m
            unfold Verif.setNode
            rw [kn, kb, if_neg]
            exact fun h => h.elim hb (Nat.not_le.mpr (List.getElem?_eq_some_iff.mp hn).1)
          have hc : Has v1 pp .item := hv'.mono a1
          simp only [run_bind, hset, run_pure]
          cases j with
          | none =>
            refine ⟨v1, a1, (b1.set hc (n := { n with kind := .id .id name none }) ⟨⟨name, none, rfl⟩, hops⟩
              fun _ k nm j h => by cases h).of rfl rfl, ?_, d1,
              fun _ _ => trivial⟩
            exact c1.trans ⟨.refl _, Nat.le_refl _, fun _ => .refl _⟩
          | some j =>
            have hj : j < s1.syms.length := addSymbol_lt hr
            have hx := List.getElem?_eq_getElem hj
            obtain ⟨g1, z1⟩ := b1.modify hx (g := fun x => { x with isVar := true, value := 0, isInit := true })
              ⟨rfl, rfl, rfl, rfl, fun _ => rfl, id, fun _ => rfl, id, fun h => by simp [Sym.ordinary] at h⟩ fun b hb => .inl hb
            have g2 := g1.set hc (n := { n with kind := .id .id name (some j) }) ⟨⟨name, some j, rfl⟩, hops⟩
              fun _ k nm j' h => by
                cases h
                exact ⟨{ s1.syms[j] with isVar := true, value := 0, isInit := true }, by simp [hj], rfl⟩
            have z2 := c1.trans z1
            simp only [Option.isSome_none, if_true, run_bind, Verif.modSym, hj, List.length_modify, run_getS, run_pure]
            refine ⟨v1, a1, ?_, ?_, d1, fun _ _ => trivial⟩
            · simp only [List.modify_modify_eq]
              exact g2.of rfl rfl
            · simp only [List.modify_modify_eq]
              exact ⟨z2.syms, z2.svc, z2.val⟩

/-- An item of a `.var` list. -/
theorem Hp.listItem (hs : Sem ex hu) (acc : Option SymPtr) {pp : Ptr}
    (h : Has w pp .list ∨ Has w pp .item ∨ Has w pp .expr) : Hp w (some .symbol) (exprListItem ex hu acc pp) := by
  have sel : ∀ m : Node → M (Option (Option SymPtr)), ∀ r1 r2 r3 r4 r5 : Node → M (Option (Option SymPtr)), ∀ v,
      Hp v (some .symbol) (Verif.node pp >>= m) → Hp v (some .symbol) (Verif.node pp >>= fun n => Verif.getS >>= fun s =>
        match s.expansionType with
        | .symbol => m n
        | .macroParameter => r1 n
        | .dataBytes => r2 n
        | .dataStrings => r3 n
        | .printAll => r4 n
        | .print => r5 n) := by
    intro m r1 r2 r3 r4 r5 v hm u s hu hs ht
    have e : (Verif.node pp >>= fun n => Verif.getS >>= fun s =>
        match s.expansionType with
        | .symbol => m n
        | .macroParameter => r1 n
        | .dataBytes => r2 n
        | .dataStrings => r3 n
        | .printAll => r4 n
        | .print => r5 n) s = (Verif.node pp >>= m) s := by
      rw [run_bind, run_bind]
      have hk := (Keep.node pp : Keep id (Verif.node pp)) s
      rcases hr : Verif.node pp s with ⟨r, s'⟩
      rw [hr] at hk
      simp only [id] at hk
      subst hk
      cases r with
      | ok n =>
        simp only [Verif.getS_bind]
        rw [ht .symbol rfl]
      | _ => rfl
    rw [e]
    exact hm u s hu hs ht
  unfold Verif.exprListItem
  rcases h with h | h | h
  · refine Hp.bind' (Hq.node h) fun v n hv hn => ?_
    rw [if_pos hn.1]
    exact Hp.bind (hs.l _ _ (h.mono hv)) fun _ => Hp.pure _
  · refine Hp.bind' (Hq.node h) fun v n hv hn => ?_
    obtain ⟨⟨name, i, hk⟩, hops⟩ := hn
    rw [if_neg (by rw [hk]; exact fun h => by cases h)]
    refine Hp.operands_bind fun os ho => Hp.bind (Hp.forEachM _ fun o hm => ?_) fun _ => ?_
    · have := ho o hm
      rw [hops] at this
      cases this
    · exact sel _ _ _ _ _ _ v (Hp.varItem_name acc (h.mono hv))
  · refine Hp.bind' (Ex.node (.inr h)) fun v n hv hn => ?_
    rw [if_neg hn.1]
    have h := h.mono hv
    refine Hp.operands_bind fun os ho => Hp.bind (Hp.forEachM _ fun o hm => ?_) fun _ => ?_
    · exact Hp.bind (hs.x _ _ _ (hn.2 o (ho o hm))) fun _ => Hp.pure _
    · refine sel _ _ _ _ _ _ v (Hp.bind' (Hq.node h) fun u m hu hm => ?_)
      have hx := hs.x u (some .symbol) pp (.inr (h.mono hu))
      unfold Verif.varItem
      split
      · rename_i hk
        have := hm.1
        rw [hk] at this
        exact absurd this Bool.false_ne_true
      · rename_i hk
        have := hm.1
        rw [hk] at this
        exact absurd this Bool.false_ne_true
      · hp

theorem Hp.expandArgs (hs : Sem ex hu) {n : Node} (hn : NodeOk w .arg n) {e : ExpType} (he : e ≠ .symbol) :
    Hp w (some e) (expandExprList ex hu n) := by
  unfold Verif.expandExprList
  exact Hp.operands_bind fun os ho => Hp.bind (Hp.eachM _ _ fun a o hm => Hp.argItem hs a (hn.2 o (ho o hm)) he) fun _ => Hp.pure _

theorem Hp.expandVars (hs : Sem ex hu) {n : Node} (hn : NodeOk w .list n) : Hp w (some .symbol) (expandExprList ex hu n) := by
  unfold Verif.expandExprList
  exact Hp.operands_bind fun os ho => Hp.bind (Hp.eachM _ _ fun a o hm => Hp.listItem hs a (hn.2 o (ho o hm))) fun _ => Hp.pure _

theorem Hp.expandVariable (hs : Sem ex hu) {n : Node} (hn : ∀ o ∈ n.ops, Has w o .list) : Hp w none (expandVariable ex n) := by
  unfold Verif.expandVariable
  exact Hp.opAt_bind fun o ho => Hp.setExp' (fun s => ⟨rfl, rfl, rfl, Nat.le_refl _⟩) (hs.l _ _ (hn o ho))

theorem Hp.expandPrint (hs : Sem ex hu) (all : Bool) {n : Node} (hn : ∀ o ∈ n.ops, Has w o .arg) :
    Hp w none (expandPrint ex all n) := by
  have e : Verif.expandPrint ex all n = (Verif.modS (fun s => { s with expansionType := if all then .printAll else .print }) >>= fun _ =>
      (Verif.operands n >>= fun os => Verif.forEachM (fun o => do
        let _ ← ex o
        M.pure ()) os) >>= fun _ => (do
        Verif.modS fun s => if s.finalPass || all then { s with console := s.console ++ [10] } else s
        M.pure 0 : M Int)) := by
    unfold Verif.expandPrint
    simp only [bind_assoc']
  rw [e]
  refine Hp.setExp (e := if all then .printAll else .print) (fun s => ⟨rfl, rfl, rfl, Nat.le_refl _⟩) ?_ fun _ => by hp
  refine Hp.operands_bind fun os ho => Hp.forEachM _ fun o hm => ?_
  exact Hp.bind (hs.a _ _ _ (hn o (ho o hm)) (by cases all <;> decide)) fun _ => Hp.pure _

/-! ## Macros -/

theorem Hp.createMacroEntry (name : Str) : Hp w τ (createMacroEntry name) := by
  unfold Verif.createMacroEntry; hp
macro_rules | `(tactic| hp_leaf) => `(tactic| with_reducible exact Hp.createMacroEntry _)
theorem Hp.entryCount (name : Str) (found : Bool) : Hp w τ (entryCount name found) := by
  unfold Verif.entryCount; hp
macro_rules | `(tactic| hp_leaf) => `(tactic| with_reducible exact Hp.entryCount _ _)
theorem Hp.bumpMacro (name : Str) (found : Bool) : Hp w τ (bumpMacro name found) := by
  unfold Verif.bumpMacro; hp
macro_rules | `(tactic| hp_leaf) => `(tactic| with_reducible exact Hp.bumpMacro _ _)
theorem Hp.pushMacroParams : Hp w τ pushMacroParams := by
  unfold Verif.pushMacroParams; hp
macro_rules | `(tactic| hp_leaf) => `(tactic| with_reducible exact Hp.pushMacroParams)
theorem Hp.popMacroParams : Hp w τ popMacroParams := by
  have := Hp.restoreParams (w := w) (τ := τ)
  unfold Verif.popMacroParams; hp
macro_rules | `(tactic| hp_leaf) => `(tactic| with_reducible exact Hp.popMacroParams)

theorem Hp.expandMacroId (hs : Sem ex hu) {p : Ptr} (name : Str) (h : Other w p) : Hp w none (expandMacroId ex p name) := by
  have h1 := Hp.expandId (τ := none) name h
  unfold Verif.expandMacroId
  refine Hp.bind (by hp) fun _ => Hp.bind (by hp) fun _ => Hp.bind (by hp) fun _ => Hp.bind (by hp) fun _ => Hp.bind h1 fun _ =>
    Hp.bind (by hp) fun n => ?_
  split
  · refine Hp.bind' (Hq.sym _) fun v x hv hx => ?_
    split
    · hp
    · rename_i b hb
      exact Hp.bind (hs.c _ _ (hx b hb)) fun _ => by hp
  · hp
  · hp

theorem Hp.expandMacroEx (hs : Sem ex hu) (name : Str) {body : Ptr} {params : Option Ptr} (hb : Has w body .code)
    (hq : ∀ q, params = some q → Has w q .arg) : Hp w none (expandMacroEx ex name body params) := by
  unfold Verif.expandMacroEx
  refine Hp.bind (by hp) fun _ => Hp.bind (by hp) fun _ => ?_
  refine Hp.setExp (e := .macroParameter) (fun s => ⟨rfl, rfl, rfl, Nat.le_refl _⟩) ?_ fun _ => ?_
  · split
    · exact Hp.bind (hs.a _ _ _ (hq _ rfl) (by decide)) fun _ => Hp.pure _
    · hp
  · refine Hp.bind (by hp) fun _ => Hp.bind (by hp) fun _ => Hp.bind (by hp) fun _ =>
      Hp.bind (hs.c _ _ (.inr (.inl hb))) fun _ => by hp

theorem Hp.expandMacroDef {n : Node} (hk : ∀ o ∈ n.ops, Any w o) : Hp w τ (expandMacroDef n) := by
  unfold Verif.expandMacroDef
  refine Hp.opAt_bind fun o ho => Hp.bind (by hp) fun on => ?_
  split
  · refine Hp.bind (by hp) fun _ => Hp.bind (by hp) fun r => ?_
    split
    · refine Hp.opAt_bind fun b hb => Hp.bind (by hp) fun s => Hp.bind (Hp.modSym (fun x => ?_) fun x b' h => ?_) fun _ => Hp.pure _
      · exact ⟨rfl, rfl, rfl, rfl, fun _ => rfl, fun _ => rfl, id, id, fun h => by simp [Sym.ordinary] at h⟩
      · cases h
        exact .inr (hk b hb)
    · hp
  · hp

/-! ## Loops over a symbol, assignment -/

theorem Hp.needSym (r : Option SymPtr) : Hp w τ (needSym r) := by
  unfold Verif.needSym; hp
macro_rules | `(tactic| hp_leaf) => `(tactic| with_reducible exact Hp.needSym _)

/-- What an expression or statement uses is not declared by `.var`. -/
theorem Any.node {p : Ptr} (h : Any w p) : Hq w τ (fun v n => ∀ o ∈ n.ops, Other v o) (node p) := by
  have key : ∀ c, Has w p c → Hq w τ (fun v n => ∀ o ∈ n.ops, Other v o) (Verif.node p) := fun c hc =>
    (Hq.node hc).weak fun v n hv hn => hn.kid_other (h.mono hv) (hc.mono hv)
  rcases h with (h' | h') | h' | h' <;> exact key _ h'

theorem Hp.expandFor (hs : Sem ex hu) (f : Nat) {n : Node} (hk : ∀ o ∈ n.ops, Any w o) : Hp w none (expandFor ex f n) := by
  have hx : ∀ {v}, w <+: v → ∀ o ∈ n.ops, Hp v none (ex o) := fun hv o ho => hs.c _ _ ((hk o ho).mono hv)
  unfold Verif.expandFor
  refine Hp.bind (Hp.ite (Hp.opAt_bind fun o ho => hx (List.prefix_refl _) o ho) (by hp)) fun stepV => ?_
  refine Hp.opAt_bind fun o0 h0 => Hp.bind' (hk o0 h0).node fun v asn hv hasn => ?_
  refine Hp.opAt_bind fun x hxm => Hp.bind (by hp) fun vn => ?_
  refine Hp.bind ?_ fun start? => Hp.bind (hx hv o0 h0) fun _ => ?_
  · split
    · exact Hp.bind (Hp.resolveId _ (hasn x hxm)) fun _ => by hp
    · hp
  · refine Hp.opAt_bind fun o3 h3 => Hp.bind (Hp.resolveId _ ((hk o3 h3).mono hv).other) fun r => Hp.bind (by hp) fun i => ?_
    refine Hp.opAt_bind fun o1 h1 => Hp.bind (hx hv o1 h1) fun endV => Hp.ite (by hp) ?_
    refine Hp.opAt_bind fun o2 h2 => Hp.bind (Hp.loopM _ ?_) fun _ => Hp.pure _
    have := hx hv o2 h2
    unfold Verif.forStep Verif.pcOverflow
    hp

theorem Hp.equMinus (op : Int) : Hp w τ (equMinus op) := by
  unfold Verif.equMinus Verif.addMinus; hp
theorem Hp.equPlus (op : Int) : Hp w τ (equPlus op) := by
  unfold Verif.equPlus Verif.addPlus; hp
theorem Hp.equTarget (i : SymPtr) (x : Sym) : Hp w τ (equTarget i x) := by
  unfold Verif.equTarget; hp

theorem Hp.expandEqu {n : Node} (hk : ∀ o ∈ n.ops, Any w o) (hx : ∀ o ∈ n.ops, Hp w τ (ex o)) : Hp w τ (expandEqu ex n) := by
  have h1 := fun op => Hp.equMinus (w := w) (τ := τ) op
  have h2 := fun op => Hp.equPlus (w := w) (τ := τ) op
  have h3 := fun i x => Hp.equTarget (w := w) (τ := τ) i x
  unfold Verif.expandEqu
  refine Hp.opAt_bind fun o1 ho1 => Hp.bind (hx o1 ho1) fun op => Hp.opAt_bind fun o0 ho0 => Hp.bind (by hp) fun on => ?_
  have h4 := fun b => Hp.resolveId (τ := τ) b (hk o0 ho0).other
  hp

/-! ## Dispatch -/

theorem Hp.expandExprOp {op : Opr} (ho : exprOp op = true) (f : Nat) {n : Node} (hk : ∀ o ∈ n.ops, Hp w τ (ex o)) :
    Hp w τ (expandOperator ex hu f op n) := by
  have h1 := Hp.bin hk
  have h2 := Hp.una hk
  have h3 := Hp.expandDivide hk
  have h4 := Hp.shortCircuit hk
  cases op
  all_goals first
    | (cases ho; done)
    | (unfold Verif.expandOperator; with_reducible apply_assumption)

theorem Hp.expandCodeOp (hs : Sem ex hu) {op : Opr} (f : Nat) {n : Node} (hn : CodeOk w n.ops (.opr op)) :
    Hp w none (expandOperator ex hu f op n) := by
  have gen : (∀ o ∈ n.ops, Any w o) → op ≠ .exprList → op ≠ .var → op ≠ .print → op ≠ .printAll →
      Hp w none (Verif.expandOperator ex hu f op n) := by
    intro ha n1 n2 n3 n4
    have hk : ∀ o ∈ n.ops, Hp w none (ex o) := fun o ho => hs.c _ _ (ha o ho)
    by_cases he : exprOp op = true
    · exact Hp.expandExprOp he f hk
    · cases op
      all_goals first
        | exact absurd rfl he
        | exact absurd rfl n1
        | exact absurd rfl n2
        | exact absurd rfl n3
        | exact absurd rfl n4
        | exact Hp.expandPcAssign hk
        | exact Hp.expandOrg hk
        | exact Hp.expandDs hk
        | exact Hp.expandWhile hk f
        | exact Hp.expandRepeat hk f _
        | exact Hp.expandIf hk
        | exact Hp.expandStatement hk
        | exact Hp.expandInclude n
        | exact Hp.expandSection n
        | exact Hp.expandEndSection
        | exact Hp.expandMacroDef ha
        | exact Hp.expandFor hs f ha
        | exact Hp.expandForReg hs _ hk
        | exact Hp.expandEqu ha hk
        | exact Hp.expandLoad hs n
        | exact Hp.expandFill hs f hk
        | (unfold Verif.expandOperator; hp; done)
  cases op
  all_goals first
    | exact hn.elim
    | exact Hp.expandVariable hs hn
    | exact Hp.expandPrint hs _ hn
    | exact gen hn (by decide) (by decide) (by decide) (by decide)

theorem Hp.expandPrintState (hs : Sem ex hu) {p : Ptr} (h : Has w p .code) : Hp w none (expandPrintState ex p) := by
  have := Hp.generateListNode hs h (hs.c w p (.inr (.inl h)))
  unfold Verif.expandPrintState; hp

theorem Hp.expandEx (hs : Sem ex hu) (f : Nat) {p : Ptr} (h : Ex w p) :
    Hp w τ (Verif.node p >>= fun n => expandKind ex hu f p n) := by
  rcases h with h | h
  · refine Hp.bind' (Hq.node h) fun v n hv hn => ?_
    have hoth : Other v p := Ex.other (.inl (h.mono hv))
    obtain ⟨⟨k, name, i, hk, hne⟩, _⟩ := hn
    unfold Verif.expandKind
    rw [hk]
    cases k with
    | id => exact Hp.expandId name hoth
    | label => exact Hp.expandLabel name hoth
    | macroId => exact absurd rfl hne
  · refine Hp.bind' (Hq.node h) fun v n hv hn => ?_
    unfold Verif.expandKind
    have h1 := hn.1
    have hops : ∀ o ∈ n.ops, Hp v τ (ex o) := fun o ho => hs.x _ _ _ (hn.2 o ho)
    cases hk : n.kind with
    | con a b => exact Hp.expandConstant _ _ (h.mono hv)
    | str a => hp
    | opr op =>
      rw [hk] at h1
      exact Hp.expandExprOp h1 f hops
    | _ => rw [hk] at h1; exact absurd h1 Bool.false_ne_true

theorem Hp.expandAny (hs : Sem ex hu) (f : Nat) {p : Ptr} (h : Any w p) :
    Hp w none (Verif.node p >>= fun n => expandKind ex hu f p n) := by
  rcases h with h | h | h
  · exact Hp.expandEx hs f h
  · refine Hp.bind' (Hq.node h) fun v n hv hn => ?_
    unfold Verif.expandKind
    have h := h.mono hv
    have hn : CodeOk v n.ops n.kind := hn
    cases hk : n.kind with
    | con a b => rw [hk] at hn; exact hn.elim
    | str a => rw [hk] at hn; exact hn.elim
    | opcode a b c d => rw [hk] at hn; exact hn.elim
    | id k name i =>
      rw [hk] at hn
      obtain ⟨rfl, _⟩ := hn
      exact Hp.expandMacroId hs name ⟨_, h, by decide⟩
    | opr op =>
      rw [hk] at hn
      exact Hp.expandCodeOp hs f hn
    | macroEx name b ps =>
      rw [hk] at hn
      exact Hp.expandMacroEx hs name hn.1.1 hn.1.2
    | data size d =>
      rw [hk] at hn
      exact Hp.expandData hs size hn.1
    | printState st => exact Hp.expandPrintState hs h
  · refine Hp.bind' (Hq.node h) fun v n hv hn => ?_
    obtain ⟨⟨a, b, c, d, hk⟩, _⟩ := hn
    unfold Verif.expandKind
    rw [hk]
    exact Hp.expandOpCode hs (h.mono hv)

/-- The interpreter keeps the typing. -/
theorem sem_expandNode : ∀ f : Nat, Sem (expandNode f) (hasUninit f)
  | 0 => ⟨fun _ _ _ _ => Hp.timeout, fun _ _ _ => Hp.timeout, fun _ _ _ _ _ => Hp.timeout, fun _ _ _ => Hp.timeout,
      fun _ _ p => .keep (Keep.hasUninit 0 p)⟩
  | f + 1 => by
    have hs := sem_expandNode f
    have wrap : ∀ {v τ p}, Hp v τ (Verif.node p >>= fun n => expandKind (expandNode f) (hasUninit f) f p n) →
        Hp v τ (expandNode (f + 1) p) := by
      intro v τ p h
      unfold Verif.expandNode
      exact Hp.bind Hp.getS fun s => Hp.ite (Hp.pure _) h
    refine ⟨fun v τ p h => wrap (Hp.expandEx hs f h), fun v p h => wrap (Hp.expandAny hs f h), fun v p e h he => wrap ?_,
      fun v p h => wrap ?_, fun v τ p => .keep (Keep.hasUninit (f + 1) p)⟩
    · refine Hp.bind' (Hq.node h) fun u n hu hn => ?_
      unfold Verif.expandKind
      rw [hn.1]
      exact Hp.expandArgs hs hn he
    · refine Hp.bind' (Hq.node h) fun u n hu hn => ?_
      unfold Verif.expandKind
      rw [hn.1]
      exact Hp.expandVars hs hn

end Verif.Heap
