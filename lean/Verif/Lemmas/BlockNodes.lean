import Verif.Lemmas.BlockState
import Verif.Lemmas.ParamNames

/-! # Trees of statements in the heap -/

namespace Verif

/-- A node for the name.  With `m`, where macros may be called, names are not local. -/
def IdAt (mb : Bool) (s : St) (name : Str) (p : Ptr) : Prop :=
  (∃ c, Live s p ⟨.id .id name c, 0, []⟩ ∧ (c = none ∨ c = look s name)) ∧ (mb = true → globalName name = true)

/-- The tree of an expression. -/
abbrev TreeAt (s : St) (e : Expr) (p : Ptr) : Prop := ExprAt (look s) s.nodeBase s.nodes e p

/-- A node for the expression. -/
structure ExAt (mb : Bool) (s : St) (e : Expr) (p : Ptr) : Prop where
  tree : TreeAt s e p
  glob : mb = true → ∀ n ∈ e.names, globalName n = true

/-- Opcodes of the instruction in the current mode of operation. -/
abbrev getOf (s : St) (ins : Int) : Mode → Int := getOpCode s.cpu s.allowIllegal ins

/-- Nodes for a name and its initialiser in a `.var` list. -/
def VarAt (mb : Bool) (s : St) : Str × Option Expr → List Ptr → Prop
  | (name, none), l => ∃ i, l = [i] ∧ IdAt mb s name i
  | (name, some e), l => ∃ i q, l = [i, q] ∧ IdAt mb s name i ∧ ExAt mb s e q

/-- The list of `.var`, last name first. -/
def VarsAt (mb : Bool) (s : St) : List (Str × Option Expr) → Ptr → Prop
  | [], _ => False
  | [x], p => ∃ l, Live s p ⟨.opr .exprList, l.length, l⟩ ∧ VarAt mb s x l
  | x :: y :: ys, p => ∃ r l, Live s p ⟨.opr .exprList, (r :: l).length, r :: l⟩ ∧ VarsAt mb s (y :: ys) r ∧ VarAt mb s x l

/-- The arguments of a macro call. -/
def ArgsAt (mb : Bool) (s : St) : Option (Item × List Item) → Option Ptr → Prop
  | none, q => q = none
  | some (hd, tl), q => ∃ r, q = some r ∧ ListAt (look s) s.nodeBase s.nodes ((hd :: tl).reverse) r ∧
      (mb = true → ∀ x ∈ hd :: tl, ∀ n ∈ x.names, globalName n = true)

/-- The heap contains the tree built for the statement.  Words are macro calls. -/
def StmtAt (mb : Bool) (s : St) : Stmt → Ptr → Prop
  | .empty, p => Live s p ⟨.opr .statement, 0, []⟩
  | .op ins mode none, p => mode = .i ∧ ∃ a, Live s p ⟨.opcode ins (getOf s ins .i) .i a, 0, []⟩
  | .op ins mode (some e), p =>
    (mode = .a ∧ (e = .sym [65] ∨ e = .sym [97]) ∧ ∃ a q, Live s p ⟨.opcode ins (getOf s ins .A) .A a, 0, [q]⟩) ∨
    ((e ≠ .sym [65] ∧ e ≠ .sym [97]) ∧ ∃ a q v0,
      Live s p ⟨.opcode ins (nodeMode (getOf s ins) mode v0).2 (nodeMode (getOf s ins) mode v0).1 a, 1, [q]⟩ ∧
      ExAt mb s e q ∧ Done (look s) s.syms s.nodes e q)
  | .data size hd tl, p => ∃ q, Live s p ⟨.data size q, 0, []⟩ ∧
      ListAt (look s) s.nodeBase s.nodes ((hd :: tl).reverse) q ∧
      (mb = true → ∀ x ∈ hd :: tl, ∀ n ∈ x.names, globalName n = true)
  | .fill v n, p => ∃ q r, Live s p ⟨.opr .fill, 2, [q, r]⟩ ∧ ExAt mb s v q ∧ ExAt mb s n r
  | .load raw, p => ∃ t q, Live s p ⟨.opr .load, 1, [q]⟩ ∧ Live s q ⟨.str t, 0, []⟩ ∧ textOf raw = some t
  | .assign name e, p => ∃ i q, Live s p ⟨.opr .equ, 2, [i, q]⟩ ∧ IdAt mb s name i ∧ ExAt mb s e q
  | .var hd tl, p => ∃ q, Live s p ⟨.opr .var, 1, [q]⟩ ∧ VarsAt mb s ((hd :: tl).reverse) q
  | .ifThen c t, p => ∃ q r, Live s p ⟨.opr .ifThen, 2, [q, r]⟩ ∧ ExAt mb s c q ∧ StmtAt mb s t r
  | .ifElse c t e, p => ∃ q r u, Live s p ⟨.opr .ifThen, 3, [q, r, u]⟩ ∧ ExAt mb s c q ∧ StmtAt mb s t r ∧ StmtAt mb s e u
  | .repeatLoop b c, p => ∃ q r, Live s p ⟨.opr .repeatLoop, 2, [r, q]⟩ ∧ ExAt mb s c q ∧ StmtAt mb s b r
  | .doLoop b c, p => ∃ q r, Live s p ⟨.opr .doLoop, 2, [r, q]⟩ ∧ ExAt mb s c q ∧ StmtAt mb s b r
  | .whileLoop c b, p => ∃ q r, Live s p ⟨.opr .whileLoop, 2, [q, r]⟩ ∧ ExAt mb s c q ∧ StmtAt mb s b r
  | .forLoop name start stop none b next, p => ∃ asn i q r u nx, Live s p ⟨.opr .forLoop, 4, [asn, q, u, nx]⟩ ∧
      Live s asn ⟨.opr .equ, 2, [i, r]⟩ ∧ IdAt mb s name i ∧ ExAt mb s start r ∧ ExAt mb s stop q ∧ StmtAt mb s b u ∧ IdAt mb s next nx
  | .forLoop name start stop (some step) b next, p => ∃ asn i q r u nx w,
      Live s p ⟨.opr .forLoop, 5, [asn, q, u, nx, w]⟩ ∧ ExAt mb s step w ∧
      Live s asn ⟨.opr .equ, 2, [i, r]⟩ ∧ IdAt mb s name i ∧ ExAt mb s start r ∧ ExAt mb s stop q ∧ StmtAt mb s b u ∧ IdAt mb s next nx
  | .seq a b, p => ∃ q r, Live s p ⟨.opr .statement, 2, [q, r]⟩ ∧ StmtAt mb s a q ∧ StmtAt mb s b r
  | .at _ st, p => StmtAt mb s st p
  | .word _ name args, p => ∃ mp c q, Live s p ⟨.macroEx name mp q, 0, []⟩ ∧ Live s mp ⟨.id .macroId name c, 0, []⟩ ∧
      (c = none ∨ c = look s name) ∧ (mb = true → globalName name = true) ∧ ArgsAt mb s args q
  | _, _ => False

variable {mb : Bool}

/-- Nothing the trees depend on has changed. -/
structure Keeps (mb : Bool) (s s' : St) : Prop where
  base : s'.nodeBase = s.nodeBase
  cpu : s'.cpu = s.cpu
  ill : s'.allowIllegal = s.allowIllegal
  look : ∀ n, (mb = true → globalName n = true) → look s' n = look s n
  init : ∀ (i : Nat) (x : Sym), s.syms[i]? = some x → x.isInit = true → ∃ x', s'.syms[i]? = some x' ∧ x'.isInit = true
  sim : WSim mb (Verif.look s) s.nodes s'.nodes

theorem SameVars.init {y y' : List Sym} (h : SameVars y y') (i : Nat) (x : Sym) (hx : y[i]? = some x) (hi : x.isInit = true) :
    ∃ x', y'[i]? = some x' ∧ x'.isInit = true := by
  obtain ⟨x', hx', e⟩ := h.get hx
  exact ⟨x', hx', by rw [← blank_init x', e, blank_init]; exact hi⟩

theorem Eff.keeps {s s' : St} {bs : List Nat} (h : Eff mb s s' bs) : Keeps mb s s' := by
  have h1 := h.look
  have h2 := h.syms
  have h3 := h.sim
  obtain ⟨ys, ns, cg, ds, bd, et, md, mi, hd, ls, g1, g2, g3, rfl⟩ := h
  exact ⟨rfl, rfl, rfl, fun n _ => congrFun h1 n, h2.init, h3⟩

theorem Keeps.trans {s s' s'' : St} (h : Keeps mb s s') (h' : Keeps mb s' s'') : Keeps mb s s'' :=
  ⟨h'.base.trans h.base, h'.cpu.trans h.cpu, h'.ill.trans h.ill, fun n hn => (h'.look n hn).trans (h.look n hn),
    fun i x hx hi => by
      obtain ⟨x1, h1, h2⟩ := h.init i x hx hi
      exact h'.init i x1 h1 h2,
    h.sim.trans (h'.sim.congr h.look)⟩

theorem Keeps.refl (s : St) : Keeps mb s s := ⟨rfl, rfl, rfl, fun _ _ => rfl, fun _ x hx hi => ⟨x, hx, hi⟩, WSim.refl _ _ _⟩

theorem Keeps.live {s s' : St} (h : Keeps mb s s') {p : Ptr} {n : Node} (hl : Live s p n) (h1 : ∀ v, n.kind ≠ .con v true)
    (h2 : ∀ k nm c, n.kind ≠ .id k nm c) (h3 : ∀ i c m a, n.kind ≠ .opcode i c m a) : Live s' p n := by
  refine ⟨by rw [h.base]; exact hl.1, ?_⟩
  obtain ⟨n', g3, g4, g5, g6⟩ := h.sim.2 p n hl.2 fun _ k nm c hk => absurd hk (h2 k nm c)
  rcases g6 with g6 | ⟨v, w, g6, _⟩ | ⟨k, nm, c, g6, _⟩ | ⟨i, c, m, a, b, ho, g6, _⟩
  · rw [g3]
    cases n
    cases n'
    simp only at g4 g5 g6
    rw [g4, g5, g6]
  · exact absurd g6 (h1 v)
  · exact absurd g6 (h2 k nm c)
  · exact absurd g6 (h3 i c m a)

theorem Keeps.opr {s s' : St} (h : Keeps mb s s') {p : Ptr} {o : Opr} {k : Nat} {ops : List Ptr}
    (hl : Live s p ⟨.opr o, k, ops⟩) : Live s' p ⟨.opr o, k, ops⟩ :=
  h.live hl (by intro _ c; cases c) (by intro _ _ _ c; cases c) (by intro _ _ _ _ c; cases c)

theorem Keeps.opcode {s s' : St} (h : Keeps mb s s') {p : Ptr} {ins code : Int} {mo : Mode} {a : Int} {k : Nat} {ops : List Ptr}
    (hl : Live s p ⟨.opcode ins code mo a, k, ops⟩) : ∃ b, Live s' p ⟨.opcode ins code mo b, k, ops⟩ := by
  obtain ⟨N0, hN0, g1, g2, g3⟩ := h.sim.2 p _ hl.2 fun _ k nm c hk => by cases hk
  have hb : s'.nodeBase ≤ p := by rw [h.base]; exact hl.1
  obtain ⟨k0, m0, o0⟩ := N0
  simp only at g1 g2 g3
  subst g1 g2
  rcases g3 with g3 | ⟨v, w, g3, _⟩ | ⟨k', nm, cc, g3, g4, g5⟩ | ⟨_, _, _, _, b, _, g, g'⟩
  · subst g3
    exact ⟨a, hb, hN0⟩
  · cases g3
  · cases g3
  · cases g
    subst g'
    exact ⟨b, hb, hN0⟩

/-- A reference to a name. -/
theorem Keeps.id {s s' : St} (h : Keeps mb s s') {p : Ptr} {kd : IdKind} {name : Str} {c : Option SymPtr}
    (hl : Live s p ⟨.id kd name c, 0, []⟩) (hg : mb = true → globalName name = true) :
    ∃ c', Live s' p ⟨.id kd name c', 0, []⟩ ∧ (c' = c ∨ (c' = Verif.look s name ∧ (Verif.look s name).isSome = true)) := by
  obtain ⟨N0, hN0, g1, g2, g3⟩ := h.sim.2 p _ hl.2 fun hm k nm c hk => by cases hk; exact hg hm
  obtain ⟨k0, m0, o0⟩ := N0
  simp only at g1 g2 g3
  subst g1 g2
  have hb : s'.nodeBase ≤ p := by rw [h.base]; exact hl.1
  rcases g3 with g3 | ⟨v, w, g3, _⟩ | ⟨k', nm, cc, g3, g4, g5⟩ | ⟨_, _, _, _, _, _, g, _⟩
  · subst g3
    exact ⟨c, ⟨hb, hN0⟩, Or.inl rfl⟩
  · cases g3
  · cases g3
    subst g4
    exact ⟨_, ⟨hb, hN0⟩, Or.inr ⟨rfl, g5⟩⟩
  · cases g

theorem ExprAt.keep {s s' : St} (h : Keeps mb s s') : ∀ {e : Expr} {p : Ptr}, (mb = true → ∀ n ∈ e.names, globalName n = true) →
    ExprAt (Verif.look s) s.nodeBase s.nodes e p → ExprAt (Verif.look s') s'.nodeBase s'.nodes e p
  | .int v, p, _, he => h.live (n := ⟨.con v false, 0, []⟩) he (by intro _ c; cases c) (by intro _ _ _ c; cases c)
      (by intro _ _ _ _ c; cases c)
  | .pc, p, _, he => by
    obtain ⟨hb, v, hv⟩ := he
    obtain ⟨n', h1, h2, h3, h4⟩ := h.sim.2 p _ hv fun _ k nm c hk => by cases hk
    refine ⟨by rw [h.base]; exact hb, ?_⟩
    cases n'
    simp only at h2 h3 h4
    rcases h4 with h4 | ⟨v', w, _, h4⟩ | ⟨_, _, _, h4, _⟩ | ⟨_, _, _, _, _, _, h4, _⟩
    · exact ⟨v, by rw [h1, h2, h3, h4]⟩
    · exact ⟨w, by rw [h1, h2, h3, h4]⟩
    · cases h4
    · cases h4
  | .sym name, p, hg, he => by
    obtain ⟨hb, c, hc, hok⟩ := he
    have hgn : mb = true → globalName name = true := fun hm => hg hm name (by simp [Expr.names])
    obtain ⟨c', hl', hc'⟩ := h.id ⟨hb, hc⟩ hgn
    refine ⟨hl'.1, c', hl'.2, ?_⟩
    rw [h.look name hgn]
    rcases hc' with rfl | ⟨rfl, _⟩
    · exact hok
    · exact Or.inr (Or.inl rfl)
  | .un op e, p, hg, he => by
    obtain ⟨hb, q, hq, h1⟩ := he
    obtain ⟨a, b⟩ := h.opr (show Live s p ⟨.opr op.opr, 1, [q]⟩ from ⟨hb, hq⟩)
    exact ⟨a, q, b, ExprAt.keep h hg h1⟩
  | .bin op a b, p, hg, he => by
    obtain ⟨hb, q, r, hq, h1, h2⟩ := he
    obtain ⟨a1, b1⟩ := h.opr (show Live s p ⟨.opr op.opr, 2, [q, r]⟩ from ⟨hb, hq⟩)
    exact ⟨a1, q, r, b1, ExprAt.keep h (fun hm n hn => hg hm n (by simp [Expr.names, hn])) h1,
      ExprAt.keep h (fun hm n hn => hg hm n (by simp [Expr.names, hn])) h2⟩

theorem ExAt.keep {s s' : St} (h : Keeps mb s s') {e : Expr} {p : Ptr} (he : ExAt mb s e p) : ExAt mb s' e p :=
  ⟨he.tree.keep h he.glob, he.glob⟩

theorem Done.keep {s s' : St} (h : Keeps mb s s') : ∀ {e : Expr} {p : Ptr}, (mb = true → ∀ n ∈ e.names, globalName n = true) →
    ExprAt (Verif.look s) s.nodeBase s.nodes e p → Done (Verif.look s) s.syms s.nodes e p →
    Done (Verif.look s') s'.syms s'.nodes e p
  | .int v, p, _, _, _ => trivial
  | .pc, p, _, _, _ => trivial
  | .sym name, p, hg, ht, he => by
    have hgn : mb = true → globalName name = true := fun hm => hg hm name (by simp [Expr.names])
    obtain ⟨i, x, hc, h1, h2, h3⟩ := he
    obtain ⟨c', hl', hc'⟩ := h.id ⟨ht.1, hc⟩ hgn
    obtain ⟨x', hx', hi'⟩ := h.init i x h2 h3
    have : c' = some i := by
      rcases hc' with rfl | ⟨rfl, _⟩
      · rfl
      · exact h1
    exact ⟨i, x', by rw [← this]; exact hl'.2, by rw [h.look name hgn]; exact h1, hx', hi'⟩
  | .un op e, p, hg, ht, he => by
    obtain ⟨hb, q0, hq0, t1⟩ := ht
    obtain ⟨q, hq, h1⟩ := he
    rw [hq0] at hq
    cases hq
    exact ⟨q0, (h.opr ⟨hb, hq0⟩).2, Done.keep h hg t1 h1⟩
  | .bin op a b, p, hg, ht, he => by
    obtain ⟨hb, q0, r0, hq0, t1, t2⟩ := ht
    obtain ⟨q, r, hq, h1, h2⟩ := he
    rw [hq0] at hq
    cases hq
    exact ⟨q0, r0, (h.opr ⟨hb, hq0⟩).2, Done.keep h (fun hm n hn => hg hm n (by simp [Expr.names, hn])) t1 h1,
      Done.keep h (fun hm n hn => hg hm n (by simp [Expr.names, hn])) t2 h2⟩

theorem ItemAt.keep {s s' : St} (h : Keeps mb s s') {x : Item} {p : Ptr} (hg : mb = true → ∀ n ∈ x.names, globalName n = true)
    (hx : ItemAt (Verif.look s) s.nodeBase s.nodes x p) : ItemAt (Verif.look s') s'.nodeBase s'.nodes x p := by
  cases x with
  | expr e => exact ExprAt.keep h (e := e) hg hx
  | str raw =>
    obtain ⟨hb, v, hv, hn⟩ := hx
    obtain ⟨a, b⟩ := h.live (show Live s p ⟨.str v, 0, []⟩ from ⟨hb, hn⟩) (by intro _ c; cases c) (by intro _ _ _ c; cases c)
      (by intro _ _ _ _ c; cases c)
    exact ⟨a, v, hv, b⟩

theorem ListAt.keep {s s' : St} (h : Keeps mb s s') : ∀ {xs : List Item} {p : Ptr},
    (mb = true → ∀ x ∈ xs, ∀ n ∈ x.names, globalName n = true) →
    ListAt (Verif.look s) s.nodeBase s.nodes xs p → ListAt (Verif.look s') s'.nodeBase s'.nodes xs p
  | [], _, _, h => h
  | [x], p, hg, hl => by
    obtain ⟨hb, q, hq, h1⟩ := hl
    obtain ⟨a, b⟩ := h.opr (show Live s p ⟨.opr .exprList, 1, [q]⟩ from ⟨hb, hq⟩)
    exact ⟨a, q, b, h1.keep h fun hm => hg hm x (by simp)⟩
  | x :: y :: ys, p, hg, hl => by
    obtain ⟨hb, r, q, hq, h1, h2⟩ := hl
    obtain ⟨a, b⟩ := h.opr (show Live s p ⟨.opr .exprList, 2, [r, q]⟩ from ⟨hb, hq⟩)
    exact ⟨a, r, q, b, ListAt.keep h (fun hm z hz => hg hm z (List.mem_cons_of_mem _ hz)) h1,
      h2.keep h fun hm => hg hm x (by simp)⟩

theorem IdAt.keep {s s' : St} (h : Keeps mb s s') {name : Str} {p : Ptr} (he : IdAt mb s name p) : IdAt mb s' name p := by
  obtain ⟨⟨c, hl, hc⟩, hg⟩ := he
  obtain ⟨c', hl', hc'⟩ := h.id hl hg
  refine ⟨⟨c', hl', ?_⟩, hg⟩
  rw [h.look name hg]
  rcases hc' with rfl | ⟨rfl, _⟩
  · exact hc
  · exact Or.inr rfl

theorem VarAt.keep {s s' : St} (h : Keeps mb s s') {x : Str × Option Expr} {l : List Ptr} (hx : VarAt mb s x l) : VarAt mb s' x l := by
  obtain ⟨name, e⟩ := x
  cases e with
  | none =>
    obtain ⟨i, h1, h2⟩ := hx
    exact ⟨i, h1, h2.keep h⟩
  | some e =>
    obtain ⟨i, q, h1, h2, h3⟩ := hx
    exact ⟨i, q, h1, h2.keep h, h3.keep h⟩

theorem VarsAt.keep {s s' : St} (h : Keeps mb s s') : ∀ {xs : List (Str × Option Expr)} {p : Ptr}, VarsAt mb s xs p → VarsAt mb s' xs p
  | [], _, hx => hx.elim
  | [x], p, hx => by
    obtain ⟨l, h1, h2⟩ := hx
    exact ⟨l, h.opr h1, h2.keep h⟩
  | x :: y :: ys, p, hx => by
    obtain ⟨r, l, h1, h2, h3⟩ := hx
    exact ⟨r, l, h.opr h1, VarsAt.keep h h2, h3.keep h⟩

theorem ArgsAt.keep {s s' : St} (h : Keeps mb s s') {args : Option (Item × List Item)} {q : Option Ptr} (ha : ArgsAt mb s args q) :
    ArgsAt mb s' args q := by
  cases args with
  | none => exact ha
  | some a =>
    obtain ⟨hd, tl⟩ := a
    obtain ⟨r, h1, h2, h3⟩ := ha
    exact ⟨r, h1, h2.keep h fun hm x hx => h3 hm x (List.mem_reverse.1 hx), h3⟩

theorem StmtAt.keep {s s' : St} (h : Keeps mb s s') : ∀ {st : Stmt} {p : Ptr}, StmtAt mb s st p → StmtAt mb s' st p := by
  have hget : ∀ ins, getOf s' ins = getOf s ins := by
    intro ins
    unfold getOf
    rw [h.cpu, h.ill]
  intro st
  induction st with
  | empty => exact fun hs => h.opr hs
  | op ins mode e =>
    intro p hs
    cases e with
    | none =>
      obtain ⟨h1, a, h2⟩ := hs
      obtain ⟨b, hb⟩ := h.opcode h2
      exact ⟨h1, b, by rw [hget]; exact hb⟩
    | some e =>
      rcases hs with ⟨h1, h2, a, q, h3⟩ | ⟨h1, a, q, v0, h2, h3, h4⟩
      · obtain ⟨b, hb⟩ := h.opcode h3
        exact Or.inl ⟨h1, h2, b, q, by rw [hget]; exact hb⟩
      · obtain ⟨b, hb⟩ := h.opcode h2
        refine Or.inr ⟨h1, b, q, v0, by rw [hget]; exact hb, h3.keep h, h4.keep h h3.glob h3.tree⟩
  | data size hd tl =>
    intro p hs
    obtain ⟨q, h1, h2, h3⟩ := hs
    exact ⟨q, h.live h1 (by intro _ c; cases c) (by intro _ _ _ c; cases c) (by intro _ _ _ _ c; cases c),
      h2.keep h fun hm x hx => h3 hm x (List.mem_reverse.1 hx), h3⟩
  | fill v n =>
    intro p hs
    obtain ⟨q, r, h1, h2, h3⟩ := hs
    exact ⟨q, r, h.opr h1, h2.keep h, h3.keep h⟩
  | load raw =>
    intro p hs
    obtain ⟨t, q, h1, h2, h3⟩ := hs
    exact ⟨t, q, h.opr h1, h.live h2 (by intro _ c; cases c) (by intro _ _ _ c; cases c) (by intro _ _ _ _ c; cases c), h3⟩
  | assign name e =>
    intro p hs
    obtain ⟨i, q, h1, h2, h3⟩ := hs
    exact ⟨i, q, h.opr h1, h2.keep h, h3.keep h⟩
  | var hd tl =>
    intro p hs
    obtain ⟨q, h1, h2⟩ := hs
    exact ⟨q, h.opr h1, h2.keep h⟩
  | ifThen c t ih =>
    intro p hs
    obtain ⟨q, r, h1, h2, h3⟩ := hs
    exact ⟨q, r, h.opr h1, h2.keep h, ih h3⟩
  | ifElse c t e ih ih' =>
    intro p hs
    obtain ⟨q, r, u, h1, h2, h3, h4⟩ := hs
    exact ⟨q, r, u, h.opr h1, h2.keep h, ih h3, ih' h4⟩
  | repeatLoop b c ih =>
    intro p hs
    obtain ⟨q, r, h1, h2, h3⟩ := hs
    exact ⟨q, r, h.opr h1, h2.keep h, ih h3⟩
  | doLoop b c ih =>
    intro p hs
    obtain ⟨q, r, h1, h2, h3⟩ := hs
    exact ⟨q, r, h.opr h1, h2.keep h, ih h3⟩
  | whileLoop c b ih =>
    intro p hs
    obtain ⟨q, r, h1, h2, h3⟩ := hs
    exact ⟨q, r, h.opr h1, h2.keep h, ih h3⟩
  | forLoop name start stop step b next ih =>
    intro p hs
    cases step with
    | none =>
      obtain ⟨asn, i, q, r, u, nx, h1, h2, h3, h4, h5, h6, h7⟩ := hs
      exact ⟨asn, i, q, r, u, nx, h.opr h1, h.opr h2, h3.keep h, h4.keep h, h5.keep h, ih h6, h7.keep h⟩
    | some e =>
      obtain ⟨asn, i, q, r, u, nx, w, h1, h0, h2, h3, h4, h5, h6, h7⟩ := hs
      exact ⟨asn, i, q, r, u, nx, w, h.opr h1, h0.keep h, h.opr h2, h3.keep h, h4.keep h, h5.keep h, ih h6, h7.keep h⟩
  | seq a b iha ihb =>
    intro p hs
    obtain ⟨q, r, h1, h2, h3⟩ := hs
    exact ⟨q, r, h.opr h1, iha h2, ihb h3⟩
  | «at» line st ih => exact fun hs => ih hs
  | word first name args =>
    intro p hs
    obtain ⟨mp, c, q, h1, h2, h3, h4, h5⟩ := hs
    obtain ⟨c', hl', hc'⟩ := h.id h2 h4
    refine ⟨mp, c', q, h.live h1 (by intro _ c; cases c) (by intro _ _ _ c; cases c) (by intro _ _ _ _ c; cases c), hl', ?_, h4,
      h5.keep h⟩
    rw [h.look name h4]
    rcases hc' with rfl | ⟨rfl, _⟩
    · exact h3
    · exact Or.inr rfl
  | _ => exact fun hs => hs.elim

/-- What is known about the macros of the specification: the heap contains their texts.  The parameters are symbols. -/
structure Calls (C : Spec.Context) (slot : Str → Option Nat) (s : St) : Prop where
  scope : s.currentScope = none
  names : ∀ x ∈ s.syms, CStr x.fullname
  label : Spec.CLabel s.lastLabel
  slots : ∀ ll, Spec.CLabel ll → slotOf { s with lastLabel := ll } = slot
  arity : s.maxMacroParam = C.arity
  params : ∀ i, 1 ≤ i → i ≤ C.arity → ∃ j x, look s (paramName i) = some j ∧ s.syms[j]? = some x ∧ x.isMacroParam = true ∧
    x.isInit = true ∧ x.isVar = false ∧ 0 ≤ x.value ∧ x.value ≤ 65535
  param : ∀ n i, globalName n = true → (C.param n = some i ↔ 1 ≤ i ∧ i ≤ C.arity ∧ plainName n = true ∧ look s n = look s (paramName i))
  bodies : ∀ name body, C.macros name = some body → plainName name = true ∧ globalName name = true ∧ CStr name ∧
    ∃ i x b, look s name = some i ∧ s.syms[i]? = some x ∧ x.macroNode = some b ∧ StmtAt true s body b

/-- The state agrees with the context and the variables of the specification.  If there are macros, names are not local. -/
structure Fits (mb : Bool) (C : Spec.Context) (slot : Str → Option Nat) (s : St) : Prop where
  cpu : s.cpu = C.cpu
  raw : C.raw = decide (s.format = .bin)
  files : s.files = C.files
  text : C.text = textOf
  slots : slotOf s = slot
  macros : (∀ n, C.macros n = none) ∨ (mb = true ∧ Calls C slot s)

theorem SameVars.names {y y' : List Sym} (h : SameVars y y') : y'.map (·.fullname) = y.map (·.fullname) := by
  have e : ∀ l : List Sym, l.map (·.fullname) = (l.map Sym.blank).map (·.fullname) := fun l => by
    rw [List.map_map]
    exact List.map_congr_left fun x _ => (blank_full x).symm
  rw [e y', e y, h]

/-- Blocks do not change what is known about the macros. -/
theorem Calls.eff {C : Spec.Context} {slot : Str → Option Nat} {s s' : St} {bs : List Nat} (h : Calls C slot s) (he : Eff true s s' bs) :
    Calls C slot s' := by
  have hk := he.keeps
  have hlk := he.look
  have hs := he.syms
  have hst : s'.currentScope = s.currentScope ∧ s'.lastLabel = s.lastLabel ∧ s'.maxMacroParam = s.maxMacroParam := by
    obtain ⟨ys, ns, cg, ds, bd, et, md, mi, hd, ls, g1, g2, g3, rfl⟩ := he
    exact ⟨rfl, rfl, rfl⟩
  refine ⟨hst.1.trans h.scope, ?_, hst.2.1 ▸ h.label, ?_, hst.2.2.trans h.arity, ?_, ?_, ?_⟩
  · intro x hx
    have : x.fullname ∈ s'.syms.map (·.fullname) := List.mem_map_of_mem hx
    rw [hs.names] at this
    obtain ⟨y, hy, e⟩ := List.mem_map.1 this
    rw [← e]
    exact h.names y hy
  · intro ll hll
    rw [← h.slots ll hll]
    exact slotOf_keep (s := { s with lastLabel := ll }) (s' := { s' with lastLabel := ll }) (look_syms rfl hst.1 hs) hs hst.1
  · intro i h1 h2
    obtain ⟨j, x, a1, a2, a3, a4, a5, a6⟩ := h.params i h1 h2
    obtain ⟨x', b1, b2⟩ := hs.get a2
    have hv : x'.isVar = false := by rw [← blank_var x', b2, blank_var, a5]
    have e : x' = x := by
      unfold Sym.blank at b2
      simpa [hv, a5] using b2
    subst e
    exact ⟨j, x', by rw [hlk]; exact a1, b1, a3, a4, a5, a6⟩
  · intro n i hn
    rw [hlk]
    exact h.param n i hn
  · intro name body hm
    obtain ⟨a1, a2, a3, i, x, b, a4, a5, a6, a7⟩ := h.bodies name body hm
    obtain ⟨x', b1, b2⟩ := hs.get a5
    refine ⟨a1, a2, a3, i, x', b, by rw [hlk]; exact a4, b1, ?_, a7.keep hk⟩
    have := congrArg Sym.macroNode b2
    have hb : ∀ z : Sym, z.blank.macroNode = z.macroNode := fun z => by unfold Sym.blank; split <;> rfl
    rw [hb, hb] at this
    rw [this]
    exact a6

theorem Eff.fits {s s' : St} {bs : List Nat} {C : Spec.Context} {slot : Str → Option Nat} (h : Eff mb s s' bs)
    (hf : Fits mb C slot s) : Fits mb C slot s' := by
  have hlk := h.look
  have hs := h.syms
  have hc : (∀ n, C.macros n = none) ∨ (mb = true ∧ Calls C slot s') := hf.macros.imp id fun ⟨e, hc⟩ => ⟨e, by
    subst e
    exact hc.eff h⟩
  obtain ⟨ys, ns, cg, ds, bd, et, md, mi, hd, ls, g1, g2, g3, rfl⟩ := h
  exact ⟨hf.cpu, hf.raw, hf.files, hf.text, by rw [slotOf_keep hlk hs rfl, hf.slots], hc⟩

/-- The environment after a variable got a value. -/
theorem envOf_set {C : Spec.Context} {slot : Str → Option Nat} {s : St} {name : Str} {i : Nat} {x : Sym} (v : Int)
    (hf : Fits mb C slot s) (h : slot name = some i) (hx : s.syms[i]? = some x) (hv : x.isVar = true) (hi : x.isInit = true)
    (ns : List Node) :
    envOf { s with syms := s.syms.set i { x with value := v }, nodes := ns } =
      fun n => if slot n = some i then some v else envOf s n := by
  have hs := SameVars.set hx hv v
  have hlk : look { s with syms := s.syms.set i { x with value := v }, nodes := ns } = look s := look_syms rfl rfl hs
  have h' : slotOf s name = some i := by rw [hf.slots]; exact h
  have hlt : i < s.syms.length := by
    rcases Nat.lt_or_ge i s.syms.length with h | h
    · exact h
    · rw [List.getElem?_eq_none h] at hx; cases hx
  funext n
  by_cases hn : slot n = some i
  · rw [if_pos hn]
    have hn' : slotOf s n = some i := by rw [hf.slots]; exact hn
    obtain ⟨h1, h2, _⟩ := slotOf_some hn'
    unfold envOf
    rw [hlk, if_pos h1, h2]
    simp only [List.getElem?_set_self hlt, hi, if_true]
  · rw [if_neg hn]
    unfold envOf
    rw [hlk]
    split
    · rename_i hp
      cases hl : look s n with
      | none => rfl
      | some j =>
        have hij : i ≠ j := by
          rintro rfl
          apply hn
          rw [← hf.slots]
          exact (slotOf_iff h').2 ⟨hp, hl⟩
        simp only [List.getElem?_set_ne hij]
    · rfl

end Verif
