import Verif.Lemmas.Run
import Verif.Lemmas.CInt
import Verif.Spec.Expr

/-! # Evaluation of expression trees in the heap -/

namespace Verif

/-- The symbol a name refers to in the current section and under the current label. -/
def look (s : St) (name : Str) : Option SymPtr :=
  lookUpSymbol (addSymbolKey s name).1 s.syms (addSymbolKey s name).2

/-- Names that are ordinary symbols: neither `A`, nor `+…`/`-…`, nor empty. -/
def plainName (name : Str) : Bool :=
  !isPmName name && stricmp name [65] != 0 && name != [] && name != [46]

/-- The values of the defined symbols, by name. -/
def envOf (s : St) (name : Str) : Option Int :=
  if plainName name then
    match look s name with
    | some i =>
      match s.syms[i]? with
      | some x => if x.isInit then some x.value else none
      | none => none
    | none => none
  else none

/-- Local names are looked up again at each use. -/
def isLocalName (name : Str) : Bool := name.head? == some 64

/-- A node after evaluations: locations and symbol references may have been filled in, with `o` also the
address of an instruction. -/
def NodeSim (o : Bool) (lk : Str → Option SymPtr) (n n' : Node) : Prop :=
  n'.numOps = n.numOps ∧ n'.ops = n.ops ∧
    (n'.kind = n.kind ∨ (∃ v w, n.kind = .con v true ∧ n'.kind = .con w true) ∨
      (∃ k name c, n.kind = .id k name c ∧ n'.kind = .id k name (lk name) ∧ (lk name).isSome = true) ∨
      ∃ ins code m a b, o = true ∧ n.kind = .opcode ins code m a ∧ n'.kind = .opcode ins code m b)

/-- A heap after evaluations, possibly with new nodes. -/
def HeapSim (o : Bool) (lk : Str → Option SymPtr) (ns ns' : List Node) : Prop :=
  ns.length ≤ ns'.length ∧ ∀ (p : Nat) (n : Node), ns[p]? = some n →
    ∃ n', ns'[p]? = some n' ∧ NodeSim o lk n n'

theorem NodeSim.refl (o : Bool) (lk : Str → Option SymPtr) (n : Node) : NodeSim o lk n n := ⟨rfl, rfl, Or.inl rfl⟩

theorem HeapSim.refl (o : Bool) (lk : Str → Option SymPtr) (ns : List Node) : HeapSim o lk ns ns :=
  ⟨Nat.le_refl _, fun _ n h => ⟨n, h, NodeSim.refl o lk n⟩⟩

theorem NodeSim.trans {o : Bool} {lk : Str → Option SymPtr} {a b c : Node} (h : NodeSim o lk a b) (h' : NodeSim o lk b c) :
    NodeSim o lk a c := by
  obtain ⟨h1, h2, h3⟩ := h
  obtain ⟨g1, g2, g3⟩ := h'
  refine ⟨g1.trans h1, g2.trans h2, ?_⟩
  rcases h3 with h3 | ⟨v, w, h3, h4⟩ | ⟨k, nm, cc, h3, h4, h5⟩ | ⟨i, c, m, x, y, ho, h3, h4⟩
  · rw [h3] at g3; exact g3
  · rcases g3 with g3 | ⟨v', w', g3, g4⟩ | ⟨k, nm, cc, g3, g4, g5⟩ | ⟨i, c, m, x, y, _, g3, g4⟩
    · exact Or.inr (Or.inl ⟨v, w, h3, g3.trans h4⟩)
    · exact Or.inr (Or.inl ⟨v, w', h3, g4⟩)
    · rw [h4] at g3; cases g3
    · rw [h4] at g3; cases g3
  · rcases g3 with g3 | ⟨v', w', g3, g4⟩ | ⟨k', nm', cc', g3, g4, g5⟩ | ⟨i, c, m, x, y, _, g3, g4⟩
    · exact Or.inr (Or.inr (Or.inl ⟨k, nm, cc, h3, g3.trans h4, h5⟩))
    · rw [h4] at g3; cases g3
    · rw [h4] at g3; cases g3; exact Or.inr (Or.inr (Or.inl ⟨k, nm, cc, h3, g4, g5⟩))
    · rw [h4] at g3; cases g3
  · rcases g3 with g3 | ⟨v', w', g3, g4⟩ | ⟨k', nm', cc', g3, g4, g5⟩ | ⟨i', c', m', x', y', _, g3, g4⟩
    · exact Or.inr (Or.inr (Or.inr ⟨i, c, m, x, y, ho, h3, g3.trans h4⟩))
    · rw [h4] at g3; cases g3
    · rw [h4] at g3; cases g3
    · rw [h4] at g3; cases g3; exact Or.inr (Or.inr (Or.inr ⟨i, c, m, x, y', ho, h3, g4⟩))

theorem HeapSim.trans {o : Bool} {lk : Str → Option SymPtr} {a b c : List Node} (h : HeapSim o lk a b) (h' : HeapSim o lk b c) :
    HeapSim o lk a c := by
  refine ⟨Nat.le_trans h.1 h'.1, fun p n hn => ?_⟩
  obtain ⟨n1, h1, h2⟩ := h.2 p n hn
  obtain ⟨n2, h3, h4⟩ := h'.2 p n1 h1
  exact ⟨n2, h3, h2.trans h4⟩

theorem HeapSim.set {o : Bool} {lk : Str → Option SymPtr} {ns : List Node} {p : Nat} {n n' : Node} (h : ns[p]? = some n)
    (hs : NodeSim o lk n n') : HeapSim o lk ns (ns.set p n') := by
  refine ⟨Nat.le_of_eq List.length_set.symm, fun q m hq => ?_⟩
  rw [List.getElem?_set]
  by_cases hpq : p = q
  · subst hpq
    rw [h] at hq
    cases hq
    have : p < ns.length := by
      rcases Nat.lt_or_ge p ns.length with h' | h'
      · exact h'
      · rw [List.getElem?_eq_none h'] at h; cases h
    exact ⟨n', by simp [this], hs⟩
  · exact ⟨m, by rw [if_neg hpq]; exact hq, NodeSim.refl o lk m⟩

theorem HeapSim.mono {lk : Str → Option SymPtr} {a b : List Node} (h : HeapSim false lk a b) :
    HeapSim true lk a b := by
  refine ⟨h.1, fun p n hn => ?_⟩
  obtain ⟨n', h1, h2, h3, h4⟩ := h.2 p n hn
  refine ⟨n', h1, h2, h3, ?_⟩
  rcases h4 with h4 | h4 | h4 | ⟨_, _, _, _, _, h4, _⟩
  · exact Or.inl h4
  · exact Or.inr (Or.inl h4)
  · exact Or.inr (Or.inr (Or.inl h4))
  · cases h4

/-- The heap at `p` holds the tree of the expression; symbol references are missing, current or looked up again
at each use. -/
def ExprAt (lk : Str → Option SymPtr) (base : Nat) (ns : List Node) : Expr → Ptr → Prop
  | .int v, p => base ≤ p ∧ ns[p]? = some ⟨.con v false, 0, []⟩
  | .pc, p => base ≤ p ∧ ∃ v, ns[p]? = some ⟨.con v true, 0, []⟩
  | .sym name, p => base ≤ p ∧ ∃ c, ns[p]? = some ⟨.id .id name c, 0, []⟩ ∧
      (c = none ∨ c = lk name ∨ isLocalName name = true)
  | .un op e, p => base ≤ p ∧ ∃ q, ns[p]? = some ⟨.opr op.opr, 1, [q]⟩ ∧ ExprAt lk base ns e q
  | .bin op a b, p => base ≤ p ∧ ∃ q r, ns[p]? = some ⟨.opr op.opr, 2, [q, r]⟩ ∧ ExprAt lk base ns a q ∧
      ExprAt lk base ns b r

theorem HeapSim.opr {o : Bool} {lk : Str → Option SymPtr} {ns ns' : List Node} (h : HeapSim o lk ns ns') {p : Nat} {n : Node}
    (hn : ns[p]? = some n) (h1 : ∀ v, n.kind ≠ .con v true) (h2 : ∀ k nm c, n.kind ≠ .id k nm c)
    (h7 : o = true → ∀ i c m a, n.kind ≠ .opcode i c m a) : ns'[p]? = some n := by
  obtain ⟨n', h3, h4, h5, h6⟩ := h.2 p n hn
  rcases h6 with h6 | ⟨v, w, h6, _⟩ | ⟨k, nm, c, h6, _⟩ | ⟨i, c, m, a, b, ho, h6, _⟩
  · rw [h3]
    cases n
    cases n'
    simp only at h4 h5 h6
    rw [h4, h5, h6]
  · exact absurd h6 (h1 v)
  · exact absurd h6 (h2 k nm c)
  · exact absurd h6 (h7 ho i c m a)

theorem ExprAt.sim {o : Bool} {lk : Str → Option SymPtr} {base : Nat} {ns ns' : List Node} (h : HeapSim o lk ns ns') :
    ∀ {e : Expr} {p : Ptr}, ExprAt lk base ns e p → ExprAt lk base ns' e p
  | .int v, p, he => ⟨he.1, h.opr he.2 (by intro _ c; cases c) (by intro _ _ _ c; cases c)
        (by intro _ _ _ _ _ c; cases c)⟩
  | .pc, p, he => by
    obtain ⟨hb, v, hv⟩ := he
    obtain ⟨n', h1, h2, h3, h4⟩ := h.2 p _ hv
    refine ⟨hb, ?_⟩
    cases n'
    simp only at h2 h3 h4
    rcases h4 with h4 | ⟨v', w, _, h4⟩ | ⟨k, nm, c, h4, _⟩ | ⟨_, _, _, _, _, _, h4, _⟩
    · exact ⟨v, by rw [h1, h2, h3, h4]⟩
    · exact ⟨w, by rw [h1, h2, h3, h4]⟩
    · cases h4
    · cases h4
  | .sym name, p, he => by
    obtain ⟨hb, c, hc, hok⟩ := he
    obtain ⟨n', h1, h2, h3, h4⟩ := h.2 p _ hc
    refine ⟨hb, ?_⟩
    cases n'
    simp only at h2 h3 h4
    rcases h4 with h4 | ⟨v', w, h4, _⟩ | ⟨k, nm, c', h4, h5, _⟩ | ⟨_, _, _, _, _, _, h4, _⟩
    · exact ⟨c, by rw [h1, h2, h3, h4], hok⟩
    · cases h4
    · cases h4
      exact ⟨lk name, by rw [h1, h2, h3, h5], Or.inr (Or.inl rfl)⟩
    · cases h4
  | .un op e, p, he => by
    obtain ⟨hb, q, hq, h1⟩ := he
    exact ⟨hb, q, h.opr hq (by intro _ c; cases c) (by intro _ _ _ c; cases c)
        (by intro _ _ _ _ _ c; cases c), h1.sim h⟩
  | .bin op a b, p, he => by
    obtain ⟨hb, q, r, hq, h1, h2⟩ := he
    exact ⟨hb, q, r, h.opr hq (by intro _ c; cases c) (by intro _ _ _ c; cases c)
        (by intro _ _ _ _ _ c; cases c), h1.sim h, h2.sim h⟩

theorem HeapSim.append (o : Bool) (lk : Str → Option SymPtr) (ns l : List Node) : HeapSim o lk ns (ns ++ l) := by
  refine ⟨by simp, fun p n h => ⟨n, ?_, NodeSim.refl o lk n⟩⟩
  have : p < ns.length := by
    rcases Nat.lt_or_ge p ns.length with h' | h'
    · exact h'
    · rw [List.getElem?_eq_none h'] at h; cases h
  rw [List.getElem?_append_left this]
  exact h

/-- Allocating nodes keeps trees. -/
theorem ExprAt.append {lk : Str → Option SymPtr} {base : Nat} {ns : List Node} (l : List Node) {e : Expr} {p : Ptr}
    (h : ExprAt lk base ns e p) : ExprAt lk base (ns ++ l) e p := h.sim (HeapSim.append false lk ns l)

/-- Depth of an expression. -/
def Expr.depth : Expr → Nat
  | .int _ | .sym _ | .pc => 0
  | .un _ e => e.depth + 1
  | .bin _ a b => max a.depth b.depth + 1

/-- A state after evaluations: heap, and `k` reported divisions by zero. -/
def evalSt (s : St) (ns : List Node) (k : Nat) : St :=
  { s with nodes := ns, errorCount := s.errorCount + k, log := s.log ++ List.replicate k .divideByZero }

theorem evalSt_zero (s : St) : evalSt s s.nodes 0 = s := by
  unfold evalSt
  simp

theorem evalSt_comp (s : St) (ns ns' : List Node) (k k' : Nat) :
    evalSt (evalSt s ns k) ns' k' = evalSt s ns' (k + k') := by
  unfold evalSt
  simp only [List.append_assoc, List.replicate_append_replicate, Nat.add_assoc]

theorem look_evalSt (s : St) (ns : List Node) (k : Nat) : look (evalSt s ns k) = look s := rfl
theorem envOf_evalSt (s : St) (ns : List Node) (k : Nat) : envOf (evalSt s ns k) = envOf s := rfl

theorem addSymbol_run {s : St} {name : Str} {i : SymPtr} (hp : plainName name = true) (hl : look s name = some i) :
    addSymbol name s = (.ok (some i), s) := by
  simp only [plainName, Bool.and_eq_true, bne_iff_ne, ne_eq] at hp
  obtain ⟨⟨⟨h1, h2⟩, h3⟩, h4⟩ := hp
  unfold addSymbol
  rw [if_neg h2]
  split
  · simp [isPmName] at h1
  · simp [isPmName] at h1
  · rw [getS_bind, if_neg (fun h => h.elim h3 h4)]
    unfold look at hl
    cases hk : addSymbolKey s name with
    | mk sc key =>
      rw [hk] at hl
      simp only at hl ⊢
      rw [hl]
      rfl

/-- Evaluating a symbol. -/
theorem expandId_run {s : St} {p : Ptr} {name : Str} {c : Option SymPtr} {v : Int}
    (hl : Live s p ⟨.id .id name c, 0, []⟩) (hc : c = none ∨ c = look s name ∨ isLocalName name = true)
    (he : envOf s name = some v) :
    ∃ i x, look s name = some i ∧ s.syms[i]? = some x ∧ x.isInit = true ∧ x.value = v ∧
      expandId p name s = (.ok v, evalSt s (s.nodes.set p ⟨.id .id name (some i), 0, []⟩) 0) := by
  unfold envOf at he
  split at he
  · rename_i hp
    have hpm : isPmName name = false := by
      simp only [plainName, Bool.and_eq_true] at hp
      simpa using hp.1.1.1
    split at he
    · rename_i i hi
      split at he
      · rename_i x hx
        split at he
        · rename_i hinit
          cases he
          refine ⟨i, x, hi, hx, hinit, rfl, ?_⟩
          let s1 := evalSt s (s.nodes.set p ⟨.id .id name (some i), 0, []⟩) 0
          have hr : resolveId (name.head? == some 64) p s = (.ok (some i), s1) := by
            have hslow : (addSymbol name >>= fun j => setNode p ⟨.id .id name j, 0, []⟩ >>= fun _ => M.pure j) s =
                (.ok (some i), s1) := by
              rw [bind_ok (addSymbol_run hp hi), bind_ok (hl.set _)]
              show (Res.ok (some i), _) = _
              simp only [s1, evalSt, Nat.add_zero, List.replicate_zero, List.append_nil]
            unfold resolveId
            rw [bind_ok hl.run]
            cases hloc : (name.head? == some 64) with
            | true => cases c <;> exact hslow
            | false =>
              cases c with
              | none => exact hslow
              | some j =>
                have : some j = look s name := by
                  rcases hc with hc | hc | hc
                  · cases hc
                  · exact hc
                  · unfold isLocalName at hc; rw [hloc] at hc; cases hc
                rw [hi] at this
                cases this
                show (Res.ok (some i), s) = _
                have : s.nodes.set p ⟨.id .id name (some i), 0, []⟩ = s.nodes := by
                  have h2 := hl.2
                  rw [List.getElem?_eq_getElem hl.lt] at h2
                  rw [← Option.some.inj h2, List.set_getElem_self]
                simp only [s1, this, evalSt_zero]
          unfold expandId
          rw [if_neg (by rw [hpm]; decide), bind_ok hr]
          show symValue i s1 = _
          unfold symValue
          rw [bind_ok (sym_run (s := s1) (x := x) hx), hinit]
          rfl
        · cases he
      · cases he
    · cases he
  · cases he


/-! ## Values of the specification fit `int` and agree with the operators of the model -/

theorem rng_some {v w : Int} (h : Spec.rng v = some w) : v = w ∧ InInt w := by
  unfold Spec.rng at h
  split at h
  · cases h; exact ⟨rfl, by assumption⟩
  · cases h

theorem rng_cchk {v w : Int} (h : Spec.rng v = some w) : cchk v = some w := h

theorem inInt_truth (b : Bool) : InInt (Spec.truth b) := by
  cases b <;> decide

theorem unop_inInt {op : UnOp} {v w : Int} (h : Spec.unop op v = some w) : InInt w := by
  cases op with
  | neg => exact (rng_some h).2
  | compl =>
    simp only [Spec.unop, Option.some.injEq] at h
    unfold InInt
    split at h <;> omega
  | lo => simp only [Spec.unop, Option.some.injEq] at h; unfold InInt; omega
  | hi => simp only [Spec.unop, Option.some.injEq] at h; unfold InInt; omega
  | lnot => simp only [Spec.unop, Option.some.injEq] at h; subst h; exact inInt_truth _

theorem shr_inInt {a : Int} (ha : InInt a) (k : Nat) : InInt (a / 2 ^ k) := by
  have hp : (1 : Int) ≤ 2 ^ k := by
    have : (1 : Nat) ≤ 2 ^ k := Nat.one_le_two_pow
    have h2 : ((2 ^ k : Nat) : Int) = 2 ^ k := by simp
    omega
  unfold InInt at ha ⊢
  constructor
  · apply (Int.le_ediv_iff_mul_le (by omega)).2
    have : (-2147483648 : Int) * 2 ^ k ≤ -2147483648 * 1 := Int.mul_le_mul_of_nonpos_left (by decide) hp
    omega
  · apply (Int.ediv_lt_iff_lt_mul (by omega)).2
    have : (2147483648 : Int) * 1 ≤ 2147483648 * 2 ^ k := Int.mul_le_mul_of_nonneg_left hp (by decide)
    omega

theorem binop_inInt {op : BinOp} {a b w : Int} (ha : InInt a) (h : Spec.binop op a b = some w) : InInt w := by
  cases op <;> simp only [Spec.binop, Option.some.injEq] at h <;>
    first
      | exact (rng_some h).2
      | (subst h; exact inInt_truth _)
      | (subst h; exact inInt_toInt _)
      | (split at h
         · first
             | exact (rng_some h).2
             | (cases h; exact shr_inInt ha _)
         · cases h)

theorem eval_inInt {env : Str → Option Int} {pc : Int} : ∀ {e : Expr} {v : Int} {z : Bool},
    Spec.eval env pc e = some (v, z) → InInt v := by
  intro e v z h
  fun_induction Spec.eval env pc e generalizing v z with
  | case1 w =>
    simp only [Option.map_eq_some_iff, Prod.mk.injEq] at h
    obtain ⟨x, h1, h2, _⟩ := h; subst h2; exact (rng_some h1).2
  | case2 w =>
    simp only [Option.map_eq_some_iff, Prod.mk.injEq, Option.bind_eq_some_iff] at h
    obtain ⟨x, ⟨y, _, h1⟩, h2, _⟩ := h; subst h2; exact (rng_some h1).2
  | case3 =>
    simp only [Option.map_eq_some_iff, Prod.mk.injEq] at h
    obtain ⟨x, h1, h2, _⟩ := h; subst h2; exact (rng_some h1).2
  | _ =>
    first
      | (cases h; done)
      | (simp only [Option.map_eq_some_iff, Prod.mk.injEq] at h
         obtain ⟨x, h1, h2, _⟩ := h; subst h2
         first
           | exact unop_inInt h1
           | exact binop_inInt (by rename_i ih _; exact ih (by assumption)) h1
           | exact (rng_some h1).2
           | (rename_i ih; exact binop_inInt (ih (by assumption)) h1)
           | (apply binop_inInt _ h1; apply_assumption; assumption))
      | (simp only [Option.some.injEq, Prod.mk.injEq] at h
         obtain ⟨h1, _⟩ := h; subst h1
         first | exact inInt_truth _ | decide)


theorem onesCompl_eq {v : Int} (h : InInt v) :
    onesCompl v = if 0 ≤ v ∧ v < 256 then 255 - v else (-1 - v) % 65536 := by
  have hn : cnot v = -1 - v := by
    unfold cnot
    rw [BitVec.toInt_not, BitVec.toNat_ofInt]
    unfold InInt at h
    rw [Int.bmod_def]
    split <;> omega
  unfold onesCompl
  rw [hn]
  by_cases hc : cand v (cnot 0xFF) = 0
  · rw [if_neg (by rw [hc]; decide), cand_ff]
    have := (cand_not_ff h).1 hc
    rw [if_pos this]
    omega
  · rw [if_pos hc, cand_ffff, if_neg]
    intro h'
    exact hc ((cand_not_ff h).2 h')

theorem truth_cbool (b : Bool) : Spec.truth b = cbool b := rfl

theorem truth_ne (x y : Int) : Spec.truth (decide (x ≠ y)) = cbool (x != y) := by
  by_cases h : x = y <;> simp [Spec.truth, cbool, h]

theorem error_div (s : St) (ns : List Node) (k : Nat) :
    error .divideByZero (evalSt s ns k) = (.ok (), evalSt s ns (k + 1)) := by
  show (Res.ok (), _) = _
  simp only [evalSt, List.append_assoc, List.replicate_succ', Nat.add_assoc]

/-- The unary operators of the model compute the specified values. -/
theorem unop_run (ex : Ptr → M Int) (hu : Ptr → M Bool) (f : Nat) (n : Node) (op : UnOp) :
    ∃ g, expandOperator ex hu f op.opr n = una ex n g ∧ ∀ v w, InInt v → Spec.unop op v = some w → g v = some w := by
  cases op with
  | neg => exact ⟨_, rfl, fun v w _ h => h⟩
  | compl => exact ⟨_, rfl, fun v w hv h => by rw [onesCompl_eq hv]; exact h⟩
  | lo =>
    refine ⟨_, rfl, fun v w hv h => ?_⟩
    simp only [Spec.unop, Option.some.injEq] at h
    rw [cand_ffff, cand_ff]
    have : v % 65536 % 256 = v % 256 := by omega
    rw [this, h]
  | hi =>
    refine ⟨_, rfl, fun v w hv h => ?_⟩
    simp only [Spec.unop, Option.some.injEq] at h
    rw [cand_ffff, cand_ff00]
    have : v % 65536 % 65536 = v % 65536 := by omega
    rw [this, h]
  | lnot => exact ⟨_, rfl, fun v w _ h => h⟩

theorem shl_eq {a b w : Int} (h : Spec.binop .shl a b = some w) : cshl a b = some w := by
  simp only [Spec.binop] at h
  split at h
  · rename_i hb
    obtain ⟨h1, h2⟩ := rng_some h
    unfold cshl
    rw [if_pos ⟨hb.2.1, hb.2.2⟩, if_pos ⟨hb.1, by rw [h1]; unfold InInt at h2; omega⟩, h1]
    congr 1
    rw [BitVec.toInt_ofInt]
    unfold InInt at h2
    rw [Int.bmod_def]
    split <;> omega
  · cases h

/-- The strict binary operators of the model compute the specified values. -/
theorem binop_run (ex : Ptr → M Int) (hu : Ptr → M Bool) (f : Nat) (n : Node) (op : BinOp) (h1 : op ≠ .div)
    (h2 : op ≠ .lor) (h3 : op ≠ .land) :
    ∃ g, expandOperator ex hu f op.opr n = bin ex n g ∧ ∀ x y w, Spec.binop op x y = some w → g x y = some w := by
  cases op <;> first
    | exact absurd rfl h1
    | exact absurd rfl h2
    | exact absurd rfl h3
    | exact ⟨_, rfl, fun x y w h => h⟩
    | exact ⟨_, rfl, fun x y w h => shl_eq h⟩
    | exact ⟨_, rfl, fun x y w h => by
        rw [← truth_ne]; exact h⟩

/-- All symbol references of the tree are filled in and defined. -/
def Done (lk : Str → Option SymPtr) (syms : List Sym) (ns : List Node) : Expr → Ptr → Prop
  | .int _, _ | .pc, _ => True
  | .sym name, p => ∃ i x, ns[p]? = some ⟨.id .id name (some i), 0, []⟩ ∧ lk name = some i ∧ syms[i]? = some x ∧
      x.isInit = true
  | .un op e, p => ∃ q, ns[p]? = some ⟨.opr op.opr, 1, [q]⟩ ∧ Done lk syms ns e q
  | .bin op a b, p => ∃ q r, ns[p]? = some ⟨.opr op.opr, 2, [q, r]⟩ ∧ Done lk syms ns a q ∧ Done lk syms ns b r

theorem Done.sim {o : Bool} {lk : Str → Option SymPtr} {syms : List Sym} {ns ns' : List Node} (h : HeapSim o lk ns ns') :
    ∀ {e : Expr} {p : Ptr}, Done lk syms ns e p → Done lk syms ns' e p
  | .int v, p, _ => trivial
  | .pc, p, _ => trivial
  | .sym name, p, he => by
    obtain ⟨i, x, hc, h1, h2, h3⟩ := he
    obtain ⟨n', g1, g2, g3, g4⟩ := h.2 p _ hc
    refine ⟨i, x, ?_, h1, h2, h3⟩
    cases n'
    simp only at g2 g3 g4
    rcases g4 with g4 | ⟨v', w, g4, _⟩ | ⟨k, nm, c', g4, g5, _⟩ | ⟨_, _, _, _, _, _, g4, _⟩
    · rw [g1, g2, g3, g4]
    · cases g4
    · cases g4
      rw [g1, g2, g3, g5, h1]
    · cases g4
  | .un op e, p, he => by
    obtain ⟨q, hq, h1⟩ := he
    exact ⟨q, h.opr hq (by intro _ c; cases c) (by intro _ _ _ c; cases c)
        (by intro _ _ _ _ _ c; cases c), h1.sim h⟩
  | .bin op a b, p, he => by
    obtain ⟨q, r, hq, h1, h2⟩ := he
    exact ⟨q, r, h.opr hq (by intro _ c; cases c) (by intro _ _ _ c; cases c)
        (by intro _ _ _ _ _ c; cases c), h1.sim h, h2.sim h⟩

theorem Done.noSyms {lk : Str → Option SymPtr} {base : Nat} {syms : List Sym} {ns : List Node} :
    ∀ {e : Expr} {p : Ptr}, e.noSyms = true → ExprAt lk base ns e p → Done lk syms ns e p
  | .int v, p, _, _ => trivial
  | .pc, p, _, _ => trivial
  | .sym name, p, h, he => by cases h
  | .un op e, p, h, he => by
    obtain ⟨hb, q, hq, h1⟩ := he
    exact ⟨q, hq, Done.noSyms (e := e) h h1⟩
  | .bin op a b, p, h, he => by
    obtain ⟨hb, q, r, hq, h1, h2⟩ := he
    have h' : a.noSyms = true ∧ b.noSyms = true := by
      simpa only [Expr.noSyms, Bool.and_eq_true] using h
    exact ⟨q, r, hq, Done.noSyms h'.1 h1, Done.noSyms h'.2 h2⟩

/-- Outcome of evaluating the tree at `p` in state `s`. -/
def Evals (m : M Int) (s : St) (e : Expr) (p : Ptr) (v : Int) (z : Bool) : Prop :=
  ∃ ns k, m s = (.ok v, evalSt s ns k) ∧ HeapSim false (look s) s.nodes ns ∧ (k = 0 ↔ z = false) ∧
    (e.complete (envOf s) s.pc = true → Done (look s) s.syms ns e p)

theorem ExprAt.live {s : St} {e : Expr} {p : Ptr} (h : ExprAt (look s) s.nodeBase s.nodes e p) : ∃ n, Live s p n := by
  cases e with
  | int v => exact ⟨_, h.1, h.2⟩
  | pc => obtain ⟨hb, v, hv⟩ := h; exact ⟨_, hb, hv⟩
  | sym name => obtain ⟨hb, v, hv, _⟩ := h; exact ⟨_, hb, hv⟩
  | un op e => obtain ⟨hb, v, hv, _⟩ := h; exact ⟨_, hb, hv⟩
  | bin op a b => obtain ⟨hb, v, w, hv, _⟩ := h; exact ⟨_, hb, hv⟩

theorem complete_bin {env : Str → Option Int} {pc : Int} {op : BinOp} {a b : Expr} (h1 : op ≠ .div)
    (h2 : op ≠ .lor) (h3 : op ≠ .land) : Expr.complete env pc (.bin op a b) =
      (a.complete env pc && b.complete env pc) := by
  cases op <;> first
    | exact absurd rfl h1
    | exact absurd rfl h2
    | exact absurd rfl h3
    | rfl

theorem eval_bin {env : Str → Option Int} {pc : Int} {op : BinOp} {a b : Expr} (h1 : op ≠ .div)
    (h2 : op ≠ .lor) (h3 : op ≠ .land) {v : Int} {z : Bool} (h : Spec.eval env pc (.bin op a b) = some (v, z)) :
    ∃ x za y zb, Spec.eval env pc a = some (x, za) ∧ Spec.eval env pc b = some (y, zb) ∧
      Spec.binop op x y = some v ∧ z = (za || zb) := by
  have : Spec.eval env pc (.bin op a b) = match Spec.eval env pc a with
      | some (x, za) =>
        match Spec.eval env pc b with
        | some (y, zb) => (Spec.binop op x y).map (·, za || zb)
        | none => none
      | none => none := by
    cases op <;> first
      | exact absurd rfl h1
      | exact absurd rfl h2
      | exact absurd rfl h3
      | rfl
  rw [this] at h
  cases ha : Spec.eval env pc a with
  | none => rw [ha] at h; cases h
  | some xa =>
    obtain ⟨x, za⟩ := xa
    rw [ha] at h
    cases hb : Spec.eval env pc b with
    | none => rw [hb] at h; cases h
    | some yb =>
      obtain ⟨y, zb⟩ := yb
      rw [hb] at h
      simp only [Option.map_eq_some_iff, Prod.mk.injEq] at h
      obtain ⟨w, hw, h4, h5⟩ := h
      subst h4
      exact ⟨x, za, y, zb, rfl, rfl, hw, h5.symm⟩


/-- Evaluating a well-formed tree gives the specified value, changes only references, and reports exactly the
divisions by zero. -/
theorem expand_eval : ∀ {e : Expr} {f : Nat} {p : Ptr} {s : St} {v : Int} {z : Bool}, e.depth < f →
    s.endExpansion = false → ExprAt (look s) s.nodeBase s.nodes e p →
    Spec.eval (envOf s) s.pc e = some (v, z) → Evals (expandNode f p) s e p v z := by
  intro e
  induction e with
  | int w =>
    intro f p s v z hf he ht hv
    obtain ⟨f, rfl⟩ : ∃ g, f = g + 1 := ⟨f - 1, by omega⟩
    simp only [Spec.eval, Option.map_eq_some_iff, Prod.mk.injEq] at hv
    obtain ⟨x, h1, h2, h3⟩ := hv
    obtain ⟨h4, _⟩ := rng_some h1
    subst h2; subst h3; subst h4
    refine ⟨s.nodes, 0, ?_, HeapSim.refl _ _ _, by simp, fun _ => trivial⟩
    rw [expandNode_run he ht, evalSt_zero]
    rfl
  | sym name =>
    intro f p s v z hf he ht hv
    obtain ⟨f, rfl⟩ : ∃ g, f = g + 1 := ⟨f - 1, by omega⟩
    simp only [Spec.eval, Option.map_eq_some_iff, Prod.mk.injEq, Option.bind_eq_some_iff] at hv
    obtain ⟨x, ⟨y, h0, h1⟩, h2, h3⟩ := hv
    obtain ⟨h4, _⟩ := rng_some h1
    subst h2; subst h3; subst h4
    obtain ⟨hb, c, hc, hok⟩ := ht
    obtain ⟨i, sy, g1, g2, g3, g4, g5⟩ := expandId_run ⟨hb, hc⟩ hok h0
    refine ⟨_, 0, (expandNode_run he ⟨hb, hc⟩).trans g5, HeapSim.set hc ⟨rfl, rfl, Or.inr (Or.inr (Or.inl
      ⟨_, _, _, rfl, by rw [g1], by rw [g1]; rfl⟩))⟩, by simp, fun _ => ⟨i, sy, ?_, g1, g2, g3⟩⟩
    have hlt : p < s.nodes.length := Live.lt ⟨hb, hc⟩
    rw [List.getElem?_set_self hlt]
  | pc =>
    intro f p s v z hf he ht hv
    obtain ⟨f, rfl⟩ : ∃ g, f = g + 1 := ⟨f - 1, by omega⟩
    simp only [Spec.eval, Option.map_eq_some_iff, Prod.mk.injEq] at hv
    obtain ⟨x, h1, h2, h3⟩ := hv
    obtain ⟨h4, _⟩ := rng_some h1
    subst h2; subst h3; subst h4
    obtain ⟨hb, c, hc⟩ := ht
    have hl : Live s p _ := ⟨hb, hc⟩
    refine ⟨s.nodes.set p ⟨.con s.pc true, 0, []⟩, 0, ?_,
      HeapSim.set hc ⟨rfl, rfl, Or.inr (Or.inl ⟨_, s.pc, rfl, rfl⟩)⟩, by simp, fun _ => trivial⟩
    rw [expandNode_run he hl]
    show (getS >>= _) s = _
    rw [getS_bind, bind_ok hl.run, bind_ok (hl.set _)]
    simp only [evalSt, Nat.add_zero, List.replicate_zero, List.append_nil]
    rfl
  | un op e ih =>
    intro f p s v z hf he ht hv
    obtain ⟨f, rfl⟩ : ∃ g, f = g + 1 := ⟨f - 1, by omega⟩
    obtain ⟨hb, q, hq, h1⟩ := ht
    simp only [Spec.eval] at hv
    cases hx : Spec.eval (envOf s) s.pc e with
    | none => rw [hx] at hv; cases hv
    | some xz =>
      obtain ⟨x, zx⟩ := xz
      rw [hx] at hv
      simp only [Option.map_eq_some_iff, Prod.mk.injEq] at hv
      obtain ⟨w, h2, h3, h4⟩ := hv
      subst h3; subst h4
      obtain ⟨ns, k, g1, g2, g3, g4⟩ := ih (f := f) (by simp only [Expr.depth] at hf; omega) he h1 hx
      refine ⟨ns, k, ?_, g2, g3, fun hc => ⟨q, g2.opr hq (by intro _ c; cases c) (by intro _ _ _ c; cases c)
        (by intro _ _ _ _ _ c; cases c), g4 hc⟩⟩
      rw [expandNode_run he ⟨hb, hq⟩]
      obtain ⟨g, e1, e2⟩ := unop_run (expandNode f) (hasUninit f) f ⟨.opr op.opr, 1, [q]⟩ op
      show expandOperator _ _ _ _ _ s = _
      rw [e1]
      unfold una
      rw [bind_ok (opAt_run (by rfl) s), bind_ok g1, e2 _ _ (eval_inInt hx) h2]
      rfl
  | bin op a b iha ihb =>
    intro f p s v z hf he ht hv
    obtain ⟨f, rfl⟩ : ∃ g, f = g + 1 := ⟨f - 1, by omega⟩
    obtain ⟨hb, q, r, hq, h1, h2⟩ := ht
    have hfa : a.depth < f := by simp only [Expr.depth] at hf; omega
    have hfb : b.depth < f := by simp only [Expr.depth] at hf; omega
    have hup : ∀ {ns : List Node}, HeapSim false (look s) s.nodes ns → ns[p]? = some ⟨.opr op.opr, 2, [q, r]⟩ :=
      fun h => h.opr hq (by intro _ c; cases c) (by intro _ _ _ c; cases c)
        (by intro _ _ _ _ _ c; cases c)
    have step : expandNode (f + 1) p s = expandOperator (expandNode f) (hasUninit f) f op.opr
        ⟨.opr op.opr, 2, [q, r]⟩ s := expandNode_run he ⟨hb, hq⟩
    -- run the left operand from an evaluated state
    have runA : ∀ {ns : List Node} {k : Nat} {x : Int} {za : Bool}, HeapSim false (look s) s.nodes ns →
        Spec.eval (envOf s) s.pc a = some (x, za) →
        ∃ ns' k', expandNode f q (evalSt s ns k) = (.ok x, evalSt s ns' (k + k')) ∧ HeapSim false (look s) ns ns' ∧
          (k' = 0 ↔ za = false) ∧ (a.complete (envOf s) s.pc = true → Done (look s) s.syms ns' a q) := by
      intro ns k x za hs hx
      obtain ⟨ns', k', g1, g2, g3, g4⟩ := iha (s := evalSt s ns k) hfa he (h1.sim hs) hx
      exact ⟨ns', k', by rw [g1, evalSt_comp], g2, g3, g4⟩
    have runB : ∀ {ns : List Node} {k : Nat} {x : Int} {za : Bool}, HeapSim false (look s) s.nodes ns →
        Spec.eval (envOf s) s.pc b = some (x, za) →
        ∃ ns' k', expandNode f r (evalSt s ns k) = (.ok x, evalSt s ns' (k + k')) ∧ HeapSim false (look s) ns ns' ∧
          (k' = 0 ↔ za = false) ∧ (b.complete (envOf s) s.pc = true → Done (look s) s.syms ns' b r) := by
      intro ns k x za hs hx
      obtain ⟨ns', k', g1, g2, g3, g4⟩ := ihb (s := evalSt s ns k) hfb he (h2.sim hs) hx
      exact ⟨ns', k', by rw [g1, evalSt_comp], g2, g3, g4⟩
    have h0 : s = evalSt s s.nodes 0 := (evalSt_zero s).symm
    by_cases hd : op = .div
    · subst hd
      simp only [Spec.eval] at hv
      cases hy : Spec.eval (envOf s) s.pc b with
      | none => rw [hy] at hv; cases hv
      | some yz =>
        obtain ⟨y, zb⟩ := yz
        rw [hy] at hv
        simp only at hv
        obtain ⟨n1, k1, r1, s1, e1, c1⟩ := runB (k := 0) (HeapSim.refl _ _ _) hy
        rw [← h0] at r1
        by_cases hy0 : y = 0
        · rw [if_pos hy0] at hv
          cases hv
          refine ⟨n1, 0 + k1 + 1, ?_, s1, by simp, fun hc => ?_⟩
          · rw [step]
            show (opAt _ 1 >>= _) s = _
            rw [bind_ok (opAt_run (by rfl) s), bind_ok r1, if_pos hy0]
            rw [bind_ok (error_div _ _ _)]
            rfl
          · simp only [Expr.complete, Bool.and_eq_true, hy, Option.map_some, hy0, if_true] at hc
            exact ⟨q, r, hup s1, Done.noSyms hc.2 (h1.sim s1), c1 hc.1⟩
        · rw [if_neg hy0] at hv
          cases hx : Spec.eval (envOf s) s.pc a with
          | none => rw [hx] at hv; cases hv
          | some xz =>
            obtain ⟨x, za⟩ := xz
            rw [hx] at hv
            simp only [Option.map_eq_some_iff, Prod.mk.injEq] at hv
            obtain ⟨w, g2, g3, g4⟩ := hv
            subst g3; subst g4
            obtain ⟨n2, k2, r2, s2, e2, c2⟩ := runA (k := 0 + k1) s1 hx
            obtain ⟨n3, k3, r3, s3, e3, c3⟩ := runB (k := 0 + k1 + k2) (s1.trans s2) hy
            refine ⟨n3, 0 + k1 + k2 + k3, ?_, (s1.trans s2).trans s3, ?_, fun hc => ?_⟩
            · rw [step]
              show (opAt _ 1 >>= _) s = _
              rw [bind_ok (opAt_run (by rfl) s), bind_ok r1, if_neg hy0]
              unfold bin
              rw [bind_ok (opAt_run (by rfl) _), bind_ok r2, bind_ok (opAt_run (by rfl) _), bind_ok r3]
              have : cdiv x y = some w := by
                unfold cdiv
                rw [if_neg hy0]
                exact g2
              rw [this]
              rfl
            · rw [Bool.or_eq_false_iff, ← e1, ← e2]
              have := e1.trans e3.symm
              omega
            · simp only [Expr.complete, Bool.and_eq_true, hy, Option.map_some, Option.some.injEq, hy0, if_false] at hc
              exact ⟨q, r, hup ((s1.trans s2).trans s3), (c2 hc.2).sim s3, c3 hc.1⟩
    · by_cases hl : op = .lor
      · subst hl
        simp only [Spec.eval] at hv
        cases hx : Spec.eval (envOf s) s.pc a with
        | none => rw [hx] at hv; cases hv
        | some xz =>
          obtain ⟨x, za⟩ := xz
          rw [hx] at hv
          simp only at hv
          obtain ⟨n1, k1, r1, s1, e1, c1⟩ := runA (k := 0) (HeapSim.refl _ _ _) hx
          rw [← h0] at r1
          by_cases hx0 : x = 0
          · rw [if_neg (by rw [hx0]; simp)] at hv
            cases hy : Spec.eval (envOf s) s.pc b with
            | none => rw [hy] at hv; cases hv
            | some yz =>
              obtain ⟨y, zb⟩ := yz
              rw [hy] at hv
              cases hv
              obtain ⟨n2, k2, r2, s2, e2, c2⟩ := runB (k := 0 + k1) s1 hy
              refine ⟨n2, 0 + k1 + k2, ?_, s1.trans s2, ?_, fun hc => ?_⟩
              · rw [step]
                show (opAt _ 0 >>= _) s = _
                rw [bind_ok (opAt_run (by rfl) s), bind_ok r1, if_neg (by rw [hx0]; decide),
                  bind_ok (opAt_run (by rfl) _), bind_ok r2]
                show (Res.ok (cbool (y != 0)), _) = _
                rw [truth_ne]
              · rw [Bool.or_eq_false_iff, ← e1, ← e2]; omega
              · simp only [Expr.complete, Bool.and_eq_true, hx, Option.map_some, hx0, if_true] at hc
                exact ⟨q, r, hup (s1.trans s2), (c1 hc.1).sim s2, c2 hc.2⟩
          · rw [if_pos hx0] at hv
            cases hv
            refine ⟨n1, 0 + k1, ?_, s1, by rw [Nat.zero_add]; exact e1, fun hc => ?_⟩
            · rw [step]
              show (opAt _ 0 >>= _) s = _
              rw [bind_ok (opAt_run (by rfl) s), bind_ok r1, if_pos (by simpa using hx0)]
              rfl
            · simp only [Expr.complete, Bool.and_eq_true, hx, Option.map_some, Option.some.injEq, hx0, if_false] at hc
              exact ⟨q, r, hup s1, c1 hc.1, Done.noSyms hc.2 (h2.sim s1)⟩
      · by_cases hn : op = .land
        · subst hn
          simp only [Spec.eval] at hv
          cases hx : Spec.eval (envOf s) s.pc a with
          | none => rw [hx] at hv; cases hv
          | some xz =>
            obtain ⟨x, za⟩ := xz
            rw [hx] at hv
            simp only at hv
            obtain ⟨n1, k1, r1, s1, e1, c1⟩ := runA (k := 0) (HeapSim.refl _ _ _) hx
            rw [← h0] at r1
            by_cases hx0 : x = 0
            · rw [if_pos hx0] at hv
              cases hv
              refine ⟨n1, 0 + k1, ?_, s1, by rw [Nat.zero_add]; exact e1, fun hc => ?_⟩
              · rw [step]
                show (opAt _ 0 >>= _) s = _
                rw [bind_ok (opAt_run (by rfl) s), bind_ok r1, if_pos (by rw [hx0]; decide)]
                rfl
              · simp only [Expr.complete, Bool.and_eq_true, hx, Option.map_some, hx0, if_true] at hc
                exact ⟨q, r, hup s1, c1 hc.1, Done.noSyms hc.2 (h2.sim s1)⟩
            · rw [if_neg hx0] at hv
              cases hy : Spec.eval (envOf s) s.pc b with
              | none => rw [hy] at hv; cases hv
              | some yz =>
                obtain ⟨y, zb⟩ := yz
                rw [hy] at hv
                cases hv
                obtain ⟨n2, k2, r2, s2, e2, c2⟩ := runB (k := 0 + k1) s1 hy
                refine ⟨n2, 0 + k1 + k2, ?_, s1.trans s2, ?_, fun hc => ?_⟩
                · rw [step]
                  show (opAt _ 0 >>= _) s = _
                  rw [bind_ok (opAt_run (by rfl) s), bind_ok r1, if_neg (by simpa using hx0),
                    bind_ok (opAt_run (by rfl) _), bind_ok r2]
                  show (Res.ok (cbool (y != 0)), _) = _
                  rw [truth_ne]
                · rw [Bool.or_eq_false_iff, ← e1, ← e2]; omega
                · simp only [Expr.complete, Bool.and_eq_true, hx, Option.map_some, Option.some.injEq, hx0, if_false] at hc
                  exact ⟨q, r, hup (s1.trans s2), (c1 hc.1).sim s2, c2 hc.2⟩
        · obtain ⟨x, za, y, zb, hx, hy, hw, rfl⟩ := eval_bin hd hl hn hv
          obtain ⟨n1, k1, r1, s1, e1, c1⟩ := runA (k := 0) (HeapSim.refl _ _ _) hx
          rw [← h0] at r1
          obtain ⟨n2, k2, r2, s2, e2, c2⟩ := runB (k := 0 + k1) s1 hy
          refine ⟨n2, 0 + k1 + k2, ?_, s1.trans s2, ?_, fun hc => ?_⟩
          · rw [step]
            obtain ⟨g, g1, g2⟩ := binop_run (expandNode f) (hasUninit f) f ⟨.opr op.opr, 2, [q, r]⟩ op hd hl hn
            rw [g1]
            unfold bin
            rw [bind_ok (opAt_run (by rfl) s), bind_ok r1, bind_ok (opAt_run (by rfl) _), bind_ok r2, g2 _ _ _ hw]
            rfl
          · rw [Bool.or_eq_false_iff, ← e1, ← e2]; omega
          · rw [complete_bin hd hl hn, Bool.and_eq_true] at hc
            exact ⟨q, r, hup (s1.trans s2), (c1 hc.1).sim s2, c2 hc.2⟩

/-- Building an expression allocates its tree. -/
theorem buildExpr_run {lk : Str → Option SymPtr} : ∀ (e : Expr) (s : St), s.nodeBase ≤ s.nodes.length →
    ∃ l p, buildExpr e s = (.ok p, { s with nodes := s.nodes ++ l }) ∧
      ExprAt lk s.nodeBase (s.nodes ++ l) e p := by
  intro e
  induction e with
  | int v => exact fun s hb => ⟨_, _, rfl, hb, by simp⟩
  | sym name => exact fun s hb => ⟨_, _, rfl, hb, none, by simp, Or.inl rfl⟩
  | pc => exact fun s hb => ⟨_, _, rfl, hb, s.pc, by simp⟩
  | un op e ih =>
    intro s hb
    obtain ⟨l, q, h1, h2⟩ := ih s hb
    refine ⟨l ++ [⟨.opr op.opr, 1, [q]⟩], (s.nodes ++ l).length, ?_, ?_, q, ?_, ?_⟩
    · show (buildExpr e >>= _) s = _
      rw [bind_ok h1]
      show allocNode _ _ _ = _
      rw [alloc_run, List.append_assoc]
      rfl
    · simp; omega
    · rw [← List.append_assoc]; simp
    · rw [← List.append_assoc]; exact h2.append _
  | bin op a b iha ihb =>
    intro s hb
    obtain ⟨l, q, h1, h2⟩ := iha s hb
    obtain ⟨l', r, h3, h4⟩ := ihb { s with nodes := s.nodes ++ l } (by simp; omega)
    refine ⟨l ++ l' ++ [⟨.opr op.opr, 2, [q, r]⟩], (s.nodes ++ l ++ l').length, ?_, ?_, q, r, ?_, ?_, ?_⟩
    · show (buildExpr a >>= _) s = _
      rw [bind_ok h1, bind_ok h3]
      show allocNode _ _ _ = _
      rw [alloc_run, List.append_assoc, List.append_assoc]
      simp only [List.append_assoc]
      rfl
    · simp; omega
    · rw [← List.append_assoc, ← List.append_assoc]; simp
    · rw [← List.append_assoc, ← List.append_assoc]; exact (h2.append _).append _
    · rw [← List.append_assoc, ← List.append_assoc]; exact h4.append _

/-- After a complete evaluation nothing in the tree is undefined. -/
theorem Done.run {s : St} : ∀ {e : Expr} {f : Nat} {p : Ptr}, e.depth < f →
    ExprAt (look s) s.nodeBase s.nodes e p → Done (look s) s.syms s.nodes e p →
    hasUninit f p s = (.ok false, s) ∧ isUninitSym p s = (.ok false, s) := by
  intro e
  induction e with
  | int v =>
    intro f p hf ht hd
    obtain ⟨f, rfl⟩ : ∃ g, f = g + 1 := ⟨f - 1, by omega⟩
    refine ⟨?_, ?_⟩
    · show (node p >>= _) s = _
      rw [bind_ok (Live.run ht)]; rfl
    · unfold isUninitSym; rw [bind_ok (Live.run ht)]; rfl
  | pc =>
    intro f p hf ht hd
    obtain ⟨f, rfl⟩ : ∃ g, f = g + 1 := ⟨f - 1, by omega⟩
    obtain ⟨hb, v, hv⟩ := ht
    refine ⟨?_, ?_⟩
    · show (node p >>= _) s = _
      rw [bind_ok (Live.run ⟨hb, hv⟩)]; rfl
    · unfold isUninitSym; rw [bind_ok (Live.run ⟨hb, hv⟩)]; rfl
  | sym name =>
    intro f p hf ht hd
    obtain ⟨f, rfl⟩ : ∃ g, f = g + 1 := ⟨f - 1, by omega⟩
    obtain ⟨hb, _⟩ := ht
    obtain ⟨i, x, h1, h2, h3, h4⟩ := hd
    refine ⟨?_, ?_⟩
    · show (node p >>= _) s = _
      rw [bind_ok (Live.run ⟨hb, h1⟩)]; rfl
    · unfold isUninitSym
      rw [bind_ok (Live.run ⟨hb, h1⟩)]
      show (sym i >>= _) s = _
      rw [bind_ok (sym_run h3), h4]
      simp
  | un op e ih =>
    intro f p hf ht hd
    obtain ⟨f, rfl⟩ : ∃ g, f = g + 1 := ⟨f - 1, by omega⟩
    obtain ⟨hb, q, hq, h1⟩ := ht
    obtain ⟨q', hq', h2⟩ := hd
    rw [hq] at hq'
    cases hq'
    obtain ⟨r1, r2⟩ := ih (f := f) (by simp only [Expr.depth] at hf; omega) h1 h2
    refine ⟨?_, ?_⟩
    · show (node p >>= _) s = _
      rw [bind_ok (Live.run ⟨hb, hq⟩), bind_ok (operands_run (by simp) s)]
      simp only [List.take, eachM]
      rw [run_bind, run_bind, run_bind, r1]
      simp only [if_neg Bool.false_ne_true]
      rw [run_bind, r2]
      rfl
    · unfold isUninitSym; rw [bind_ok (Live.run ⟨hb, hq⟩)]; rfl
  | bin op a b iha ihb =>
    intro f p hf ht hd
    obtain ⟨f, rfl⟩ : ∃ g, f = g + 1 := ⟨f - 1, by omega⟩
    obtain ⟨hb, q, r, hq, h1, h1'⟩ := ht
    obtain ⟨q', r', hq', h2, h2'⟩ := hd
    rw [hq] at hq'
    cases hq'
    obtain ⟨r1, r2⟩ := iha (f := f) (by simp only [Expr.depth] at hf; omega) h1 h2
    obtain ⟨r3, r4⟩ := ihb (f := f) (by simp only [Expr.depth] at hf; omega) h1' h2'
    refine ⟨?_, ?_⟩
    · show (node p >>= _) s = _
      rw [bind_ok (Live.run ⟨hb, hq⟩), bind_ok (operands_run (by simp) s)]
      simp only [List.take, eachM]
      rw [run_bind, run_bind, run_bind, r1]
      simp only [if_neg Bool.false_ne_true]
      rw [run_bind, r2]
      simp only [if_neg Bool.false_ne_true, run_pure]
      rw [run_bind, run_bind, r3]
      simp only [if_neg Bool.false_ne_true]
      rw [run_bind, r4]
      rfl
    · unfold isUninitSym; rw [bind_ok (Live.run ⟨hb, hq⟩)]; rfl

end Verif
