import Verif.Lemmas.VarInit
import Verif.Lemmas.BlockBuild

/-! # Lists of declarations in `.var` -/

namespace Verif

/-- The symbol a declaration of the name is about. -/
def varIndex (s : St) (name : Str) : SymPtr := (look s name).getD s.syms.length

/-- The symbol table after a declaration with the value. -/
def varSyms (s : St) (name : Str) (v : Int) : List Sym :=
  match look s name with
  | some i => s.syms.modify i fun x => { x with isVar := true, value := v, isInit := true }
  | none => s.syms ++ [{ newSym s name with isVar := true, value := v, isInit := true }]

theorem newSym_cstr {s : St} {name : Str} (hs : CNames s) (hn : CStr name) (hd : 46 ∉ name) : CStr (newSym s name).fullname := by
  have hkn := CStr.key hs.label hn
  have hsc := addSymbolKey_scope (s := s) hd
  unfold newSym
  rw [sanitizeSym_fullname]
  cases hk : addSymbolKey s name with
  | mk sc key =>
    rw [hk] at hkn hsc
    cases sc with
    | none => exact hkn
    | some sc => exact CStr.dotted (hs.scope sc hsc.symm) hkn

theorem varSyms_names {s : St} {name : Str} {i : SymPtr} (v : Int) (hl : look s name = some i) :
    (varSyms s name v).map (·.fullname) = s.syms.map (·.fullname) := by
  obtain ⟨x, hx⟩ : ∃ x, s.syms[i]? = some x := ⟨_, List.getElem?_eq_getElem (look_lt hl)⟩
  unfold varSyms
  rw [hl]
  simp only
  rw [modify_set hx]
  exact names_set hx rfl

theorem varSyms_look {s : St} {name : Str} (v : Int) : look { s with syms := varSyms s name v } name = some (varIndex s name) := by
  cases hl : look s name with
  | some i =>
    rw [look_names (s := s) (varSyms_names v hl), hl]
    unfold varIndex
    rw [hl]
    rfl
  | none =>
    unfold varSyms varIndex
    rw [hl]
    exact look_new name _ rfl

theorem varSyms_old {s : St} {name n : Str} {j : SymPtr} (v : Int) (hs : CNames s) (hn : CStr name) (hn' : CStr n) (hd : 46 ∉ name)
    (hj : look s n = some j) : look { s with syms := varSyms s name v } n = some j := by
  cases hl : look s name with
  | some i => rw [look_names (s := s) (varSyms_names v hl), hj]
  | none =>
    unfold varSyms
    rw [hl]
    exact look_old { newSym s name with isVar := true, value := v, isInit := true } rfl hs hn hn' hd hl hj

theorem varSyms_cnames {s : St} {name : Str} (v : Int) (hs : CNames s) (hn : CStr name) (hd : 46 ∉ name) :
    CNames { s with syms := varSyms s name v } := by
  refine ⟨?_, hs.label, hs.scope⟩
  intro x hx
  cases hl : look s name with
  | some i =>
    have hm : x.fullname ∈ (varSyms s name v).map (·.fullname) := List.mem_map_of_mem hx
    rw [varSyms_names v hl] at hm
    obtain ⟨y, hy, e⟩ := List.mem_map.1 hm
    rw [← e]
    exact hs.syms y hy
  | none =>
    unfold varSyms at hx
    rw [hl] at hx
    rcases List.mem_append.1 hx with h | h
    · exact hs.syms x h
    · rw [List.mem_singleton.1 h]
      exact newSym_cstr hs hn hd

theorem varSyms_self {s : St} {name : Str} (v : Int) : ∃ y, (varSyms s name v)[varIndex s name]? = some y ∧ y.isVar = true ∧
    y.isInit = true ∧ y.value = v ∧ ∀ w, (varSyms s name v).set (varIndex s name) { y with value := w } = varSyms s name w := by
  cases hl : look s name with
  | some i =>
    obtain ⟨x, hx⟩ : ∃ x, s.syms[i]? = some x := ⟨_, List.getElem?_eq_getElem (look_lt hl)⟩
    have e : ∀ w, varSyms s name w = s.syms.set i { x with isVar := true, value := w, isInit := true } := by
      intro w
      unfold varSyms
      rw [hl]
      exact modify_set hx _
    have hi : varIndex s name = i := by unfold varIndex; rw [hl]; rfl
    refine ⟨{ x with isVar := true, value := v, isInit := true }, ?_, rfl, rfl, rfl, ?_⟩
    · rw [e, hi]
      exact List.getElem?_set_self (look_lt hl)
    · intro w
      rw [e, e, hi, List.set_set]
  | none =>
    have e : ∀ w, varSyms s name w = s.syms ++ [{ newSym s name with isVar := true, value := w, isInit := true }] := by
      intro w
      unfold varSyms
      rw [hl]
    have hi : varIndex s name = s.syms.length := by unfold varIndex; rw [hl]; rfl
    refine ⟨{ newSym s name with isVar := true, value := v, isInit := true }, ?_, rfl, rfl, rfl, ?_⟩
    · rw [e, hi]
      simp
    · intro w
      rw [e, e, hi]
      simp

theorem varSyms_other {s : St} {name : Str} (v : Int) {j : SymPtr} (hj : j ≠ varIndex s name) :
    (varSyms s name v)[j]? = s.syms[j]? := by
  cases hl : look s name with
  | some i =>
    have hi : varIndex s name = i := by unfold varIndex; rw [hl]; rfl
    unfold varSyms
    rw [hl]
    simp only
    rw [List.getElem?_modify_ne]
    rw [← hi]
    exact Ne.symm hj
  | none =>
    have hi : varIndex s name = s.syms.length := by unfold varIndex; rw [hl]; rfl
    rw [hi] at hj
    unfold varSyms
    rw [hl]
    simp only
    rcases Nat.lt_or_ge j s.syms.length with h | h
    · rw [List.getElem?_append_left h]
    · rw [List.getElem?_append_right h, List.getElem?_eq_none h]
      cases h' : j - s.syms.length with
      | zero => exact absurd (Nat.le_antisymm (Nat.le_of_sub_eq_zero h') h) hj
      | succ k => rfl

/-- A declaration that has the stated effect: the name is new or a variable, and an initialiser is not just a symbol, has a value
and does not use the name. -/
structure DeclOk (s : St) (d : Str × Option Expr) (v : Int) : Prop where
  plain : plainName d.1 = true
  cstr : CStr d.1
  nodot : 46 ∉ d.1
  var : ∀ i x, look s d.1 = some i → s.syms[i]? = some x → x.isVar = true
  blank : d.2 = none → v = 0
  init : ∀ e, d.2 = some e → (∀ n, e ≠ .sym n) ∧ Spec.itemValue (envOf s) s.pc e = some v ∧
    ∀ n ∈ e.names, CStr n ∧ ∃ j, look s n = some j ∧ look s d.1 ≠ some j

/-- Trees in the heap stay while declarations are carried out. -/
structure Carry (s t : St) : Prop where
  base : t.nodeBase = s.nodeBase
  len : s.nodes.length ≤ t.nodes.length
  tree : ∀ {e : Expr} {p : Ptr}, (∀ n ∈ e.names, CStr n) → TreeAt s e p → TreeAt t e p
  id : ∀ {name : Str} {p : Ptr}, CStr name → IdAt false s name p → IdAt false t name p

theorem ExprAt.mono {lk lk' : Str → Option SymPtr} {base : Nat} {ns : List Node} : ∀ {e : Expr} {p : Ptr},
    (∀ n ∈ e.names, ∀ j, lk n = some j → lk' n = some j) → ExprAt lk base ns e p → ExprAt lk' base ns e p
  | .int v, p, _, h => h
  | .pc, p, _, h => h
  | .sym name, p, hn, h => by
    obtain ⟨hb, c, hc, hok⟩ := h
    refine ⟨hb, c, hc, ?_⟩
    rcases hok with h | h | h
    · exact Or.inl h
    · cases c with
      | none => exact Or.inl rfl
      | some j => exact Or.inr (Or.inl (hn name (by simp [Expr.names]) j h.symm).symm)
    · exact Or.inr (Or.inr h)
  | .un op e, p, hn, h => by
    obtain ⟨hb, q, hq, h1⟩ := h
    exact ⟨hb, q, hq, ExprAt.mono (e := e) hn h1⟩
  | .bin op a b, p, hn, h => by
    obtain ⟨hb, q, r, hq, h1, h2⟩ := h
    exact ⟨hb, q, r, hq, h1.mono fun n h => hn n (by simp [Expr.names, h]),
      h2.mono fun n h => hn n (by simp [Expr.names, h])⟩

theorem Carry.of {s t : St} (base : t.nodeBase = s.nodeBase) (hlook : ∀ n j, CStr n → look s n = some j → look t n = some j)
    (sim : HeapSim true (look t) s.nodes t.nodes) : Carry s t := by
  refine ⟨base, sim.1, ?_, ?_⟩
  · intro e p hn h
    show ExprAt (look t) t.nodeBase t.nodes e p
    rw [base]
    exact ExprAt.sim sim (h.mono fun n hm j => hlook n j (hn n hm))
  · intro name p hn h
    obtain ⟨⟨d, hl, hd⟩, _⟩ := h
    refine ⟨?_, by intro h; cases h⟩
    obtain ⟨n', h1, h2, h3, h4⟩ := sim.2 p _ hl.2
    have hb : t.nodeBase ≤ p := by rw [base]; exact hl.1
    obtain ⟨k, no, op⟩ := n'
    simp only at h2 h3 h4
    subst h2
    subst h3
    rcases h4 with h4 | ⟨v, w, h4, _⟩ | ⟨k', nm, cc, h4, h5, h6⟩ | ⟨i, c, m, a, b, _, h4, _⟩
    · subst h4
      refine ⟨d, ⟨hb, h1⟩, ?_⟩
      rcases hd with hd | hd
      · exact Or.inl hd
      · cases d with
        | none => exact Or.inl rfl
        | some j => exact Or.inr (hlook name j hn hd.symm).symm
    · cases h4
    · cases h4
      subst h5
      exact ⟨_, ⟨hb, h1⟩, Or.inr rfl⟩
    · cases h4

theorem Carry.trans {s t u : St} (a : Carry s t) (b : Carry t u) : Carry s u :=
  ⟨b.base.trans a.base, Nat.le_trans a.len b.len, fun hn h => b.tree hn (a.tree hn h), fun hn h => b.id hn (a.id hn h)⟩

/-- The name of a declaration. -/
theorem varName_item {f : Nat} {s : St} {p : Ptr} {name : Str} (het : s.expansionType = .symbol) (h : IdAt false s name p)
    (hp : plainName name = true) (hvar : ∀ i x, look s name = some i → s.syms[i]? = some x → x.isVar = true) :
    exprListItem (expandNode f) (hasUninit f) none p s = (.ok (some (some (varIndex s name))),
      { s with syms := varSyms s name 0, nodes := s.nodes.set p ⟨.id .id name (some (varIndex s name)), 0, []⟩ }) := by
  obtain ⟨⟨c, hL, hc⟩, _⟩ := h
  have e0 : exprListItem (expandNode f) (hasUninit f) none p s = varName false c.isSome p s := by
    unfold exprListItem
    rw [bind_ok hL.run, if_neg (by intro h; cases h)]
    rw [bind_ok (operands_run (n := ⟨.id .id name c, 0, []⟩) (Nat.zero_le _) _)]
    show ((forEachM _ []) >>= _) _ = _
    rw [show forEachM (fun o => do let _ ← expandNode f o; M.pure ()) ([] : List Ptr) = M.pure () from rfl, pure_bind']
    rw [bind_ok hL.run, getS_bind]
    simp only [het]
    rfl
  rw [e0]
  cases c with
  | some j =>
    have hl : look s name = some j := by
      rcases hc with h | h
      · cases h
      · exact h.symm
    have hlt := look_lt hl
    obtain ⟨x, hx⟩ : ∃ x, s.syms[j]? = some x := ⟨_, List.getElem?_eq_getElem hlt⟩
    have hxv := hvar j x hl hx
    have hi : varIndex s name = j := by unfold varIndex; rw [hl]; rfl
    have hns : s.nodes.set p ⟨.id .id name (some j), 0, []⟩ = s.nodes := by
      apply List.ext_getElem?
      intro k
      rw [List.getElem?_set]
      split
      · subst_vars
        rw [if_pos hL.lt, hL.2]
      · rfl
    have hres : resolveId false p s = (.ok (some j), s) := by
      unfold resolveId
      rw [bind_ok hL.run]
      rfl
    have hsy : varSyms s name 0 = s.syms.modify j fun x => { x with value := if false = true then s.pc else 0, isInit := true } := by
      unfold varSyms
      rw [hl]
      simp only
      rw [modify_set hx, modify_set hx]
      cases x
      cases hxv
      rfl
    rw [hi, hns, hsy]
    unfold varName
    rw [bind_ok hres]
    show ((if true = false then _ else M.pure ()) >>= _) s = _
    rw [if_neg (by decide), pure_bind', getS_bind, bind_ok (modSym_run hlt _)]
    rfl
  | none =>
    cases hl : look s name with
    | some i =>
      have hlt := look_lt hl
      obtain ⟨x, hx⟩ : ∃ x, s.syms[i]? = some x := ⟨_, List.getElem?_eq_getElem hlt⟩
      have hi : varIndex s name = i := by unfold varIndex; rw [hl]; rfl
      have hres : resolveId false p s = (.ok (some i), { s with nodes := s.nodes.set p ⟨.id .id name (some i), 0, []⟩ }) := by
        unfold resolveId
        rw [bind_ok hL.run]
        show (addSymbol name >>= _) s = _
        rw [bind_ok (addSymbol_run hp hl), bind_ok (hL.set _)]
        rfl
      have hsy : varSyms s name 0 = s.syms.set i { x with isVar := true, value := 0, isInit := true } := by
        unfold varSyms
        rw [hl]
        exact modify_set hx _
      rw [hi, hsy]
      unfold varName
      rw [bind_ok hres]
      exact mark_run hx
    | none =>
      let s1 : St := { s with syms := s.syms ++ [newSym s name] }
      have hg : (s.syms ++ [newSym s name])[s.syms.length]? = some (newSym s name) := by simp
      have hL1 : Live s1 p ⟨.id .id name none, 0, []⟩ := hL
      have hi : varIndex s name = s.syms.length := by unfold varIndex; rw [hl]; rfl
      have hres : resolveId false p s = (.ok (some s.syms.length), { s1 with nodes := s.nodes.set p ⟨.id .id name (some s.syms.length), 0, []⟩ }) := by
        unfold resolveId
        rw [bind_ok hL.run]
        show (addSymbol name >>= _) s = _
        rw [bind_ok (addSymbol_new hp hl), bind_ok (hL1.set _)]
        rfl
      have hsy : varSyms s name 0 = (s.syms ++ [newSym s name]).set s.syms.length { newSym s name with isVar := true, value := 0, isInit := true } := by
        unfold varSyms
        rw [hl]
        simp
      rw [hi, hsy]
      unfold varName
      rw [bind_ok hres]
      exact mark_run (s := { s1 with nodes := _ }) hg

/-- One declaration. -/
theorem varDecl_run {f : Nat} {s : St} {l : List Ptr} {d : Str × Option Expr} {v : Int} (het : s.expansionType = .symbol)
    (he : s.endExpansion = false) (hs : CNames s) (hx : VarAt false s d l) (hd : varFuel d < f) (h : DeclOk s d v) :
    ∃ ns a, eachM (exprListItem (expandNode f) (hasUninit f)) l none s = (.ok (some a), { s with syms := varSyms s d.1 v, nodes := ns }) ∧
      Carry s { s with syms := varSyms s d.1 v, nodes := ns } := by
  obtain ⟨name, e⟩ := d
  have hold : ∀ (w : Int) n j, CStr n → look s n = some j → look { s with syms := varSyms s name w } n = some j :=
    fun w n j hn hj => varSyms_old w hs h.cstr hn h.nodot hj
  have hset : ∀ {c : Option SymPtr} {p : Ptr} (w : Int), Live s p ⟨.id .id name c, 0, []⟩ →
      HeapSim true (look { s with syms := varSyms s name w }) s.nodes (s.nodes.set p ⟨.id .id name (some (varIndex s name)), 0, []⟩) := by
    intro c p w hL
    have := varSyms_look (s := s) (name := name) w
    exact HeapSim.set hL.2 ⟨rfl, rfl, Or.inr (Or.inr (Or.inl ⟨_, _, _, rfl, by rw [this], by rw [this]; rfl⟩))⟩
  cases e with
  | none =>
    obtain ⟨i, rfl, hi⟩ := hx
    have hv0 : v = 0 := h.blank rfl
    subst hv0
    refine ⟨s.nodes.set i ⟨.id .id name (some (varIndex s name)), 0, []⟩, some (varIndex s name), ?_, ?_⟩
    · show (exprListItem (expandNode f) (hasUninit f) none i >>= _) s = _
      rw [bind_ok (varName_item het hi h.plain h.var)]
      rfl
    · obtain ⟨⟨c, hL, _⟩, _⟩ := hi
      exact Carry.of rfl (hold 0) (hset 0 hL)
  | some e =>
    obtain ⟨i, q, rfl, hi, hq⟩ := hx
    obtain ⟨hsym, hv, hn⟩ := h.init e rfl
    have r1 := varName_item (f := f) het hi h.plain h.var
    obtain ⟨⟨c, hL, _⟩, _⟩ := hi
    let s2 : St := { s with syms := varSyms s name 0, nodes := s.nodes.set i ⟨.id .id name (some (varIndex s name)), 0, []⟩ }
    have c1 : Carry s s2 := Carry.of rfl (hold 0) (hset 0 hL)
    have henv : ∀ n ∈ e.names, envOf s n = envOf s2 n := by
      intro n hm
      obtain ⟨hc, j, hj, hj'⟩ := hn n hm
      unfold envOf
      rw [show look s2 n = some j from hold 0 n j hc hj, hj]
      have hji : j ≠ varIndex s name := by
        rintro rfl
        unfold varIndex at hj hj'
        cases hl : look s name with
        | some k => rw [hl] at hj'; exact hj' rfl
        | none =>
          rw [hl] at hj
          exact Nat.lt_irrefl _ (look_lt hj)
      show (if plainName n = true then (match s.syms[j]? with | _ => _) else none) = (if plainName n = true then (match (varSyms s name 0)[j]? with | _ => _) else none)
      rw [varSyms_other 0 hji]
    obtain ⟨y, hy, hyv, _, _, hyset⟩ := varSyms_self (s := s) (name := name) 0
    have hq2 : TreeAt s2 e q := c1.tree (fun n hm => (hn n hm).1) hq.tree
    obtain ⟨ns, r2, c2⟩ : ∃ ns, exprListItem (expandNode f) (hasUninit f) (some (varIndex s name)) q s2 =
        (.ok (some none), { s2 with nodes := ns, syms := (varSyms s name 0).set (varIndex s name) { y with value := v } }) ∧
        HeapSim true (look s2) s2.nodes ns :=
      varInit_sim (f := f) (s := s2) het hq2 hd he hsym (by rw [← itemValue_congr henv]; exact hv) hy hyv
    rw [hyset] at r2
    refine ⟨ns, none, ?_, ?_⟩
    · show (exprListItem (expandNode f) (hasUninit f) none i >>= _) s = _
      rw [bind_ok r1]
      show (exprListItem (expandNode f) (hasUninit f) (some (varIndex s name)) q >>= _) s2 = _
      rw [bind_ok r2]
      rfl
    · have hlk : look { s with syms := varSyms s name v, nodes := ns } = look s2 := by
        have := look_names (s := s2) (names_set (x := y) (y := { y with value := v }) hy rfl)
        rw [hyset] at this
        exact this
      refine Carry.of rfl (hold v) ?_
      rw [hlk]
      exact (hset 0 hL).trans c2

/-- The state after the declarations, last one first. -/
inductive DeclR (s : St) : List (Str × Option Expr) → St → Prop
  | nil : DeclR s [] s
  | cons {ds : List (Str × Option Expr)} {s1 : St} {d : Str × Option Expr} {v : Int} : DeclR s ds s1 → DeclOk s1 d v →
      DeclR s (d :: ds) { s1 with syms := varSyms s1 d.1 v }

theorem DeclR.syms {s s' : St} {ds : List (Str × Option Expr)} (h : DeclR s ds s') : s' = { s with syms := s'.syms } := by
  induction h with
  | nil => rfl
  | cons _ _ ih => rw [ih]

theorem DeclR.cnames {s s' : St} {ds : List (Str × Option Expr)} (h : DeclR s ds s') (hs : CNames s) : CNames s' := by
  induction h with
  | nil => exact hs
  | cons _ ok ih => exact varSyms_cnames _ ih ok.cstr ok.nodot

theorem DeclOk.nodes {s : St} {d : Str × Option Expr} {v : Int} (h : DeclOk s d v) (ns : List Node) : DeclOk { s with nodes := ns } d v :=
  ⟨h.plain, h.cstr, h.nodot, h.var, h.blank, h.init⟩

theorem VarAt.carry {s t : St} (c : Carry s t) {d : Str × Option Expr} {l : List Ptr} (hn : CStr d.1)
    (he : ∀ e, d.2 = some e → ∀ n ∈ e.names, CStr n) (h : VarAt false s d l) : VarAt false t d l := by
  obtain ⟨name, e⟩ := d
  cases e with
  | none =>
    obtain ⟨i, rfl, hi⟩ := h
    exact ⟨i, rfl, c.id hn hi⟩
  | some e =>
    obtain ⟨i, q, rfl, hi, hq⟩ := h
    exact ⟨i, q, rfl, c.id hn hi, c.tree (he e rfl) hq.tree, by intro h; cases h⟩

/-- The list of declarations. -/
theorem varDecls_run : ∀ (xs : List (Str × Option Expr)) {f : Nat} {s s' : St} {p : Ptr}, s.expansionType = .symbol →
    s.endExpansion = false → CNames s → VarsAt false s xs p → (∀ x ∈ xs, varFuel x + xs.length < f) → DeclR s xs s' →
    ∃ ns, expandNode f p s = (.ok 0, { s' with nodes := ns }) ∧ Carry s { s' with nodes := ns }
  | [], _, _, _, _, _, _, _, ht, _, _ => ht.elim
  | [x], f, s, s', p, het, he, hs, ht, hd, h => by
    have hd' := hd x (by simp)
    obtain ⟨g, rfl⟩ : ∃ g, f = g + 1 := ⟨f - 1, by omega⟩
    simp only [List.length_singleton] at hd'
    obtain ⟨l, hl, hx⟩ := ht
    cases h with
    | cons h ok =>
      cases h
      obtain ⟨ns, a, r, c⟩ := varDecl_run (f := g) het he hs hx (by omega) ok
      refine ⟨ns, ?_, c⟩
      rw [expandNode_run he hl]
      show expandExprList (expandNode g) (hasUninit g) ⟨.opr .exprList, l.length, l⟩ s = _
      unfold expandExprList
      rw [bind_ok (operands_run (n := ⟨.opr .exprList, l.length, l⟩) (Nat.le_refl _) s)]
      show (eachM (exprListItem (expandNode g) (hasUninit g)) (l.take l.length) none >>= _) s = _
      rw [List.take_length, bind_ok r]
      rfl
  | x :: y :: ys, f, s, s', p, het, he, hs, ht, hd, h => by
    have hd' := hd x (by simp)
    obtain ⟨g, rfl⟩ : ∃ g, f = g + 1 := ⟨f - 1, by omega⟩
    obtain ⟨r, l, hl, hr, hx⟩ := ht
    cases h with
    | @cons _ s1 _ v h ok =>
      obtain ⟨n1, r1, c1⟩ := varDecls_run (y :: ys) (f := g) het he hs hr (fun z hz => by
        have := hd z (List.mem_cons_of_mem _ hz); simp only [List.length_cons] at this ⊢; omega) h
      have e1 := h.syms
      have hx1 := hx.carry c1 ok.cstr fun e hm n hn => ((ok.init e hm).2.2 n hn).1
      have hs1 := h.cnames hs
      obtain ⟨ns, a, r2, c2⟩ := varDecl_run (f := g) (s := { s1 with nodes := n1 }) (by rw [e1]; exact het) (by rw [e1]; exact he)
        ⟨hs1.syms, hs1.label, hs1.scope⟩ hx1 (by simp only [List.length_cons] at hd'; omega) (ok.nodes n1)
      refine ⟨ns, ?_, c1.trans c2⟩
      rw [expandNode_run he hl]
      show expandExprList (expandNode g) (hasUninit g) ⟨.opr .exprList, (r :: l).length, r :: l⟩ s = _
      unfold expandExprList
      rw [bind_ok (operands_run (n := ⟨.opr .exprList, (r :: l).length, r :: l⟩) (Nat.le_refl _) s)]
      show (eachM (exprListItem (expandNode g) (hasUninit g)) ((r :: l).take (r :: l).length) none >>= _) s = _
      have hrk : ∃ n, Live s r n ∧ n.kind = .opr .exprList := by
        cases ys with
        | nil => obtain ⟨l', hl', _⟩ := hr; exact ⟨_, hl', rfl⟩
        | cons z zs => obtain ⟨r', l', hl', _⟩ := hr; exact ⟨_, hl', rfl⟩
      obtain ⟨n, hl', hk⟩ := hrk
      have q1 : exprListItem (expandNode g) (hasUninit g) none r s = (.ok (some none), { s1 with nodes := n1 }) := by
        unfold exprListItem
        rw [bind_ok hl'.run, if_pos hk, bind_ok r1]
        rfl
      have : eachM (exprListItem (expandNode g) (hasUninit g)) (r :: l) none s =
          (.ok (some a), { s1 with nodes := ns, syms := varSyms { s1 with nodes := n1 } x.1 v }) := by
        show (exprListItem (expandNode g) (hasUninit g) none r >>= _) s = _
        rw [bind_ok q1]
        exact r2
      rw [List.take_length, bind_ok this]
      rfl

/-- The symbol table after the declarations. -/
inductive Chain : St → List (Str × Option Expr) → List Sym → Prop
  | nil {s : St} : Chain s [] s.syms
  | cons {s : St} {d : Str × Option Expr} {v : Int} {ds : List (Str × Option Expr)} {ys : List Sym} : DeclOk s d v →
      Chain { s with syms := varSyms s d.1 v } ds ys → Chain s (d :: ds) ys

theorem Chain.change {s : St} {ds : List (Str × Option Expr)} {ys : List Sym} (h : Chain s ds ys) (ns : List Node) (fl : Str) (ln : Int)
    (et : ExpType) : Chain { s with nodes := ns, file := fl, line := ln, expansionType := et } ds ys := by
  induction h with
  | @nil s => exact Chain.nil (s := { s with nodes := ns, file := fl, line := ln, expansionType := et })
  | cons ok _ ih => exact .cons ⟨ok.plain, ok.cstr, ok.nodot, ok.var, ok.blank, ok.init⟩ ih

theorem Chain.declR {s0 s : St} {rs ds : List (Str × Option Expr)} {ys : List Sym} (h0 : DeclR s0 rs s) (h : Chain s ds ys) :
    DeclR s0 (ds.reverse ++ rs) { s with syms := ys } := by
  induction h generalizing rs with
  | nil => exact h0
  | cons ok _ ih =>
    rw [List.reverse_cons, List.append_assoc]
    exact ih (h0.cons ok)

theorem Chain.cstr {s : St} {ds : List (Str × Option Expr)} {ys : List Sym} (h : Chain s ds ys) :
    ∀ d ∈ ds, CStr d.1 ∧ ∀ e, d.2 = some e → ∀ n ∈ e.names, CStr n := by
  induction h with
  | nil => intro d hm; cases hm
  | cons ok _ ih =>
    intro d hm
    rcases List.mem_cons.1 hm with rfl | hm
    · exact ⟨ok.cstr, fun e he n hn => ((ok.init e he).2.2 n hn).1⟩
    · exact ih d hm

/-- The statement. -/
theorem varStmt_run {f : Nat} {s : St} {hd : Str × Option Expr} {tl : List (Str × Option Expr)} {ys : List Sym} (file : Str) (line : Int)
    (he : s.endExpansion = false) (hb : s.nodeBase ≤ s.nodes.length) (hs : CNames s)
    (hf : ∀ x ∈ hd :: tl, varFuel x + (hd :: tl).length < f) (h : Chain s (hd :: tl) ys) :
    ∃ ns ln, runTop (expandNode (f + 1)) (hasUninit (f + 1)) (.stmt file line (.var hd tl)) s =
      (.ok true, { s with nodes := ns, file := file, line := ln, expansionType := .symbol, syms := ys }) ∧ s.nodes.length ≤ ns.length := by
  obtain ⟨q, s1, r1, g1, l1⟩ := buildVars_grow hd tl (s := { s with file := file, line := line }) hb
  have hb1 := g1.base hb
  obtain ⟨p, s2, r2, g2, l2⟩ := operatorNode_grow .var [q] hb1
  obtain ⟨n1, ln1, rfl, sim1⟩ := g1
  obtain ⟨n2, ln2, rfl, sim2⟩ := g2
  let s3 : St := { s with file := file, nodes := n2, line := ln2, expansionType := .symbol }
  have c3 : Carry { s with file := file, nodes := n1, line := ln1 } s3 := Carry.of rfl (fun _ _ _ h => h) sim2
  have l3 : VarsAt false s3 ((hd :: tl).reverse) q := by
    have up : ∀ {p : Ptr} {l : List Ptr} {k : Nat}, Live { s with file := file, nodes := n1, line := ln1 } p ⟨.opr .exprList, k, l⟩ →
        Live s3 p ⟨.opr .exprList, k, l⟩ := fun h =>
      ⟨h.1, sim2.opr h.2 (by intro _ c; cases c) (by intro _ _ _ c; cases c) (by intro _ _ _ _ _ c; cases c)⟩
    have hc' : ∀ d ∈ (hd :: tl).reverse, CStr d.1 ∧ ∀ e, d.2 = some e → ∀ n ∈ e.names, CStr n :=
      fun d hm => h.cstr d (List.mem_reverse.1 hm)
    have go : ∀ (xs : List (Str × Option Expr)) (q : Ptr), (∀ d ∈ xs, CStr d.1 ∧ ∀ e, d.2 = some e → ∀ n ∈ e.names, CStr n) →
        VarsAt false { s with file := file, nodes := n1, line := ln1 } xs q → VarsAt false s3 xs q := by
      intro xs
      induction xs with
      | nil => intro q _ h; exact h
      | cons x xs ih =>
        intro q hc h
        have hx := hc x (by simp)
        cases xs with
        | nil =>
          obtain ⟨l, h1, h2⟩ := h
          exact ⟨l, up h1, h2.carry c3 hx.1 hx.2⟩
        | cons y ys =>
          obtain ⟨r, l, h1, h2, h3⟩ := h
          exact ⟨r, l, up h1, ih r (fun d hd => hc d (List.mem_cons_of_mem _ hd)) h2, h3.carry c3 hx.1 hx.2⟩
    exact go _ q hc' l1
  have hR : DeclR s3 ((hd :: tl).reverse) { s3 with syms := ys } := by
    have := Chain.declR (.nil (s := s3)) (h.change n2 file ln2 .symbol)
    rwa [List.append_nil] at this
  obtain ⟨ns, r3, c4⟩ := varDecls_run (f := f) (s := s3) _ rfl he ⟨hs.syms, hs.label, hs.scope⟩ l3 (fun x hx => by
    rw [List.length_reverse]
    exact hf x (List.mem_reverse.1 hx)) hR
  refine ⟨ns, ln2, ?_, ?_⟩
  · refine runTop_stmt (by intros; simp) (built_run (m := do
      let p ← buildVars hd tl
      operatorNode .var [p]) ((bind_ok r1).trans r2)) (v := 0) ?_
    rw [expandNode_run (s := { s with file := file, nodes := n2, line := ln2 }) he l2]
    show expandVariable (expandNode f) ⟨.opr .var, 1, [q]⟩ _ = _
    unfold expandVariable
    rw [bind_ok (opAt_run (show [q][0]? = some q from rfl) _), modS_bind]
    exact r3
  · exact Nat.le_trans (Nat.le_trans sim1.1 sim2.1) c4.len

end Verif
