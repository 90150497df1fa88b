import Verif.Spec.Straight
import Verif.Lemmas.Layout
import Verif.Lemmas.VarList
import Verif.Lemmas.Args

/-! # Lines that define a symbol -/

namespace Verif

open Spec (Simple Usable AllUsable Direct1 Straight)

/-! ## Names -/

theorem Spec.Simple.chars {n : Str} (h : Simple n) {c : Nat} (hc : c ∈ n) : c ≠ 46 ∧ c ≠ 64 ∧ c ≠ 43 ∧ c ≠ 45 ∧ c ≠ 0 :=
  wordChar_spec h.2.1 hc

theorem Spec.Simple.cstr {n : Str} (h : Simple n) : CStr n := fun _ hc => (h.chars hc).2.2.2.2

theorem Spec.Simple.head {n : Str} (h : Simple n) {c : Nat} (hc : n.head? = some c) : c ∈ n := by
  cases n with
  | nil => cases hc
  | cons a n => cases hc; exact List.mem_cons_self ..

theorem Spec.Simple.plain {n : Str} (h : Simple n) : plainName n = true := by
  have h1 : isPmName n = false :=
    isPm_false (fun hc => (h.chars (h.head hc)).2.2.1 rfl) (fun hc => (h.chars (h.head hc)).2.2.2.1 rfl)
  have h2 : stricmp n [65] ≠ 0 := fun hc => h.2.2 ((stricmp_fold h.cstr (by intro c hc; simp at hc; omega)).1 hc)
  have h3 : n ≠ [46] := by
    rintro rfl
    exact (h.chars (List.mem_singleton.2 rfl)).1 rfl
  simp [plainName, h1, h2, h.1, h3]

theorem Spec.Simple.key {n : Str} (h : Simple n) (s : St) : addSymbolKey s n = (s.currentScope, n) := by
  unfold addSymbolKey
  rw [if_neg (fun hc => (h.chars hc).1 rfl)]
  have d : dropDot n = n := by
    unfold dropDot
    split
    · exact absurd rfl (h.chars (List.mem_cons_self ..)).1
    · rfl
  have e : ∀ ll : Option Str, (match (generalizing := false) n, ll with
      | 64 :: _, some l => formatLocal n l
      | _, _ => n) = n := by
    intro ll
    split
    · exact absurd rfl (h.chars (List.mem_cons_self ..)).2.1
    · rfl
  have c : stripColon n = n := by
    unfold stripColon
    rw [if_neg]
    intro hc
    have := List.all_eq_true.1 h.2.1 58 (List.mem_of_getLast? hc)
    exact absurd this (by decide)
  simp only [d]
  exact congrArg (fun x => (s.currentScope, x)) ((congrArg stripColon (e s.lastLabel)).trans c)

theorem Spec.Simple.global {n : Str} (h : Simple n) : Spec.global n = true := by
  unfold Spec.global
  split
  · exact absurd rfl (h.chars (List.mem_cons_self ..)).1
  · rw [bne_iff_ne]
    exact fun hc => (h.chars (h.head hc)).2.1 rfl

theorem Spec.Simple.look {n : Str} (h : Simple n) {s : St} (hs : s.currentScope = none) : look s n = symFind s.syms n := by
  unfold Verif.look
  rw [h.key, hs]
  rfl

theorem Spec.Simple.newSym {n : Str} (h : Simple n) {s : St} (hs : s.currentScope = none) :
    newSym s n = { name := n, fullname := n } := by
  have h1 : dropDot n = n := by
    unfold dropDot
    split
    · exact absurd rfl (h.chars (List.mem_cons_self ..)).1
    · rfl
  have h2 : ¬ n.head? = some 92 := by
    intro hc
    have := List.all_eq_true.1 h.2.1 92 (h.head hc)
    exact absurd this (by decide)
  have h3 : ¬ n.head? = some 64 := fun hc => (h.chars (h.head hc)).2.1 rfl
  unfold Verif.newSym sanitizeSym
  simp only [h.key, hs, h1, h2, h3, decide_false, Bool.false_and, Bool.false_eq_true, if_false,
    splitLastDot_none (fun hc => (h.chars hc).1 rfl)]

/-- The symbol of a definition. -/
def defSym (x : Str) (v : Int) : Sym := { name := x, fullname := x, value := v, isInit := true }

/-- The place of the symbol in the table. -/
def slot (s : St) (x : Str) : Nat :=
  match look s x with
  | some i => i
  | none => s.syms.length

/-- The symbol table after a definition: a new entry, or one that was made when the name was used. -/
def defSyms (s : St) (x : Str) (v : Int) : List Sym :=
  match look s x with
  | some i => s.syms.modify i fun y => { y with value := v, isInit := true }
  | none => s.syms ++ [defSym x v]

/-- The state after a definition, apart from the nodes. -/
def defined (s : St) (x : Str) (v : Int) : St := { s with
  syms := defSyms s x v
  symValueChanged := s.symValueChanged + if v = 0 then 0 else 1 }

/-- The name has no symbol, or one that was made when the name was used. -/
def Undefined (s : St) (x : Str) : Prop := ∀ i, look s x = some i → ∃ y, s.syms[i]? = some { name := y, fullname := y }

/-- The table in which names are looked up without regard to case. -/
def Named (l : List Sym) : Prop := ∀ y ∈ l, CStr y.fullname

theorem get_lt {α : Type} {l : List α} {i : Nat} {x : α} (h : l[i]? = some x) : i < l.length := by
  rcases Nat.lt_or_ge i l.length with h' | h'
  · exact h'
  · rw [List.getElem?_eq_none h'] at h
    cases h

theorem find_defSyms {s : St} {x key : Str} {v : Int} (hs : s.currentScope = none) (hx : Simple x) (hn : Named s.syms) (hk : CStr key) :
    symFind (defSyms s x v) key = if Spec.foldCase key = Spec.foldCase x then some (slot s x) else symFind s.syms key := by
  unfold defSyms slot
  cases hl : look s x with
  | none =>
    simp only
    rw [symFind_append]
    have : stricmp (defSym x v).fullname key = 0 ↔ Spec.foldCase key = Spec.foldCase x :=
      (stricmp_fold hx.cstr hk).trans ⟨Eq.symm, Eq.symm⟩
    by_cases h : Spec.foldCase key = Spec.foldCase x
    · rw [if_pos (this.2 h), if_pos h]
    · rw [if_neg (fun hc => h (this.1 hc)), if_neg h]
  | some j =>
    simp only
    rw [hx.look hs] at hl
    obtain ⟨y, hy, _⟩ := symFind_name hl
    rw [modify_set hy, symFind_set hy (by rfl)]
    by_cases h : Spec.foldCase key = Spec.foldCase x
    · rw [if_pos h, symFind_fold hk hx.cstr h hn, hl]
    · rw [if_neg h]

theorem get_slot {s : St} {x : Str} {v : Int} : ∃ y, (defSyms s x v)[slot s x]? = some y ∧ y.isInit = true ∧ y.value = v := by
  unfold defSyms slot
  cases hl : look s x with
  | none => exact ⟨defSym x v, by simp, rfl, rfl⟩
  | some j =>
    have := look_lt hl
    exact ⟨_, by simp only; rw [List.getElem?_modify_eq, List.getElem?_eq_getElem this]; rfl, rfl, rfl⟩

theorem get_other {s : St} {x : Str} {v : Int} {i : Nat} (h : i ≠ slot s x) (hi : i < s.syms.length) : (defSyms s x v)[i]? = s.syms[i]? := by
  unfold defSyms
  unfold slot at h
  cases hl : look s x with
  | none => simp only; rw [List.getElem?_append_left hi]
  | some j =>
    rw [hl] at h
    simp only at h ⊢
    rw [List.getElem?_modify]
    have h' : ¬ j = i := fun hc => h hc.symm
    simp [h']

theorem find_ne {s : St} {x key : Str} {i : Nat} (hs : s.currentScope = none) (hx : Simple x) (hn : Named s.syms) (hk : CStr key)
    (hf : symFind s.syms key = some i) (hd : ¬ Spec.foldCase key = Spec.foldCase x) : i ≠ slot s x := by
  rintro rfl
  have hlt := get_lt (symFind_name hf).choose_spec.1
  unfold slot at hf hlt
  cases hl : look s x with
  | none =>
    rw [hl] at hlt
    exact absurd hlt (Nat.lt_irrefl _)
  | some j =>
    rw [hl] at hf
    rw [hx.look hs] at hl
    obtain ⟨y, h1, h2⟩ := symFind_name hl
    obtain ⟨z, h3, h4⟩ := symFind_name hf
    cases h1.symm.trans h3
    have hc := hn y (List.mem_of_getElem? h1)
    exact hd (((stricmp_fold hc hk).1 h4).symm.trans ((stricmp_fold hc hx.cstr).1 h2))

theorem envOf_defined {s : St} {x n : Str} {v : Int} (hs : s.currentScope = none) (hm : Named s.syms) (hx : Simple x) (hn : Simple n) :
    envOf (defined s x v) n = Spec.define (envOf s) x v n := by
  unfold Spec.define
  unfold envOf
  rw [if_pos hn.plain, hn.look (s := defined s x v) hs, hn.look hs]
  show (match symFind (defSyms s x v) n with
    | some i => match (defSyms s x v)[i]? with
      | some x => if x.isInit then some x.value else none
      | none => none
    | none => none) = _
  rw [find_defSyms hs hx hm hn.cstr]
  by_cases h : Spec.foldCase n = Spec.foldCase x
  · rw [if_pos h, if_pos h]
    obtain ⟨y, h1, h2, h3⟩ := get_slot (s := s) (x := x) (v := v)
    simp only [h1, h2, h3, if_true]
  · rw [if_neg h, if_neg h, if_pos hn.plain]
    cases hi : symFind s.syms n with
    | none => rfl
    | some i =>
      simp only
      rw [get_other (find_ne hs hx hm hn.cstr hi h) (get_lt (symFind_name hi).choose_spec.1)]
      rfl

/-- All symbols have values, and none is a macro. -/
def Settled (s : St) : Prop := ∀ x ∈ s.syms, x.isInit = true ∧ x.isMacroName = false

theorem Settled.macro {s : St} (h : Settled s) (n : Str) : isMacroWord s n = false := by
  unfold isMacroWord
  split
  · rename_i i _
    cases hx : s.syms[i]? with
    | none => rfl
    | some x => exact (h x (List.mem_of_getElem? hx)).2
  · rfl

theorem Settled.unresolved {s : St} (h : Settled s) : unresolvedCount s.syms = 0 := by
  unfold unresolvedCount
  rw [List.length_eq_zero_iff, List.filter_eq_nil_iff]
  intro x hx
  simp [(h x hx).1]

/-! ## Runs -/

/-- A value for a symbol without one. -/
theorem giveValue {s : St} {i : SymPtr} {y : Str} {v : Int} (hs : s.currentScope = none) (hN : s.syms[i]? = some { name := y, fullname := y })
    (v0 : 0 ≤ v) (v1 : v < 65536) :
    (needSym (some i) >>= fun i => sym i >>= fun y =>
      (if y.isInit = false ∨ y.value ≠ v then equTarget i y >>= fun j => setSymbolValue j v >>= fun _ =>
        modSym j fun x => { x with isInit := true }
      else M.pure ()) >>= fun _ => M.pure v) s =
    (.ok v, { s with
      syms := s.syms.modify i fun y => { y with value := v, isInit := true }
      symValueChanged := s.symValueChanged + if v = 0 then 0 else 1 }) := by
  let N : Sym := { name := y, fullname := y }
  have hlt : i < s.syms.length := by
    rcases Nat.lt_or_ge i s.syms.length with h | h
    · exact h
    · rw [List.getElem?_eq_none h] at hN
      cases hN
  rw [show needSym (some i) = M.pure i from rfl, pure_bind', bind_ok (sym_run hN), if_pos (Or.inl rfl)]
  have ht : equTarget i N s = (.ok i, s) := by
    unfold equTarget
    rw [getS_bind]
    rw [hs]
    rfl
  have hv : setSymbolValue i v s = (.ok (), { s with
      syms := s.syms.set i { N with value := v }
      symValueChanged := s.symValueChanged + if v = 0 then 0 else 1 }) := by
    unfold setSymbolValue
    rw [bind_ok (sym_run hN)]
    by_cases hz : v = 0
    · subst hz
      rw [if_neg (by simp)]
      simp only [if_true, Nat.add_zero]
      have : s.syms.set i { N with value := 0 } = s.syms := by
        rw [List.getElem?_eq_getElem hlt] at hN
        rw [show ({ N with value := 0 } : Sym) = s.syms[i] from (Option.some.inj hN).symm, List.set_getElem_self]
      rw [this]
      rfl
    · rw [if_pos (show N.value ≠ v from fun h => hz h.symm), if_neg (by
        rw [(cand_not_ffff (x := v) (by unfold InInt; omega)).2 ⟨v0, v1⟩]
        simp)]
      rw [bind_ok (modSym_run hlt _)]
      rw [if_pos ⟨rfl, rfl⟩, if_neg hz]
      show (Res.ok (), _) = _
      rw [modify_set hN]
  have hm : (equTarget i N >>= fun j => setSymbolValue j v >>= fun _ => modSym j fun x => { x with isInit := true }) s =
      (.ok (), { s with
        syms := s.syms.modify i fun y => { y with value := v, isInit := true }
        symValueChanged := s.symValueChanged + if v = 0 then 0 else 1 }) := by
    rw [bind_ok ht, bind_ok hv, modSym_run (by rw [List.length_set]; exact hlt)]
    have : (s.syms.set i { N with value := v }).modify i (fun x => { x with isInit := true }) =
        s.syms.modify i (fun y => { y with value := v, isInit := true }) := by
      rw [modify_set (x := { N with value := v }) (by rw [List.getElem?_set_self hlt]), modify_set hN, List.set_set]
    simp only [this]
  rw [bind_ok hm]
  rfl

/-- The end of the assignment to a symbol that has no value. -/
theorem equTail_new {s : St} {q : Ptr} {k : IdKind} {x : Str} {v : Int} {c : Option SymPtr} (hs : s.currentScope = none) (hx : Simple x)
    (hl : Undefined s x) (h0 : Live s q ⟨.id k x c, 0, []⟩) (hc : c = none ∨ (c.isSome = true ∧ c = look s x)) (v0 : 0 ≤ v) (v1 : v < 65536) :
    (resolveId (x.head? == some 64) q >>= fun r => needSym r >>= fun i => sym i >>= fun y =>
      (if y.isInit = false ∨ y.value ≠ v then equTarget i y >>= fun j => setSymbolValue j v >>= fun _ =>
        modSym j fun x => { x with isInit := true }
      else M.pure ()) >>= fun _ => M.pure v) s =
    (.ok v, { defined s x v with nodes := s.nodes.set q ⟨.id k x (some (slot s x)), 0, []⟩ }) := by
  have h64 : (x.head? == some 64) = false := by
    rw [beq_eq_false_iff_ne]
    exact fun hc => (hx.chars (hx.head hc)).2.1 rfl
  cases hk : look s x with
  | none =>
    have hc : c = none := by
      rcases hc with hc | ⟨h1, h2⟩
      · exact hc
      · rw [h2, hk] at h1
        cases h1
    subst hc
    let N : Sym := { name := x, fullname := x }
    let s1 : St := { s with syms := s.syms ++ [N] }
    let s2 : St := { s1 with nodes := s.nodes.set q ⟨.id k x (some s.syms.length), 0, []⟩ }
    have ha : addSymbol x s = (.ok (some s.syms.length), s1) := by
      rw [addSymbol_new hx.plain hk, hx.newSym hs]
    have hr : resolveId (x.head? == some 64) q s = (.ok (some s.syms.length), s2) := by
      unfold resolveId
      rw [bind_ok h0.run]
      show (addSymbol x >>= fun j => setNode q ⟨.id k x j, 0, []⟩ >>= fun _ => M.pure j) s = _
      rw [bind_ok ha, bind_ok (Live.set (s := s1) h0 _)]
      rfl
    have hN : s2.syms[s.syms.length]? = some N := by
      show (s.syms ++ [N])[_]? = _
      simp
    rw [bind_ok hr]
    refine (giveValue (s := s2) hs hN v0 v1).trans ?_
    have e1 : s2.syms.modify s.syms.length (fun y => { y with value := v, isInit := true }) = defSyms s x v := by
      show (s.syms ++ [N]).modify _ _ = _
      rw [modify_set (x := N) (by simp)]
      unfold defSyms
      rw [hk]
      simp [defSym, N]
    have e2 : slot s x = s.syms.length := by unfold slot; rw [hk]
    rw [e1, e2]
    rfl
  | some i =>
    obtain ⟨y, hy⟩ := hl i hk
    let s2 : St := { s with nodes := s.nodes.set q ⟨.id k x (some i), 0, []⟩ }
    have hr : resolveId (x.head? == some 64) q s = (.ok (some i), s2) := by
      unfold resolveId
      rw [bind_ok h0.run, h64]
      rcases hc with rfl | ⟨_, h2⟩
      · show (addSymbol x >>= fun j => setNode q ⟨.id k x j, 0, []⟩ >>= fun _ => M.pure j) s = _
        rw [bind_ok (addSymbol_run hx.plain hk), bind_ok (h0.set _)]
        rfl
      · rw [hk] at h2
        subst h2
        show (Res.ok (some i), s) = _
        have : s.nodes.set q ⟨.id k x (some i), 0, []⟩ = s.nodes := by
          have h2 := h0.2
          rw [List.getElem?_eq_getElem h0.lt] at h2
          rw [← Option.some.inj h2, List.set_getElem_self]
        simp only [s2]
        rw [this]
    rw [bind_ok hr]
    refine (giveValue (s := s2) hs hy v0 v1).trans ?_
    have e1 : s2.syms.modify i (fun y => { y with value := v, isInit := true }) = defSyms s x v := by
      unfold defSyms
      rw [hk]
    have e2 : slot s x = i := by unfold slot; rw [hk]
    rw [e1, e2]
    rfl

/-- The effect of a line that defines a symbol. -/
def DefLine (s s' : St) (x : Str) (v : Int) : Prop :=
  ∃ ns fl ln ll, s.nodes.length ≤ ns.length ∧
    s' = { defined s x v with nodes := ns, file := fl, line := ln, lastLabel := ll }

theorem assign_new {f : Nat} {s : St} {file : Str} {line : Int} {x : Str} {e : Expr} {v : Int} (hd : e.depth < f)
    (he : s.endExpansion = false) (hb : s.nodeBase ≤ s.nodes.length) (hs : s.currentScope = none) (hx : Simple x)
    (hl : Undefined s x) (hv : Spec.eval (envOf s) s.pc e = some (v, false)) (v0 : 0 ≤ v) (v1 : v < 65536) :
    ∃ s', runTop (expandNode (f + 1)) (hasUninit (f + 1)) (.stmt file line (.assign x e)) s = (.ok true, s') ∧ DefLine s s' x v := by
  let u : St := atLine s file line
  obtain ⟨l1, q1, h1, h2⟩ := buildExpr_run (lk := look u) e u hb
  let I : Node := ⟨.id .id x none, 0, []⟩
  let s1 : St := { u with nodes := s.nodes ++ l1 }
  let N : Node := ⟨.opr .equ, 2, [s1.nodes.length, q1]⟩
  let s2 : St := { u with nodes := s1.nodes ++ [I] }
  let s3 : St := { u with nodes := s1.nodes ++ [I] ++ [N] }
  have hbuild : buildStmt (expandNode (f + 1)) (hasUninit (f + 1)) false (.assign x e) u = (.ok (some s2.nodes.length), s3) := by
    refine built_run ?_
    show (buildExpr e >>= fun p => idNode .id x >>= fun i => operatorNode .equ [i, p]) u = _
    rw [bind_ok h1]
    show (idNode .id x >>= fun i => operatorNode .equ [i, q1]) s1 = _
    rw [bind_ok (show idNode .id x s1 = (.ok s1.nodes.length, s2) from alloc_run _ _ _)]
    exact alloc_run _ _ _
  have hb1 : s.nodeBase ≤ s1.nodes.length := by simp only [s1, List.length_append]; omega
  have hN : Live s3 s2.nodes.length N :=
    ⟨by simp only [s2, List.length_append]; exact Nat.le_trans hb1 (Nat.le_add_right _ _), by simp [s3, s2, N]⟩
  have hI : Live s3 s1.nodes.length I := ⟨hb1, by simp [s3, I]⟩
  have hE : ExprAt (look s3) s3.nodeBase s3.nodes e q1 :=
    (h2.sim (HeapSim.append false _ _ [I])).sim (HeapSim.append false _ _ [N])
  obtain ⟨n1, r1, sim1, _⟩ := expand_ok (f := f) (s := s3) hd he hE hv
  let s4 : St := { s3 with nodes := n1 }
  obtain ⟨N0, hN0, hsim⟩ := sim1.2 s1.nodes.length _ hI.2
  have hN0' : ∃ c, N0 = ⟨.id .id x c, 0, []⟩ ∧ (c = none ∨ (c.isSome = true ∧ c = look s x)) := by
    obtain ⟨g1, g2, g3⟩ := hsim
    obtain ⟨k0, m0, o0⟩ := N0
    simp only at g1 g2 g3
    subst g1 g2
    rcases g3 with g3 | ⟨v, w, g3, _⟩ | ⟨k', nm, cc, g3, g4, g5⟩ | ⟨_, _, _, _, _, g, _⟩
    · subst g3; exact ⟨none, rfl, Or.inl rfl⟩
    · cases g3
    · cases g3
      subst g4
      exact ⟨_, rfl, Or.inr ⟨g5, rfl⟩⟩
    · cases g
  obtain ⟨c, rfl, hc⟩ := hN0'
  have hI4 : Live s4 s1.nodes.length ⟨.id .id x c, 0, []⟩ := ⟨hI.1, hN0⟩
  have r2 : expandNode (f + 1) s2.nodes.length s3 =
      (.ok v, { defined s4 x v with nodes := n1.set s1.nodes.length ⟨.id .id x (some (slot s4 x)), 0, []⟩ }) := by
    rw [expandNode_run (s := s3) he hN]
    show expandEqu (expandNode f) N s3 = _
    unfold expandEqu
    rw [bind_ok (opAt_run (show N.ops[1]? = some q1 from rfl) s3), bind_ok r1,
      bind_ok (opAt_run (show N.ops[0]? = some s1.nodes.length from rfl) s4), bind_ok hI4.run]
    show (if stricmp x [45] = 0 then equMinus v else if stricmp x [43] = 0 then equPlus v else _) s4 = _
    rw [if_neg (stricmp_pm hx.plain).1, if_neg (stricmp_pm hx.plain).2]
    exact equTail_new (s := s4) hs hx hl hI4 hc v0 v1
  refine ⟨_, runTop_stmt (v := v) (by intros; simp) hbuild r2, _, file, line, s.lastLabel, ?_, rfl⟩
  have := sim1.1
  simp only [List.length_set]
  refine Nat.le_trans ?_ this
  simp only [s3, s1, List.length_append]
  omega

/-- The definition of a label. -/
theorem label_def {f : Nat} {t : St} {x : Str} (he : t.endExpansion = false) (hb : t.nodeBase ≤ t.nodes.length) (hs : t.currentScope = none)
    (hx : Simple x) (hl : Undefined t x) (v0 : 0 ≤ t.pc) (v1 : t.pc < 65536) :
    ∃ l p t', buildLabel x t = (.ok p, t') ∧
      expandNode (f + 2) p t' = (.ok t.pc, { defined t x t.pc with nodes := t.nodes ++ l, lastLabel := some x }) := by
  have hpm : isPmName x = false :=
    isPm_false (fun hc => (hx.chars (hx.head hc)).2.2.1 rfl) (fun hc => (hx.chars (hx.head hc)).2.2.2.1 rfl)
  have h64 : ¬ x.head? = some 64 := fun hc => (hx.chars (hx.head hc)).2.1 rfl
  have eLL : labelLL t.lastLabel x = some x := by unfold labelLL; rw [if_neg h64]
  have eId : labelId t.lastLabel x = x := by
    unfold labelId
    split
    · exact absurd rfl h64
    · rfl
  let C : Node := ⟨.con t.pc true, 0, []⟩
  let I : Node := ⟨.id .label x none, 0, []⟩
  let I' : Node := ⟨.id .label x (some (slot t x)), 0, []⟩
  let m : Nat := t.nodes.length
  let E : Node := ⟨.opr .equ, 2, [m + 1, m]⟩
  let t1 : St := { t with nodes := t.nodes ++ [C] }
  let t3 : St := { t with lastLabel := some x, nodes := t.nodes ++ [C, I, E] }
  have hbuild : buildLabel x t = (.ok (m + 2), t3) := by
    unfold buildLabel
    rw [bind_ok (show constantNode 0 true t = (.ok t.nodes.length, t1) from rfl), bind_ok (labelNode_run t1 hpm)]
    have e1 : t1.nodes.length = m + 1 := by simp [t1, m]
    have e2 : labelLL t1.lastLabel x = some x := eLL
    have e3 : labelId t1.lastLabel x = x := eId
    rw [e1, e2, e3, show t.nodes.length = m from rfl]
    refine (alloc_run _ _ _).trans ?_
    simp only [t1, List.length_append, List.length_cons, List.length_nil, Nat.zero_add, show t.nodes.length = m from rfl,
      List.append_assoc, List.cons_append, List.nil_append]
    rfl
  have hle : t.nodeBase ≤ m := hb
  have hC : Live t3 m C := ⟨hle, by simp [t3, m]⟩
  have hI : Live t3 (m + 1) I := ⟨Nat.le_succ_of_le hle, by simp [t3, m]⟩
  have hE : Live t3 (m + 2) E := ⟨Nat.le_trans hle (Nat.le_add_right _ _), by simp [t3, m]⟩
  have rC : expandNode (f + 1) m t3 = (.ok t.pc, t3) := by
    rw [expandNode_run (s := t3) he hC]
    show expandConstant _ _ _ t3 = _
    unfold expandConstant
    rw [if_pos rfl, getS_bind, bind_ok hC.run, bind_ok (hC.set _)]
    show (Res.ok t.pc, _) = _
    have : t3.nodes.set m ⟨.con t3.pc true, 0, []⟩ = t3.nodes := set_self hC.2
    rw [this]
  refine ⟨[C, I', E], m + 2, t3, hbuild, ?_⟩
  rw [expandNode_run (s := t3) he hE]
  show expandEqu (expandNode (f + 1)) E t3 = _
  unfold expandEqu
  rw [bind_ok (opAt_run (show E.ops[1]? = some m from rfl) t3), bind_ok rC,
    bind_ok (opAt_run (show E.ops[0]? = some (m + 1) from rfl) t3), bind_ok hI.run]
  show (if stricmp x [45] = 0 then equMinus t.pc else if stricmp x [43] = 0 then equPlus t.pc else _) t3 = _
  rw [if_neg (stricmp_pm hx.plain).1, if_neg (stricmp_pm hx.plain).2]
  have hlk : look t3 x = look t x := (hx.look (s := t3) hs).trans (hx.look hs).symm
  have hdf : defSyms t3 x t.pc = defSyms t x t.pc := by
    unfold defSyms
    rw [hlk]
  have hsl : slot t3 x = slot t x := by
    unfold slot
    rw [hlk]
  refine (equTail_new (s := t3) hs hx (fun i hi => hl i (hlk ▸ hi)) hI (Or.inl rfl) v0 v1).trans ?_
  have : t3.nodes.set (m + 1) I' = t.nodes ++ [C, I', E] := by
    show (t.nodes ++ [C, I, E]).set (t.nodes.length + 1) I' = _
    rw [List.set_append_right _ _ (by omega)]
    simp
  rw [hsl, this]
  show (Res.ok t.pc, ({ t3 with
    syms := defSyms t3 x t.pc
    symValueChanged := t.symValueChanged + (if t.pc = 0 then 0 else 1)
    nodes := t.nodes ++ [C, I', E] } : St)) = _
  rw [hdf]
  rfl

/-- A new label beside a statement.  The state `mid` is that between label and statement. -/
theorem labelled_new {f : Nat} {s : St} {file : Str} {line : Int} {x : Str} {st : Stmt} {bs : List Nat} {R : List ListEntry → Prop} (hf : 1 ≤ f)
    (he : s.endExpansion = false) (hb : s.nodeBase ≤ s.nodes.length) (hs : s.currentScope = none)
    (hx : Simple x) (hl : Undefined s x) (v0 : 0 ≤ s.pc) (v1 : s.pc < 65536) (hst : Built f (atLine s file line) st bs R)
    (ha : ∀ ns, StmtSame (atLine s file line) { defined (atLine s file line) x s.pc with nodes := ns, lastLabel := some x } st) :
    ∃ mid s', runLabelled (expandNode (f + 1)) (hasUninit (f + 1)) x st (atLine s file line) = (.ok true, s') ∧ DefLine s mid x s.pc ∧
      Laid mid s' (some x) bs := by
  obtain ⟨f, rfl⟩ : ∃ g, f = g + 1 := ⟨f - 1, by omega⟩
  let u : St := atLine s file line
  obtain ⟨ns, p, b1, b2, b3⟩ := hst
  let t0 : St := { u with nodes := ns }
  have hm0 : s.nodes.length ≤ ns.length := b2.1
  obtain ⟨l, q, t', c1, c2⟩ := label_def (f := f) (t := t0) he (Nat.le_trans hb hm0) hs hx hl v0 v1
  let t4 : St := { defined u x s.pc with nodes := ns ++ l, lastLabel := some x }
  have c2' : expandNode (f + 2) q t' = (.ok s.pc, t4) := c2
  obtain ⟨v, s', r3, a3, _⟩ := b3 l (some x) (defined u x s.pc).syms (defined u x s.pc).symValueChanged (ha _)
  refine ⟨t4, s', ?_, ⟨ns ++ l, file, line, some x, ?_, rfl⟩, a3⟩
  · unfold runLabelled
    rw [bind_ok b1]
    show (buildLabel x >>= _) t0 = _
    rw [bind_ok c1, bind_ok c2']
    have r4 : expandNode (f + 1 + 1) p t4 = (.ok v, s') := r3
    show (expandNode (f + 1 + 1) p >>= _) t4 = _
    rw [bind_ok r4]
    rfl
  · rw [List.length_append]
    exact Nat.le_trans hm0 (Nat.le_add_right _ _)

theorem labelled_top {f : Nat} {s s' : St} {file : Str} {line : Int} {x : Str} {st : Stmt} (hm : isMacroWord s x = false)
    (h : runLabelled (expandNode (f + 1)) (hasUninit (f + 1)) x st (atLine s file line) = (.ok true, s')) :
    runTop (expandNode (f + 1)) (hasUninit (f + 1)) (.labelled file line x st) s = (.ok true, s') := by
  have hm' : isMacroWord { s with file := file, line := line } x = false := hm
  show ((modS fun s => { s with file := file, line := line }) >>= fun _ => getS >>= _) s = _
  rw [modS_bind, getS_bind, hm']
  exact h

theorem word_top {f : Nat} {s s' : St} {file : Str} {line : Int} {x : Str} (hm : isMacroWord s x = false)
    (h : runLabelled (expandNode (f + 1)) (hasUninit (f + 1)) x .empty (atLine s file line) = (.ok true, s')) :
    runTop (expandNode (f + 1)) (hasUninit (f + 1)) (.stmt file line (.word true x none)) s = (.ok true, s') := by
  have hm' : isMacroWord { s with file := file, line := line } x = false := hm
  show ((modS fun s => { s with file := file, line := line }) >>= fun _ => getS >>= _) s = _
  rw [modS_bind, getS_bind, hm']
  exact h

/-- A new label beside a branch that is too far. -/
theorem far_new {f : Nat} {s : St} {file : Str} {line : Int} {x : Str} {st : Stmt} {bs : List Nat} {fresh : Bool} (hs : Flat s fresh)
    (hf : st.fuel + bs.length + 4 ≤ f) (hsc : s.currentScope = none)
    (hx : Simple x) (hl : Undefined s x) (w0 : 0 ≤ s.pc) (w1 : s.pc < 65536) (h : Spec.Far (ctxOf s) (envOf s) s.pc bs st)
    (ha : ∀ ns, StmtSame (atLine s file line) { defined (atLine s file line) x s.pc with nodes := ns, lastLabel := some x } st) :
    ∃ mid s', runLabelled (expandNode (f + 1)) (hasUninit (f + 1)) x st (atLine s file line) = (.ok true, s') ∧ DefLine s mid x s.pc ∧
      Laid mid s' (some x) bs := by
  unfold Spec.Far at h
  split at h
  rotate_left
  · exact h.elim
  rename_i ins mode e
  obtain ⟨rfl, h0, h1, p0, p1, v, op, name, hv, hv2, hc, v0, v1, hfar, hop, hop1, hdec, rfl⟩ := h
  obtain ⟨hr, hcode⟩ := opposite_code (cpu := s.cpu) s.allowIllegal h0 h1 hop hop1 hdec
  have hd : e.depth + 1 < f := by simp only [Stmt.fuel] at hf; omega
  have hra := getOpCode_range s.cpu s.allowIllegal ins .r
  have hnm : nodeMode (getOpCode s.cpu s.allowIllegal ins) (Form.mode .dir) v = (.r, getOpCode s.cpu s.allowIllegal ins .r) := by
    unfold nodeMode chooseMode srcMode
    rw [if_pos hr]
    simp [zpForm]
  let u : St := atLine s file line
  obtain ⟨ns, p, q, g1, g2, g3, g4, g5, g6⟩ := buildOp_run (s := u) (ins := ins) (mode0 := Form.mode .dir) (f := f + 1)
    (by omega) hs.running hs.heap (v := v) hv hc (by rw [show getOpCode u.cpu u.allowIllegal ins = getOpCode s.cpu s.allowIllegal ins from rfl, hnm]; omega) false
  rw [show getOpCode u.cpu u.allowIllegal ins = getOpCode s.cpu s.allowIllegal ins from rfl, hnm] at g4
  obtain ⟨f, rfl⟩ : ∃ g, f = g + 1 := ⟨f - 1, by omega⟩
  let t0 : St := { u with nodes := ns }
  have hm0 : s.nodes.length ≤ ns.length := g2.1
  obtain ⟨l, lq, t', c1, c2⟩ := label_def (f := f) (t := t0) hs.running (Nat.le_trans hs.heap hm0) hsc hx hl w0 w1
  let t : St := { defined u x s.pc with nodes := ns ++ l, lastLabel := some x }
  have c2' : expandNode (f + 2) lq t' = (.ok s.pc, t) := c2
  have hsame : NamesSame u t e.names := ha (ns ++ l)
  have hlk : ∀ n ∈ e.names, look u n = look t n := fun n hn => (hsame n hn).1
  have hev : ∀ n ∈ e.names, envOf u n = envOf t n := fun n hn => (hsame n hn).2.1
  have hlive : Live t p _ := ⟨Nat.le_trans hs.heap g3, by
    show (ns ++ l)[p]? = _
    rw [List.getElem?_append_left (by
      rcases Nat.lt_or_ge p ns.length with h' | h'
      · exact h'
      · rw [List.getElem?_eq_none h'] at g4; cases g4)]
    exact g4⟩
  have hs2 : HeapSim false (look u) ns (ns ++ l) := HeapSim.append _ _ _ _
  let H := (ns ++ l).take s.nodes.length
  have hH : H.length = s.nodes.length := by simp only [H, List.length_take, List.length_append]; omega
  have hsim : HeapSim true (look t) H t.nodes := by
    have := HeapSim.append true (look t) H ((ns ++ l).drop s.nodes.length)
    rwa [List.take_append_drop] at this
  have ht : orig t = t := orig_id hs.origin
  have hop : op ≤ 255 := by omega
  obtain ⟨s', r, a⟩ := expandOp_long (f := f + 1) (s := t) (H := H) (v := v) (v2 := v) hs.running hsim (by rw [hH]; exact g3) hlive
    (by show s.nodeBase ≤ (ns ++ l).length; have := hs.heap; simp only [List.length_append]; omega) hd
    ((g5.sim hs2).congr hlk) ((Done.entries (fun n hn => (hsame n hn).2.2) (g6.sim hs2)).congr hlk)
    (by rw [← eval_congr (env := envOf u) (env' := envOf t) hev]; exact hv)
    (by rw [← complete_congr (env := envOf u) (env' := envOf t) hev]; exact hc)
    (by rw [← eval_congr (env := envOf u) (env' := envOf t) hev]; exact hv2)
    (fun hz => by omega)
    (by unfold InInt; show _ ≤ (v : Int) - (s.pc + 2) ∧ (v : Int) - (s.pc + 2) < _; omega)
    (by simp only [branchBad, Bool.or_eq_true, decide_eq_true_eq]; show (v : Int) - (s.pc + 2) > 128 ∨ (v : Int) - (s.pc + 2) < -127; omega)
    (by show getOpCode s.cpu s.allowIllegal _ _ ≠ -1; omega)
    (by unfold InInt; show _ ≤ s.pc + 5 ∧ s.pc + 5 < _; omega) hs.count (by rw [ht]; exact hs.room)
  rw [ht] at a
  have hb : longBytes (getOpCode t.cpu t.allowIllegal (invertBranch ins) .r) t.pc v = [op, 3, 0x4C, v % 256, v / 256] := by
    show longBytes (getOpCode s.cpu s.allowIllegal (invertBranch ins) .r) s.pc v = _
    rw [hcode, longBytes_eq (by omega) (by omega), show ((op : Int)).toNat = op from rfl,
      show ((v : Int) % 256).toNat = v % 256 by omega, show ((v : Int) / 256 % 256).toNat = v / 256 by omega]
  rw [hb] at a
  refine ⟨{ t with nodes := H }, warned s', ?_, ⟨H, file, line, some x, by omega, rfl⟩, Laid.far (bs := [op, 3, 0x4C, v % 256, v / 256]) a⟩
  have r3 : expandNode (f + 2) p t = (.ok 0, warned s') := (expandNode_run (s := t) hs.running hlive).trans r
  unfold runLabelled
  rw [bind_ok g1]
  show (buildLabel x >>= _) t0 = _
  rw [bind_ok c1, bind_ok c2']
  show (expandNode (f + 2) p >>= _) t = _
  rw [bind_ok r3]
  rfl

end Verif
