import Verif.Lemmas.Layout
import Verif.Lemmas.Repeat
import Verif.Spec.Block

/-! # States during the expansion of blocks -/

namespace Verif

variable {mb : Bool}

theorem modify_set {y : List Sym} {i : Nat} {x : Sym} (hx : y[i]? = some x) (g : Sym → Sym) :
    y.modify i g = y.set i (g x) := by
  apply List.ext_getElem?
  intro j
  rw [List.getElem?_modify, List.getElem?_set]
  by_cases h : i = j
  · subst h
    rw [if_pos rfl, hx]
    rcases Nat.lt_or_ge i y.length with h' | h'
    · simp [h']
    · rw [List.getElem?_eq_none h'] at hx; cases hx
  · rw [if_neg h]
    cases y[j]? <;> simp [h]

/-- A symbol without the value of a variable. -/
def Sym.blank (x : Sym) : Sym := if x.isVar then { x with value := 0 } else x

/-- The tables differ at most in the values of variables. -/
def SameVars (y y' : List Sym) : Prop := y'.map Sym.blank = y.map Sym.blank

theorem blank_var (x : Sym) : x.blank.isVar = x.isVar := by unfold Sym.blank; split <;> rfl
theorem blank_init (x : Sym) : x.blank.isInit = x.isInit := by unfold Sym.blank; split <;> rfl
theorem blank_scope (x : Sym) : x.blank.scope = x.scope := by unfold Sym.blank; split <;> rfl
theorem blank_full (x : Sym) : x.blank.fullname = x.fullname := by unfold Sym.blank; split <;> rfl
theorem blank_macro (x : Sym) : x.blank.isMacroName = x.isMacroName := by unfold Sym.blank; split <;> rfl

theorem symFind_blank (key : Str) : ∀ (y : List Sym) (i : Nat), symFindAux key (y.map Sym.blank) i = symFindAux key y i
  | [], _ => rfl
  | x :: y, i => by
    simp only [List.map_cons, symFindAux, symFind_blank key y, blank_full]

theorem SameVars.find {y y' : List Sym} (h : SameVars y y') (key : Str) : symFind y' key = symFind y key := by
  unfold symFind
  rw [← symFind_blank key y', ← symFind_blank key y, h]

theorem SameVars.lookUp {y y' : List Sym} (h : SameVars y y') (sc : Option Str) (name : Str) :
    lookUpSymbol sc y' name = lookUpSymbol sc y name := by
  unfold lookUpSymbol
  cases sc with
  | none => exact h.find name
  | some sc => simp only [h.find]

theorem SameVars.get {y y' : List Sym} (h : SameVars y y') {i : Nat} {x : Sym} (hx : y[i]? = some x) :
    ∃ x', y'[i]? = some x' ∧ x'.blank = x.blank := by
  have e : (y'.map Sym.blank)[i]? = (y.map Sym.blank)[i]? := by rw [h]
  rw [List.getElem?_map, List.getElem?_map, hx] at e
  cases hy : y'[i]? with
  | none => rw [hy] at e; cases e
  | some x' =>
    rw [hy] at e
    exact ⟨x', rfl, Option.some.inj e⟩

theorem SameVars.symm {y y' : List Sym} (h : SameVars y y') : SameVars y' y := Eq.symm h

theorem SameVars.trans {y y' y'' : List Sym} (h : SameVars y y') (h' : SameVars y' y'') : SameVars y y'' := Eq.trans h' h

theorem SameVars.set {y : List Sym} {i : Nat} {x : Sym} (hx : y[i]? = some x) (hv : x.isVar = true) (v : Int) :
    SameVars y (y.set i { x with value := v }) := by
  unfold SameVars
  apply List.ext_getElem?
  intro j
  rw [List.getElem?_map, List.getElem?_map, List.getElem?_set]
  by_cases hij : i = j
  · subst hij
    rw [hx, if_pos rfl]
    split
    · simp only [Option.map_some, Sym.blank, hv, if_true]
    · rename_i hlt
      rw [List.getElem?_eq_none (Nat.le_of_not_lt hlt)] at hx
      cases hx
  · rw [if_neg hij]

/-- Effect of a part of a block: the bytes `bs` are assembled and variables may have got other values. -/
def Eff (mb : Bool) (s s' : St) (bs : List Nat) : Prop :=
  ∃ ys ns cg ds bd et md mi h ls, SameVars s.syms ys ∧ WSim mb (look s) s.nodes ns ∧ (h = outHdr s ∨ (h = [] ∧ bs = [])) ∧
    s' = { s with
      syms := ys
      nodes := ns
      codeGenerated := cg
      dataSize := ds
      byteDelta := bd
      expansionType := et
      macroDict := md
      macroParamIndex := mi
      pc := s.pc + bs.length
      out := s.out ++ (if emitting s then h ++ bs else [])
      totalBytes := s.totalBytes + (if emitting s then ((h.length + bs.length : Nat) : Int) else 0)
      listing := s.listing ++ (if s.finalPass then ls else []) }

theorem Eff.of {s s' : St} {bs : List Nat} {ls : List ListEntry} (h : Asm s s' bs.length bs ls) : Eff mb s s' bs := by
  obtain ⟨ns, cg, ds, bd, et, g, rfl⟩ := h
  exact ⟨s.syms, ns, cg, ds, bd, et, s.macroDict, s.macroParamIndex, outHdr s, ls, rfl, g.weak mb, Or.inl rfl, rfl⟩

theorem Eff.vars {s : St} {ys : List Sym} {ns : List Node} (hy : SameVars s.syms ys)
    (h : HeapSim true (look s) s.nodes ns) : Eff mb s { s with syms := ys, nodes := ns } [] := by
  refine ⟨ys, ns, s.codeGenerated, s.dataSize, s.byteDelta, s.expansionType, s.macroDict, s.macroParamIndex, [], [], hy, h.weak mb,
    Or.inr ⟨rfl, rfl⟩, ?_⟩
  simp

theorem Eff.heap {s : St} {ns : List Node} (h : HeapSim true (look s) s.nodes ns) : Eff mb s { s with nodes := ns } [] :=
  Eff.vars (ys := s.syms) rfl h

theorem Eff.refl (s : St) : Eff mb s s [] := Eff.heap (HeapSim.refl _ _ _)

theorem Eff.syms {s s' : St} {bs : List Nat} (h : Eff mb s s' bs) : SameVars s.syms s'.syms := by
  obtain ⟨ys, ns, cg, ds, bd, et, md, mi, hd, ls, g1, g2, g3, rfl⟩ := h
  exact g1

theorem look_syms {s s' : St} (hl : s'.lastLabel = s.lastLabel) (hc : s'.currentScope = s.currentScope)
    (hs : SameVars s.syms s'.syms) : look s' = look s := by
  funext name
  have : addSymbolKey s' name = addSymbolKey s name := by
    unfold addSymbolKey
    rw [hl, hc]
  unfold look
  rw [this, hs.lookUp]

theorem Eff.look {s s' : St} {bs : List Nat} (h : Eff mb s s' bs) : look s' = look s := by
  have hs := h.syms
  obtain ⟨ys, ns, cg, ds, bd, et, md, mi, hd, ls, g1, g2, g3, rfl⟩ := h
  exact look_syms rfl rfl hs

theorem Eff.sim {s s' : St} {bs : List Nat} (h : Eff mb s s' bs) : WSim mb (Verif.look s) s.nodes s'.nodes := by
  obtain ⟨ys, ns, cg, ds, bd, et, md, mi, hd, ls, g1, g2, g3, rfl⟩ := h
  exact g2

theorem Eff.comp {s s1 s2 : St} {b1 b2 : List Nat} (h0 : 0 ≤ s.totalBytes) (h1 : Eff mb s s1 b1) (h2 : Eff mb s1 s2 b2) :
    Eff mb s s2 (b1 ++ b2) := by
  have hlk := h1.look
  obtain ⟨ys, ns, cg, ds, bd, et, md, mi, hd, ls, gy, g1, g2, rfl⟩ := h1
  obtain ⟨ys', ns', cg', ds', bd', et', md', mi', hd', ls', gy', g1', g2', rfl⟩ := h2
  rw [hlk] at g1'
  simp only at g1'
  by_cases he : emitting s = true
  · have hh := hdr_after s.format s.origin s.totalBytes b1.length h0
    have he' := he
    unfold emitting at he'
    simp only [emitting, outHdr, he', if_true] at g2'
    have key : ∃ h, (h = outHdr s ∨ (h = [] ∧ b1 ++ b2 = [])) ∧ hd ++ b1 ++ (hd' ++ b2) = h ++ (b1 ++ b2) := by
      rcases g2 with rfl | ⟨rfl, rfl⟩
      · refine ⟨outHdr s, Or.inl rfl, ?_⟩
        unfold outHdr at g2'
        rw [hh] at g2'
        rcases g2' with rfl | ⟨rfl, rfl⟩ <;> simp
      · simp only [List.length_nil, Nat.add_zero, Int.natCast_zero, Int.add_zero] at g2'
        exact ⟨hd', by simpa [outHdr] using g2', by simp⟩
    obtain ⟨h, k1, k2⟩ := key
    refine ⟨ys', ns', cg', ds', bd', et', md', mi', h, ls ++ ls', gy.trans gy', g1.trans g1', k1, ?_⟩
    have k3 := congrArg List.length k2
    simp only [List.length_append] at k3
    simp only [emitting, he', if_true]
    congr 1
    · simp only [List.length_append]; omega
    · simp only [List.length_append]; omega
    · rw [← k2]; simp
    · split <;> simp
  · refine ⟨ys', ns', cg', ds', bd', et', md', mi', outHdr s, ls ++ ls', gy.trans gy', g1.trans g1', Or.inl rfl, ?_⟩
    unfold emitting at he
    simp only [emitting, he, Bool.false_eq_true, if_false, List.append_nil, Int.add_zero]
    congr 1
    · simp only [List.length_append]; omega
    · split <;> simp

theorem look_vars {s : St} {ys : List Sym} (h : SameVars s.syms ys) (md : List (Str × Nat)) (mi : Nat) :
    look { s with syms := ys, macroDict := md, macroParamIndex := mi } = look s :=
  look_syms (s' := { s with syms := ys, macroDict := md, macroParamIndex := mi }) rfl rfl h

theorem Eff.flat {s s' : St} {bs : List Nat} {fresh : Bool} (h : Flat s fresh) (hl : Eff mb s s' bs) :
    Flat s' (fresh && bs.isEmpty) ∧ s'.pc = s.pc + bs.length := by
  obtain ⟨ys, ns, cg, ds, bd, et, md, mi, hd, ls, g1, g2, g3, rfl⟩ := hl
  have hl : Laid { s with syms := ys, macroDict := md, macroParamIndex := mi } { s with
      syms := ys
      macroDict := md
      macroParamIndex := mi
      nodes := ns
      codeGenerated := cg
      dataSize := ds
      byteDelta := bd
      expansionType := et
      pc := s.pc + bs.length
      out := s.out ++ (if emitting s then hd ++ bs else [])
      totalBytes := s.totalBytes + (if emitting s then ((hd.length + bs.length : Nat) : Int) else 0)
      listing := s.listing ++ (if s.finalPass then ls else []) } s.lastLabel bs :=
    Laid.silent (cg := cg) (ds := ds) (bd := bd) (et := et) (fl := s.file) (ln := s.line) hd ls (by
      rw [look_vars g1]
      exact g2.toTrue) g3 rfl
  obtain ⟨a, _, _, d⟩ := Laid.flat (s := { s with syms := ys, macroDict := md, macroParamIndex := mi })
    ⟨h.running, h.heap, h.origin, h.count, h.image, h.started⟩ hl
  exact ⟨a, d⟩

/-- Which names are variables: the position of the symbol in the table.  Global variables inside a section are left out:
there an assignment creates another symbol. -/
def slotOf (s : St) (name : Str) : Option Nat :=
  if plainName name then
    match look s name with
    | some i =>
      match s.syms[i]? with
      | some x => if x.isVar && x.isInit && (x.scope.isSome || s.currentScope.isNone) then some i else none
      | none => none
    | none => none
  else none

theorem slotOf_some {s : St} {name : Str} {i : Nat} (h : slotOf s name = some i) :
    plainName name = true ∧ look s name = some i ∧ ∃ x, s.syms[i]? = some x ∧ x.isVar = true ∧
      x.isInit = true ∧ (x.scope = none → s.currentScope = none) := by
  unfold slotOf at h
  split at h
  · rename_i hp
    refine ⟨hp, ?_⟩
    split at h
    · rename_i i' hi
      split at h
      · rename_i x hx
        split at h
        · rename_i hc
          cases h
          simp only [Bool.and_eq_true, Bool.or_eq_true] at hc
          refine ⟨hi, x, hx, hc.1.1, hc.1.2, fun hs => ?_⟩
          rcases hc.2 with h | h
          · rw [hs] at h; cases h
          · exact Option.isNone_iff_eq_none.1 h
        · cases h
      · cases h
    · cases h
  · cases h

theorem slotOf_iff {s : St} {name n : Str} {i : Nat} (h : slotOf s name = some i) :
    slotOf s n = some i ↔ plainName n = true ∧ look s n = some i := by
  constructor
  · intro hn
    obtain ⟨h1, h2, _⟩ := slotOf_some hn
    exact ⟨h1, h2⟩
  · rintro ⟨h1, h2⟩
    obtain ⟨_, _, x, hx, hv, hi, hs⟩ := slotOf_some h
    unfold slotOf
    rw [if_pos h1, h2]
    simp only [hx, hv, hi]
    rw [if_pos]
    cases hsc : x.scope with
    | none => simp [hs hsc]
    | some c => simp

theorem slotOf_keep {s s' : St} (hlk : look s' = look s) (hs : SameVars s.syms s'.syms)
    (hc : s'.currentScope = s.currentScope) : slotOf s' = slotOf s := by
  funext name
  unfold slotOf
  rw [hlk, hc]
  split
  · cases hl : look s name with
    | none => rfl
    | some i =>
      simp only
      cases hx : s.syms[i]? with
      | some x =>
        obtain ⟨x', hx', e⟩ := hs.get hx
        simp only [hx']
        rw [← blank_var x', ← blank_init x', ← blank_scope x', e, blank_var, blank_init, blank_scope]
      | none =>
        cases hx' : s'.syms[i]? with
        | none => rfl
        | some x' =>
          obtain ⟨x, h1, _⟩ := hs.symm.get hx'
          rw [hx] at h1
          cases h1
  · rfl

/-- The values of the names agree; with `mb`, those of the global names. -/
def EnvEq (mb : Bool) (env env' : Str → Option Int) : Prop := ∀ n, (mb = true → globalName n = true) → env n = env' n

theorem EnvEq.all {env env' : Str → Option Int} (h : EnvEq false env env') : env = env' :=
  funext fun n => h n (by intro h; cases h)

theorem EnvEq.of {env env' : Str → Option Int} (h : env = env') : EnvEq mb env env' := fun n _ => congrFun h n

/-- The state agrees with the configuration. -/
structure Ref (mb : Bool) (s : St) (k : Spec.Cfg) : Prop where
  env : EnvEq mb (envOf s) k.env
  pc : s.pc = k.pc
  flat : Flat s k.fresh

/-- Names that are not variables keep their values. -/
theorem envOf_const {s s' : St} {n : Str} (hlk : look s' = look s) (hs : SameVars s.syms s'.syms)
    (hc : s.currentScope = none) (hn : slotOf s n = none) : envOf s' n = envOf s n := by
  unfold envOf
  rw [hlk]
  by_cases hp : plainName n = true
  · rw [if_pos hp, if_pos hp]
    cases hl : look s n with
    | none => rfl
    | some i =>
      simp only
      cases hx : s.syms[i]? with
      | none =>
        cases hx' : s'.syms[i]? with
        | none => rfl
        | some x' =>
          obtain ⟨x, h1, _⟩ := hs.symm.get hx'
          rw [hx] at h1
          cases h1
      | some x =>
        obtain ⟨x', hx', e⟩ := hs.get hx
        simp only [hx']
        have hi : x'.isInit = x.isInit := by rw [← blank_init x', e, blank_init]
        rw [hi]
        unfold slotOf at hn
        rw [if_pos hp, hl] at hn
        simp only [hx, hc, Option.isNone_none, Bool.or_true, Bool.and_true] at hn
        cases hini : x.isInit with
        | false => rfl
        | true =>
          rw [hini] at hn
          cases hv : x.isVar with
          | true => rw [hv] at hn; simp at hn
          | false =>
            have hv' : x'.isVar = false := by rw [← blank_var x', e, blank_var, hv]
            have := congrArg Sym.value e
            simp only [Sym.blank, hv, hv'] at this
            simp only [Bool.false_eq_true, if_false] at this
            rw [this]
  · rw [if_neg hp, if_neg hp]

/-- Variables have one value, whatever the last label is. -/
theorem envOf_slot {s : St} {n : Str} {c : Nat} {ll : Option Str} (h : slotOf s n = some c)
    (h' : slotOf { s with lastLabel := ll } n = some c) : envOf { s with lastLabel := ll } n = envOf s n := by
  obtain ⟨h1, h2, x, hx, _, hi, _⟩ := slotOf_some h
  obtain ⟨_, g2, _⟩ := slotOf_some h'
  unfold envOf
  rw [if_pos h1, if_pos h1, h2, g2]

end Verif
