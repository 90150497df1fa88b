import Verif.Lemmas.Forward

/-! # The symbol table while a program is read from the top to the bottom -/

namespace Verif

open Spec (Simple Usable AllUsable Direct1 Straight)

/-- Names are compared without regard to case, and the accumulator has no value. -/
structure NameTable (env : Str → Option Int) : Prop where
  fold : ∀ a b, Spec.foldCase a = Spec.foldCase b → env a = env b
  acc : env [65] = none

theorem NameTable.define {env : Str → Option Int} (h : NameTable env) {x : Str} (hx : Simple x) (v : Int) :
    NameTable (Spec.define env x v) := by
  refine ⟨fun a b hab => ?_, ?_⟩
  · unfold Spec.define
    rw [hab, h.fold a b hab]
  · unfold Spec.define
    rw [if_neg (fun hc => hx.2.2 hc.symm)]
    exact h.acc

theorem NameTable.grow {env : Str → Option Int} (h : NameTable env) {x : Str} (hx : env x = none) {v : Int} {n : Str} {w : Int}
    (hn : env n = some w) : Spec.define env x v n = some w := by
  unfold Spec.define
  rw [if_neg]
  · exact hn
  · intro hc
    rw [h.fold _ _ hc, hx] at hn
    cases hn

theorem direct_table {C : Spec.Context} {envF env env' : Str → Option Int} {pc : Int} {fresh : Bool} {t : Top} {bs : List Nat}
    (h : NameTable env) (hd : Direct1 C envF env pc fresh t env' bs) :
    NameTable env' ∧ ∀ n w, env n = some w → env' n = some w := by
  unfold Direct1 at hd
  split at hd
  · obtain ⟨h1, h2, _, _, rfl, _⟩ := hd
    exact ⟨h.define h1 _, fun n w => h.grow h2⟩
  · obtain ⟨h1, h2, _, _, rfl, _⟩ := hd
    exact ⟨h.define h1 _, fun n w => h.grow h2⟩
  · obtain ⟨h1, h2, _, v, _, _, _, rfl, _⟩ := hd
    exact ⟨h.define h1 _, fun n w => h.grow h2⟩
  · obtain ⟨rfl, _⟩ := hd
    exact ⟨h, fun _ _ => id⟩
  · exact hd.elim

theorem straight_table {C : Spec.Context} : ∀ {prog : List Top} {env env' : Str → Option Int} {pc : Int} {fresh : Bool} {bs : List Nat},
    NameTable env → Straight C env pc fresh prog env' bs → NameTable env' ∧ ∀ n w, env n = some w → env' n = some w
  | [], _, _, _, _, _, h, hd => by
    obtain ⟨rfl, _⟩ := hd
    exact ⟨h, fun _ _ => id⟩
  | t :: ts, _, _, _, _, _, h, hd => by
    obtain ⟨env1, b1, b2, h1, h2, _⟩ := hd
    obtain ⟨g1, g2⟩ := direct_table h h1
    obtain ⟨g3, g4⟩ := straight_table g1 h2
    exact ⟨g3, fun n w hn => g4 n w (g2 n w hn)⟩

/-- The contexts agree in all that bytes of statements depend on. -/
structure SameCtx (C C' : Spec.Context) : Prop where
  cpu : C'.cpu = C.cpu
  raw : C'.raw = C.raw
  files : C'.files = C.files
  text : C'.text = C.text

theorem emits_same {C C' : Spec.Context} (hC : SameCtx C C') {env env' : Str → Option Int} {pc : Int} {fresh : Bool} {bs : List Nat}
    {st : Stmt} (hn : ∀ n, Usable env n → env' n = env n) (hu : AllUsable env st)
    (h : Spec.Emits C env pc fresh bs st) : Spec.Emits C' env' pc fresh bs st := by
  cases st with
  | op ins mode e =>
    cases e with
    | none =>
      obtain ⟨h1, h2⟩ := h
      refine ⟨h1, ?_⟩
      rw [hC.cpu]
      exact h2
    | some e =>
      have he : ∀ n ∈ e.names, env' n = env n := fun n hm => hn n (hu n hm)
      rcases h with ⟨h1, h2, h3⟩ | ⟨form, v, h1, h2, h3, h4⟩
      · refine Or.inl ⟨h1, h2, ?_⟩
        rw [hC.cpu]
        exact h3
      · refine Or.inr ⟨form, v, h1, by rw [eval_congr he]; exact h2, by rw [complete_congr he]; exact h3, ?_⟩
        rw [hC.cpu]
        exact h4
  | data size hd tl =>
    refine ⟨h.1, ?_⟩
    rw [hC.text, items_congr (env' := env) fun x hx n hm => hn n (hu x hx n hm)]
    exact h.2
  | fill ve ne =>
    obtain ⟨v, n, h1, h2, h3, h4, h5, h6⟩ := h
    exact ⟨v, n, by rw [eval_congr fun m hm => hn m (hu.1 m hm)]; exact h1, by rw [eval_congr fun m hm => hn m (hu.2 m hm)]; exact h2,
      h3, h4, by rw [hC.raw]; exact h5, h6⟩
  | load raw =>
    obtain ⟨name, nm, bytes, h1, h2, h3⟩ := h
    exact ⟨name, nm, bytes, by rw [hC.text]; exact h1, by rw [hC.files]; exact h2, h3⟩
  | assign x e => exact hu.elim
  | empty => exact h
  | _ => exact h.elim

theorem far_same {C C' : Spec.Context} (hC : SameCtx C C') {env env' : Str → Option Int} {pc : Int} {bs : List Nat}
    {st : Stmt} (hn : ∀ n, Usable env n → env' n = env n) (hu : AllUsable env st)
    (h : Spec.Far C env pc bs st) : Spec.Far C' env' pc bs st := by
  unfold Spec.Far at h ⊢
  split at h
  · rename_i ins mode e
    have he : ∀ n ∈ e.names, env' n = env n := fun n hm => hn n (hu n hm)
    obtain ⟨h1, h2, h3, h4, h5, v, op, name, h6, h7, h8, h9⟩ := h
    refine ⟨h1, h2, h3, h4, h5, v, op, name, by rw [eval_congr he]; exact h6, by rw [eval_congr he]; exact h7,
      by rw [complete_congr he]; exact h8, ?_⟩
    rw [hC.cpu]
    exact h9
  · exact h.elim

theorem placed_same {C C' : Spec.Context} (hC : SameCtx C C') {env env' : Str → Option Int} {pc : Int} {fresh : Bool} {bs : List Nat}
    {st : Stmt} (hn : ∀ n, Usable env n → env' n = env n) (hu : AllUsable env st)
    (h : Spec.Placed C env pc fresh bs st) : Spec.Placed C' env' pc fresh bs st := by
  rcases h with h | h | h
  · exact Or.inl (emits_same hC hn hu h)
  · exact Or.inr (Or.inl (far_same hC hn hu h))
  · refine Or.inr (Or.inr ?_)
    unfold Spec.Opens at h ⊢
    split at h
    · rw [hC.text, hC.files]
      exact h
    · exact h.elim

/-- The symbols of the state are those of the table. -/
structure Holds (s : St) (env : Str → Option Int) : Prop where
  scope : s.currentScope = none
  settled : Settled s
  agree : ∀ n, Simple n → envOf s n = env n

theorem Holds.usable {s : St} {env env0 : Str → Option Int} (h : Holds s env) (ht : NameTable env)
    (hg : ∀ n w, env0 n = some w → env n = some w) (h0 : NameTable env0) {n : Str} (hu : Usable env0 n) : envOf s n = env0 n := by
  rcases hu with ⟨h1, h2⟩ | h1
  · obtain ⟨w, hw⟩ := Option.isSome_iff_exists.1 h2
    rw [h.agree n h1, hw, hg n w hw]
  · have e1 : envOf s n = none := by
      rcases h1 with rfl | rfl <;> rfl
    have e2 : env0 n = none := by
      rcases h1 with rfl | rfl
      · exact h0.acc
      · rw [h0.fold [97] [65] (by decide)]
        exact h0.acc
    rw [e1, e2]

theorem Holds.label {s : St} {env : Str → Option Int} (h : Holds s env) (ll : Option Str) : Holds { s with lastLabel := ll } env :=
  ⟨h.scope, h.settled, fun n hn => by
    rw [← h.agree n hn]
    unfold envOf
    rw [hn.look (s := { s with lastLabel := ll }) h.scope, hn.look h.scope]⟩

/-- The state in the first pass: the symbols of the table, and those used but not yet defined. -/
structure Partly (s : St) (envF env : Str → Option Int) : Prop where
  scope : s.currentScope = none
  names : ∀ i x, s.syms[i]? = some x → Simple x.fullname ∧ x.isMacroName = false ∧
    (x.isInit = true ∨ (x = { name := x.fullname, fullname := x.fullname } ∧ symFind s.syms x.fullname = some i ∧ (envF x.fullname).isSome = true))
  agree : ∀ n, Simple n → envOf s n = env n

theorem Partly.named {s : St} {envF env : Str → Option Int} (h : Partly s envF env) : Named s.syms := by
  intro y hy
  obtain ⟨i, hi⟩ := List.mem_iff_getElem?.1 hy
  exact (h.names i y hi).1.cstr

theorem Partly.env {s : St} {envF env : Str → Option Int} (h : Partly s envF env) {n : Str} (hn : Simple n) {i : Nat} {x : Sym}
    (hi : symFind s.syms n = some i) (hx : s.syms[i]? = some x) : env n = if x.isInit then some x.value else none := by
  rw [← h.agree n hn]
  unfold envOf
  rw [if_pos hn.plain, hn.look h.scope, hi]
  simp only [hx]

theorem Partly.undefined {s : St} {envF env : Str → Option Int} (h : Partly s envF env) {x : Str} (hx : Simple x) (he : env x = none) :
    Undefined s x := by
  intro i hi
  rw [hx.look h.scope] at hi
  obtain ⟨y, hy, _⟩ := symFind_name hi
  obtain ⟨_, _, h3 | ⟨h3, _⟩⟩ := h.names i y hy
  · have := h.env hx hi hy
    rw [he, h3] at this
    cases this
  · exact ⟨y.fullname, by rw [hy]; exact congrArg some h3⟩

theorem Partly.macro {s : St} {envF env : Str → Option Int} (h : Partly s envF env) (n : Str) : isMacroWord s n = false := by
  unfold isMacroWord
  split
  · rename_i i _
    cases hx : s.syms[i]? with
    | none => rfl
    | some x => exact (h.names i x hx).2.1
  · rfl

/-- At the end. -/
theorem Partly.holds {s : St} {envF : Str → Option Int} (h : Partly s envF envF) : Holds s envF := by
  refine ⟨h.scope, fun x hx => ?_, h.agree⟩
  obtain ⟨i, hi⟩ := List.mem_iff_getElem?.1 hx
  obtain ⟨h1, h2, h3 | ⟨h3, h4, h5⟩⟩ := h.names i x hi
  · exact ⟨h3, h2⟩
  · have := h.env h1 h4 hi
    rw [this, h3] at h5
    cases h5

theorem Partly.usable {s : St} {envF env : Str → Option Int} (h : Partly s envF env) (ht : NameTable env) {n : Str} (hu : Usable env n) :
    envOf s n = env n := by
  rcases hu with ⟨h1, h2⟩ | h1
  · exact h.agree n h1
  · have e1 : envOf s n = none := by
      rcases h1 with rfl | rfl <;> rfl
    have e2 : env n = none := by
      rcases h1 with rfl | rfl
      · exact ht.acc
      · rw [ht.fold [97] [65] (by decide)]
        exact ht.acc
    rw [e1, e2]

/-- Only the symbols and the section matter. -/
theorem Partly.of {s t : St} {envF env : Str → Option Int} (h : Partly s envF env) (h1 : t.currentScope = s.currentScope) (h2 : t.syms = s.syms) :
    Partly t envF env := by
  refine ⟨h1.trans h.scope, by rw [h2]; exact h.names, fun n hn => ?_⟩
  rw [← h.agree n hn]
  unfold envOf
  rw [hn.look (h1.trans h.scope), hn.look h.scope, h2]

theorem Partly.define {s : St} {envF env : Str → Option Int} (h : Partly s envF env) {x : Str} (hx : Simple x) (v : Int) :
    Partly (defined s x v) envF (Spec.define env x v) := by
  refine ⟨h.scope, fun i y hy => ?_, fun n hn => ?_⟩
  · have hy' : (defSyms s x v)[i]? = some y := hy
    by_cases hi : i = slot s x
    · subst hi
      obtain ⟨z, h1, h2, _⟩ := get_slot (s := s) (x := x) (v := v)
      cases h1.symm.trans hy'
      refine ⟨?_, ?_, Or.inl h2⟩ <;>
      · unfold defSyms slot at hy'
        cases hl : look s x with
        | none =>
          simp only [hl] at hy'
          simp at hy'
          subst hy'
          first
            | exact hx
            | rfl
        | some j =>
          simp only [hl] at hy'
          rw [modify_set (List.getElem?_eq_getElem (look_lt hl)), List.getElem?_set_self (look_lt hl)] at hy'
          cases hy'
          have := h.names j _ (List.getElem?_eq_getElem (look_lt hl))
          first
            | exact this.1
            | exact this.2.1
    · have hlt : i < s.syms.length := by
        have := get_lt hy'
        unfold defSyms at this
        unfold slot at hi
        cases hl : look s x with
        | none =>
          simp only [hl, List.length_append, List.length_singleton] at this hi
          exact Nat.lt_of_le_of_ne (Nat.le_of_lt_succ this) hi
        | some j =>
          simp only [hl, List.length_modify] at this
          exact this
      rw [get_other hi hlt] at hy'
      obtain ⟨h1, h2, h3⟩ := h.names i y hy'
      refine ⟨h1, h2, h3.imp id fun ⟨h4, h5, h6⟩ => ⟨h4, ?_, h6⟩⟩
      show symFind (defSyms s x v) y.fullname = some i
      rw [find_defSyms h.scope hx h.named h1.cstr, if_neg]
      · exact h5
      · intro hc
        rw [symFind_fold h1.cstr hx.cstr hc h.named] at h5
        unfold slot at hi
        rw [hx.look h.scope, h5] at hi
        exact hi rfl
  · rw [envOf_defined h.scope h.named hx hn]
    unfold Spec.define
    rw [h.agree n hn]

theorem find_use {s : St} {envF env : Str → Option Int} (h : Partly s envF env) {n key : Str} (hn : Simple n) (hk : CStr key) :
    symFind (useSyms s n) key = if Spec.foldCase key = Spec.foldCase n then some (slot s n) else symFind s.syms key := by
  unfold useSyms slot
  cases hl : look s n with
  | none =>
    simp only
    rw [symFind_append]
    have : stricmp n key = 0 ↔ Spec.foldCase key = Spec.foldCase n := (stricmp_fold hn.cstr hk).trans ⟨Eq.symm, Eq.symm⟩
    by_cases h : Spec.foldCase key = Spec.foldCase n
    · rw [if_pos (this.2 h), if_pos h]
    · rw [if_neg (fun hc => h (this.1 hc)), if_neg h]
  | some j =>
    simp only
    rw [hn.look h.scope] at hl
    by_cases hf : Spec.foldCase key = Spec.foldCase n
    · rw [if_pos hf, symFind_fold hk hn.cstr hf h.named, hl]
    · rw [if_neg hf]

theorem Partly.use {s : St} {envF env : Str → Option Int} (h : Partly s envF env) (ht : NameTable env) {n : Str} (hn : Simple n)
    (he : env n = none) (hF : (envF n).isSome = true) : Partly { s with syms := useSyms s n } envF env := by
  cases hl : look s n with
  | some j =>
    refine h.of rfl ?_
    show useSyms s n = s.syms
    unfold useSyms
    rw [hl]
  | none =>
    have hu : useSyms s n = s.syms ++ [{ name := n, fullname := n }] := by
      unfold useSyms
      rw [hl]
    have hsl : slot s n = s.syms.length := by
      unfold slot
      rw [hl]
    refine ⟨h.scope, fun i y hy => ?_, fun m hm => ?_⟩
    · have hy' : (useSyms s n)[i]? = some y := hy
      have hlt := get_lt hy'
      show _ ∧ _ ∧ (_ ∨ _ ∧ symFind (useSyms s n) y.fullname = some i ∧ _)
      rw [hu] at hy' hlt
      simp only [List.length_append, List.length_singleton] at hlt
      by_cases hi : i = s.syms.length
      · subst hi
        simp at hy'
        subst hy'
        exact ⟨hn, rfl, Or.inr ⟨rfl, by rw [find_use h hn hn.cstr, if_pos rfl, hsl], hF⟩⟩
      · rw [List.getElem?_append_left (Nat.lt_of_le_of_ne (Nat.le_of_lt_succ hlt) hi)] at hy'
        obtain ⟨h1, h2, h3⟩ := h.names i y hy'
        refine ⟨h1, h2, h3.imp id fun ⟨h4, h5, h6⟩ => ⟨h4, ?_, h6⟩⟩
        rw [find_use h hn h1.cstr, if_neg]
        · exact h5
        · intro hc
          rw [symFind_fold h1.cstr hn.cstr hc h.named, ← hn.look h.scope, hl] at h5
          cases h5
    · have e : envOf { s with syms := useSyms s n } m = (match symFind (useSyms s n) m with
          | some i => match (useSyms s n)[i]? with
            | some x => if x.isInit then some x.value else none
            | none => none
          | none => none) := by
        unfold envOf
        rw [if_pos hm.plain, hm.look (s := { s with syms := useSyms s n }) h.scope]
        rfl
      rw [e, find_use h hn hm.cstr]
      by_cases hf : Spec.foldCase m = Spec.foldCase n
      · rw [if_pos hf, ht.fold m n hf, he]
        simp only
        rw [hsl, hu]
        simp
      · rw [if_neg hf, ← h.agree m hm]
        unfold envOf
        rw [if_pos hm.plain, hm.look h.scope]
        cases hi : symFind s.syms m with
        | none => rfl
        | some i =>
          simp only
          rw [hu, List.getElem?_append_left (get_lt (symFind_name hi).choose_spec.1)]
          rfl

end Verif
