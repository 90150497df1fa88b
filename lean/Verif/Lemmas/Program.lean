import Verif.Lemmas.BlockBuild

/-! # Programs with blocks -/

namespace Verif

variable {mb : Bool}

/-- Effect of lines and blocks. -/
def Span (s s' : St) (bs : List Nat) : Prop :=
  ∃ ys md mi ll, SameVars s.syms ys ∧ Laid { s with syms := ys, macroDict := md, macroParamIndex := mi } s' ll bs

theorem Laid.setSyms {s s' : St} {ll : Option Str} {bs : List Nat} (h : Laid s s' ll bs) {ys : List Sym}
    (hy : SameVars s.syms ys) (md : List (Str × Nat)) (mi : Nat) : Laid { s with syms := ys, macroDict := md, macroParamIndex := mi }
      { s' with syms := ys, macroDict := md, macroParamIndex := mi } ll bs := by
  obtain ⟨ns, cg, ds, bd, et, fl, ln, hd, ls, w, ic, g1, g2, rfl⟩ := h
  exact ⟨ns, cg, ds, bd, et, fl, ln, hd, ls, w, ic, by
    rw [look_vars hy]
    exact g1, g2, rfl⟩

theorem Laid.syms {s s' : St} {ll : Option Str} {bs : List Nat} (h : Laid s s' ll bs) : s'.syms = s.syms := by
  obtain ⟨ns, cg, ds, bd, et, fl, ln, hd, ls, w, ic, g1, g2, rfl⟩ := h
  rfl

theorem Laid.span {s s' : St} {ll : Option Str} {bs : List Nat} (h : Laid s s' ll bs) : Span s s' bs :=
  ⟨s.syms, s.macroDict, s.macroParamIndex, ll, rfl, h⟩

theorem Span.refl (s : St) : Span s s [] := (Laid.heap (ns := s.nodes) (WSim.refl _ _ _)).span

theorem Span.comp {s s1 s2 : St} {b1 b2 : List Nat} (h0 : 0 ≤ s.totalBytes) (h1 : Span s s1 b1) (h2 : Span s1 s2 b2) :
    Span s s2 (b1 ++ b2) := by
  obtain ⟨y1, d1, i1, l1, g1, a1⟩ := h1
  obtain ⟨y2, d2, i2, l2, g2, a2⟩ := h2
  have hs1 := a1.syms
  rw [hs1] at g2
  refine ⟨y2, d2, i2, l2, g1.trans g2, ?_⟩
  · exact Laid.comp (s := { s with syms := y2, macroDict := d2, macroParamIndex := i2 }) h0 (a1.setSyms g2 d2 i2) a2

/-- From the state at the start of a line to the state after the block. -/
theorem span_block {s s1 s2 : St} {bs : List Nat} (file : Str) (line : Int) (hg : Grow (atLine s file line) s1)
    (he : Eff mb s1 s2 bs) : Span s s2 bs := by
  obtain ⟨ns, ln, rfl, g⟩ := hg
  obtain ⟨ys, ns', cg, ds, bd, et, md, mi, hd, ls, h1, h2, h3, rfl⟩ := he
  exact ⟨ys, md, mi, s.lastLabel, h1, Laid.silent (cg := cg) (ds := ds) (bd := bd) (et := et) (fl := file) (ln := ln) hd ls (by
    rw [look_vars (s := s) h1]
    exact (g.weak true).trans h2.toTrue) h3 rfl⟩

theorem runs_word {C : Spec.Context} {slot : Str → Option Nat} {st : Stmt} {k k' : Spec.Cfg} {bs : List Nat}
    (hC : ∀ n, C.macros n = none) (h : Spec.Runs C slot st k k' bs) : ∀ b n a, st ≠ .word b n a := by
  intro b n a hs
  subst hs
  cases h with
  | plain h => exact h
  | call hm =>
    rw [hC] at hm
    cases hm

theorem isEmpty_app {α : Type} (a b : List α) : (a ++ b).isEmpty = (a.isEmpty && b.isEmpty) := by
  cases a <;> simp

theorem runs_pc {C : Spec.Context} {slot : Str → Option Nat} {st : Stmt} {k k' : Spec.Cfg} {bs : List Nat}
    (h : Spec.Runs C slot st k k' bs) : k'.pc = k.pc + bs.length ∧ k'.fresh = (k.fresh && bs.isEmpty) := by
  have hfl : ∀ (K U : Nat → Spec.Cfg) (B : Nat → List Nat) (n : Nat),
      (∀ i, i < n → (U i).pc = (K i).pc + (B i).length ∧ (U i).fresh = ((K i).fresh && (B i).isEmpty)) →
      (∀ i, i < n → (K (i + 1)).pc = (U i).pc ∧ (K (i + 1)).fresh = (U i).fresh) →
      (K n).pc = (K 0).pc + ((List.range n).flatMap B).length ∧
      (K n).fresh = ((K 0).fresh && ((List.range n).flatMap B).isEmpty) := by
    intro K U B n
    induction n with
    | zero => intro _ _; simp
    | succ n ih =>
      intro h1 h2
      obtain ⟨a1, a2⟩ := ih (fun i hi => h1 i (by omega)) (fun i hi => h2 i (by omega))
      obtain ⟨c1, c2⟩ := h1 n (by omega)
      obtain ⟨d1, d2⟩ := h2 n (by omega)
      rw [List.range_succ, List.flatMap_append, List.length_append, isEmpty_app]
      simp only [List.flatMap_cons, List.flatMap_nil, List.append_nil]
      rw [d1, c1, a1, d2, c2, a2]
      exact ⟨by rw [Int.natCast_add]; omega, by rw [Bool.and_assoc]⟩
  induction h with
  | plain _ => exact ⟨rfl, rfl⟩
  | assign _ _ => simp [Spec.Cfg.set]
  | @var hd tl k k' h =>
    have : ∀ (xs : List (Str × Option Expr)) (k k' : Spec.Cfg), Spec.Declare slot xs k k' →
        k'.pc = k.pc ∧ k'.fresh = k.fresh := by
      intro xs
      induction xs with
      | nil => intro k k' h; rw [show k' = k from h]; exact ⟨rfl, rfl⟩
      | cons x xs ih =>
        intro k k' h
        obtain ⟨n, e⟩ := x
        cases e with
        | none => obtain ⟨c, _, h⟩ := h; exact ih (k.set slot c 0) _ h
        | some e => obtain ⟨c, v, _, _, _, h⟩ := h; exact ih ((k.set slot c 0).set slot c v) _ h
    simpa using this _ _ _ h
  | seq _ _ ih1 ih2 =>
    rw [ih2.1, ih1.1, ih2.2, ih1.2, List.length_append, isEmpty_app]
    exact ⟨by rw [Int.natCast_add]; omega, by rw [Bool.and_assoc]⟩
  | «at» _ ih => exact ih
  | ifTrue _ _ _ ih => exact ih
  | ifFalse _ => simp
  | elseTrue _ _ _ ih => exact ih
  | elseFalse _ _ ih => exact ih
  | «while» n K B v _ _ _ _ _ ih => exact hfl K (fun i => K (i + 1)) B n ih fun i _ => ⟨rfl, rfl⟩
  | «repeat» n K B v _ _ _ _ _ ih => exact hfl K (fun i => K (i + 1)) B (n + 1) (fun i hi => ih i (by omega)) fun i _ => ⟨rfl, rfl⟩
  | «do» n K B v _ _ _ _ _ ih => exact hfl K (fun i => K (i + 1)) B (n + 1) (fun i hi => ih i (by omega)) fun i _ => ⟨rfl, rfl⟩
  | «for» n K U B x y _ _ _ _ hK _ _ _ _ _ _ _ _ hnext ih =>
    have := hfl K U B n ih fun i hi => by rw [hnext i hi]; exact ⟨rfl, rfl⟩
    rw [hK] at this
    exact this
  | call _ _ _ _ ih => exact ih

/-- The state agrees with the stage of the specification.  Outside sections, and no variable has a local name. -/
structure At (C : Spec.Context) (slot : Str → Option Nat) (s : St) (g : Spec.Stage) : Prop where
  ctx : ctxOf s = { C with env := (ctxOf s).env }
  env : ∀ ll, Spec.CLabel ll → (ctxOf s).env ll = g.env ll
  last : s.lastLabel = g.last
  label : Spec.CLabel g.last
  pc : s.pc = g.pc
  flat : Flat s g.fresh
  scope : s.currentScope = none
  slots : ∀ ll, Spec.CLabel ll → slotOf { s with lastLabel := ll } = slot

theorem At.macros {C : Spec.Context} {slot : Str → Option Nat} {s : St} {g : Spec.Stage} (h : At C slot s g) :
    ∀ n, C.macros n = none := fun n => (congrFun (congrArg Spec.Context.macros h.ctx) n).symm

theorem At.isMacro {C : Spec.Context} {slot : Str → Option Nat} {s : St} {g : Spec.Stage} (h : At C slot s g) :
    isMacroWord s = C.isMacro := congrArg Spec.Context.isMacro h.ctx

theorem At.fits {C : Spec.Context} {slot : Str → Option Nat} {s : St} {g : Spec.Stage} (h : At C slot s g) : Fits mb C slot s :=
  ⟨congrArg Spec.Context.cpu h.ctx, (congrArg Spec.Context.raw h.ctx).symm, congrArg Spec.Context.files h.ctx,
    (congrArg Spec.Context.text h.ctx).symm, h.slots s.lastLabel (by rw [h.last]; exact h.label), Or.inl h.macros⟩

theorem At.ref {C : Spec.Context} {slot : Str → Option Nat} {s : St} {g : Spec.Stage} (h : At C slot s g) : Ref mb s g.cfg :=
  ⟨EnvEq.of <| by
    show (ctxOf s).env s.lastLabel = _
    rw [h.last, h.env _ h.label]
    rfl, h.pc, h.flat⟩

theorem isMacroWord_keep {s s' : St} (hs : SameVars s.syms s'.syms) (hc : s'.currentScope = s.currentScope) :
    isMacroWord s' = isMacroWord s := by
  funext name
  unfold isMacroWord
  rw [hc, hs.lookUp]
  cases lookUpSymbol s.currentScope s.syms name with
  | none => rfl
  | some i =>
    simp only
    cases hx : s.syms[i]? with
    | some x =>
      obtain ⟨x', hx', e⟩ := hs.get hx
      simp only [hx', Option.map_some, Option.getD_some]
      have := congrArg Sym.isMacroName e
      have hb : ∀ z : Sym, z.blank.isMacroName = z.isMacroName := fun z => by unfold Sym.blank; split <;> rfl
      rw [hb, hb] at this
      exact this
    | none =>
      cases hx' : s'.syms[i]? with
      | none => rfl
      | some x' =>
        obtain ⟨x, h1, _⟩ := hs.symm.get hx'
        rw [hx] at h1
        cases h1

/-- One block of a program. -/
theorem block_run {C : Spec.Context} {slot : Str → Option Nat} {st : Stmt} {g : Spec.Stage} {k : Spec.Cfg} {bs : List Nat}
    (file : Str) (line : Int) (hp : Spec.Parses C g.cfg.env g.cfg.pc st) (h : Spec.Runs C slot st g.cfg k bs) :
    ∃ f0, ∀ f, f0 ≤ f → ∀ s, At C slot s g → ∃ s', runTop (expandNode f) (hasUninit f) (.stmt file line st) s = (.ok true, s') ∧
      Span s s' bs ∧ s'.log = s.log ∧ At C slot s' (g.after slot k) := by
  obtain ⟨f1, h1⟩ := parses_build C st
  obtain ⟨f2, h2⟩ := runs_expand (mb := false) h
  refine ⟨max f1 f2, fun f hf s hs => ?_⟩
  have hfit : Fits false C slot s := hs.fits
  have href : Ref false s g.cfg := hs.ref
  have hp' : Spec.Parses C (envOf (atLine s file line)) (atLine s file line).pc st := by
    show Spec.Parses C (envOf s) s.pc st
    rw [href.env.all, href.pc]
    exact hp
  obtain ⟨p, s1, r1, g1, t1⟩ := h1 f (by omega) false (atLine s file line) ⟨hfit.cpu, hs.isMacro⟩ hfit.text hs.flat.running hs.flat.heap hp'
  have hb1 := g1.base (show (atLine s file line).nodeBase ≤ (atLine s file line).nodes.length from hs.flat.heap)
  have hfit1 : Fits false C slot s1 := by
    obtain ⟨ns, ln, rfl, _⟩ := g1
    exact ⟨hfit.cpu, hfit.raw, hfit.files, hfit.text, hfit.slots, Or.inl hs.macros⟩
  have href1 : Ref false s1 g.cfg := by
    obtain ⟨ns, ln, rfl, _⟩ := g1
    exact ⟨href.env, href.pc, ⟨hs.flat.running, hb1, hs.flat.origin, hs.flat.count, hs.flat.image, hs.flat.started⟩⟩
  obtain ⟨v, s2, r2, e2, hr2⟩ := h2 f (by omega) s1 p hfit1 href1 t1
  have hsp : Span s s2 bs := span_block file line g1 e2
  have hlog : s2.log = s.log := by
    obtain ⟨ns, ln, rfl, _⟩ := g1
    obtain ⟨ys, ns', cg, ds, bd, et, md, mi, hd, ls, _, _, _, rfl⟩ := e2
    rfl
  refine ⟨s2, runTop_stmt (runs_word hs.macros h) r1 r2, hsp, hlog, ?_⟩
  have hsy := e2.syms
  have hkeep : s2.cpu = s.cpu ∧ s2.format = s.format ∧ s2.files = s.files ∧ s2.lastLabel = s.lastLabel ∧
      s2.currentScope = s.currentScope ∧ s1.syms = s.syms := by
    obtain ⟨ns, ln, rfl, _⟩ := g1
    obtain ⟨ys, ns', cg, ds, bd, et, md, mi, hd, ls, _, _, _, rfl⟩ := e2
    exact ⟨rfl, rfl, rfl, rfl, rfl, rfl⟩
  obtain ⟨k1, k2, k3, k4, k5, k6⟩ := hkeep
  rw [k6] at hsy
  have hlk : ∀ ll, look { s2 with lastLabel := ll } = look { s with lastLabel := ll } := fun ll => look_syms rfl k5 hsy
  have hsl : ∀ ll, Spec.CLabel ll → slotOf { s2 with lastLabel := ll } = slot := fun ll hll => by
    rw [slotOf_keep (s := { s with lastLabel := ll }) (hlk ll) hsy k5, hs.slots ll hll]
  have hlab : Spec.CLabel s2.lastLabel := by
    rw [k4, hs.last]
    exact hs.label
  refine ⟨?_, ?_, k4.trans hs.last, hs.label, hr2.pc, hr2.flat, k5.trans hs.scope, hsl⟩
  · have hmac : (ctxOf s2).isMacro = (ctxOf s).isMacro := isMacroWord_keep hsy k5
    have : ctxOf s2 = { ctxOf s with env := (ctxOf s2).env } := by
      show (⟨s2.cpu, decide (s2.format = .bin), s2.files, (ctxOf s2).isMacro, textOf, (ctxOf s2).env, fun _ => none, 0, fun _ => none⟩ : Spec.Context) = _
      rw [k1, k2, k3, hmac]
      rfl
    rw [this, hs.ctx]
  · intro ll hll
    funext n
    show envOf { s2 with lastLabel := ll } n = if (slot n).isSome then k.env n else g.env ll n
    cases hn : slot n with
    | some c =>
      have a1 : slotOf s2 n = some c := (congrFun (hsl s2.lastLabel hlab) n).trans hn
      have a2 : slotOf { s2 with lastLabel := ll } n = some c := (congrFun (hsl ll hll) n).trans hn
      rw [envOf_slot a1 a2, hr2.env.all]
      rfl
    | none =>
      have a1 : slotOf { s with lastLabel := ll } n = none := (congrFun (hs.slots ll hll) n).trans hn
      rw [envOf_const (s := { s with lastLabel := ll }) (hlk ll) hsy hs.scope a1, ← hs.env ll hll]
      rfl

/-- Only the values under the labels before and after matter. -/
theorem line_congr {C C' : Spec.Context} {ll ll' : Option Str} {pc : Int} {fresh : Bool} {t : Top} {bs : List Nat}
    (h0 : C' = { C with env := C'.env }) (h1 : C'.env ll = C.env ll) (h2 : C'.env ll' = C.env ll')
    (h : Spec.Line C ll pc fresh t ll' bs) : Spec.Line C' ll pc fresh t ll' bs := by
  have hem : ∀ (env : Str → Option Int) (pc : Int) (fresh : Bool) (bs : List Nat) (st : Stmt),
      Spec.Emits C' env pc fresh bs st ↔ Spec.Emits C env pc fresh bs st := by
    intro env pc fresh bs st
    rw [h0]
    cases st with
    | op ins mode arg => cases arg <;> exact Iff.rfl
    | _ => exact Iff.rfl
  have hdef : ∀ name, Spec.Defines C ll pc name ll' → Spec.Defines C' ll pc name ll' := by
    intro name hd
    obtain ⟨a, b, c, d, e⟩ := hd
    refine ⟨?_, b, c, ?_, e⟩
    · rw [h0]
      exact a
    · rw [h2]
      exact d
  have hpl : ∀ (env : Str → Option Int) (pc : Int) (fresh : Bool) (bs : List Nat) (st : Stmt),
      Spec.Placed C env pc fresh bs st → Spec.Placed C' env pc fresh bs st := by
    intro env pc fresh bs st h
    rcases h with h | h | h
    · exact Or.inl ((hem _ _ _ _ _).mpr h)
    · refine Or.inr (Or.inl ?_)
      unfold Spec.Far at h ⊢
      split at h
      · rw [h0]; exact h
      · exact h
    · refine Or.inr (Or.inr ?_)
      unfold Spec.Opens at h ⊢
      split at h
      · rw [h0]; exact h
      · exact h
  unfold Spec.Line at h ⊢
  split at h
  · exact ⟨hdef _ h.1, h.2⟩
  · exact ⟨h.1, by rw [h1]; exact hpl _ _ _ _ _ h.2⟩
  · exact ⟨hdef _ h.1, by rw [h1]; exact hpl _ _ _ _ _ h.2.1, h.2.2⟩
  · exact h.elim

/-- A program of lines and blocks. -/
theorem program_run {C : Spec.Context} {slot : Str → Option Nat} {prog : List Top} {g g' : Spec.Stage} {bs : List Nat}
    (h : Spec.Program C slot prog g g' bs) : ∃ f0, ∀ f, f0 ≤ f → ∀ s, At C slot s g →
      ∃ s', runFile (expandNode f) (hasUninit f) prog s = (.ok (), s') ∧ Span s s' bs ∧ At C slot s' g' := by
  induction h with
  | nil => exact ⟨0, fun f _ s hs => ⟨s, rfl, Span.refl s, hs⟩⟩
  | @line t ts g g' ll b1 b2 h hl _ ih =>
    obtain ⟨f0, ih⟩ := ih
    refine ⟨max f0 (t.fuel + b1.length + 9), fun f hf s hs => ?_⟩
    obtain ⟨f, rfl⟩ : ∃ h, f = h + 1 := ⟨f - 1, by omega⟩
    obtain ⟨s1, r1, a1⟩ := line_run (f := f) (t := t) (s := s) (bs := b1) (ll' := ll) hs.flat (by omega) (by
      rw [hs.last, hs.pc]
      exact line_congr (C := { C with env := g.env }) hs.ctx (hs.env _ hs.label) (hs.env _ hl) h)
    obtain ⟨q1, q2, q3, q4⟩ := a1.flat hs.flat
    have hs1 : At C slot s1 ⟨g.env, ll, g.pc + b1.length, g.fresh && b1.isEmpty⟩ := by
      refine ⟨by rw [q2]; exact hs.ctx, by rw [q2]; exact hs.env, q3, hl, by rw [q4, hs.pc], q1, ?_, ?_⟩
      · obtain ⟨ns, cg, ds, bd, et, fl, ln, hd, ls, w, ic, _, _, rfl⟩ := a1
        exact hs.scope
      · intro l
        obtain ⟨ns, cg, ds, bd, et, fl, ln, hd, ls, w, ic, _, _, rfl⟩ := a1
        exact hs.slots l
    obtain ⟨s2, r2, a2, hs2⟩ := ih (f + 1) (by omega) s1 hs1
    exact ⟨s2, (runFile_cons r1).trans r2, a1.span.comp hs.flat.count a2, hs2⟩
  | @block file line st ts g g' k b1 b2 hp h _ ih =>
    obtain ⟨f0, ih⟩ := ih
    obtain ⟨f1, h1⟩ := block_run file line hp h
    refine ⟨max f0 f1, fun f hf s hs => ?_⟩
    obtain ⟨s1, r1, a1, _, hs1⟩ := h1 f (by omega) s hs
    obtain ⟨s2, r2, a2, hs2⟩ := ih f (by omega) s1 hs1
    exact ⟨s2, (runFile_cons r1).trans r2, a1.comp hs.flat.count a2, hs2⟩

theorem stricmp_at {a pre r : Str} (h0 : 0 ∉ pre) (ha : 64 ∉ a) : stricmp a (pre ++ 64 :: r) ≠ 0 := by
  induction pre generalizing a with
  | nil =>
    cases a with
    | nil => simp [stricmp, tolower]
    | cons c a =>
      have hc : c ≠ 64 := fun h => ha (by rw [h]; exact List.mem_cons_self ..)
      have hd : (tolower c : Int) - tolower 64 ≠ 0 := by
        unfold tolower
        split <;> simp_all <;> omega
      show (if (tolower c : Int) - tolower 64 ≠ 0 then (tolower c : Int) - tolower 64 else stricmp a r) ≠ 0
      rw [if_pos hd]
      exact hd
  | cons d pre ih =>
    have hd0 : d ≠ 0 := fun h => h0 (by rw [h]; exact List.mem_cons_self ..)
    cases a with
    | nil =>
      have := tolower_pos hd0
      show - (tolower d : Int) ≠ 0
      omega
    | cons c a =>
      show (if (tolower c : Int) - tolower d ≠ 0 then (tolower c : Int) - tolower d else stricmp a (pre ++ 64 :: r)) ≠ 0
      split
      · assumption
      · exact ih (fun h => h0 (List.mem_cons_of_mem _ h)) fun h => ha (List.mem_cons_of_mem _ h)

theorem stripColon_at (pre r : Str) : ∃ r', stripColon (pre ++ 64 :: r) = pre ++ 64 :: r' := by
  unfold stripColon
  split
  · rename_i h
    cases r with
    | nil => simp at h
    | cons x xs =>
      refine ⟨(x :: xs).dropLast, ?_⟩
      rw [List.dropLast_append_of_ne_nil (by simp)]
      rfl
  · exact ⟨r, rfl⟩

/-- A local name is no variable if no variable has `@` in its name. -/
theorem slotOf_local {s : St} (h : ∀ x, x ∈ s.syms → x.isVar = true → 64 ∉ x.fullname) (hsc : s.currentScope = none)
    (hs : Spec.CLabel s.lastLabel) {name : Str} (hn : globalName name = false) : slotOf s name = none := by
  unfold slotOf
  split
  · cases hl : look s name with
    | none => rfl
    | some i =>
      simp only
      unfold look at hl
      have hk : ∃ pre r, 0 ∉ pre ∧ (addSymbolKey s name).2 = pre ++ 64 :: r := by
        unfold globalName at hn
        unfold addSymbolKey
        simp only
        generalize dropDot name = d at hn
        cases d with
        | nil => simp at hn
        | cons c r =>
          have hc : c = 64 := by simpa using hn
          subst hc
          cases hll : s.lastLabel with
          | none =>
            obtain ⟨r', h'⟩ := stripColon_at [] r
            exact ⟨[], r', by simp, h'⟩
          | some l =>
            obtain ⟨r', h'⟩ := stripColon_at (l ++ [95, 95]) r
            have := hs l hll
            exact ⟨l ++ [95, 95], r', by simp [this], h'⟩
      have hk1 : (addSymbolKey s name).1 = none := by
        unfold addSymbolKey
        simp [hsc]
      rw [hk1] at hl
      obtain ⟨x, hx, hst⟩ := symFind_some (show symFind s.syms _ = some i from hl)
      obtain ⟨pre, r, h0, hk⟩ := hk
      rw [hk] at hst
      rw [hx]
      simp only
      cases hv : x.isVar with
      | false => simp
      | true => exact absurd hst (stricmp_at h0 (h x (List.mem_of_getElem? hx) hv))
  · rfl

/-- Variables without `@` in their names are the same under all labels. -/
theorem slotOf_label {s : St} (h : ∀ x, x ∈ s.syms → x.isVar = true → 64 ∉ x.fullname) (hsc : s.currentScope = none)
    {ll : Option Str} (hll : Spec.CLabel ll) (hs : Spec.CLabel s.lastLabel) :
    slotOf { s with lastLabel := ll } = slotOf s := by
  funext name
  cases hn : globalName name with
  | true =>
    unfold slotOf
    rw [show look { s with lastLabel := ll } name = look s name from look_label (s := s) ll s.nodes hn]
  | false => rw [slotOf_local (s := { s with lastLabel := ll }) h hsc hll hn, slotOf_local h hsc hs hn]

end Verif
