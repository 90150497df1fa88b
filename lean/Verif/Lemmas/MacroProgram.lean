import Verif.Lemmas.Program
import Verif.Lemmas.Args
import Verif.Spec.MacroProgram

/-! # Programs with macros -/

namespace Verif

/-! ## Trees with global names only -/

theorem exprGlobal_iff {e : Expr} : Spec.exprGlobal e = true ↔ ∀ n ∈ e.names, globalName n = true := by
  simp [Spec.exprGlobal, List.all_eq_true, global_eq]

theorem itemGlobal_iff {x : Item} : Spec.itemGlobal x = true ↔ ∀ n ∈ x.names, globalName n = true := by
  simp [Spec.itemGlobal, List.all_eq_true, global_eq]

theorem ExAt.lift {s : St} {e : Expr} {p : Ptr} (h : ExAt false s e p) (hg : Spec.exprGlobal e = true) : ExAt true s e p :=
  ⟨h.tree, fun _ => exprGlobal_iff.1 hg⟩

theorem IdAt.lift {s : St} {n : Str} {p : Ptr} (h : IdAt false s n p) (hg : Spec.global n = true) : IdAt true s n p :=
  ⟨h.1, fun _ => by rw [← global_eq]; exact hg⟩

theorem VarAt.lift {s : St} {x : Str × Option Expr} {l : List Ptr} (h : VarAt false s x l)
    (hg : (Spec.global x.1 && x.2.all Spec.exprGlobal) = true) : VarAt true s x l := by
  obtain ⟨name, e⟩ := x
  rw [Bool.and_eq_true] at hg
  cases e with
  | none =>
    obtain ⟨i, h1, h2⟩ := h
    exact ⟨i, h1, h2.lift hg.1⟩
  | some e =>
    obtain ⟨i, q, h1, h2, h3⟩ := h
    exact ⟨i, q, h1, h2.lift hg.1, h3.lift hg.2⟩

theorem VarsAt.lift {s : St} : ∀ {xs : List (Str × Option Expr)} {p : Ptr}, VarsAt false s xs p →
    (∀ x ∈ xs, (Spec.global x.1 && x.2.all Spec.exprGlobal) = true) → VarsAt true s xs p
  | [], _, h, _ => h.elim
  | [x], p, h, hg => by
    obtain ⟨l, h1, h2⟩ := h
    exact ⟨l, h1, h2.lift (hg x (by simp))⟩
  | x :: y :: ys, p, h, hg => by
    obtain ⟨r, l, h1, h2, h3⟩ := h
    exact ⟨r, l, h1, VarsAt.lift h2 fun z hz => hg z (List.mem_cons_of_mem _ hz), h3.lift (hg x (by simp))⟩

theorem StmtAt.lift {s : St} : ∀ {st : Stmt} {p : Ptr}, StmtAt false s st p → Spec.globals st = true → StmtAt true s st p := by
  intro st
  induction st with
  | empty => exact fun h _ => h
  | op ins mode e =>
    intro p h hg
    cases e with
    | none => exact h
    | some e =>
      rcases h with h | ⟨h1, a, q, v0, h2, h3, h4⟩
      · exact Or.inl h
      · exact Or.inr ⟨h1, a, q, v0, h2, h3.lift hg, h4⟩
  | data size hd tl =>
    intro p h hg
    obtain ⟨q, h1, h2, _⟩ := h
    exact ⟨q, h1, h2, fun _ x hx => itemGlobal_iff.1 (List.all_eq_true.1 hg x hx)⟩
  | fill v n =>
    intro p h hg
    simp only [Spec.globals, Bool.and_eq_true] at hg
    obtain ⟨q, r, h1, h2, h3⟩ := h
    exact ⟨q, r, h1, h2.lift hg.1, h3.lift hg.2⟩
  | load raw => exact fun h _ => h
  | assign name e =>
    intro p h hg
    simp only [Spec.globals, Bool.and_eq_true] at hg
    obtain ⟨i, q, h1, h2, h3⟩ := h
    exact ⟨i, q, h1, h2.lift hg.1, h3.lift hg.2⟩
  | var hd tl =>
    intro p h hg
    obtain ⟨q, h1, h2⟩ := h
    exact ⟨q, h1, h2.lift fun x hx => List.all_eq_true.1 hg x (List.mem_reverse.1 hx)⟩
  | ifThen c t ih =>
    intro p h hg
    simp only [Spec.globals, Bool.and_eq_true] at hg
    obtain ⟨q, r, h1, h2, h3⟩ := h
    exact ⟨q, r, h1, h2.lift hg.1, ih h3 hg.2⟩
  | ifElse c t e ih ih' =>
    intro p h hg
    simp only [Spec.globals, Bool.and_eq_true] at hg
    obtain ⟨q, r, u, h1, h2, h3, h4⟩ := h
    exact ⟨q, r, u, h1, h2.lift hg.1.1, ih h3 hg.1.2, ih' h4 hg.2⟩
  | repeatLoop b c ih =>
    intro p h hg
    simp only [Spec.globals, Bool.and_eq_true] at hg
    obtain ⟨q, r, h1, h2, h3⟩ := h
    exact ⟨q, r, h1, h2.lift hg.1, ih h3 hg.2⟩
  | doLoop b c ih =>
    intro p h hg
    simp only [Spec.globals, Bool.and_eq_true] at hg
    obtain ⟨q, r, h1, h2, h3⟩ := h
    exact ⟨q, r, h1, h2.lift hg.1, ih h3 hg.2⟩
  | whileLoop c b ih =>
    intro p h hg
    simp only [Spec.globals, Bool.and_eq_true] at hg
    obtain ⟨q, r, h1, h2, h3⟩ := h
    exact ⟨q, r, h1, h2.lift hg.1, ih h3 hg.2⟩
  | forLoop name start stop step b next ih =>
    intro p h hg
    simp only [Spec.globals, Bool.and_eq_true] at hg
    obtain ⟨⟨⟨⟨⟨g1, g2⟩, g3⟩, g4⟩, g5⟩, g6⟩ := hg
    cases step with
    | none =>
      obtain ⟨asn, i, q, r, u, nx, h1, h2, h3, h4, h5, h6, h7⟩ := h
      exact ⟨asn, i, q, r, u, nx, h1, h2, h3.lift g1, h4.lift g3, h5.lift g4, ih h6 g6, h7.lift g2⟩
    | some e =>
      obtain ⟨asn, i, q, r, u, nx, w, h1, h0, h2, h3, h4, h5, h6, h7⟩ := h
      exact ⟨asn, i, q, r, u, nx, w, h1, h0.lift g5, h2, h3.lift g1, h4.lift g3, h5.lift g4, ih h6 g6, h7.lift g2⟩
  | seq a b iha ihb =>
    intro p h hg
    simp only [Spec.globals, Bool.and_eq_true] at hg
    obtain ⟨q, r, h1, h2, h3⟩ := h
    exact ⟨q, r, h1, iha h2 hg.1, ihb h3 hg.2⟩
  | «at» line st ih => exact fun h hg => ih h hg
  | word first name args =>
    intro p h hg
    simp only [Spec.globals, Bool.and_eq_true] at hg
    obtain ⟨mp, c, q, h1, h2, h3, _, h5⟩ := h
    refine ⟨mp, c, q, h1, h2, h3, fun _ => by rw [← global_eq]; exact hg.1, ?_⟩
    cases args with
    | none => exact h5
    | some a =>
      obtain ⟨hd, tl⟩ := a
      obtain ⟨r, e1, e2, _⟩ := h5
      exact ⟨r, e1, e2, fun _ x hx => itemGlobal_iff.1 (List.all_eq_true.1 hg.2 x hx)⟩
  | _ => exact fun h _ => h.elim

/-! ## What happens to the output -/

/-- The bytes `bs` are assembled.  Symbols and nodes may have changed. -/
def Spread (s s' : St) (bs : List Nat) : Prop :=
  ∃ ys ns md mi ll, Laid { s with syms := ys, nodes := ns, macroDict := md, macroParamIndex := mi } s' ll bs

theorem Span.spread {s s' : St} {bs : List Nat} (h : Span s s' bs) : Spread s s' bs := by
  obtain ⟨ys, md, mi, ll, _, h⟩ := h
  exact ⟨ys, s.nodes, md, mi, ll, h⟩

theorem Laid.setAll {s s' : St} {ll : Option Str} {bs : List Nat} (h : Laid s s' ll bs) (ys : List Sym) (ns : List Node)
    (md : List (Str × Nat)) (mi : Nat) : Laid { s with syms := ys, nodes := ns, macroDict := md, macroParamIndex := mi }
      { s' with syms := ys, nodes := ns, macroDict := md, macroParamIndex := mi } ll bs := by
  obtain ⟨ns', cg, ds, bd, et, fl, ln, hd, ls, w, ic, g1, g2, rfl⟩ := h
  exact ⟨ns, cg, ds, bd, et, fl, ln, hd, ls, w, ic, WSim.refl _ _ _, g2, rfl⟩

theorem Spread.refl (s : St) : Spread s s [] := (Span.refl s).spread

theorem Spread.comp {s s1 s2 : St} {b1 b2 : List Nat} (h0 : 0 ≤ s.totalBytes) (h1 : Spread s s1 b1) (h2 : Spread s1 s2 b2) :
    Spread s s2 (b1 ++ b2) := by
  obtain ⟨y1, n1, d1, i1, l1, a1⟩ := h1
  obtain ⟨y2, n2, d2, i2, l2, a2⟩ := h2
  exact ⟨y2, n2, d2, i2, l2, Laid.comp (s := { s with syms := y2, nodes := n2, macroDict := d2, macroParamIndex := i2 }) h0
    (a1.setAll y2 n2 d2 i2) a2⟩

/-! ## States -/

/-- The state agrees with the stage and holds the macros of the context.  Outside sections, and no variable has a local name. -/
structure MacroAt (C : Spec.Context) (slot : Str → Option Nat) (s : St) (g : Spec.Stage) : Prop where
  cpu : s.cpu = C.cpu
  raw : C.raw = decide (s.format = .bin)
  files : s.files = C.files
  text : C.text = textOf
  isMacro : isMacroWord s = C.isMacro
  env : ∀ ll, Spec.CLabel ll → envOf { s with lastLabel := ll } = g.env ll
  last : s.lastLabel = g.last
  pc : s.pc = g.pc
  flat : Flat s g.fresh
  locals : ∀ n, globalName n = false → slot n = none
  idents : ∀ n b, C.macros n = some b → Spec.Identifier n
  calls : Calls C slot s

theorem MacroAt.label {C : Spec.Context} {slot : Str → Option Nat} {s : St} {g : Spec.Stage} (h : MacroAt C slot s g) :
    Spec.CLabel g.last := by
  rw [← h.last]
  exact h.calls.label

theorem MacroAt.here {C : Spec.Context} {slot : Str → Option Nat} {s : St} {g : Spec.Stage} (h : MacroAt C slot s g) :
    envOf s = g.env g.last := by
  have := h.env s.lastLabel h.calls.label
  rw [h.last] at this
  rw [← this, ← h.last]

theorem MacroAt.fits {C : Spec.Context} {slot : Str → Option Nat} {s : St} {g : Spec.Stage} (h : MacroAt C slot s g) :
    Fits true C slot s :=
  ⟨h.cpu, h.raw, h.files, h.text, h.calls.slots s.lastLabel h.calls.label, Or.inr ⟨rfl, h.calls⟩⟩

theorem MacroAt.simple {C : Spec.Context} {slot : Str → Option Nat} {s : St} {g : Spec.Stage} (h : MacroAt C slot s g) :
    Fits false { C with macros := fun _ => none } slot s :=
  ⟨h.cpu, h.raw, h.files, h.text, h.calls.slots s.lastLabel h.calls.label, Or.inl fun _ => rfl⟩

theorem MacroAt.ref {mb : Bool} {C : Spec.Context} {slot : Str → Option Nat} {s : St} {g : Spec.Stage} (h : MacroAt C slot s g) :
    Ref mb s g.cfg := ⟨EnvEq.of h.here, h.pc, h.flat⟩

theorem slotOf_same {s s' : St} (h1 : s'.syms = s.syms) (h2 : s'.currentScope = s.currentScope) (h3 : s'.lastLabel = s.lastLabel) :
    slotOf s' = slotOf s := by
  have hl : look s' = look s := look_syms h3 h2 (by rw [h1]; rfl)
  funext n
  unfold slotOf
  rw [hl, h1, h2]

/-- The macros stay known while symbols do not change. -/
theorem Calls.same {C : Spec.Context} {slot : Str → Option Nat} {s s' : St} (h : Calls C slot s) (hk : Keeps true s s')
    (hy : s'.syms = s.syms) (hc : s'.currentScope = s.currentScope) (hm : s'.maxMacroParam = s.maxMacroParam)
    (hl : Spec.CLabel s'.lastLabel) : Calls C slot s' := by
  have hg : ∀ i, globalName (paramName i) = true := fun i => rfl
  refine ⟨hc.trans h.scope, by rw [hy]; exact h.names, hl, ?_, hm.trans h.arity, ?_, ?_, ?_⟩
  · intro ll hll
    rw [← h.slots ll hll]
    exact slotOf_same hy hc rfl
  · intro i h1 h2
    obtain ⟨j, x, a1, a2⟩ := h.params i h1 h2
    exact ⟨j, x, by rw [hk.look _ fun _ => hg i]; exact a1, by rw [hy]; exact a2⟩
  · intro n i hn
    rw [hk.look n fun _ => hn, hk.look _ fun _ => hg i]
    exact h.param n i hn
  · intro name body hb
    obtain ⟨a1, a2, a3, i, x, b, a4, a5, a6, a7⟩ := h.bodies name body hb
    exact ⟨a1, a2, a3, i, x, b, by rw [hk.look name fun _ => a2]; exact a4, by rw [hy]; exact a5, a6, a7.keep hk⟩

theorem Laid.keeps {s s' : St} {ll : Option Str} {bs : List Nat} (h : Laid s s' ll bs) : Keeps true s s' := by
  obtain ⟨ns, cg, ds, bd, et, fl, ln, hd, ls, w, ic, g1, g2, rfl⟩ := h
  exact ⟨rfl, rfl, rfl, fun n hn => look_label (s := s) ll s.nodes (hn rfl), fun _ x hx hi => ⟨x, hx, hi⟩, g1⟩

/-- After a flat line. -/
theorem MacroAt.laid {C : Spec.Context} {slot : Str → Option Nat} {s s' : St} {g : Spec.Stage} {ll : Option Str} {bs : List Nat}
    (h : MacroAt C slot s g) (hl : Spec.CLabel ll) (ha : Laid s s' ll bs) :
    MacroAt C slot s' ⟨g.env, ll, g.pc + bs.length, g.fresh && bs.isEmpty⟩ := by
  obtain ⟨q1, q2, q3, q4⟩ := ha.flat h.flat
  have hk := ha.keeps
  have hy := ha.syms
  have hs : s'.format = s.format ∧ s'.files = s.files ∧ s'.currentScope = s.currentScope ∧ s'.maxMacroParam = s.maxMacroParam := by
    obtain ⟨ns, cg, ds, bd, et, fl, ln, hd, ls, w, ic, _, _, rfl⟩ := ha
    exact ⟨rfl, rfl, rfl, rfl⟩
  refine ⟨hk.cpu.trans h.cpu, by rw [hs.1]; exact h.raw, hs.2.1.trans h.files, h.text,
    (isMacroWord_keep (by rw [hy]; rfl) hs.2.2.1).trans h.isMacro, ?_, q3, by rw [q4, h.pc], q1, h.locals, h.idents,
    h.calls.same hk hy hs.2.2.1 hs.2.2.2 (by rw [q3]; exact hl)⟩
  intro l hl'
  rw [← h.env l hl']
  exact congrFun (congrArg Spec.Context.env q2) l

/-- After a block. -/
theorem MacroAt.ran {C : Spec.Context} {slot : Str → Option Nat} {s s1 s2 : St} {g : Spec.Stage} {k : Spec.Cfg} {bs : List Nat}
    {file : Str} {line : Int} (h : MacroAt C slot s g) (hg : Grow (atLine s file line) s1) (he : Eff true s1 s2 bs)
    (hr : Ref true s2 k) : MacroAt C slot s2 (g.after slot k) := by
  have hk1 : Keeps true s s1 := by
    obtain ⟨ns, ln, rfl, g1⟩ := hg
    exact ⟨rfl, rfl, rfl, fun _ _ => rfl, fun _ x hx hi => ⟨x, hx, hi⟩, g1.weak true⟩
  have hs1 : s1.syms = s.syms ∧ s1.currentScope = s.currentScope ∧ s1.maxMacroParam = s.maxMacroParam ∧
      s1.lastLabel = s.lastLabel := by
    obtain ⟨ns, ln, rfl, g1⟩ := hg
    exact ⟨rfl, rfl, rfl, rfl⟩
  have hc1 : Calls C slot s1 := h.calls.same hk1 hs1.1 hs1.2.1 hs1.2.2.1 (by rw [hs1.2.2.2]; exact h.calls.label)
  have hc2 := hc1.eff he
  have hsy := he.syms
  rw [hs1.1] at hsy
  have hkeep : s2.cpu = s.cpu ∧ s2.format = s.format ∧ s2.files = s.files ∧ s2.lastLabel = s.lastLabel ∧
      s2.currentScope = s.currentScope := by
    obtain ⟨ns, ln, rfl, _⟩ := hg
    obtain ⟨ys, ns', cg, ds, bd, et, md, mi, hd, ls, _, _, _, rfl⟩ := he
    exact ⟨rfl, rfl, rfl, rfl, rfl⟩
  obtain ⟨k1, k2, k3, k4, k5⟩ := hkeep
  have hlk : ∀ ll, look { s2 with lastLabel := ll } = look { s with lastLabel := ll } := fun ll => look_syms rfl k5 hsy
  refine ⟨k1.trans h.cpu, by rw [k2]; exact h.raw, k3.trans h.files, h.text, (isMacroWord_keep hsy k5).trans h.isMacro, ?_,
    k4.trans h.last, hr.pc, hr.flat, h.locals, h.idents, hc2⟩
  intro ll hll
  funext n
  show envOf { s2 with lastLabel := ll } n = if (slot n).isSome then k.env n else g.env ll n
  cases hn : slot n with
  | some c =>
    have a1 : slotOf s2 n = some c := (congrFun (hc2.slots s2.lastLabel hc2.label) n).trans hn
    have a2 : slotOf { s2 with lastLabel := ll } n = some c := (congrFun (hc2.slots ll hll) n).trans hn
    have hgn : globalName n = true := by
      cases hb : globalName n with
      | true => rfl
      | false =>
        rw [h.locals n hb] at hn
        cases hn
    rw [envOf_slot a1 a2, hr.env n fun _ => hgn]
    rfl
  | none =>
    have a1 : slotOf { s with lastLabel := ll } n = none := (congrFun (h.calls.slots ll hll) n).trans hn
    rw [envOf_const (s := { s with lastLabel := ll }) (hlk ll) hsy h.calls.scope a1, ← h.env ll hll]
    rfl

theorem Eff.toTrue {s s' : St} {bs : List Nat} (h : Eff false s s' bs) : Eff true s s' bs := by
  obtain ⟨ys, ns, cg, ds, bd, et, md, mi, hd, ls, g1, g2, g3, rfl⟩ := h
  exact ⟨ys, ns, cg, ds, bd, et, md, mi, hd, ls, g1, g2.toTrue, g3, rfl⟩

theorem Ref.toTrue {s : St} {k : Spec.Cfg} (h : Ref false s k) : Ref true s k := ⟨EnvEq.of h.env.all, h.pc, h.flat⟩

/-- A statement at top level; words are macro names. -/
theorem runTop_any {ex : Ptr → M Int} {hu : Ptr → M Bool} {file : Str} {line : Int} {st : Stmt} {s s1 s2 : St}
    (hw : ∀ b n a, st = .word b n a → isMacroWord s n = true) {p : Ptr} {v : Int}
    (h1 : buildStmt ex hu false st { s with file := file, line := line } = (.ok (some p), s1))
    (h2 : ex p s1 = (.ok v, s2)) : runTop ex hu (.stmt file line st) s = (.ok true, s2) := by
  have fin : ((modS fun s => { s with file := file, line := line }) >>= fun _ =>
      buildStmt ex hu false st >>= fun r => match r with
        | none => M.pure false
        | some p => ex p >>= fun _ => M.pure true) s = (.ok true, s2) := by
    rw [modS_bind, bind_ok h1]
    show (ex p >>= fun _ => M.pure true) s1 = _
    rw [bind_ok h2]
    rfl
  by_cases hc : ∃ n a, st = .word true n a
  · obtain ⟨n, a, rfl⟩ := hc
    have hm := hw true n a rfl
    rw [← fin]
    show ((modS fun s => { s with file := file, line := line }) >>= fun _ => getS >>= fun s => _) s = _
    rw [modS_bind, modS_bind, getS_bind, if_pos (show isMacroWord { s with file := file, line := line } n = true from hm)]
    rfl
  · have : runTop ex hu (.stmt file line st) = (modS fun s => { s with file := file, line := line }) >>= fun _ =>
        buildStmt ex hu false st >>= fun r => match r with
          | none => M.pure false
          | some p => ex p >>= fun _ => M.pure true := by
      cases st with
      | word b n a =>
        cases b with
        | true => exact absurd ⟨n, a, rfl⟩ hc
        | false => rfl
      | _ => rfl
    rw [this]
    exact fin

theorem parses_word {C : Spec.Context} {env : Str → Option Int} {pc : Int} {st : Stmt} (h : Spec.Parses C env pc st) :
    ∀ b n a, st = .word b n a → C.isMacro n = true := by
  rintro b n a rfl
  exact h.1

/-- Building a statement at the start of a line. -/
theorem MacroAt.build {C : Spec.Context} {slot : Str → Option Nat} {s : St} {g : Spec.Stage} {st : Stmt} {f : Nat} (file : Str)
    (line : Int) (im : Bool) (h : MacroAt C slot s g) (hb : Builds C st f) (hp : Spec.Parses C g.cfg.env g.cfg.pc st) :
    ∃ p s1, buildStmt (expandNode f) (hasUninit f) im st (atLine s file line) = (.ok (some p), s1) ∧ Grow (atLine s file line) s1 ∧
      StmtAt false s1 st p ∧ Flat s1 g.fresh := by
  obtain ⟨p, s1, r1, g1, t1⟩ := hb im (atLine s file line) ⟨h.cpu, h.isMacro⟩ h.text h.flat.running h.flat.heap (by
    show Spec.Parses C (envOf s) s.pc st
    rw [h.here, h.pc]
    exact hp)
  have hb1 := g1.base (show (atLine s file line).nodeBase ≤ (atLine s file line).nodes.length from h.flat.heap)
  refine ⟨p, s1, r1, g1, t1, ?_⟩
  obtain ⟨ns, ln, rfl, _⟩ := g1
  exact ⟨h.flat.running, hb1, h.flat.origin, h.flat.count, h.flat.image, h.flat.started⟩

/-- A block that may call macros. -/
theorem MacroAt.block {C : Spec.Context} {slot : Str → Option Nat} {st : Stmt} {g : Spec.Stage} {k : Spec.Cfg} {bs : List Nat}
    (file : Str) (line : Int) (hg : Spec.globals st = true) (hp : Spec.Parses C g.cfg.env g.cfg.pc st)
    (h : Spec.Runs C slot st g.cfg k bs) :
    ∃ f0, ∀ f, f0 ≤ f → ∀ s, MacroAt C slot s g → ∃ s',
      runTop (expandNode f) (hasUninit f) (.stmt file line st) s = (.ok true, s') ∧
      Span s s' bs ∧ MacroAt C slot s' (g.after slot k) := by
  obtain ⟨f1, h1⟩ := parses_build C st
  obtain ⟨f2, h2⟩ := runs_expand (mb := true) h
  refine ⟨max f1 f2, fun f hf s hs => ?_⟩
  obtain ⟨p, s1, r1, g1, t1, hF⟩ := hs.build file line false (h1 f (by omega)) hp
  have hfit := hs.fits
  have href : Ref true s g.cfg := hs.ref
  have hk1 : Keeps true s s1 := by
    obtain ⟨ns, ln, rfl, g1⟩ := g1
    exact ⟨rfl, rfl, rfl, fun _ _ => rfl, fun _ x hx hi => ⟨x, hx, hi⟩, g1.weak true⟩
  have hs1 : s1.syms = s.syms ∧ s1.currentScope = s.currentScope ∧ s1.maxMacroParam = s.maxMacroParam ∧
      s1.lastLabel = s.lastLabel := by
    obtain ⟨ns, ln, rfl, g1⟩ := g1
    exact ⟨rfl, rfl, rfl, rfl⟩
  have hc1 : Calls C slot s1 := hs.calls.same hk1 hs1.1 hs1.2.1 hs1.2.2.1 (by rw [hs1.2.2.2]; exact hs.calls.label)
  have hfit1 : Fits true C slot s1 := by
    obtain ⟨ns, ln, rfl, _⟩ := g1
    exact ⟨hfit.cpu, hfit.raw, hfit.files, hfit.text, hfit.slots, Or.inr ⟨rfl, hc1⟩⟩
  have href1 : Ref true s1 g.cfg := by
    obtain ⟨ns, ln, rfl, _⟩ := g1
    exact ⟨href.env, href.pc, hF⟩
  obtain ⟨v, s2, r2, e2, hr2⟩ := h2 f (by omega) s1 p hfit1 href1 (t1.lift hg)
  exact ⟨s2, runTop_any (fun b n a e => by rw [hs.isMacro]; exact parses_word hp b n a e) r1 r2, span_block file line g1 e2,
    hs.ran g1 e2 hr2⟩

/-- A block without calls. -/
theorem MacroAt.blockSimple {C : Spec.Context} {slot : Str → Option Nat} {st : Stmt} {g : Spec.Stage} {k : Spec.Cfg} {bs : List Nat}
    (file : Str) (line : Int) (hp : Spec.Parses C g.cfg.env g.cfg.pc st)
    (h : Spec.Runs { C with macros := fun _ => none } slot st g.cfg k bs) :
    ∃ f0, ∀ f, f0 ≤ f → ∀ s, MacroAt C slot s g → ∃ s',
      runTop (expandNode f) (hasUninit f) (.stmt file line st) s = (.ok true, s') ∧
      Span s s' bs ∧ MacroAt C slot s' (g.after slot k) := by
  obtain ⟨f1, h1⟩ := parses_build C st
  obtain ⟨f2, h2⟩ := runs_expand (mb := false) h
  refine ⟨max f1 f2, fun f hf s hs => ?_⟩
  obtain ⟨p, s1, r1, g1, t1, hF⟩ := hs.build file line false (h1 f (by omega)) hp
  have hfit := hs.simple
  have href : Ref false s g.cfg := hs.ref
  have hfit1 : Fits false { C with macros := fun _ => none } slot s1 := by
    obtain ⟨ns, ln, rfl, _⟩ := g1
    exact ⟨hfit.cpu, hfit.raw, hfit.files, hfit.text, hfit.slots, Or.inl fun _ => rfl⟩
  have href1 : Ref false s1 g.cfg := by
    obtain ⟨ns, ln, rfl, _⟩ := g1
    exact ⟨href.env, href.pc, hF⟩
  obtain ⟨v, s2, r2, e2, hr2⟩ := h2 f (by omega) s1 p hfit1 href1 t1
  exact ⟨s2, runTop_any (fun b n a e => by rw [hs.isMacro]; exact parses_word hp b n a e) r1 r2, span_block file line g1 e2,
    hs.ran g1 e2.toTrue hr2.toTrue⟩

/-! ## Definitions -/

theorem idChar_fold {c d : Nat} (h : tolower c = tolower d) (hd : Spec.IdChar d) : Spec.IdChar c := by
  unfold Spec.IdChar at *
  simp only [show 'a'.toNat = 97 from rfl, show 'z'.toNat = 122 from rfl, show 'A'.toNat = 65 from rfl, show 'Z'.toNat = 90 from rfl,
    show '0'.toNat = 48 from rfl, show '9'.toNat = 57 from rfl, show '_'.toNat = 95 from rfl] at *
  unfold tolower at h
  split at h <;> split at h <;> omega

theorem ident_fold : ∀ {m n : Str}, Spec.foldCase m = Spec.foldCase n → Spec.Identifier n → Spec.Identifier m := by
  have hc : ∀ (m n : Str), m.map tolower = n.map tolower → (∀ c ∈ n, Spec.IdChar c) → ∀ c ∈ m, Spec.IdChar c := by
    intro m
    induction m with
    | nil => intro n _ _ c hc; cases hc
    | cons a m ih =>
      intro n h hn
      cases n with
      | nil => cases h
      | cons b n =>
        obtain ⟨h1, h2⟩ := List.cons.inj h
        intro c hc
        rcases List.mem_cons.1 hc with rfl | hc
        · exact idChar_fold h1 (hn b (by simp))
        · exact ih n h2 (fun x hx => hn x (List.mem_cons_of_mem _ hx)) c hc
  intro m n h hn
  refine ⟨?_, hc m n (by rw [← foldCase_map, ← foldCase_map]; exact h) hn.2.1, by rw [h]; exact hn.2.2⟩
  rintro rfl
  have := congrArg List.length h
  rw [foldCase_map, foldCase_map, List.length_map, List.length_map] at this
  exact hn.1 (List.length_eq_zero_iff.1 this.symm)

theorem ident_global {n : Str} (h : Spec.Identifier n) : globalName n = true := by
  obtain ⟨h1, h2, _⟩ := h
  cases n with
  | nil => exact absurd rfl h1
  | cons c r =>
    have hc : c ≠ 46 ∧ c ≠ 64 := by
      have := h2 c (by simp)
      unfold Spec.IdChar at this
      simp only [show 'a'.toNat = 97 from rfl, show 'z'.toNat = 122 from rfl, show 'A'.toNat = 65 from rfl, show 'Z'.toNat = 90 from rfl,
        show '0'.toNat = 48 from rfl, show '9'.toNat = 57 from rfl, show '_'.toNat = 95 from rfl] at this
      omega
    unfold globalName
    rw [show dropDot (c :: r) = c :: r by
      unfold dropDot
      split
      · rename_i h; cases h; exact absurd rfl hc.1
      · rfl]
    simp [hc.2]

/-- Tables that differ at most in the texts of macros. -/
def BareEq (y y' : List Sym) : Prop :=
  y'.map (fun x => { x with macroNode := none }) = y.map (fun x => { x with macroNode := none })

theorem BareEq.symm {y y' : List Sym} (h : BareEq y y') : BareEq y' y := Eq.symm h

theorem BareEq.get {y y' : List Sym} (h : BareEq y y') {i : Nat} {x : Sym} (hx : y[i]? = some x) :
    ∃ m, y'[i]? = some { x with macroNode := m } := by
  have e : (y'.map fun x : Sym => { x with macroNode := none })[i]? = (y.map fun x : Sym => { x with macroNode := none })[i]? := by
    unfold BareEq at h
    rw [h]
  rw [List.getElem?_map, List.getElem?_map, hx] at e
  cases hy : y'[i]? with
  | none => rw [hy] at e; cases e
  | some x' =>
    rw [hy] at e
    have e := Option.some.inj e
    refine ⟨x'.macroNode, ?_⟩
    congr 1
    cases x
    cases x'
    simp only [Sym.mk.injEq] at e ⊢
    simp_all

theorem BareEq.none {y y' : List Sym} (h : BareEq y y') {i : Nat} (hx : y[i]? = none) : y'[i]? = none := by
  cases hy : y'[i]? with
  | none => rfl
  | some x =>
    obtain ⟨m, hm⟩ := h.symm.get hy
    rw [hx] at hm
    cases hm

theorem symFindAux_bare (key : Str) : ∀ (y : List Sym) (i : Nat),
    symFindAux key (y.map fun x => { x with macroNode := none }) i = symFindAux key y i
  | [], _ => rfl
  | x :: y, i => by simp only [List.map_cons, symFindAux, symFindAux_bare key y]

theorem BareEq.lookUp {y y' : List Sym} (h : BareEq y y') (sc : Option Str) (name : Str) :
    lookUpSymbol sc y' name = lookUpSymbol sc y name := by
  have hf : ∀ key, symFind y' key = symFind y key := fun key => by
    unfold symFind
    rw [← symFindAux_bare key y', ← symFindAux_bare key y]
    unfold BareEq at h
    rw [h]
  unfold lookUpSymbol
  cases sc with
  | none => exact hf name
  | some sc => simp only [hf]

theorem look_bare {s s' : St} (hl : s'.lastLabel = s.lastLabel) (hc : s'.currentScope = s.currentScope)
    (hs : BareEq s.syms s'.syms) : look s' = look s := by
  funext name
  have : addSymbolKey s' name = addSymbolKey s name := by
    unfold addSymbolKey
    rw [hl, hc]
  unfold look
  rw [this, hs.lookUp]

theorem envOf_bare {s s' : St} (hl : s'.lastLabel = s.lastLabel) (hc : s'.currentScope = s.currentScope)
    (hs : BareEq s.syms s'.syms) : envOf s' = envOf s := by
  funext n
  unfold envOf
  rw [look_bare hl hc hs]
  split
  · cases look s n with
    | none => rfl
    | some i =>
      simp only
      cases hx : s.syms[i]? with
      | none => rw [hs.none hx]
      | some x =>
        obtain ⟨m, hm⟩ := hs.get hx
        rw [hm]
  · rfl

theorem slotOf_bare {s s' : St} (hl : s'.lastLabel = s.lastLabel) (hc : s'.currentScope = s.currentScope)
    (hs : BareEq s.syms s'.syms) : slotOf s' = slotOf s := by
  funext n
  unfold slotOf
  rw [look_bare hl hc hs, hc]
  split
  · cases look s n with
    | none => rfl
    | some i =>
      simp only
      cases hx : s.syms[i]? with
      | none => rw [hs.none hx]
      | some x =>
        obtain ⟨m, hm⟩ := hs.get hx
        rw [hm]
  · rfl

theorem isMacroWord_bare {s s' : St} (hc : s'.currentScope = s.currentScope) (hs : BareEq s.syms s'.syms) :
    isMacroWord s' = isMacroWord s := by
  funext n
  unfold isMacroWord
  rw [hc, hs.lookUp]
  cases lookUpSymbol s.currentScope s.syms n with
  | none => rfl
  | some i =>
    simp only
    cases hx : s.syms[i]? with
    | none => rw [hs.none hx]
    | some x =>
      obtain ⟨m, hm⟩ := hs.get hx
      rw [hm]
      rfl

theorem BareEq.set {y : List Sym} {i : Nat} {x : Sym} (hx : y[i]? = some x) (m : Option Ptr) :
    BareEq y (y.set i { x with macroNode := m }) := by
  unfold BareEq
  apply List.ext_getElem?
  intro j
  rw [List.getElem?_map, List.getElem?_map, List.getElem?_set]
  by_cases hij : i = j
  · subst hij
    rw [hx, if_pos rfl]
    split
    · rfl
    · rename_i hlt
      rw [List.getElem?_eq_none (Nat.le_of_not_lt hlt)] at hx
      cases hx
  · rw [if_neg hij]

theorem set_same {y : List Sym} {i : Nat} {x : Sym} (hx : y[i]? = some x) : y.set i x = y := by
  apply List.ext_getElem?
  intro j
  rw [List.getElem?_set]
  by_cases hij : i = j
  · subst hij
    rw [if_pos rfl, hx]
    split
    · rfl
    · rename_i hlt
      rw [List.getElem?_eq_none (Nat.le_of_not_lt hlt)] at hx
      cases hx
  · rw [if_neg hij]

/-- The symbol of a macro whose definition is reached again. -/
theorem MacroAt.symbol {C : Spec.Context} {slot : Str → Option Nat} {s : St} {g : Spec.Stage} {name : Str} (h : MacroAt C slot s g)
    (hn : Spec.Identifier name) (hm : C.isMacro name = true) (hv : g.env g.last name = some g.pc) :
    ∃ i x, look s name = some i ∧ s.syms[i]? = some x ∧ x.isMacroName = true ∧ x.isInit = true ∧ x.value = s.pc := by
  have hl : look s name = lookUpSymbol s.currentScope s.syms name := by
    unfold look
    rw [ident_key hn]
  have h1 : isMacroWord s name = true := by rw [h.isMacro]; exact hm
  have h2 : envOf s name = some s.pc := by rw [h.here, h.pc]; exact hv
  unfold envOf at h2
  rw [if_pos (ident_plain hn)] at h2
  unfold isMacroWord at h1
  rw [← hl] at h1
  cases hi : look s name with
  | none => simp only [hi] at h2; cases h2
  | some i =>
    simp only [hi] at h1 h2
    cases hx : s.syms[i]? with
    | none => simp only [hx] at h2; cases h2
    | some x =>
      simp only [hx] at h1 h2
      split at h2
      · rename_i hini
        exact ⟨i, x, rfl, hx, h1, hini, Option.some.inj h2⟩
      · cases h2

theorem MacroAt.define {C : Spec.Context} {slot : Str → Option Nat} {name : Str} {body : Stmt} {g : Spec.Stage}
    (file : Str) (line : Int) (hn : Spec.Identifier name) (hm : C.isMacro name = true) (hv : g.env g.last name = some g.pc)
    (hg : Spec.globals body = true) (hp : Spec.Parses C g.cfg.env g.cfg.pc body) :
    ∃ f0, ∀ f, f0 ≤ f → ∀ s, MacroAt C slot s g → ∃ s',
      runTop (expandNode f) (hasUninit f) (.stmt file line (.macroDef name body)) s = (.ok true, s') ∧
      Spread s s' [] ∧ MacroAt (C.define name body) slot s' g := by
  obtain ⟨f1, h1⟩ := parses_build C body
  refine ⟨f1 + 1, fun f hf s hs => ?_⟩
  obtain ⟨f, rfl⟩ : ∃ h, f = h + 1 := ⟨f - 1, by omega⟩
  obtain ⟨i, x, hi, hx, hx1, hx2, hx3⟩ := hs.symbol hn hm hv
  have hlt : i < s.syms.length := (List.getElem?_eq_some_iff.1 hx).1
  -- the name
  have r0 : lexMacroName name (atLine s file line) = (.ok (), atLine s file line) := by
    have hl : lookUpSymbol (atLine s file line).currentScope (atLine s file line).syms name = some i := by
      rw [← hi]
      unfold look
      rw [ident_key hn]
      rfl
    unfold lexMacroName
    rw [getS_bind, hl]
    simp only
    rw [modSym_run (s := atLine s file line) hlt]
    have : (atLine s file line).syms.modify i (fun x => { x with isMacroName := true }) = s.syms := by
      rw [modify_set (show (atLine s file line).syms[i]? = some x from hx)]
      have : { x with isMacroName := true } = x := by rw [← hx1]
      rw [this]
      exact set_same hx
    rw [this]
    rfl
  obtain ⟨b, s1, r1, g1, t1, hF⟩ := hs.build file line true (h1 (f + 1) (by omega)) hp
  have hb1 := hF.heap
  let s2 : St := { s1 with nodes := s1.nodes ++ [⟨.id .macroId name none, 0, []⟩] }
  have g2 : Grow s1 s2 := Grow.alloc s1 _
  have hb2 : s2.nodeBase ≤ s2.nodes.length := g2.base hb1
  have l2 : Live s2 s1.nodes.length ⟨.id .macroId name none, 0, []⟩ := Live.alloc hb1 _
  let s3 : St := { s2 with nodes := s2.nodes ++ [⟨.opr .macroDef, 2, [s1.nodes.length, b]⟩] }
  have g3 : Grow s2 s3 := Grow.alloc s2 _
  have l3 : Live s3 s2.nodes.length ⟨.opr .macroDef, 2, [s1.nodes.length, b]⟩ := Live.alloc hb2 _
  obtain ⟨c, l2', _⟩ := (g3.keeps (mb := false)).id l2 (by intro h; cases h)
  have g03 := (g1.trans g2).trans g3
  have rb : buildStmt (expandNode (f + 1)) (hasUninit (f + 1)) false (.macroDef name body) (atLine s file line) =
      (.ok (some s2.nodes.length), s3) := by
    show (lexMacroName name >>= fun _ => _) _ = _
    rw [bind_ok r0, andThen_run r1]
    exact built_run ((bind_ok (alloc_run _ _ s1)).trans (alloc_run _ _ s2))
  obtain ⟨found, d, r4⟩ := createMacroEntry_run name s3
  have e3 : ∃ ns ln, s3 = { atLine s file line with nodes := ns, line := ln } ∧ WSim true (look s) s.nodes ns := by
    obtain ⟨ns, ln, e, g⟩ := g03
    exact ⟨ns, ln, e, g.weak true⟩
  obtain ⟨ns, ln, e3, hsim⟩ := e3
  have hF3 : Flat s3 g.fresh := by
    have := g03.base (show (atLine s file line).nodeBase ≤ (atLine s file line).nodes.length from hs.flat.heap)
    rw [e3] at this ⊢
    exact ⟨hs.flat.running, this, hs.flat.origin, hs.flat.count, hs.flat.image, hs.flat.started⟩
  let ys := s.syms.set i { x with macroNode := some b }
  have hys : BareEq s.syms ys := BareEq.set hx _
  let s' : St := { s3 with macroDict := d, syms := ys }
  have hl3 : look { s3 with macroDict := d } name = some i := by
    rw [e3]
    exact hi
  have re : expandNode (f + 1) s2.nodes.length s3 = (.ok 0, s') := by
    rw [expandNode_run hF3.running l3]
    show expandMacroDef _ s3 = _
    unfold expandMacroDef
    rw [bind_ok (opAt_run (i := 0) (o := s1.nodes.length) rfl s3), bind_ok l2'.run]
    simp only
    rw [bind_ok r4, bind_ok (addSymbol_run (ident_plain hn) hl3)]
    simp only
    rw [bind_ok (opAt_run (i := 1) (o := b) rfl _), getS_bind]
    have hx' : ({ s3 with macroDict := d } : St).syms[i]? = some x := by rw [e3]; exact hx
    rw [bind_ok (modSym_run (s := { s3 with macroDict := d }) (by rw [e3]; exact hlt) _), modify_set hx']
    have : ({ x with isMacroName := true, isInit := true, macroNode := some b, value := ({ s3 with macroDict := d } : St).pc } : Sym) =
        { x with macroNode := some b } := by
      have : ({ s3 with macroDict := d } : St).pc = x.value := by rw [e3, hx3]; rfl
      rw [this]
      cases x
      simp only at hx1 hx2
      rw [hx1, hx2]
    rw [this]
    show (Res.ok 0, { s3 with macroDict := d, syms := s3.syms.set i _ }) = (Res.ok 0, s')
    rw [show s3.syms = s.syms by rw [e3]; rfl]
  refine ⟨s', runTop_any (fun _ _ _ e => by cases e) rb re, ?_, ?_⟩
  · refine ⟨ys, ns, d, s.macroParamIndex, s.lastLabel, ns, s.codeGenerated, s.dataSize, s.byteDelta, s.expansionType, file, ln, [], [], 0, s.incs,
      WSim.refl _ _ _, Or.inr ⟨rfl, rfl⟩, ?_⟩
    simp only [s', e3]
    simp [atLine]
  · have hlk : ∀ ll, look { s' with lastLabel := ll } = look { s with lastLabel := ll } := fun ll =>
      look_bare (s := { s with lastLabel := ll }) (s' := { s' with lastLabel := ll }) rfl (by (simp only [s', e3]; rfl)) hys
    have hsc : s'.currentScope = s.currentScope := by (simp only [s', e3]; rfl)
    have hll : s'.lastLabel = s.lastLabel := by (simp only [s', e3]; rfl)
    have hlk' : look s' = look s := look_bare hll hsc hys
    have hk : Keeps true s s' := by
      refine ⟨by simp only [s', e3]; rfl, by simp only [s', e3]; rfl, by simp only [s', e3]; rfl, fun n _ => by rw [hlk'], ?_, ?_⟩
      · intro j z hz hzi
        obtain ⟨m, hm⟩ := hys.get hz
        exact ⟨_, hm, hzi⟩
      · simp only [s', e3]
        exact hsim
    refine ⟨hk.cpu.trans hs.cpu, ?_, ?_, hs.text, (isMacroWord_bare hsc hys).trans hs.isMacro, ?_, hll.trans hs.last, ?_, ?_, hs.locals,
      ?_, ?_⟩
    · simp only [s', e3]; exact hs.raw
    · simp only [s', e3]; exact hs.files
    · intro ll hll'
      rw [← hs.env ll hll']
      exact envOf_bare (s := { s with lastLabel := ll }) (s' := { s' with lastLabel := ll }) rfl hsc hys
    · simp only [s', e3]; exact hs.pc
    · exact ⟨hF3.running, hF3.heap, hF3.origin, hF3.count, hF3.image, hF3.started⟩
    · intro n b' hb'
      simp only [Spec.Context.define] at hb'
      split at hb'
      · rename_i he
        exact ident_fold he hn
      · exact hs.idents n b' hb'
    · refine ⟨hsc.trans hs.calls.scope, ?_, by rw [hll]; exact hs.calls.label, ?_, ?_, ?_, ?_, ?_⟩
      · exact cnames_set hx rfl hs.calls.names
      · intro ll hll'
        rw [← hs.calls.slots ll hll']
        exact slotOf_bare (s := { s with lastLabel := ll }) (s' := { s' with lastLabel := ll }) rfl hsc hys
      · have := hs.calls.arity
        simp only [s', e3]
        exact this
      · intro j h1 h2
        obtain ⟨q, z, a1, a2, a3⟩ := hs.calls.params j h1 h2
        obtain ⟨m, hm⟩ := hys.get a2
        exact ⟨q, _, by rw [hlk']; exact a1, hm, a3⟩
      · intro n j hn'
        rw [hlk']
        exact hs.calls.param n j hn'
      · intro n b' hb'
        simp only [Spec.Context.define] at hb'
        split at hb'
        · rename_i he
          cases hb'
          have hid := ident_fold he hn
          refine ⟨ident_plain hid, ident_global hid, ident_cstr hid, i, { x with macroNode := some b }, b, ?_, ?_, rfl, ?_⟩
          · rw [hlk', ident_look hs.calls.scope hid, symFind_fold (ident_cstr hid) (ident_cstr hn) he hs.calls.names,
              ← ident_look hs.calls.scope hn]
            exact hi
          · exact List.getElem?_set_self hlt
          · have k1 : Keeps true s1 s' := by
              have k3 := (g2.trans g3).keeps (mb := true)
              have hsy : s3.syms = s.syms := by rw [e3]; rfl
              refine k3.trans ⟨rfl, rfl, rfl, fun n _ => ?_, ?_, WSim.refl _ _ _⟩
              · rw [look_bare (s := s3) (s' := s') rfl rfl (by rw [hsy]; exact hys)]
              · rw [hsy]
                intro j z hz hzi
                obtain ⟨m, hm⟩ := hys.get hz
                exact ⟨_, hm, hzi⟩
            exact (t1.lift hg).keep k1
        · rename_i hne
          obtain ⟨a1, a2, a3, j, z, bb, a4, a5, a6, a7⟩ := hs.calls.bodies n b' hb'
          have hid := hs.idents n b' hb'
          have hij : i ≠ j := by
            rintro rfl
            apply hne
            rw [ident_look hs.calls.scope hid] at a4
            rw [ident_look hs.calls.scope hn] at hi
            obtain ⟨u, u1, u2⟩ := symFind_some a4
            obtain ⟨w, w1, w2⟩ := symFind_some hi
            rw [u1] at w1
            cases w1
            rw [foldCase_map, foldCase_map]
            exact stricmp_two _ (ident_cstr hid) (ident_cstr hn) u2 w2
          refine ⟨a1, a2, a3, j, z, bb, by rw [hlk']; exact a4, ?_, a6, a7.keep hk⟩
          show ys[j]? = some z
          rw [List.getElem?_set_ne hij]
          exact a5

/-! ## Programs -/

theorem line_macros {C C' : Spec.Context} {ll ll' : Option Str} {pc : Int} {fresh : Bool} {t : Top} {bs : List Nat}
    (hc : C'.cpu = C.cpu) (hr : C'.raw = C.raw) (hf : C'.files = C.files) (hm : C'.isMacro = C.isMacro) (ht : C'.text = C.text)
    (h1 : C'.env ll = C.env ll) (h2 : C'.env ll' = C.env ll')
    (h : Spec.Line C ll pc fresh t ll' bs) : Spec.Line C' ll pc fresh t ll' bs := by
  have hem : ∀ (env : Str → Option Int) (pc : Int) (fresh : Bool) (bs : List Nat) (st : Stmt),
      Spec.Emits C' env pc fresh bs st ↔ Spec.Emits C env pc fresh bs st := by
    intro env pc fresh bs st
    cases st with
    | op ins mode arg => cases arg <;> (unfold Spec.Emits; rw [hc])
    | _ => simp only [Spec.Emits, hc, hr, hf, ht]
  have hdef : ∀ name, Spec.Defines C ll pc name ll' → Spec.Defines C' ll pc name ll' := by
    intro name hd
    obtain ⟨a, b, c, d, e⟩ := hd
    refine ⟨?_, b, c, ?_, e⟩
    · rw [hm]
      exact a
    · rw [h2]
      exact d
  have hpl : ∀ (env : Str → Option Int) (pc : Int) (fresh : Bool) (bs : List Nat) (st : Stmt),
      Spec.Placed C env pc fresh bs st → Spec.Placed C' env pc fresh bs st := by
    intro env pc fresh bs st h
    rcases h with h | h | h
    · exact Or.inl ((hem _ _ _ _ _).mpr h)
    · refine Or.inr (Or.inl ?_)
      unfold Spec.Far at h ⊢
      split at h
      · rw [hc]; exact h
      · exact h
    · refine Or.inr (Or.inr ?_)
      unfold Spec.Opens at h ⊢
      split at h
      · rw [hf, ht]; exact h
      · exact h
  unfold Spec.Line at h ⊢
  split at h
  · exact ⟨hdef _ h.1, h.2⟩
  · exact ⟨h.1, by rw [h1]; exact hpl _ _ _ _ _ h.2⟩
  · exact ⟨hdef _ h.1, by rw [h1]; exact hpl _ _ _ _ _ h.2.1, h.2.2⟩
  · exact h.elim

/-- A program with macros. -/
theorem source_run {C : Spec.Context} {slot : Str → Option Nat} {prog : List Top} {g g' : Spec.Stage} {bs : List Nat}
    (h : Spec.MacroSource slot C prog g g' bs) : ∃ f0, ∀ f, f0 ≤ f → ∀ s, MacroAt C slot s g →
      ∃ s' C', runFile (expandNode f) (hasUninit f) prog s = (.ok (), s') ∧ Spread s s' bs ∧ MacroAt C' slot s' g' := by
  induction h with
  | @nil C g => exact ⟨0, fun f _ s hs => ⟨s, C, rfl, Spread.refl s, hs⟩⟩
  | @line C t ts g g' ll b1 b2 h hl _ ih =>
    obtain ⟨f0, ih⟩ := ih
    refine ⟨max f0 (t.fuel + b1.length + 9), fun f hf s hs => ?_⟩
    obtain ⟨f, rfl⟩ : ∃ h, f = h + 1 := ⟨f - 1, by omega⟩
    obtain ⟨s1, r1, a1⟩ := line_run (f := f) (t := t) (s := s) (bs := b1) (ll' := ll) hs.flat (by omega) (by
      rw [hs.last, hs.pc]
      exact line_macros (C := { C with env := g.env }) hs.cpu hs.raw.symm hs.files hs.isMacro hs.text.symm (hs.env _ hs.label)
        (hs.env _ hl) h)
    obtain ⟨s2, C', r2, a2, hs2⟩ := ih (f + 1) (by omega) s1 (hs.laid hl a1)
    exact ⟨s2, C', (runFile_cons r1).trans r2, a1.span.spread.comp hs.flat.count a2, hs2⟩
  | @block C file line st ts g g' k b1 b2 hg hp h _ ih =>
    obtain ⟨f0, ih⟩ := ih
    obtain ⟨f1, h1⟩ := MacroAt.block file line hg hp h
    refine ⟨max f0 f1, fun f hf s hs => ?_⟩
    obtain ⟨s1, r1, a1, hs1⟩ := h1 f (by omega) s hs
    obtain ⟨s2, C', r2, a2, hs2⟩ := ih f (by omega) s1 hs1
    exact ⟨s2, C', (runFile_cons r1).trans r2, a1.spread.comp hs.flat.count a2, hs2⟩
  | @simple C file line st ts g g' k b1 b2 hp h _ ih =>
    obtain ⟨f0, ih⟩ := ih
    obtain ⟨f1, h1⟩ := MacroAt.blockSimple file line hp h
    refine ⟨max f0 f1, fun f hf s hs => ?_⟩
    obtain ⟨s1, r1, a1, hs1⟩ := h1 f (by omega) s hs
    obtain ⟨s2, C', r2, a2, hs2⟩ := ih f (by omega) s1 hs1
    exact ⟨s2, C', (runFile_cons r1).trans r2, a1.spread.comp hs.flat.count a2, hs2⟩
  | @define C file line name body ts g g' bs hn hm hv hg hp _ ih =>
    obtain ⟨f0, ih⟩ := ih
    obtain ⟨f1, h1⟩ := MacroAt.define (slot := slot) file line hn hm hv hg hp
    refine ⟨max f0 f1, fun f hf s hs => ?_⟩
    obtain ⟨s1, r1, a1, hs1⟩ := h1 f (by omega) s hs
    obtain ⟨s2, C', r2, a2, hs2⟩ := ih f (by omega) s1 hs1
    exact ⟨s2, C', (runFile_cons r1).trans r2, a1.comp hs.flat.count a2, hs2⟩

/-! ## Arguments -/

theorem bind_env {param : Str → Option Nat} {pc : Int} {env0 : Str → Option Int} : ∀ {xs : List Item} {i : Nat}
    {env env' : Str → Option Int}, (∀ x ∈ xs, ∀ n ∈ x.names, param n = none) → (∀ n, param n = none → env n = env0 n) →
    Spec.Bind param pc i xs env env' → ∀ n, (∀ j, param n = some j → j < i ∨ i + xs.length ≤ j → env' n = env n) ∧
      (param n = none → env' n = env n) ∧
      ∀ j, param n = some (i + j) → j < xs.length → ∃ e v, xs[j]? = some (.expr e) ∧ Spec.itemValue env0 pc e = some v ∧ env' n = some v
  | [], i, env, env', _, _, h, n => by
    rw [show env' = env from h]
    exact ⟨fun _ _ _ => rfl, fun _ => rfl, fun j _ hj => absurd hj (by simp)⟩
  | .str _ :: _, _, _, _, _, _, h, _ => h.elim
  | .expr e :: xs, i, env, env', hx, h0, h, n => by
    obtain ⟨v, hv, _, _, h⟩ := h
    have hv0 : Spec.itemValue env0 pc e = some v := by
      rw [← hv]
      refine itemValue_congr fun m hm => ?_
      exact (h0 m (hx (.expr e) (by simp) m hm)).symm
    have ih := bind_env (env0 := env0) (fun x hx' => hx x (List.mem_cons_of_mem _ hx')) (by
      intro m hm
      show (if param m = some i then some v else env m) = _
      rw [hm, if_neg (by simp)]
      exact h0 m hm) h n
    refine ⟨fun j hj hlt => ?_, fun hn => ?_, fun j hj hlt => ?_⟩
    · rw [ih.1 j hj (by simp only [List.length_cons] at hlt; omega)]
      show (if param n = some i then some v else env n) = _
      rw [if_neg]
      rw [hj]
      intro c
      have := Option.some.inj c
      simp only [List.length_cons] at hlt
      omega
    · rw [ih.2.1 hn]
      show (if param n = some i then some v else env n) = _
      rw [hn, if_neg (by simp)]
    · cases j with
      | zero =>
        refine ⟨e, v, rfl, hv0, ?_⟩
        rw [ih.1 i hj (by omega)]
        show (if param n = some i then some v else env n) = _
        rw [if_pos (show param n = some i from hj)]
      | succ j =>
        obtain ⟨e', v', h1, h2, h3⟩ := ih.2.2 j (by rw [hj]; congr 1; omega) (by simp only [List.length_cons] at hlt; omega)
        exact ⟨e', v', h1, h2, h3⟩

/-! ## The start of a program -/

/-- Which parameter a name stands for. -/
def numOf (s : St) (n : Str) : Option Nat :=
  if plainName n then
    ((List.range s.maxMacroParam).find? fun i => look s n = look s (paramName (i + 1))).map (· + 1)
  else none

/-- The parameters are symbols with values, as they are from the second pass on. -/
def ParamsSet (s : St) : Prop :=
  ∀ i, i < s.maxMacroParam → ∃ j x, look s (paramName (i + 1)) = some j ∧ s.syms[j]? = some x ∧ x.isMacroParam = true ∧
    x.isInit = true ∧ x.isVar = false ∧ 0 ≤ x.value ∧ x.value ≤ 65535

/-- The context at the start of a program. -/
def macroCtx (s : St) : Spec.Context := { ctxOf s with arity := s.maxMacroParam, param := numOf s }

theorem numOf_iff {s : St} (hsc : s.currentScope = none) (hll : Spec.CLabel s.lastLabel) (hn : ∀ x ∈ s.syms, CStr x.fullname) (hp : ParamsSet s) {n : Str} {i : Nat} :
    numOf s n = some i ↔ 1 ≤ i ∧ i ≤ s.maxMacroParam ∧ plainName n = true ∧ look s n = look s (paramName i) := by
  have hcn : CNames s := ⟨hn, hll, by rw [hsc]; intro c h; cases h⟩
  unfold numOf
  constructor
  · intro h
    split at h
    · rename_i hpl
      obtain ⟨j, h1, rfl⟩ := Option.map_eq_some_iff.1 h
      have h2 := List.find?_some h1
      have h3 := List.mem_range.1 (List.mem_of_find?_eq_some h1)
      exact ⟨by omega, by omega, hpl, by simpa using h2⟩
    · cases h
  · rintro ⟨h1, h2, h3, h4⟩
    obtain ⟨i, rfl⟩ : ∃ j, i = j + 1 := ⟨i - 1, by omega⟩
    rw [if_pos h3]
    cases hf : (List.range s.maxMacroParam).find? fun i => look s n = look s (paramName (i + 1)) with
    | none =>
      have := List.find?_eq_none.1 hf i (List.mem_range.2 (by omega))
      simp [h4] at this
    | some j =>
      have e := List.find?_some hf
      simp only [decide_eq_true_eq] at e
      rw [h4] at e
      obtain ⟨q, x, hq, _⟩ := hp i (by omega)
      have : i + 1 = j + 1 := look_param_inj hcn hq (by rw [← e]; exact hq)
      simp only [Option.map_some]
      rw [this]

end Verif
