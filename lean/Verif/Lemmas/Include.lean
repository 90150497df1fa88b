import Verif.Model.Include
import Verif.Spec.Include
import Verif.Lemmas.Simulate
import Verif.Props.SanitizeString

/-! # Included files -/

namespace Verif

open Spec

/-! ## Programs without `.end` -/

/-- The expansion has not been ended and no `.end` has been parsed. -/
def Going (s : St) : Prop := s.endExpansion = false ∧ ∀ n ∈ s.nodes, n.kind ≠ .opr .endProg

/-- All directives but `.end`. -/
def noEndT (op : Opr) : Bool := op != .endProg

instance : TOk noEndT where
  exprList := rfl
  equ := rfl
  statement := rfl
  un op := by cases op <;> rfl
  bin op := by cases op <;> rfl

theorem Going.step {s t : St} (h : Going s) (hs : Step noEndT s t) : Going t := by
  obtain ⟨h1, h2⟩ := h
  cases hs with
  | quiet h => exact ⟨by rw [h.endExpansion]; exact h1, by rw [h.nodes]; exact h2⟩
  | alloc n hn =>
    refine ⟨h1, fun m hm => ?_⟩
    rcases List.mem_append.mp hm with hm | hm
    · exact h2 m hm
    · rw [List.mem_singleton.mp hm]
      intro hk
      rw [hk] at hn
      cases hn
  | setNode p n n' hn ht =>
    refine ⟨h1, fun m hm => ?_⟩
    rcases List.mem_or_eq_of_mem_set hm with hm | rfl
    · exact h2 m hm
    · intro hk
      have := h2 n (List.mem_of_getElem? hn)
      rw [hk] at ht
      cases hn' : n.kind with
      | opr op => rw [hn'] at ht this; simp only [Kind.tag] at ht; cases ht; exact this rfl
      | _ => rw [hn'] at ht; cases ht
  | stop h => obtain ⟨n, hn, hk⟩ := h; exact absurd hk (h2 n hn)
  | _ => exact ⟨h1, h2⟩

theorem Going.tsteps {s t : St} (h : Going s) (hs : TSteps noEndT s t) : Going t := by
  induction hs with
  | refl => exact h
  | steps _ h2 ih =>
    clear h
    induction h2 with
    | refl => exact ih
    | tail _ h3 ih2 => exact ih2.step h3
  | cpu _ c ih => exact ih
  | illegal _ c ih => exact ih
  | c64 _ ih => exact ih

theorem noEnd_uses {st : Stmt} (h : NoEnd st) : st.uses noEndT = true := by
  induction st <;> simp_all [NoEnd, Stmt.uses, noEndT]
  case forReg isX _ _ _ _ _ => cases isX <;> simp
  case print a _ => cases a <;> simp

theorem macroFree_opens {st : Stmt} (h : MacroFree st) : st.mayOpen (fun _ => false) = false := by
  induction st <;> simp_all [MacroFree, Stmt.mayOpen]

/-! ## What holds while statements are read -/

/-- What every statement leaves true. -/
structure SrcInv (D : Str → Bool) (b o : Bool) (fs : List (Str × List Nat)) (S : St) : Prop where
  noMacro : NoMacro S
  given : Given D S
  cond : Cond noMacroT b o S
  files : S.files = fs
  going : Going S

theorem settle_frame (evs : List LexEv) (s : St) : (settle evs s).files = s.files ∧ (settle evs s).nodes = s.nodes ∧
    (settle evs s).endExpansion = s.endExpansion ∧ (settle evs s).incs = s.incs := by
  induction evs generalizing s with
  | nil => exact ⟨rfl, rfl, rfl, rfl⟩
  | cons ev evs ih => cases ev <;> exact ih _

theorem SrcInv.settle {D : Str → Bool} {b o : Bool} {fs : List (Str × List Nat)} {S : St} (h : SrcInv D b o fs S)
    (evs : List LexEv) : SrcInv D b o fs (settle evs S) := by
  obtain ⟨e1, e2, e3, _⟩ := settle_frame evs S
  exact ⟨settle_noMacro h.noMacro _, settle_given h.given _, settle_cond h.cond _, e1.trans h.files,
    e3.trans h.going.1, by rw [e2]; exact h.going.2⟩

theorem tsteps_files {T : Opr → Bool} {s t : St} (h : TSteps T s t) : t.files = s.files :=
  h.rel (R := fun s t => t.files = s.files) (fun _ => rfl) (fun _ _ _ h1 h2 => h2.trans h1) (fun _ _ h => h.frame.files)
    (fun _ _ => rfl) (fun _ _ => rfl) (fun _ => rfl)

theorem SrcInv.tsteps {D : Str → Bool} {b o : Bool} {fs : List (Str × List Nat)} {S S' : St} (h : SrcInv D b o fs S)
    (h1 : TSteps noMacroT S S') (h2 : TSteps noEndT S S') : SrcInv D b o fs S' :=
  ⟨h.noMacro.tsteps h1, h.given.tsteps h1, h.cond.tsteps h1, (tsteps_files h1).trans h.files, h.going.tsteps h2⟩

theorem SrcInv.runTop {D : Str → Bool} {b o : Bool} {fs : List (Str × List Nat)} {S : St} {n : Nat} {t : Top} (h : SrcInv D b o fs S)
    (h1 : t.uses noMacroT = true) (h2 : t.uses noEndT = true) : SrcInv D b o fs (runTop (expandNode n) (hasUninit n) t S).2 :=
  h.tsteps (TPr.runTop (T := noMacroT) (b := b) (o := o) (expandNode_pr _ _ n) (Pr.hasUninit n) t h1 S h.cond)
    (TPr.runTop (T := noEndT) (b := b) (o := o) (expandNode_pr _ _ n) (Pr.hasUninit n) t h2 S ⟨h.cond.finalPass, h.cond.outputOpen, h.cond.totalBytes, fun h => absurd h (by decide)⟩)

theorem simple_facts {t : Top} (h : SimpleTop t) :
    MacroFreeTop t ∧ t.uses noMacroT = true ∧ t.uses noEndT = true ∧ t.mayOpen (fun _ => false) = false := by
  cases t with
  | stmt a b s => exact ⟨h.1, macroFree_uses h.1, noEnd_uses h.2, macroFree_opens h.1⟩
  | labelled a b c s =>
    refine ⟨h.1, macroFree_uses h.1, noEnd_uses h.2, ?_⟩
    show (false || s.mayOpen _) = false
    rw [macroFree_opens h.1]; rfl
  | _ => exact ⟨trivial, rfl, rfl, rfl⟩

/-! ## The statement `.inc` -/

theorem fileName_value {raw name : Str} (h : FileName raw name) : stringValue raw = some (name, 0) := by
  obtain ⟨is, h1, rfl, rfl, h0⟩ := h
  unfold stringValue
  show (sanitizeString (((is.map StrItem.text).flatten ++ [34]).dropLast)).map _ = _
  simp only [List.dropLast_concat, C36_escapes_decoded is h1, Option.map_some]
  congr 2
  generalize (is.map StrItem.value).flatten = v at h0
  induction v with
  | nil => rfl
  | cons c v ih =>
    rw [List.mem_cons, not_or] at h0
    rw [List.takeWhile_cons, if_pos (by simpa using fun h => h0.1 h.symm), ih h0.2]

theorem node_run {p : Ptr} {s : St} {n : Node} (h : s.nodeBase ≤ p) (hn : s.nodes[p]? = some n) : node p s = (.ok n, s) := by
  unfold node
  rw [if_neg (Nat.not_lt.2 h), hn]

theorem node_inv {p : Ptr} {s s' : St} {n : Node} (h : node p s = (.ok n, s')) : s.nodes[p]? = some n ∧ s' = s := by
  unfold node at h
  split at h
  · cases h
  · split at h
    · cases h; exact ⟨‹_›, rfl⟩
    · cases h

/-- What the statement `.inc` does when it returns. -/
def incDone (final : Bool) (name : Str) (s : St) : St :=
  let s1 := if final then { s with listing := s.listing ++ [listRow s []] } else s
  let s2 := { s1 with file := name, line := 0 }
  let s3 := if final then { s2 with listing := s2.listing ++ [listRow s2 []] } else s2
  { s3 with incs := s3.incs ++ [name] }

theorem expandInclude_inv {nd : Node} {o : Ptr} {on : Node} {name : Str} {s s' : St} {r : Int} (ho : nd.ops[0]? = some o)
    (hon : s.nodes[o]? = some on) (hk : on.kind = .str name) (h : expandInclude nd s = (.ok r, s')) :
    s' = incDone s.finalPass name s := by
  unfold expandInclude at h
  obtain ⟨a, s1, h1, h⟩ := bind_ok_inv h
  rw [opAt_run ho] at h1
  cases h1
  obtain ⟨b, s2, h1, h⟩ := bind_ok_inv h
  obtain ⟨h1, e⟩ := node_inv h1
  rw [e] at h
  rw [hon] at h1
  cases h1
  simp only [hk, getS_bind] at h
  cases hf : s.finalPass with
  | false =>
    simp only [hf, Bool.false_eq_true, if_false] at h
    split at h
    · cases h; rfl
    · obtain ⟨_, _, _, h⟩ := bind_ok_inv h
      obtain ⟨_, _, _, h⟩ := bind_ok_inv h
      obtain ⟨_, _, _, h⟩ := bind_ok_inv h
      obtain ⟨_, _, _, h⟩ := bind_ok_inv h
      cases h
  | true =>
    simp only [hf, if_true] at h
    split at h
    · cases h; rfl
    · obtain ⟨_, _, _, h⟩ := bind_ok_inv h
      obtain ⟨_, _, _, h⟩ := bind_ok_inv h
      obtain ⟨_, _, _, h⟩ := bind_ok_inv h
      obtain ⟨_, _, _, h⟩ := bind_ok_inv h
      cases h

/-- The state after `.inc`. -/
def incState (file : Str) (line : Int) (name : Str) (S : St) : St :=
  incDone S.finalPass name { S with
    file := file
    line := line
    nodes := S.nodes ++ [⟨.str name, 0, []⟩] ++ [⟨.opr .inc, 1, [S.nodes.length]⟩] }

theorem inc_built {n : Nat} {file raw name : Str} {line : Int} {S : St} (hv : stringValue raw = some (name, 0)) :
    runTop (expandNode n) (hasUninit n) (.stmt file line (.inc raw)) S =
      (expandNode n (S.nodes ++ [(⟨.str name, 0, []⟩ : Node)]).length >>= fun _ => M.pure true) { S with
        file := file
        line := line
        nodes := S.nodes ++ [⟨.str name, 0, []⟩] ++ [⟨.opr .inc, 1, [S.nodes.length]⟩] } := by
    show (modS (fun s => { s with file := file, line := line }) >>= fun _ =>
      buildStmt (expandNode n) (hasUninit n) false (.inc raw) >>= fun r => match r with
      | none => M.pure false
      | some p => do
        let _ ← expandNode n p
        M.pure true) S = _
    rw [modS_bind]
    have : buildStmt (expandNode n) (hasUninit n) false (.inc raw) { S with file := file, line := line } =
        (.ok (some (S.nodes ++ [(⟨.str name, 0, []⟩ : Node)]).length), { S with
        file := file
        line := line
        nodes := S.nodes ++ [⟨.str name, 0, []⟩] ++ [⟨.opr .inc, 1, [S.nodes.length]⟩] }) := by
      unfold buildStmt stringNode
      simp only [hv]
      rfl
    rw [bind_ok this]

theorem inc_run {n : Nat} {file raw name : Str} {line : Int} {S S' : St} {g : Bool} (hv : stringValue raw = some (name, 0))
    (he : S.endExpansion = false)
    (h : runTop (expandNode n) (hasUninit n) (.stmt file line (.inc raw)) S = (.ok g, S')) :
    g = true ∧ S' = incState file line name S := by
  have e := inc_built (n := n) (file := file) (line := line) (S := S) hv
  rw [e] at h
  obtain ⟨v, S1, h1, h2⟩ := bind_ok_inv h
  cases h2
  refine ⟨rfl, ?_⟩
  cases n with
  | zero => cases h1
  | succ f =>
    unfold expandNode at h1
    rw [getS_bind] at h1
    rw [if_neg (by simp only [he, Bool.false_eq_true, not_false_eq_true])] at h1
    obtain ⟨nd, S2, h3, h4⟩ := bind_ok_inv h1
    obtain ⟨h5, rfl⟩ := node_inv h3
    rw [List.getElem?_append_right (Nat.le_refl _), Nat.sub_self] at h5
    cases h5
    exact expandInclude_inv (on := ⟨.str name, 0, []⟩) (o := S.nodes.length) rfl (by simp) rfl h4

theorem incState_incs (file : Str) (line : Int) (name : Str) (S : St) : (incState file line name S).incs = S.incs ++ [name] := by
  unfold incState incDone
  cases S.finalPass <;> rfl

/-! ## Reading statements -/

/-- The scanner reaches a part of the text. -/
theorem LexTo.split {isMac : Str → Bool} {known : Str → Option Bool} {tail : Str} {st st' : LexSt} {s : Str} {evs : List LexEv}
    (h : LexTo isMac known tail st s evs st') : ∀ {a b : List LexEv}, evs = a ++ b →
    ∃ st1 s1, LexTo isMac known s1 st s a st1 ∧ LexTo isMac known tail st1 s1 b st' := by
  induction h with
  | nil st =>
    intro a b h
    obtain ⟨rfl, rfl⟩ := List.append_eq_nil_iff.1 h.symm
    exact ⟨st, tail, .nil st, .nil st⟩
  | @skip st st' st2 u rest evs hne h hl _ ih =>
    intro a b he
    obtain ⟨st1, s1, h1, h2⟩ := ih he
    exact ⟨st1, s1, .skip hne h hl h1, h2⟩
  | @step st st' st2 u rest ev evs hne hev h hl hr ih =>
    intro a b he
    cases a with
    | nil => subst he; exact ⟨st, u, .nil st, .step hne hev h hl hr⟩
    | cons x a =>
      cases he
      obtain ⟨st1, s1, h1, h2⟩ := ih rfl
      exact ⟨st1, s1, .step hne hev h hl h1, h2⟩

theorem srcSize_le {a b : Str} {bufs : List Buf} (h : a.length < b.length) : srcSize a bufs < srcSize b bufs := by
  cases bufs <;> simp only [srcSize] <;> omega

theorem srcSize_pos (a : Str) (bufs : List Buf) : 0 < srcSize a bufs := by
  cases bufs <;> simp only [srcSize] <;> omega

section
variable {isMac : Str → Bool} {known : Str → Option Bool} {tail : Str} {bufs : List Buf}

/-- Tokens that do not complete a statement are collected. -/
theorem read_part {file : Str} {st st' : LexSt} {s : Str} {evs : List LexEv} (h : LexTo isMac known tail st s evs st') :
    ∀ {toks acc : List Tok}, evs = toks.map .tok → (∀ k top, 0 < k → parseTop file (acc ++ toks.take k) ≠ some (top, [])) →
    ∀ defined, Agrees known defined → ∀ pend f, srcSize s bufs ≤ f → ∃ f', srcSize tail bufs ≤ f' ∧
      readSrc isMac defined f st file s bufs acc pend = readSrc isMac defined f' st' file tail bufs (acc ++ toks) pend := by
  induction h with
  | nil st =>
    intro toks acc h _ defined hag pend f hf
    cases toks with
    | nil => exact ⟨f, hf, by rw [List.append_nil]⟩
    | cons => cases h
  | @skip st st' st2 u rest evs hne h hl _ ih =>
    intro toks acc he hp defined hag pend f hf
    have hlt := srcSize_le (bufs := bufs) hl
    obtain ⟨c, u, rfl⟩ := List.exists_cons_of_ne_nil hne
    cases f with
    | zero => omega
    | succ f =>
      simp only [readSrc, h defined hag]
      exact ih he hp defined hag pend f (by omega)
  | @step st st' st2 u rest ev evs hne hev h hl hr ih =>
    intro toks acc he hp defined hag pend f hf
    have hlt := srcSize_le (bufs := bufs) hl
    cases toks with
    | nil => cases he
    | cons tk toks =>
      simp only [List.map_cons, List.cons.injEq] at he
      obtain ⟨rfl, he⟩ := he
      obtain ⟨c, u, rfl⟩ := List.exists_cons_of_ne_nil hne
      cases f with
      | zero => omega
      | succ f =>
        obtain ⟨f', h1, h2⟩ := ih (acc := acc ++ [tk]) he (fun k top hk => by
          have := hp (k + 1) top (by omega)
          simpa using this) defined hag pend f (by omega)
        refine ⟨f', h1, ?_⟩
        rw [show acc ++ tk :: toks = acc ++ [tk] ++ toks by simp, ← h2]
        have hp1 : ∀ top, parseTop file (acc ++ [tk]) ≠ some (top, []) := fun top => by
          have := hp 1 top (by omega)
          simpa using this
        cases hq : parseTop file (acc ++ [tk]) with
        | none => simp only [readSrc, h defined hag, hq]
        | some r =>
          obtain ⟨top, r⟩ := r
          cases r with
          | nil => exact absurd hq (hp1 top)
          | cons a r => simp only [readSrc, h defined hag, hq]

/-- A statement begins with no other one. -/
theorem top_prefix {file : Str} {t : Top} {a b : List Tok} (hT : TopText file t (a ++ b)) (hb : b ≠ []) (top : Top) :
    parseTop file a ≠ some (top, []) := by
  intro hp
  obtain ⟨mid, g1, g2⟩ := top_sound hp
  rw [List.append_nil] at g1
  have e1 := top_parse g2 b
  have e2 := top_parse hT []
  rw [List.append_nil] at e2
  rw [← g1, e2] at e1
  cases e1
  exact hb rfl

/-- The tokens of a statement are read up to its end. -/
theorem read_src {file : Str} {t : Top} {tt : List Tok} (hT : TopText file t tt) {st st' : LexSt}
    {s : Str} {evs : List LexEv} (h : LexTo isMac known tail st s evs st') :
    ∀ {toks acc : List Tok} {evs2 : List LexEv}, evs = toks.map .tok ++ evs2 → tt = acc ++ toks → toks ≠ [] →
    ∃ st1 s1, LexTo isMac known tail st1 s1 evs2 st' ∧
      ∀ defined, Agrees known defined → ∀ pend f, srcSize s bufs ≤ f →
        readSrc isMac defined f st file s bufs acc pend = .top pend t st1 file s1 bufs := by
  induction h with
  | nil st =>
    intro toks acc evs2 h _ hne
    cases toks with
    | nil => exact absurd rfl hne
    | cons => cases h
  | @skip st st' st2 u rest evs hne h hl _ ih =>
    intro toks acc evs2 he ha hn
    have hlt := srcSize_le (bufs := bufs) hl
    obtain ⟨st1, s1, h1, h3⟩ := ih he ha hn
    refine ⟨st1, s1, h1, ?_⟩
    intro defined hag pend f hf
    obtain ⟨c, u, rfl⟩ := List.exists_cons_of_ne_nil hne
    cases f with
    | zero => omega
    | succ f =>
      simp only [readSrc, h defined hag]
      exact h3 defined hag pend f (by omega)
  | @step st st' st2 u rest ev evs hne hev h hl hr ih =>
    intro toks acc evs2 he ha hn
    have hlt := srcSize_le (bufs := bufs) hl
    obtain ⟨tk, toks, rfl⟩ := List.exists_cons_of_ne_nil hn
    simp only [List.map_cons, List.cons_append, List.cons.injEq] at he
    obtain ⟨rfl, he⟩ := he
    obtain ⟨c, u, rfl⟩ := List.exists_cons_of_ne_nil hne
    cases toks with
    | nil =>
      simp only [List.map_nil, List.nil_append] at he
      subst he
      refine ⟨st', rest, hr, ?_⟩
      intro defined hag pend f hf
      cases f with
      | zero => omega
      | succ f =>
        have hp : parseTop file (acc ++ [tk]) = some (t, []) := by
          have := top_parse hT []
          rwa [List.append_nil, ha] at this
        simp only [readSrc, h defined hag, hp]
    | cons tk2 toks =>
      obtain ⟨st1, s1, h1, h3⟩ := ih (toks := tk2 :: toks) (acc := acc ++ [tk]) he (by rw [ha]; simp) (by simp)
      refine ⟨st1, s1, h1, ?_⟩
      intro defined hag pend f hf
      cases f with
      | zero => omega
      | succ f =>
        have hp : ∀ top, parseTop file (acc ++ [tk]) ≠ some (top, []) := by
          have : tt = acc ++ [tk] ++ (tk2 :: toks) := by rw [ha]; simp
          rw [this] at hT
          exact top_prefix hT (by simp)
        cases hq : parseTop file (acc ++ [tk]) with
        | none =>
          simp only [readSrc, h defined hag, hq]
          exact h3 defined hag pend f (by omega)
        | some r =>
          obtain ⟨top, r⟩ := r
          cases r with
          | nil => exact absurd hq (hp top)
          | cons a r =>
            simp only [readSrc, h defined hag, hq]
            exact h3 defined hag pend f (by omega)

/-- A setting is kept until the statement is complete. -/
theorem read_src_setting {ev : LexEv} (hev : ev.setting = true) {st st' : LexSt}
    {s : Str} {evs evs2 : List LexEv} (h : LexTo isMac known tail st s evs st') (he : evs = ev :: evs2) :
    ∃ st1 s1, LexTo isMac known tail st1 s1 evs2 st' ∧
      ∀ defined, Agrees known defined → ∀ file pend f, srcSize s bufs ≤ f → ∃ f', srcSize s1 bufs ≤ f' ∧
        readSrc isMac defined f st file s bufs [] pend = readSrc isMac defined f' st1 file s1 bufs [] (pend ++ [ev]) := by
  induction h with
  | nil st => cases he
  | @skip st st' st2 u rest evs hne h hl _ ih =>
    obtain ⟨st1, s1, h1, h3⟩ := ih he
    have hlt := srcSize_le (bufs := bufs) hl
    refine ⟨st1, s1, h1, ?_⟩
    intro defined hag file pend f hf
    obtain ⟨c, u, rfl⟩ := List.exists_cons_of_ne_nil hne
    cases f with
    | zero => omega
    | succ f =>
      obtain ⟨f', h4, h5⟩ := h3 defined hag file pend f (by omega)
      refine ⟨f', h4, ?_⟩
      simp only [readSrc, h defined hag]
      exact h5
  | @step st st' st2 u rest ev' evs hne _ h hl hr ih =>
    cases he
    have hlt := srcSize_le (bufs := bufs) hl
    refine ⟨st', rest, hr, ?_⟩
    intro defined hag file pend f hf
    obtain ⟨c, u, rfl⟩ := List.exists_cons_of_ne_nil hne
    cases f with
    | zero => omega
    | succ f =>
      refine ⟨f, by omega, ?_⟩
      simp only [readSrc, h defined hag]
      cases ev <;> first | rfl | cases hev

end

/-! ## Running a text -/

/-- What `runSrc` does with the result of reading, for programs without macros. -/
def afterSrc (ex : Ptr → M Int) (hu : Ptr → M Bool) (g : Nat) (r : SrcRes) : M LexSt := fun S =>
  (match r with
    | .ub => ubM
    | .syntaxError lx' => (do
      error .syntaxError
      M.pure lx')
    | .eof evs lx' => (do
      forEachM runEvent evs
      M.pure { lx' with last := none, line := lx'.line + 1 })
    | .top evs t lx' file' rest bufs' => (do
      forEachM runEvent evs
      let good ← runTop ex hu t
      if good then do
        let s' ← getS
        let names := if t.mayOpen (fun _ => false) then s'.incs.drop S.incs.length else []
        let r := openAll s'.files names file' lx'.line rest bufs'
        runSrc ex hu g { lx' with line := r.1.line } r.1.file r.1.rest r.2
      else do
        error .syntaxError
        M.pure lx') : M LexSt) S

theorem runSrc_eq (ex : Ptr → M Int) (hu : Ptr → M Bool) (file : Str) (g : Nat) (lx : LexSt) (text : Str) (bufs : List Buf)
    {S : St} (h : NoMacro S) : runSrc ex hu (g + 1) lx file text bufs S =
      afterSrc ex hu g (readSrc (fun _ => false) (isKnownWord S) (srcSize text bufs) lx file text bufs [] []) S := by
  unfold runSrc afterSrc
  rw [getS_bind, h.word]
  cases readSrc (fun _ => false) (isKnownWord S) (srcSize text bufs) lx file text bufs [] [] <;> rfl

/-- From the place `st`, `text` on, everything read behaves as `K`; `m` bounds the number of statements. -/
def Behaves (D : Str → Bool) (b o : Bool) (fs : List (Str × List Nat)) (n m : Nat) (st : LexSt) (file text : Str) (bufs : List Buf)
    (K : M LexSt) : Prop :=
  ∀ g, m ≤ g → ∀ defined, Agrees (knownNames D) defined → ∀ fr, srcSize text bufs ≤ fr → ∀ pend : List LexEv,
    (∀ ev ∈ pend, ev.setting = true) → ∀ S, SrcInv D b o fs S →
      afterSrc (expandNode n) (hasUninit n) g (readSrc (fun _ => false) defined fr st file text bufs [] pend) S = K (settle pend S)

theorem Behaves.run {D : Str → Bool} {b o : Bool} {fs : List (Str × List Nat)} {n m : Nat} {st : LexSt} {file text : Str} {bufs : List Buf}
    {K : M LexSt} (h : Behaves D b o fs n m st file text bufs K) {g : Nat} (hg : m < g) {S : St} (hS : SrcInv D b o fs S) :
    runSrc (expandNode n) (hasUninit n) g st file text bufs S = K S := by
  obtain ⟨g, rfl⟩ : ∃ g', g = g' + 1 := ⟨g - 1, by omega⟩
  rw [runSrc_eq _ _ _ _ _ _ _ hS.noMacro, h g (by omega) _ hS.given.agrees _ (Nat.le_refl _) [] (by simp) S hS]
  rfl

theorem behaves_lines {D : Str → Bool} {b o : Bool} {fs : List (Str × List Nat)} {n m : Nat} {file : Str} {bufs : List Buf}
    {tail : Str} {st' : LexSt} {K : M LexSt} (hK : Behaves D b o fs n m st' file tail bufs K)
    {l : List Top} {evs : List LexEv} (h : LinesText file l evs) : (∀ t ∈ l, SimpleTop t) →
    ∀ {st : LexSt} {s : Str}, LexTo (fun _ => false) (knownNames D) tail st s evs st' →
    Behaves D b o fs n (m + l.length) st file s bufs (runFile (expandNode n) (hasUninit n) l >>= fun _ => K) := by
  have hset : ∀ {ev : LexEv} {t : Top} {l : List Top} {evs : List LexEv}, ev.setting = true →
      (∀ s, runTop (expandNode n) (hasUninit n) t s = (.ok true, settle [ev] s)) →
      ((∀ t ∈ l, SimpleTop t) → ∀ {st : LexSt} {s : Str}, LexTo (fun _ => false) (knownNames D) tail st s evs st' →
        Behaves D b o fs n (m + l.length) st file s bufs (runFile (expandNode n) (hasUninit n) l >>= fun _ => K)) →
      (∀ t' ∈ t :: l, SimpleTop t') → ∀ {st : LexSt} {s : Str}, LexTo (fun _ => false) (knownNames D) tail st s (ev :: evs) st' →
        Behaves D b o fs n (m + (t :: l).length) st file s bufs (runFile (expandNode n) (hasUninit n) (t :: l) >>= fun _ => K) := by
    intro ev t l evs hev ht ih hm st s hr g hg defined hag fr hfr pend hp S hS
    obtain ⟨st1, s1, h1, h3⟩ := read_src_setting (bufs := bufs) hev hr rfl
    obtain ⟨f', h4, h5⟩ := h3 defined hag file pend fr hfr
    simp only [List.length_cons] at hg
    rw [h5, ih (fun t ht => hm t (by simp [ht])) h1 g (by omega) defined hag f' h4 (pend ++ [ev])
      (fun e he => by rcases List.mem_append.1 he with he | he
                      · exact hp e he
                      · rw [List.mem_singleton.1 he]; exact hev) S hS, settle_append]
    rw [run_bind, run_bind]
    have : runFile (expandNode n) (hasUninit n) (t :: l) (settle pend S) =
        runFile (expandNode n) (hasUninit n) l (settle [ev] (settle pend S)) := by
      show (runTop _ _ t >>= _) _ = _
      rw [bind_ok (ht _)]
      rfl
    rw [this]
  induction h with
  | nil =>
    intro _ st s hr g hg defined hag fr hfr pend hp S hS
    obtain ⟨f', h1, h2⟩ := read_part (bufs := bufs) (file := file) hr (toks := []) (acc := []) rfl
      (by intro k top _; simp [parseTop, parseStmt, parseSimple]) defined hag pend fr hfr
    rw [h2]
    exact hK g hg defined hag f' h1 pend hp S hS
  | cpu c _ ih => exact hset rfl (fun _ => rfl) ih
  | illegal on _ ih => exact hset rfl (fun _ => rfl) ih
  | c64 _ ih => exact hset rfl (fun _ => rfl) ih
  | @top t l tt evs ht _ ih =>
    intro hm st s hr g hg defined hag fr hfr pend hp S hS
    have hne : tt ≠ [] := List.length_pos_iff.1 (top_nonempty ht)
    obtain ⟨st1, s1, h1, h3⟩ := read_src (bufs := bufs) ht hr (acc := []) (evs2 := evs) rfl rfl hne
    obtain ⟨f1, f2, f3, f4⟩ := simple_facts (hm t (by simp))
    have hS1 := hS.settle pend
    have hS2 := hS1.runTop (n := n) f2 f3
    rw [h3 defined hag pend fr hfr]
    show (forEachM runEvent pend >>= fun _ => runTop _ _ t >>= fun good => _) S = _
    rw [bind_ok (run_settings hp S), run_bind, run_bind]
    have e : runFile (expandNode n) (hasUninit n) (t :: l) (settle pend S) =
      (runTop (expandNode n) (hasUninit n) t >>= fun good => if good then runFile (expandNode n) (hasUninit n) l
        else error .syntaxError) (settle pend S) := rfl
    rw [e, run_bind]
    rcases hrt : runTop (expandNode n) (hasUninit n) t (settle pend S) with ⟨r, S1⟩
    rw [hrt] at hS2
    cases r with
    | ok good =>
      have hg1 := runTop_good f1 hS1.noMacro hrt
      subst hg1
      simp only [List.length_cons] at hg
      simp only [if_true, f4, getS_bind, Bool.false_eq_true, if_false, openAll]
      rw [(ih (fun t ht => hm t (by simp [ht])) h1).run (by omega) hS2, run_bind]
    | _ => rfl

/-- The line with `.inc`, and the end of the included file. -/
theorem behaves_inc {D : Str → Bool} {b o : Bool} {fs : List (Str × List Nat)} {n m : Nat} {file raw name nm s s2 text : Str}
    {bufs : List Buf} {C1 : Scan} {st st1 st2 : LexSt} {l : List Top} {K : M LexSt}
    (hr : LexTo (fun _ => false) (knownNames D) ('\n'.toNat :: s2) st s [.tok .inc, .tok (.str raw)] st1) (h1 : AtPlace C1 st1)
    (hn : FileName raw name) (hf : fs.find? (fun e => e.1 == name) = some (nm, text))
    (hK : Behaves D b o fs n m { st2 with last := none, line := C1.line + 1 } file s2 bufs K)
    (hI : ∀ {m' : Nat} {bufs : List Buf} {K : M LexSt}, Behaves D b o fs n m' st2 name [] bufs K →
      Behaves D b o fs n (m' + l.length) { st1 with last := some [10], line := 0 } name text bufs
        (runFile (expandNode n) (hasUninit n) l >>= fun _ => K)) :
    Behaves D b o fs n (m + l.length + 1) st file s bufs
      (runFile (expandNode n) (hasUninit n) (.stmt file (C1.line + 1) (.inc raw) :: l) >>= fun _ => K) := by
  have hT : TopText file (.stmt file (C1.line + 1) (.inc raw)) [.inc, .str raw, .eol (C1.line + 1)] :=
    .stmt (.line _ (.inc raw))
  intro g hg defined hag fr hfr pend hp S hS
  obtain ⟨f', h2, h3⟩ := read_part (bufs := bufs) (file := file) hr (toks := [.inc, .str raw]) (acc := []) rfl (by
    intro k top hk
    have : ∃ c, [Tok.inc, .str raw, .eol (C1.line + 1)] = [] ++ [Tok.inc, .str raw].take k ++ c ∧ c ≠ [] := by
      match k, hk with
      | 1, _ => exact ⟨_, rfl, by simp⟩
      | k + 2, _ => exact ⟨[.eol (C1.line + 1)], by simp, by simp⟩
    obtain ⟨c, e, hc⟩ := this
    rw [e] at hT
    exact top_prefix hT hc top) defined hag pend fr hfr
  have hstep : lexStep (fun _ => false) defined st1 (10 :: s2) =
      some ({ st1 with last := some [10], line := st1.line + 1 }, .tok (.eol (C1.line + 1)), s2) := by
    have hru : st1.cond.rules = initialRules := by rw [h1.cond]; rfl
    unfold lexStep
    simp only [hru, best_newline, lexAct, ← h1.line]
    rfl
  have hread : readSrc (fun _ => false) defined f' st1 file ('\n'.toNat :: s2) bufs ([] ++ [.inc, .str raw]) pend =
      .top pend (.stmt file (C1.line + 1) (.inc raw)) { st1 with last := some [10], line := st1.line + 1 } file s2 bufs := by
    obtain ⟨f', rfl⟩ : ∃ k, f' = k + 1 := ⟨f' - 1, by have := srcSize_pos ('\n'.toNat :: s2) bufs; omega⟩
    have hpt : parseTop file ([] ++ [.inc, .str raw] ++ [.eol (C1.line + 1)]) = some (.stmt file (C1.line + 1) (.inc raw), []) := by
      have := top_parse hT []
      rwa [List.append_nil] at this
    show readSrc _ _ (f' + 1) _ _ (10 :: s2) _ _ _ = _
    simp only [readSrc, hstep, hpt]
  have hS1 := hS.settle pend
  have hS2 := hS1.runTop (n := n) (t := .stmt file (C1.line + 1) (.inc raw)) rfl rfl
  rw [h3, hread]
  show (forEachM runEvent pend >>= fun _ => runTop _ _ (.stmt file (C1.line + 1) (.inc raw)) >>= fun good => _) S = _
  rw [bind_ok (run_settings hp S), run_bind, run_bind]
  have e : runFile (expandNode n) (hasUninit n) (.stmt file (C1.line + 1) (.inc raw) :: l) (settle pend S) =
    (runTop (expandNode n) (hasUninit n) (.stmt file (C1.line + 1) (.inc raw)) >>= fun good =>
      if good then runFile (expandNode n) (hasUninit n) l else error .syntaxError) (settle pend S) := rfl
  rw [e, run_bind]
  rcases hrt : runTop (expandNode n) (hasUninit n) (.stmt file (C1.line + 1) (.inc raw)) (settle pend S) with ⟨r, S1⟩
  rw [hrt] at hS2
  cases r with
  | ok good =>
    obtain ⟨rfl, e1⟩ := inc_run (fileName_value hn) hS1.going.1 hrt
    have e2 : S1.incs.drop S.incs.length = [name] := by
      rw [e1, incState_incs, (settle_frame pend S).2.2.2]
      simp
    have e3 : contents S1.files name = text := by
      rw [hS2.files]
      unfold contents
      rw [hf]; rfl
    simp only [if_true, Top.mayOpen, Stmt.mayOpen, getS_bind, e2, openAll, e3]
    refine (hI (m' := m) (bufs := ⟨file, st1.line + 1, s2⟩ :: bufs) (K := K) ?_).run (by omega) hS2 |>.trans ?_
    · intro g hg defined hag fr hfr pend hp S hS
      obtain ⟨fr, rfl⟩ : ∃ k, fr = k + 1 := ⟨fr - 1, by
        have := srcSize_pos [] (⟨file, st1.line + 1, s2⟩ :: bufs); omega⟩
      simp only [readSrc]
      rw [h1.line]
      exact hK g hg defined hag fr (by simp only [srcSize, List.length_nil] at hfr; omega) pend hp S hS
    · rw [run_bind]
  | _ => rfl

/-- A statement of a program in several files. -/
def SrcTop (t : Top) : Prop := SimpleTop t ∨ ∃ file line raw name, t = .stmt file line (.inc raw) ∧ FileName raw name

theorem SrcInv.top {D : Str → Bool} {b o : Bool} {fs : List (Str × List Nat)} {S : St} {n : Nat} {t : Top} (h : SrcInv D b o fs S)
    (ht : SrcTop t) : SrcInv D b o fs (Verif.runTop (expandNode n) (hasUninit n) t S).2 := by
  rcases ht with ht | ⟨_, _, _, _, rfl, _⟩
  · exact h.runTop (simple_facts ht).2.1 (simple_facts ht).2.2.1
  · exact h.runTop rfl rfl

theorem srcTop_good {D : Str → Bool} {b o : Bool} {fs : List (Str × List Nat)} {S S' : St} {n : Nat} {t : Top} {g : Bool}
    (h : SrcInv D b o fs S) (ht : SrcTop t) (hr : runTop (expandNode n) (hasUninit n) t S = (.ok g, S')) : g = true := by
  rcases ht with ht | ⟨_, _, _, _, rfl, hn⟩
  · exact runTop_good (simple_facts ht).1 h.noMacro hr
  · exact (inc_run (fileName_value hn) h.going.1 hr).1

theorem SrcInv.file {D : Str → Bool} {b o : Bool} {fs : List (Str × List Nat)} {n : Nat} : ∀ {l : List Top} {S : St},
    SrcInv D b o fs S → (∀ t ∈ l, SrcTop t) → SrcInv D b o fs (runFile (expandNode n) (hasUninit n) l S).2
  | [], S, h, _ => h
  | t :: l, S, h, ht => by
    have h1 := h.top (n := n) (ht t (by simp))
    show SrcInv D b o fs ((Verif.runTop (expandNode n) (hasUninit n) t >>= fun good => _) S).2
    rw [run_bind]
    rcases hr : Verif.runTop (expandNode n) (hasUninit n) t S with ⟨r, S1⟩
    rw [hr] at h1
    cases r with
    | ok g =>
      have := srcTop_good h (ht t (by simp)) hr
      subst this
      exact SrcInv.file h1 (fun t h => ht t (by simp [h]))
    | _ => exact h1

theorem runFile_append {D : Str → Bool} {b o : Bool} {fs : List (Str × List Nat)} {n : Nat} (c : List Top) (K : M LexSt) :
    ∀ {a : List Top} {S : St}, SrcInv D b o fs S → (∀ t ∈ a, SrcTop t) →
    (runFile (expandNode n) (hasUninit n) (a ++ c) >>= fun _ => K) S =
      (runFile (expandNode n) (hasUninit n) a >>= fun _ => (runFile (expandNode n) (hasUninit n) c >>= fun _ => K)) S
  | [], S, _, _ => rfl
  | t :: a, S, h, ht => by
    have h1 := h.top (n := n) (ht t (by simp))
    show ((runTop (expandNode n) (hasUninit n) t >>= fun good => if good then runFile _ _ (a ++ c) else error .syntaxError) >>= _) S =
      ((runTop (expandNode n) (hasUninit n) t >>= fun good => if good then runFile _ _ a else error .syntaxError) >>= _) S
    rw [bind_assoc', bind_assoc', run_bind, run_bind]
    rcases hr : Verif.runTop (expandNode n) (hasUninit n) t S with ⟨r, S1⟩
    rw [hr] at h1
    cases r with
    | ok g =>
      have := srcTop_good h (ht t (by simp)) hr
      subst this
      exact runFile_append c K h1 (fun t h => ht t (by simp [h]))
    | _ => rfl

theorem Behaves.congr {D : Str → Bool} {b o : Bool} {fs : List (Str × List Nat)} {n m : Nat} {st : LexSt} {file text : Str} {bufs : List Buf}
    {K K' : M LexSt} (h : Behaves D b o fs n m st file text bufs K) (he : ∀ S, SrcInv D b o fs S → K S = K' S) :
    Behaves D b o fs n m st file text bufs K' := by
  intro g hg defined hag fr hfr pend hp S hS
  rw [h g hg defined hag fr hfr pend hp S hS, he _ (hS.settle pend)]

theorem src_tops {D : Str → Bool} {fs : List (Str × List Nat)} {file : Str} {C : Scan} {fin : Scan → Prop}
    {l : List Top} {s : Str} (h : SrcText D fs file C fin l s) : ∀ t ∈ l, SrcTop t := by
  induction h with
  | last _ _ hs => exact fun t ht => .inl (hs t ht)
  | inc _ _ hs hn _ _ _ ih1 ih2 =>
    intro t ht
    rcases List.mem_append.1 ht with ht | ht
    · exact .inl (hs t ht)
    · rcases List.mem_cons.1 ht with rfl | ht
      · exact .inr ⟨_, _, _, _, rfl, hn⟩
      · rcases List.mem_append.1 ht with ht | ht
        · exact ih1 t ht
        · exact ih2 t ht

theorem behaves_src {D : Str → Bool} {b o : Bool} {fs : List (Str × List Nat)} {n : Nat} {file : Str} {C : Scan} {fin : Scan → Prop}
    {l : List Top} {s : Str} (h : SrcText D fs file C fin l s) : ∀ {st : LexSt}, AtPlace C st →
    ∃ C' st', AtPlace C' st' ∧ fin C' ∧ C'.levels = C.levels ∧
      ∀ {m : Nat} {bufs : List Buf} {K : M LexSt}, Behaves D b o fs n m st' file [] bufs K →
        Behaves D b o fs n (m + l.length) st file s bufs (runFile (expandNode n) (hasUninit n) l >>= fun _ => K) := by
  induction h with
  | last h hl hs =>
    intro st hst
    obtain ⟨st', h1, C', ⟨h2, h3⟩, h4⟩ := run_source_to h st hst
    rw [lines_bal hl] at h4
    exact ⟨C', st', h2, h3, h4.symm, fun hK => behaves_lines hK hl hs h1⟩
  | @inc file C C1 fin l l1 l2 s s2 evs raw name nm text h hl hs hn hf hi _ ih1 ih2 =>
    intro st hst
    obtain ⟨stA, h1, C', ⟨h2, rfl⟩, h4⟩ := run_source_to h st hst
    obtain ⟨stM, sM, g1, g2⟩ := h1.split rfl
    obtain ⟨CI, stI, i1, i2, i3, i4⟩ := ih1 (st := { stA with last := some [10], line := 0 })
      ⟨h2.cond, h2.dos, h2.macros, h2.ifs, rfl, [], rfl⟩
    obtain ⟨CE, stE, j1, j2, j3, j4⟩ := ih2 (st := { stI with last := none, line := C'.line + 1 }) (by
      have e1 : CI.dos = C'.dos := congrArg (·.1) i3
      have e2 : CI.macros = C'.macros := congrArg (·.2.1) i3
      have e3 : CI.ifs = C'.ifs := by
        have : CI.ifs + CI.conds.sum = C'.ifs + C'.conds.sum := congrArg (·.2.2) i3
        rw [i2] at this
        omega
      refine ⟨i1.cond, ?_, ?_, ?_, rfl, rfl⟩
      · rw [← e1]; exact i1.dos
      · rw [← e2]; exact i1.macros
      · have := i1.ifs
        rw [e3, i2] at this
        exact this)
    refine ⟨CE, stE, j1, j2, ?_, ?_⟩
    · rw [j3]
      rw [depth_append, lines_bal hl] at h4
      exact h4.symm
    · intro m bufs K hK
      have := behaves_lines (behaves_inc (l := l1) g2 h2 hn hf (j4 hK) i4) hl hs g1
      have el : m + l2.length + l1.length + 1 + l.length =
        m + (l ++ .stmt file (C'.line + 1) (.inc raw) :: (l1 ++ l2)).length := by simp; omega
      rw [el] at this
      refine this.congr fun S hS => ?_
      rw [runFile_append _ _ hS (fun t ht => .inl (hs t ht)), run_bind, run_bind]
      have hS' := hS.file (n := n) (l := l) (fun t ht => .inl (hs t ht))
      rcases hr : runFile (expandNode n) (hasUninit n) l S with ⟨r, S1⟩
      rw [hr] at hS'
      cases r with
      | ok =>
        refine (runFile_append (a := .stmt file (C'.line + 1) (.inc raw) :: l1) l2 K hS' fun t ht => ?_).symm
        rcases List.mem_cons.1 ht with rfl | ht
        · exact .inr ⟨_, _, _, _, rfl, hn⟩
        · exact src_tops hi t ht
      | _ => rfl

theorem behaves_eof {D : Str → Bool} {b o : Bool} {fs : List (Str × List Nat)} {n : Nat} (file : Str) (st : LexSt) :
    Behaves D b o fs n 0 st file [] [] (M.pure (atEof st)) := by
  intro g _ defined _ fr hfr pend hp S _
  obtain ⟨fr, rfl⟩ : ∃ k, fr = k + 1 := ⟨fr - 1, by have := srcSize_pos [] []; omega⟩
  show (forEachM runEvent pend >>= fun _ => M.pure (atEof st)) S = _
  rw [bind_ok (run_settings hp S)]

theorem src_file {D : Str → Bool} {b o : Bool} {fs : List (Str × List Nat)} {f n : Nat} {file : Str} {l : List Top} {s : Str}
    (h : SrcText D fs file ⟨.fileStart, 0, 0, 0, 0, []⟩ (fun C => C.conds = []) l s) (hn : l.length < n)
    {lx : LexSt} (hlx : AtPlace ⟨.fileStart, 0, 0, 0, 0, []⟩ lx) :
    ∃ lx', AtPlace ⟨.fileStart, 0, 0, 0, 0, []⟩ { lx' with line := 0 } ∧ ∀ S : St, SrcInv D b o fs S →
      runSrc (expandNode f) (hasUninit f) n lx file s [] S =
        (runFile (expandNode f) (hasUninit f) l >>= fun _ => M.pure lx') S := by
  obtain ⟨C', st', h1, h2, h3, h4⟩ := behaves_src (b := b) (o := o) (n := f) h hlx
  refine ⟨atEof st', ?_, fun S hS => (h4 (behaves_eof file st')).run (by omega) hS⟩
  have e1 : C'.dos = 0 := congrArg (·.1) h3
  have e2 : C'.macros = 0 := congrArg (·.2.1) h3
  have e3 : C'.ifs = 0 := by
    have : C'.ifs + C'.conds.sum = 0 := congrArg (·.2.2) h3
    omega
  have d := h1.dos
  have m := h1.macros
  have i := h1.ifs
  rw [e1] at d
  rw [e2] at m
  rw [e3, h2] at i
  exact ⟨h1.cond, d, m, i, rfl, rfl⟩

theorem src_files {D : Str → Bool} {b o : Bool} {fs : List (Str × List Nat)} {f n : Nat} : ∀ {files : List (Str × Str)} {prog : Program},
    SourcesText D fs files prog → (∀ l ∈ prog, l.length < n) →
    ∀ {lx : LexSt}, AtPlace ⟨.fileStart, 0, 0, 0, 0, []⟩ { lx with line := 0 } →
    ∃ lx', AtPlace ⟨.fileStart, 0, 0, 0, 0, []⟩ { lx' with line := 0 } ∧ ∀ S : St, SrcInv D b o fs S →
      runSrcs f n files lx S = (forEachM (runFile (expandNode f) (hasUninit f)) prog >>= fun _ => M.pure lx') S ∧
      SrcInv D b o fs (forEachM (runFile (expandNode f) (hasUninit f)) prog S).2
  | [], [], _, _, lx, hlx => ⟨lx, hlx, fun _ h => ⟨rfl, h⟩⟩
  | (file, text) :: files, l :: prog, .cons h hs, hn, lx, hlx => by
    obtain ⟨lx1, h1, h2⟩ := src_file (b := b) (o := o) (f := f) h (hn l (by simp)) hlx
    obtain ⟨lx2, h3, h4⟩ := src_files (b := b) (o := o) (f := f) hs (fun l hl => hn l (by simp [hl])) h1
    refine ⟨lx2, h3, ?_⟩
    intro S hS
    have e1 : runSrcs f n ((file, text) :: files) lx S =
      (runSrc (expandNode f) (hasUninit f) n { lx with line := 0 } file text [] >>= fun lx' => runSrcs f n files lx') S := rfl
    have e2 : forEachM (runFile (expandNode f) (hasUninit f)) (l :: prog) = (runFile (expandNode f) (hasUninit f) l >>= fun _ =>
        forEachM (runFile (expandNode f) (hasUninit f)) prog) := rfl
    have hS' := hS.file (n := f) (src_tops h)
    rw [e1, e2, run_bind, h2 S hS, bind_assoc', run_bind, run_bind, run_bind]
    rcases hrt : runFile (expandNode f) (hasUninit f) l S with ⟨r, S1⟩
    rw [hrt] at hS'
    cases r with
    | ok a => exact h4 S1 hS'
    | _ => exact ⟨rfl, hS'⟩

theorem src_pass {D : Str → Bool} {fs : List (Str × List Nat)} {f n : Nat} {files : List (Str × Str)} {prog : Program}
    (h : SourcesText D fs files prog) (hn : ∀ l ∈ prog, l.length < n) {lx : LexSt} (hlx : LexClean lx) (b o : Bool) :
    ∃ lx', LexClean lx' ∧ ∀ S : St, NoMacro S → Given D S → Cond noMacroT b o S → S.files = fs →
      (∀ n ∈ S.nodes, n.kind ≠ .opr .endProg) →
      parsePassSrc f n files lx S = (parsePass f prog >>= fun _ => M.pure lx') S ∧
      SrcInv D b o fs (parsePass f prog S).2 := by
  obtain ⟨lx', h1, h2⟩ := src_files (b := b) (o := o) (f := f) h hn (lx := { lx with ifStack := [], inMacro := 0 })
    ⟨hlx.cond, hlx.doCount, rfl, rfl, rfl, hlx.last⟩
  refine ⟨lx', ⟨h1.cond, h1.dos, h1.place⟩, ?_⟩
  intro S hN hD hC hF hE
  obtain ⟨h3, h4⟩ := h2 (resetSt S) ⟨hN, hD, ⟨hC.finalPass, hC.outputOpen, hC.totalBytes, fun h => absurd h (by decide)⟩, hF, rfl, hE⟩
  have e1 : parsePassSrc f n files lx S = (resetLex >>= fun _ => runSrcs f n files { lx with ifStack := [], inMacro := 0 } >>= fun lx' =>
    modS (fun s => { s with nodeBase := s.nodes.length, currentScope := none }) >>= fun _ => M.pure lx') S := rfl
  have e2 : parsePass f prog = (resetLex >>= fun _ => forEachM (runFile (expandNode f) (hasUninit f)) prog >>= fun _ =>
    modS (fun s => { s with nodeBase := s.nodes.length, currentScope := none })) := rfl
  rw [e1, e2, bind_ok (resetLex_run S), bind_assoc', bind_ok (resetLex_run S), bind_ok (resetLex_run S), run_bind,
    h3, bind_assoc', run_bind, run_bind, run_bind]
  rcases hr : forEachM (runFile (expandNode f) (hasUninit f)) prog (resetSt S) with ⟨r, S1⟩
  rw [hr] at h4
  cases r with
  | ok a => exact ⟨rfl, h4.noMacro, h4.given, ⟨h4.cond.finalPass, h4.cond.outputOpen, h4.cond.totalBytes, fun h => absurd h (by decide)⟩, h4.files, h4.going⟩
  | _ => exact ⟨rfl, h4⟩

/-- What holds between passes. -/
def SrcBetween (D : Str → Bool) (fs : List (Str × List Nat)) (s : St × LexSt) : Prop :=
  TextInv D s ∧ s.1.files = fs ∧ ∀ n ∈ s.1.nodes, n.kind ≠ .opr .endProg

theorem src_agree {D : Str → Bool} {fs : List (Str × List Nat)} {f n : Nat} {files : List (Str × Str)} {prog : Program}
    (h : SourcesText D fs files prog) (hn : ∀ l ∈ prog, l.length < n) (output : Bool) :
    Agree (passSemSrc f n files output) (passSem f prog output) (·.1) (SrcBetween D fs) := by
  have key : ∀ fin (s : St × LexSt), SrcBetween D fs s →
      ((passSemSrc f n files output).parse fin s).map (·.1) = (passSem f prog output).parse fin s.1 ∧
      ∀ s', (passSemSrc f n files output).parse fin s = some s' → SrcBetween D fs s' := by
    rintro fin ⟨S, lx⟩ ⟨⟨hN, hD, hb, hlx⟩, hF, hE⟩
    obtain ⟨lx', h1, h2⟩ := src_pass (f := f) h hn hlx fin (fin && output)
    have hN' : NoMacro { S with finalPass := fin, outputOpen := fin && output } := hN
    obtain ⟨e, h3⟩ := h2 { S with finalPass := fin, outputOpen := fin && output } hN' hD ⟨rfl, rfl, fun _ => hb, fun h => absurd h (by decide)⟩ hF hE
    have hu : prog.uses (fun _ => true) = true := Program.uses_all prog
    have hb1 : 0 ≤ (runPass f prog output fin S).2.totalBytes := by
      obtain ⟨t, hT, ht⟩ := runPass_tsteps (T := fun _ => true) f prog hu output fin S (fun _ => hb)
      have hb1 : 0 ≤ t.totalBytes :=
        Int.le_trans (show 0 ≤ (resetSt { S with finalPass := fin, outputOpen := fin && output }).totalBytes from hb)
          (hT.rel (R := fun s t => s.totalBytes ≤ t.totalBytes) (fun _ => Int.le_refl _) (fun _ _ _ => Int.le_trans)
            (fun _ _ h => h.frame.totalBytes) (fun _ _ => Int.le_refl _) (fun _ _ => Int.le_refl _) (fun _ => Int.le_refl _))
      rcases ht with ht | ht
      · rw [ht]; exact hb1
      · rw [ht]; exact hb1
    unfold runPass at hb1
    rw [run_bind] at e
    simp only [passSemSrc, passSem, runPass, e]
    rcases hr : parsePass f prog { S with finalPass := fin, outputOpen := fin && output } with ⟨r, S1⟩
    rw [hr] at h3 hb1
    cases r with
    | ok a => exact ⟨rfl, fun s' hs => by cases hs; exact ⟨⟨h3.noMacro, h3.given, hb1, h1⟩, h3.files, h3.going.2⟩⟩
    | _ => exact ⟨rfl, fun s' hs => by cases hs⟩
  exact ⟨fun fin s hI => (key fin s hI).1, fun s s' hI => (key false s hI).2 s', fun _ => rfl, fun _ => rfl, fun _ => rfl⟩

end Verif
