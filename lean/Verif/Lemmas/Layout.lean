import Verif.Lemmas.Line
import Verif.Lemmas.Anon
import Verif.Lemmas.LongBranch
import Verif.Spec.Layout

/-! # Running flat programs -/

namespace Verif

/-- The context of a state. -/
def ctxOf (s : St) : Spec.Context where
  cpu := s.cpu
  raw := decide (s.format = .bin)
  files := s.files
  isMacro := isMacroWord s
  text := textOf
  env := fun ll => envOf { s with lastLabel := ll }

theorem global_eq (name : Str) : Spec.global name = globalName name := by
  unfold globalName
  cases name with
  | nil => rfl
  | cons c cs =>
    by_cases h : c = 46
    · subst h
      rfl
    · have e1 : dropDot (c :: cs) = c :: cs := by
        unfold dropDot
        split
        · rename_i heq; exact absurd (List.cons.inj heq).1 h
        · rfl
      rw [e1]
      unfold Spec.global
      split
      · rename_i heq; exact absurd (List.cons.inj heq).1 h
      · rfl

theorem all_global (l : List Str) : l.all Spec.global = l.all globalName := by
  congr 1
  funext n
  exact global_eq n

theorem noLocals_globals {C : Spec.Context} {env : Str → Option Int} {pc : Int} {fresh : Bool} {bs : List Nat} {st : Stmt}
    (h : Spec.Emits C env pc fresh bs st) (hn : Spec.noLocals st = true) : st.globals = true := by
  cases st with
  | op ins m e =>
    cases e with
    | none => rfl
    | some e => simpa [Spec.noLocals, Stmt.globals, all_global] using hn
  | data size hd tl => simpa [Spec.noLocals, Stmt.globals, all_global] using hn
  | fill v n => simpa [Spec.noLocals, Stmt.globals, all_global] using hn
  | assign name e => simpa [Spec.noLocals, Stmt.globals, all_global, global_eq] using hn
  | empty => rfl
  | load raw => rfl
  | _ => exact False.elim h

/-- The processor's one-byte instructions are in the table. -/
theorem oneByte_get {cpu : Cpu} {ill : Bool} {ins : Int} {am : Spec.AMode} {bs : List Nat}
    (h : Spec.OneByte cpu ins am bs) (ham : am = .implied ∨ am = .accumulator) :
    ∃ m, m.spec = some am ∧ getOpCode cpu ill ins .r = -1 ∧ 0 ≤ getOpCode cpu ill ins m ∧
      bs = toBytes [getOpCode cpu ill ins m] := by
  obtain ⟨h0, h1, h2, b, hb, hdec, rfl⟩ := h
  obtain ⟨m, hm, hg⟩ : ∃ m : Mode, m.spec = some am ∧ getOpCode cpu ill ins m = (b : Int) := by
    cases cpu with
    | c6502 =>
      obtain ⟨ins', m, e1, e2, e3⟩ := C49_encoding_complete_6502 b hb _ am hdec
      unfold Spec.mnemonic at e1
      rw [instrOfName_names ins h0 h1] at e1
      cases e1
      exact ⟨m, e2, by rw [getOpCode_eq_of_lt h1 m ill false, e3]⟩
    | c65C02 =>
      exact complete_65C02 ill ins h0 h1 b am hb (by rcases ham with rfl | rfl <;> decide)
        (by rcases ham with rfl | rfl <;> decide) hdec
  refine ⟨m, hm, ?_, by omega, ?_⟩
  · apply Classical.byContradiction
    intro hr
    have := branch_only cpu ill ins h0 h1 h2 hr m (by rcases ham with rfl | rfl <;> (rintro rfl; cases hm))
    omega
  · rw [hg]
    show [b] = [((b : Int) % 256).toNat]
    congr 1
    omega

theorem shortest_encode {cpu : Cpu} {ill : Bool} {ins : Int} {form : Spec.Form} {pc v : Int} {bs : List Nat}
    (h : Spec.Shortest cpu ins form pc v bs) :
    ∃ m c, encode (getOpCode cpu ill ins) (Form.mode form) pc v = some (m, c) ∧ toBytes (instrBytes m c pc v) = bs := by
  obtain ⟨h0, h1, h2, h3, h4, h5, h6, h7, h8⟩ := h
  have hF : Faithful (Spec.decodeOf cpu) (getOpCode cpu ill ins) (Spec.mnemonic ins) form := by
    cases cpu with
    | c6502 => exact faithful_6502 ill ins h0 h1 form
    | c65C02 => exact faithful_65C02 ill ins h0 h1 h2 form (h3 rfl)
  refine encode_unique hF (fun hr => branch_only cpu ill ins h0 h1 h2 hr) h4 (by omega) h6 h7 ?_
  intro hr
  obtain ⟨hby, op, rest, am, rfl, hdec, ham, hden⟩ := h6
  obtain ⟨m, hm, hg⟩ := hF.complete op am (hby op (List.mem_cons_self ..)) ham hdec
  have hmr : m = .r := by
    apply Classical.byContradiction
    intro h
    have := branch_only cpu ill ins h0 h1 h2 hr m h
    omega
  subst hmr
  cases hm
  exact h8 op (hby op (List.mem_cons_self ..)) hdec

/-- The state can take the next line of a flat program. -/
structure Flat (s : St) (fresh : Bool) : Prop where
  running : s.endExpansion = false
  heap : s.nodeBase ≤ s.nodes.length
  origin : s.originSpecified = true
  count : 0 ≤ s.totalBytes
  image : emitting s = true →
    s.pc = s.origin + if s.totalBytes = 0 then 0 else s.totalBytes - (headerBytes s.format s.origin).length
  started : emitting s = true → fresh = false → 0 < s.totalBytes

theorem Flat.room {s : St} {fresh : Bool} (h : Flat s fresh) : Room s := by
  intro he
  have := h.image he
  unfold outHdr
  split <;> simp_all <;> omega

theorem Laid.flat {s s' : St} {ll : Option Str} {bs : List Nat} {fresh : Bool} (h : Flat s fresh) (hl : Laid s s' ll bs) :
    Flat s' (fresh && bs.isEmpty) ∧ ctxOf s' = ctxOf s ∧ s'.lastLabel = ll ∧ s'.pc = s.pc + bs.length := by
  obtain ⟨ns, cg, ds, bd, et, fl, ln, hd, ls, w, ic, g1, g2, rfl⟩ := hl
  have hc := h.count
  refine ⟨⟨h.running, Nat.le_trans h.heap g1.1, h.origin, ?_, ?_, ?_⟩, rfl, rfl, rfl⟩
  · simp only
    split <;> omega
  · intro he
    have he' : emitting s = true := he
    have hi := h.image he'
    simp only [he', if_true]
    rcases g2 with rfl | ⟨rfl, rfl⟩
    · unfold outHdr
      by_cases hz : s.totalBytes = 0
      · rw [if_pos hz] at hi ⊢
        rw [hz]
        simp only [Int.zero_add]
        split
        · omega
        · simp only [Int.natCast_add]; omega
      · rw [if_neg hz] at hi ⊢
        simp only [List.length_nil, Nat.zero_add]
        rw [if_neg (by omega)]
        omega
    · simpa using hi
  · intro he hf
    have he' : emitting s = true := he
    have hs := h.started he'
    simp only [he', if_true]
    cases fresh with
    | false => have := hs rfl; omega
    | true =>
      cases bs with
      | nil => simp at hf
      | cons b bs => simp only [List.length_cons]; omega

/-- Fuel sufficient for a statement. -/
def Stmt.fuel : Stmt → Nat
  | .op _ _ (some e) => e.depth + 2
  | .data _ hd tl => ((hd :: tl).map Item.depth).sum + (hd :: tl).length + 1
  | .fill v n => v.depth + n.depth + 3
  | .assign _ e => e.depth + 1
  | _ => 4

theorem mem_le_sum {x : Nat} : ∀ {l : List Nat}, x ∈ l → x ≤ l.sum
  | y :: ys, h => by
    simp only [List.sum_cons]
    rcases List.mem_cons.1 h with rfl | h
    · omega
    · have := mem_le_sum h
      omega

theorem emits_built {f : Nat} {s : St} {st : Stmt} {bs : List Nat} {fresh : Bool} (hs : Flat s fresh)
    (hf : st.fuel + bs.length + 4 ≤ f) (h : Spec.Emits (ctxOf s) (envOf s) s.pc fresh bs st) :
    Built f s st bs (fun _ => True) := by
  cases st with
  | empty =>
    cases (show bs = [] from h)
    exact (built_empty f hs.running hs.heap).mono fun _ _ _ => trivial
  | op ins mode e =>
    cases e with
    | none =>
      obtain ⟨hmode, h'⟩ := (show mode = .i ∧ Spec.OneByte s.cpu ins .implied bs from h)
      subst hmode
      obtain ⟨m, hm, hr, hg, rfl⟩ := oneByte_get (ill := s.allowIllegal) h' (Or.inl rfl)
      have : m = .i := by cases m <;> cases hm; rfl
      subst this
      exact (built_implied f hs.running hs.heap hr hg hs.room hs.origin).mono fun _ _ _ => trivial
    | some e =>
      rcases h with ⟨rfl, he, h⟩ | ⟨form, v, rfl, hv, hc, h⟩
      · obtain ⟨m, hm, hr, hg, rfl⟩ := oneByte_get (ill := s.allowIllegal) h (Or.inr rfl)
        have : m = .A := by cases m <;> cases hm; rfl
        subst this
        rcases he with rfl | rfl
        · exact (built_acc (by omega) (Or.inl rfl) hs.running hs.heap hr hg hs.room hs.origin).mono fun _ _ _ => trivial
        · exact (built_acc (by omega) (Or.inr rfl) hs.running hs.heap hr hg hs.room hs.origin).mono fun _ _ _ => trivial
      · obtain ⟨m, c, hen, rfl⟩ := shortest_encode (ill := s.allowIllegal) h
        have : e.depth + 1 < f := by simp only [Stmt.fuel] at hf; omega
        exact (built_op this hs.running hs.heap hv hc hen hs.room hs.origin).mono fun _ _ _ => trivial
  | data size hd tl =>
    obtain ⟨hsz, h⟩ := (show _ ∧ Spec.items textOf (envOf s) size s.pc (hd :: tl) = some bs from h)
    refine (built_data hsz ?_ hs.running hs.heap hs.count h hs.origin hs.room).mono fun _ _ _ => trivial
    intro x hx
    have := mem_le_sum (List.mem_map_of_mem (f := Item.depth) hx)
    simp only [Stmt.fuel] at hf
    omega
  | fill ve ne =>
    obtain ⟨v, n, hv, hn, hv1, hn1, hfr, rfl⟩ := h
    simp only [Stmt.fuel, List.length_replicate] at hf
    have := built_fill (f := f) (s := s) (ve := ve) (ne := ne) (v := v) (n := n) (by omega) (by omega) (by omega) (by omega)
      hs.running hs.heap hs.count hv hn (by omega) (fun _ => hn1) hs.origin hs.room (by
        intro he
        cases fresh with
        | true => exact Or.inl (by simpa [ctxOf] using hfr rfl)
        | false => exact Or.inr (hs.started he rfl))
    refine Built.mono (by simpa using this) fun _ _ _ => trivial
  | load raw =>
    obtain ⟨name, nm, bytes, h1, h2, rfl⟩ := h
    exact (built_load (by simp only [Stmt.fuel] at hf; omega) hs.running hs.heap hs.count h1 h2 hs.origin hs.room).mono
      fun _ _ _ => trivial
  | assign name e =>
    obtain ⟨v, h1, h2, rfl⟩ := h
    exact (built_assign (by simp only [Stmt.fuel] at hf; omega) hs.running hs.heap h1 h2).mono fun _ _ _ => trivial
  | _ => exact False.elim h

theorem placed_globals {C : Spec.Context} {env : Str → Option Int} {pc : Int} {fresh : Bool} {bs : List Nat} {st : Stmt}
    (h : Spec.Placed C env pc fresh bs st) (hn : Spec.noLocals st = true) : st.globals = true := by
  rcases h with h | h | h
  · exact noLocals_globals h hn
  · unfold Spec.Far at h
    split at h
    · simpa [Spec.noLocals, Stmt.globals, all_global] using hn
    · exact h.elim
  · unfold Spec.Opens at h
    split at h
    · rfl
    · exact h.elim

/-- The branch the assembler puts in the place of one that is too far away. -/
theorem opposite_code {cpu : Cpu} (ill : Bool) {ins : Int} {op : Nat} {name : String} (h0 : 0 ≤ ins) (h1 : ins < Ins._slo)
    (h : Spec.opposite (Spec.mnemonic ins) = some name) (hop : op < 256) (hd : Spec.decodeOf cpu op = some (name, .relative)) :
    getOpCode cpu ill ins .r ≠ -1 ∧ getOpCode cpu ill (invertBranch ins) .r = op := by
  have six : ∀ n : Fin Ins._slo.toNat, (Spec.opposite (Spec.mnemonic ((n.val : Nat) : Int))).isSome = true →
      ((n.val : Nat) : Int) ∈ [Ins._bcc, Ins._bcs, Ins._beq, Ins._bne, Ins._bmi, Ins._bpl] := by decide +kernel
  have hm := six ⟨ins.toNat, by omega⟩
  rw [show (((⟨ins.toNat, by omega⟩ : Fin Ins._slo.toNat).val : Nat) : Int) = ins from by show (ins.toNat : Int) = ins; omega] at hm
  have hm := hm (by rw [h]; rfl)
  have tab : ∀ i ∈ [Ins._bcc, Ins._bcs, Ins._beq, Ins._bne, Ins._bmi, Ins._bpl], getOpCode cpu ill i .r ≠ -1 ∧
      ∀ b : Fin 256, (Spec.decodeOf cpu b.val).any (fun x => some x.1 == Spec.opposite (Spec.mnemonic i) && x.2 == .relative) = true →
        getOpCode cpu ill (invertBranch i) .r = ((b.val : Nat) : Int) := by
    cases cpu <;> cases ill <;> decide +kernel
  obtain ⟨t1, t2⟩ := tab ins hm
  exact ⟨t1, t2 ⟨op, hop⟩ (by
    show (Spec.decodeOf cpu op).any _ = true
    rw [hd, h]
    simp)⟩

theorem Laid.far {s s' : St} {bs : List Nat} {ls : List ListEntry} (h : Asm s s' bs.length bs ls) :
    Laid s (warned s') s.lastLabel bs := by
  obtain ⟨ns, cg, ds, bd, et, g, rfl⟩ := h
  refine ⟨ns, cg, ds, bd, et, s.file, s.line, outHdr s, ls, if s.finalPass then 1 else 0, s.incs, g.weak true, Or.inl rfl, ?_⟩
  unfold warned
  by_cases hf : s.finalPass = true
  · simp [hf]
  · have hf : s.finalPass = false := by simpa using hf
    simp [hf]

theorem placed_word {C : Spec.Context} {env : Str → Option Int} {pc : Int} {fresh : Bool} {bs : List Nat} {b : Bool} {n : Str}
    {a : Option (Item × List Item)} (h : Spec.Placed C env pc fresh bs (.word b n a)) : False := by
  rcases h with h | h | h <;> exact h

theorem built_far {f : Nat} {s : St} {st : Stmt} {bs : List Nat} {fresh : Bool} (hs : Flat s fresh)
    (hf : st.fuel + bs.length + 4 ≤ f) (h : Spec.Far (ctxOf s) (envOf s) s.pc bs st) : BuiltL f s st bs (fun ls =>
      ∃ ins e v, st = .op ins (Form.mode .dir) (some e) ∧ getOpCode s.cpu s.allowIllegal ins .r ≠ -1 ∧ 0 ≤ v ∧ v ≤ 65535 ∧
        bs = longBytes (getOpCode s.cpu s.allowIllegal (invertBranch ins) .r) s.pc v ∧
        ls = longList s (invertBranch ins) (getOpCode s.cpu s.allowIllegal (invertBranch ins) .r) v) := by
  unfold Spec.Far at h
  split at h
  rotate_left
  · exact h.elim
  rename_i ins mode e
  obtain ⟨rfl, h0, h1, p0, p1, v, op, name, hv, hv2, hc, v0, v1, hfar, hop, hop1, hdec, rfl⟩ := h
  obtain ⟨hr, hcode⟩ := opposite_code (cpu := s.cpu) s.allowIllegal h0 h1 hop hop1 hdec
  have hd : e.depth + 1 < f := by simp only [Stmt.fuel] at hf; omega
  have hra := getOpCode_range s.cpu s.allowIllegal ins .r
  have hnm : nodeMode (getOpCode s.cpu s.allowIllegal ins) (Form.mode .dir) v = (.r, getOpCode s.cpu s.allowIllegal ins .r) := by
    unfold nodeMode chooseMode srcMode
    rw [if_pos hr]
    simp [zpForm]
  obtain ⟨ns, p, q, g1, g2, g3, g4, g5, g6⟩ := buildOp_run (s := s) (ins := ins) (mode0 := Form.mode .dir) (f := f + 1)
    (by omega) hs.running hs.heap hv hc (by rw [hnm]; omega) false
  rw [hnm] at g4
  refine ⟨ns, p, g1, g2.mono.weak true, ?_⟩
  intro l ll hll
  let t : St := { s with nodes := ns ++ l, lastLabel := ll }
  obtain ⟨hlk, hev⟩ := names_look (s := s) (e := e) (ns ++ l) hll
  have hl : Live t p _ := ⟨Nat.le_trans hs.heap g3, by
    show (ns ++ l)[p]? = _
    rw [List.getElem?_append_left (by
      rcases Nat.lt_or_ge p ns.length with h' | h'
      · exact h'
      · rw [List.getElem?_eq_none h'] at g4; cases g4)]
    exact g4⟩
  have hs2 : HeapSim false (look s) ns (ns ++ l) := HeapSim.append _ _ _ _
  let H := (ns ++ l).take s.nodes.length
  have hlen : s.nodes.length ≤ ns.length := g2.1
  have hH : H.length = s.nodes.length := by simp only [H, List.length_take, List.length_append]; omega
  have hsim : HeapSim true (look t) H t.nodes := by
    have := HeapSim.append true (look t) H ((ns ++ l).drop s.nodes.length)
    rwa [List.take_append_drop] at this
  have hw : WSim true (look s) s.nodes H := by
    refine ⟨by omega, fun x n hx hg => ?_⟩
    have hlt : x < s.nodes.length := (List.getElem?_eq_some_iff.1 hx).1
    obtain ⟨n', a, b⟩ := (g2.mono.weak true).2 x n hx hg
    refine ⟨n', ?_, b⟩
    show ((ns ++ l).take s.nodes.length)[x]? = _
    rw [List.getElem?_take_of_lt hlt, List.getElem?_append_left (by omega)]
    exact a
  have ht : orig t = t := orig_id hs.origin
  have hop : op ≤ 255 := by omega
  obtain ⟨s', r, a⟩ := expandOp_long (f := f) (s := t) (H := H) (v := v) (v2 := v) hs.running hsim (by rw [hH]; exact g3) hl
    (by show s.nodeBase ≤ (ns ++ l).length; have := hs.heap; simp only [List.length_append]; omega) hd
    ((g5.sim hs2).congr hlk) ((g6.sim hs2).congr hlk)
    (by rw [← eval_congr (env := envOf s) (env' := envOf t) hev]; exact hv)
    (by rw [← complete_congr (env := envOf s) (env' := envOf t) hev]; exact hc)
    (by rw [← eval_congr (env := envOf s) (env' := envOf t) hev]; exact hv2)
    (fun hz => by omega)
    (by unfold InInt; show _ ≤ (v : Int) - (s.pc + 2) ∧ (v : Int) - (s.pc + 2) < _; omega)
    (by simp only [branchBad, Bool.or_eq_true, decide_eq_true_eq]; show (v : Int) - (s.pc + 2) > 128 ∨ (v : Int) - (s.pc + 2) < -127; omega)
    (by show getOpCode s.cpu s.allowIllegal _ _ ≠ -1; omega)
    (by unfold InInt; show _ ≤ s.pc + 5 ∧ s.pc + 5 < _; omega) hs.count (by rw [ht]; exact hs.room)
  refine ⟨0, warned s', (expandNode_run (s := t) hs.running hl).trans r, ?_⟩
  rw [ht] at a
  have hb : longBytes (getOpCode t.cpu t.allowIllegal (invertBranch ins) .r) t.pc v = [op, 3, 0x4C, v % 256, v / 256] := by
    show longBytes (getOpCode s.cpu s.allowIllegal (invertBranch ins) .r) s.pc v = _
    rw [hcode, longBytes_eq (by omega) (by omega), show ((op : Int)).toNat = op from rfl,
      show ((v : Int) % 256).toNat = v % 256 by omega, show ((v : Int) / 256 % 256).toNat = v / 256 by omega]
  rw [hb] at a
  refine ⟨Laid.pre (s := { s with lastLabel := ll }) s.file s.line ll (ns := H)
    (hw.congr fun n hn => (look_label (s := s) ll s.nodes (hn rfl)).symm) (Laid.far (bs := [op, 3, 0x4C, v % 256, v / 256]) a), ?_⟩
  intro hfp
  obtain ⟨ls, k1, rfl⟩ := a.rowed hfp
  refine ⟨_, ?_, ins, e, v, rfl, hr, by omega, by omega, hb.symm, rfl⟩
  rw [show (warned s').listing = s'.listing from by unfold warned; split <;> rfl]
  exact k1

theorem Laid.both {s s' : St} {ll0 ll : Option Str} {bs : List Nat} (h : Laid { s with lastLabel := ll0 } s' ll bs) :
    Laid { s with lastLabel := ll0 } s' ll bs ∧ Rowed (fun _ => True) s s' := ⟨h, h.rowed⟩

/-- `.inc` -/
theorem built_inc {f : Nat} {s : St} {st : Stmt} {bs : List Nat} {fresh : Bool} (hs : Flat s fresh)
    (hf : st.fuel + bs.length + 4 ≤ f) (h : Spec.Opens (ctxOf s) bs st) : BuiltL f s st bs (fun ls => ∀ e ∈ ls, e.output = []) := by
  unfold Spec.Opens at h
  split at h
  rotate_left
  · exact h.elim
  rename_i raw
  obtain ⟨rfl, name, hraw, hfile⟩ := h
  have hfile : (s.files.find? (fun e => e.1 == name)).isSome = true := by
    rw [List.find?_isSome]
    obtain ⟨x, hx, rfl⟩ := List.mem_map.1 hfile
    exact ⟨x, hx, by simp⟩
  let S : Node := ⟨.str name, 0, []⟩
  let N : Node := ⟨.opr .inc, 1, [s.nodes.length]⟩
  let s1 : St := { s with nodes := s.nodes ++ [S] }
  refine ⟨s.nodes ++ [S] ++ [N], s.nodes.length + 1, ?_, (WSim.append _ _ _ _).trans (WSim.append _ _ _ _), ?_⟩
  · refine built_run ?_
    show (stringNode raw >>= fun p => operatorNode .inc [p]) s = _
    rw [bind_ok (stringNode_run s hraw)]
    refine (alloc_run _ _ s1).trans ?_
    have : s1.nodes.length = s.nodes.length + 1 := by
      show (s.nodes ++ [S]).length = _
      simp
    rw [this]
    rfl
  · intro l ll _
    let s2 : St := { s with nodes := s.nodes ++ [S] ++ [N] ++ l, lastLabel := ll }
    have hl : Live s2 (s.nodes.length + 1) N :=
      ⟨Nat.le_trans hs.heap (Nat.le_add_right _ _), by show (s.nodes ++ [S] ++ [N] ++ l)[_]? = _; simp⟩
    have hS : Live s2 s.nodes.length S := ⟨hs.heap, by show (s.nodes ++ [S] ++ [N] ++ l)[_]? = _; simp⟩
    have hw : WSim true (look { s with lastLabel := ll }) s.nodes s2.nodes :=
      ((WSim.append _ _ _ _).trans (WSim.append _ _ _ _)).trans (WSim.append _ _ _ _)
    by_cases hfp : s.finalPass = true
    · refine ⟨1, { s2 with
        file := name
        line := 0
        incs := s.incs ++ [name]
        listing := s.listing ++ [listRow s2 [], listRow { s2 with file := name, line := 0 } []] }, ?_, ?_⟩
      · rw [expandNode_run (s := s2) hs.running hl]
        show expandInclude N s2 = _
        unfold expandInclude
        rw [bind_ok (opAt_run (show N.ops[0]? = some s.nodes.length from rfl) s2), bind_ok hS.run]
        show (getS >>= _) s2 = _
        rw [getS_bind, if_pos (show s2.finalPass = true from hfp), if_pos (show (s2.files.find? (fun e => e.1 == name)).isSome = true from hfile)]
        simp only [List.append_cons s.listing (listRow s2 []) [listRow { s2 with file := name, line := 0 } []]]
        rfl
      · refine ⟨⟨s2.nodes, s.codeGenerated, s.dataSize, s.byteDelta, s.expansionType, name, 0, [],
          [listRow s2 [], listRow { s2 with file := name, line := 0 } []], 0, s.incs ++ [name], hw, Or.inr ⟨rfl, rfl⟩, ?_⟩,
          fun _ => ⟨_, rfl, by simp [listRow]⟩⟩
        simp [s2, hfp]
    · refine ⟨1, { s2 with file := name, line := 0, incs := s.incs ++ [name] }, ?_, ?_⟩
      · rw [expandNode_run (s := s2) hs.running hl]
        show expandInclude N s2 = _
        unfold expandInclude
        rw [bind_ok (opAt_run (show N.ops[0]? = some s.nodes.length from rfl) s2), bind_ok hS.run]
        show (getS >>= _) s2 = _
        rw [getS_bind, if_neg (show ¬ s2.finalPass = true from hfp), if_pos (show (s2.files.find? (fun e => e.1 == name)).isSome = true from hfile)]
        rfl
      · refine ⟨⟨s2.nodes, s.codeGenerated, s.dataSize, s.byteDelta, s.expansionType, name, 0, [],
          [], 0, s.incs ++ [name], hw, Or.inr ⟨rfl, rfl⟩, ?_⟩, fun h => absurd h hfp⟩
        simp [s2]

theorem placed_built {f : Nat} {s : St} {st : Stmt} {bs : List Nat} {fresh : Bool} (hs : Flat s fresh)
    (hf : st.fuel + bs.length + 4 ≤ f) (h : Spec.Placed (ctxOf s) (envOf s) s.pc fresh bs st) :
    BuiltL f s st bs (fun _ => True) := by
  rcases h with h | h | h
  · exact (emits_built hs hf h).line
  · exact (built_far hs hf h).mono fun _ _ _ => trivial
  · exact (built_inc hs hf h).mono fun _ _ _ => trivial

theorem wordChar_spec {l : Str} (h : l.all Spec.wordChar = true) {c : Nat} (hc : c ∈ l) :
    c ≠ 46 ∧ c ≠ 64 ∧ c ≠ 43 ∧ c ≠ 45 ∧ c ≠ 0 := by
  have := List.all_eq_true.1 h c hc
  simp only [Spec.wordChar, Bool.or_eq_true, Bool.and_eq_true, decide_eq_true_eq, beq_iff_eq] at this
  omega

/-- The symbol defined by a local label is the one its name refers to. -/
theorem envOf_labelId {s : St} {name : Str} {v : Int} (h64 : name.head? = some 64) (hdot : 46 ∉ name)
    (hw : ∀ l, s.lastLabel = some l → l.all Spec.wordChar = true) (h : envOf s name = some v) :
    envOf s (labelId s.lastLabel name) = some v := by
  cases name with
  | nil => cases h64
  | cons c cs =>
    cases h64
    cases hll : s.lastLabel with
    | none => exact h
    | some l =>
      have hl := hw l hll
      have e1 : labelId (some l) (64 :: cs) = l ++ 95 :: 95 :: 64 :: cs := by
        simp [labelId, formatLocal]
      rw [e1]
      have hdl : 46 ∉ l ++ 95 :: 95 :: 64 :: cs := by
        simp only [List.mem_append, List.mem_cons, not_or]
        exact ⟨fun hh => (wordChar_spec hl hh).1 rfl, by decide, by decide, by decide,
          fun hh => hdot (List.mem_cons_of_mem _ hh)⟩
      have hhead : ∃ c0 r0, l ++ 95 :: 95 :: 64 :: cs = c0 :: r0 ∧ c0 ≠ 46 ∧ c0 ≠ 64 ∧ c0 ≠ 43 ∧ c0 ≠ 45 ∧
          ∃ c1 r1, r0 = c1 :: r1 ∧ c1 ≠ 0 := by
        cases l with
        | nil => exact ⟨95, _, rfl, by decide, by decide, by decide, by decide, 95, _, rfl, by decide⟩
        | cons a l =>
          have ha := wordChar_spec hl (List.mem_cons_self ..)
          refine ⟨a, _, rfl, ha.1, ha.2.1, ha.2.2.1, ha.2.2.2.1, ?_⟩
          cases l with
          | nil => exact ⟨95, _, rfl, by decide⟩
          | cons b l =>
            have hb := wordChar_spec hl (List.mem_cons_of_mem _ (List.mem_cons_self ..))
            exact ⟨b, _, rfl, hb.2.2.2.2⟩
      have hk : addSymbolKey s (l ++ 95 :: 95 :: 64 :: cs) = addSymbolKey s (64 :: cs) := by
        unfold addSymbolKey
        rw [if_neg hdl, if_neg hdot]
        obtain ⟨c0, r0, e, hc0, hc1, _⟩ := hhead
        have d1 : dropDot (l ++ 95 :: 95 :: 64 :: cs) = l ++ 95 :: 95 :: 64 :: cs := by
          rw [e]
          unfold dropDot
          split
          · rename_i heq; exact absurd (List.cons.inj heq).1 hc0
          · rfl
        have d2 : dropDot (64 :: cs) = 64 :: cs := rfl
        have d3 : (match l ++ 95 :: 95 :: 64 :: cs, s.lastLabel with
            | 64 :: _, some l' => formatLocal (l ++ 95 :: 95 :: 64 :: cs) l'
            | _, _ => l ++ 95 :: 95 :: 64 :: cs) = l ++ 95 :: 95 :: 64 :: cs := by
          rw [e]
          split
          · rename_i heq _; exact absurd (List.cons.inj heq).1 hc1
          · rfl
        simp only [d1, d2]
        have d4 : (match 64 :: cs, s.lastLabel with
            | 64 :: _, some l' => formatLocal (64 :: cs) l'
            | _, _ => 64 :: cs) = l ++ 95 :: 95 :: 64 :: cs := by
          rw [hll]
          simp [formatLocal]
        exact congrArg (fun x => (s.currentScope, stripColon x)) (d3.trans d4.symm)
      have hlk : look s (l ++ 95 :: 95 :: 64 :: cs) = look s (64 :: cs) := by
        unfold look
        rw [hk]
      have hpl : plainName (l ++ 95 :: 95 :: 64 :: cs) = true := by
        obtain ⟨c0, r0, e, hc0, hc1, hc2, hc3, c1, r1, rfl, hc4⟩ := hhead
        rw [e]
        have p1 : isPmName (c0 :: c1 :: r1) = false := by
          unfold isPmName
          split
          · rename_i heq; exact absurd (List.cons.inj heq).1 hc2
          · rename_i heq; exact absurd (List.cons.inj heq).1 hc3
          · rfl
        have p2 : stricmp (c0 :: c1 :: r1) [65] ≠ 0 := by
          simp only [stricmp]
          split
          · assumption
          · have := tolower_pos hc4
            omega
        simp [plainName, p1, p2]
      unfold envOf at h ⊢
      rw [if_pos hpl, hlk]
      split at h
      · exact h
      · cases h

/-- The fuel needed by a line. -/
def Top.fuel : Top → Nat
  | .stmt _ _ st => st.fuel
  | .labelled _ _ _ st => st.fuel
  | _ => 0

theorem isPm_false {name : Str} (h1 : name.head? ≠ some 43) (h2 : name.head? ≠ some 45) : isPmName name = false := by
  unfold isPmName
  split <;> simp_all

theorem defines_label {s : St} {name : Str} {ll' : Option Str} (h : Spec.Defines (ctxOf s) s.lastLabel s.pc name ll') :
    isMacroWord s name = false ∧ isPmName name = false ∧ labelLL s.lastLabel name = ll' ∧
      envOf { s with lastLabel := labelLL s.lastLabel name } (labelId s.lastLabel name) = some s.pc := by
  obtain ⟨h1, h2, h3, h4, h5⟩ := h
  refine ⟨h1, isPm_false h2 h3, ?_⟩
  rcases h5 with ⟨h5, rfl⟩ | ⟨h5, rfl, h6, h7⟩
  · have : labelLL s.lastLabel name = some name := by unfold labelLL; rw [if_neg h5]
    refine ⟨this, ?_⟩
    rw [this]
    have e : labelId s.lastLabel name = name := by
      unfold labelId
      split
      · exact absurd rfl h5
      · rfl
    rw [e]
    exact h4
  · have : labelLL s.lastLabel name = s.lastLabel := by unfold labelLL; rw [if_pos h5]
    refine ⟨this, ?_⟩
    rw [this]
    exact envOf_labelId (s := s) h5 h6 h7 h4

theorem line_built {f : Nat} {s : St} {t : Top} {ll' : Option Str} {bs : List Nat} {fresh : Bool} {R : List ListEntry → Prop}
    (hs : Flat s fresh) (hf : 1 ≤ f) (h : Spec.Line (ctxOf s) s.lastLabel s.pc fresh t ll' bs) (hR : bs = [] → R [])
    (hB : ∀ file line st, (t = .stmt file line st ∨ ∃ name, t = .labelled file line name st) →
      Spec.Placed (ctxOf s) (envOf s) s.pc fresh bs st → BuiltL f (atLine s file line) st bs R) :
    ∃ s', runTop (expandNode (f + 1)) (hasUninit (f + 1)) t s = (.ok true, s') ∧ Laid s s' ll' bs ∧ Rowed R s s' := by
  cases t with
  | stmt file line st =>
    by_cases hw : ∃ b n a, st = .word b n a
    · obtain ⟨b, n, a, rfl⟩ := hw
      cases b with
      | false => exact (placed_word (And.right (show _ ∧ Spec.Placed _ _ _ _ _ _ from h))).elim
      | true =>
        cases a with
        | some a => exact (placed_word (And.right (show _ ∧ Spec.Placed _ _ _ _ _ _ from h))).elim
        | none =>
          obtain ⟨hd, rfl⟩ := h
          obtain ⟨h1, h2, rfl, h3⟩ := defines_label hd
          obtain ⟨s', r, a, b⟩ := runLabelled_built (f := f) (s := atLine s file line) (name := n) (st := .empty) (bs := [])
            hf hs.running hs.heap h2 h3 (Or.inr rfl) (Built.line (built_empty (s := atLine s file line) f hs.running hs.heap))
          refine ⟨s', ?_, Laid.pre file line s.lastLabel (WSim.refl _ _ _) a, fun hfp => ?_⟩
          · show ((modS fun s => { s with file := file, line := line }) >>= fun _ => getS >>= _) s = _
            rw [modS_bind, getS_bind]
            have : isMacroWord { s with file := file, line := line } n = false := h1
            rw [this]
            exact r
          · obtain ⟨ls, k, rfl⟩ := b hfp
            exact ⟨_, k, hR rfl⟩
    · have hw' : ∀ b n a, st ≠ .word b n a := fun b n a he => hw ⟨b, n, a, he⟩
      have h' : ll' = s.lastLabel ∧ Spec.Placed (ctxOf s) (envOf s) s.pc fresh bs st := by
        cases st with
        | word b n a => exact absurd rfl (hw' b n a)
        | _ => exact h
      obtain ⟨rfl, h'⟩ := h'
      exact runTop_built hw' (hB file line st (Or.inl rfl) h')
  | labelled file line name st =>
    obtain ⟨hd, he, hg⟩ := h
    obtain ⟨h1, h2, rfl, h3⟩ := defines_label hd
    obtain ⟨s', r, a, b⟩ := runLabelled_built (f := f) (s := atLine s file line) (name := name) (st := st) (bs := bs)
      hf hs.running hs.heap h2 h3 (hg.imp id (placed_globals he)) (hB file line st (Or.inr ⟨name, rfl⟩) he)
    refine ⟨s', ?_, Laid.pre file line s.lastLabel (WSim.refl _ _ _) a, b⟩
    show ((modS fun s => { s with file := file, line := line }) >>= fun _ => getS >>= _) s = _
    rw [modS_bind, getS_bind]
    have : isMacroWord { s with file := file, line := line } name = false := h1
    rw [this]
    exact r
  | _ => exact False.elim h

theorem line_run {f : Nat} {s : St} {t : Top} {ll' : Option Str} {bs : List Nat} {fresh : Bool} (hs : Flat s fresh)
    (hf : t.fuel + bs.length + 8 ≤ f) (h : Spec.Line (ctxOf s) s.lastLabel s.pc fresh t ll' bs) :
    ∃ s', runTop (expandNode (f + 1)) (hasUninit (f + 1)) t s = (.ok true, s') ∧ Laid s s' ll' bs := by
  have hf1 : 1 ≤ f := by omega
  have hB : ∀ file line st, (t = .stmt file line st ∨ ∃ name, t = .labelled file line name st) →
      Spec.Placed (ctxOf s) (envOf s) s.pc fresh bs st → BuiltL f (atLine s file line) st bs (fun _ => True) := by
    intro file line st ht hp
    have hs1 : Flat (atLine s file line) fresh := ⟨hs.running, hs.heap, hs.origin, hs.count, hs.image, hs.started⟩
    refine placed_built hs1 ?_ hp
    rcases ht with rfl | ⟨_, rfl⟩ <;> simp only [Top.fuel] at hf <;> omega
  obtain ⟨s', r, a, _⟩ := line_built (f := f) (R := fun _ => True) hs hf1 h (fun _ => trivial) hB
  exact ⟨s', r, a⟩

/-- The fuel needed by a program. -/
def progFuel (prog : List Top) (bs : List Nat) : Nat := (prog.map Top.fuel).sum + bs.length + 8

theorem layout_run {f : Nat} : ∀ {prog : List Top} {s : St} {ll' : Option Str} {bs : List Nat} {fresh : Bool},
    Flat s fresh → progFuel prog bs ≤ f → Spec.Layout (ctxOf s) s.lastLabel s.pc fresh prog ll' bs →
    ∃ s', runFile (expandNode (f + 1)) (hasUninit (f + 1)) prog s = (.ok (), s') ∧ Laid s s' ll' bs
  | [], s, ll', bs, fresh, hs, _, h => by
    obtain ⟨rfl, rfl⟩ := h
    exact ⟨s, rfl, Laid.heap (WSim.refl _ _ _)⟩
  | t :: ts, s, ll', bs, fresh, hs, hf, h => by
    obtain ⟨ll1, b1, b2, h1, h2, rfl⟩ := h
    simp only [progFuel, List.map_cons, List.sum_cons, List.length_append] at hf
    obtain ⟨s1, r1, a1⟩ := line_run (f := f) (t := t) (bs := b1) hs (by omega) h1
    obtain ⟨hs1, hctx, hll, hpc⟩ := a1.flat hs
    rw [← hctx, ← hll, ← hpc] at h2
    obtain ⟨s2, r2, a2⟩ := layout_run (f := f) (prog := ts) (bs := b2) hs1 (by simp only [progFuel]; omega) h2
    exact ⟨s2, (runFile_cons r1).trans r2, a1.comp hs.count a2⟩

end Verif
