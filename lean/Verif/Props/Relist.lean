import Verif.Props.ReadBack
import Verif.Props.Text
import Verif.Props.EndToEnd

/-! # Property C60 for whole listings

The last columns of the rows of a listing, with `.org` in front, are a source text.  Assembled, it gives the bytes of the
program again. -/

namespace Verif

open Spec

private theorem leftPart_length {addr : Int} {bs : List Nat} (h : bs.length ≤ 3) : (leftPart addr bs).length = 25 := by
  have hb : (bs.flatMap shownByte).length = 4 * bs.length := by
    clear h
    induction bs with
    | nil => rfl
    | cons b bs ih =>
      simp only [List.flatMap_cons, List.length_append, ih, List.length_cons]
      have : (shownByte b).length = 4 := rfl
      omega
  simp only [leftPart, List.length_append, List.length_replicate, hb, List.length_cons, List.length_nil]
  omega

/-- `.org` with the address. -/
private theorem orgLine_at {file : Str} {n o : Int} (h0 : 0 ≤ o) (h1 : o < 65536) : LineAt file n (.org (.int o)) (orgLine o) := by
  refine ⟨[.org, .int o, .eol (n + 1)], ?_, ?_⟩
  · exact TopText.stmt (file := file) (.line (n + 1) (.org ⟨_, _, .int o⟩))
  · intro known place evs rest h
    have hex : ∀ d : Fin 16, Digit.ok 16 ⟨hexDig d.val, d.val⟩ := by
      intro d
      have := d.isLt
      refine ⟨this, ?_⟩
      simp only [hexDig]
      split
      · exact Or.inl ⟨by omega, rfl⟩
      · exact Or.inr ⟨by omega, this, Or.inl (by simp only [show 'A'.toNat = 65 from rfl]; omega)⟩
    let a := o.toNat
    have ha : a < 65536 := by show o.toNat < 65536; omega
    let ds : List Digit := [⟨hexDig (a / 4096), a / 4096⟩, ⟨hexDig (a / 256 % 16), a / 256 % 16⟩,
      ⟨hexDig (a / 16 % 16), a / 16 % 16⟩, ⟨hexDig (a % 16), a % 16⟩]
    have hv : numVal 16 ds = a := by
      simp only [ds, numVal, List.foldl_cons, List.foldl_nil]
      omega
    have hvi : (numVal 16 ds : Int) = o := by rw [hv]; show (o.toNat : Int) = o; omega
    have hd : ∀ d ∈ ds, Digit.ok 16 d := by
      intro d hd
      simp only [ds, List.mem_cons, List.not_mem_nil, or_false] at hd
      rcases hd with rfl | rfl | rfl | rfl
      · exact hex ⟨a / 4096, by omega⟩
      · exact hex ⟨a / 256 % 16, by omega⟩
      · exact hex ⟨a / 16 % 16, by omega⟩
      · exact hex ⟨a % 16, by omega⟩
    have e : orgLine o ++ rest = [32] ++ (cstr! ".org" ++ ([32] ++ (36 :: numText ds ++ 10 :: rest))) := rfl
    rw [e, ← hvi]
    refine .blanks (w := [32]) (by decide) (by decide) (next_cons (by decide)) ?_
    refine .word (w := cstr! ".org") (name := ".org") (by decide) (by decide) (next_cons (by decide)) ?_
    refine .blanks (w := [32]) (by decide) (by decide) (next_cons (by decide)) ?_
    refine .hex hd (by omega) (next_cons ⟨by decide, fun d hd e => ?_⟩) (.newline h)
    have := char_range hd
    omega

/-- An empty line. -/
private theorem blank_at {file : Str} {n : Int} : LineAt file n .empty [32, 10] := by
  refine ⟨[.eol (n + 1)], TopText.stmt (file := file) (.empty (n + 1)), ?_⟩
  intro known place evs rest h
  show Source _ _ _ _ ([32] ++ 10 :: rest)
  exact .blanks (w := [32]) (by decide) (by decide) (next_cons (by decide)) (.newline h)

private theorem Flat.ready {s : St} {fresh : Bool} (h : Flat s fresh) : Ready s := by
  refine ⟨h.running, h.heap, fun h1 h2 _ => ?_⟩
  have := h.image (by simp only [emitting, h1, h2, h.origin]; rfl)
  split <;> simp_all <;> omega

/-- The statements in the rows. -/
private theorem rows_program {cpu : Cpu} {ill : Bool} {pc : Int} {ls : List ListEntry} {bs : List Nat}
    (h : RowsReadBack cpu ill pc ls bs) : ∀ (file : Str) (n : Int), ∃ prog : List Top,
      (∀ known, ∃ evs, Source (fun _ => false) known ⟨.lineStart, 0, 0, 0, n, []⟩ evs (ls.flatMap rowLine) ∧ LinesText file prog evs) ∧
      (∀ t ∈ prog, MacroFreeTop t) ∧
      ∀ (t : St) (f : Nat) (fresh : Bool), Flat t fresh → t.pc = pc → t.cpu = cpu → t.allowIllegal = ill → 4 < f →
        ∃ t', runFile (expandNode f) (hasUninit f) prog t = (.ok (), t') ∧ Laid t t' t.lastLabel bs := by
  induction h with
  | nil pc =>
    intro file n
    refine ⟨[], fun _ => ⟨[], .nil, .nil⟩, by simp, fun t f fresh _ _ _ _ _ => ⟨t, rfl, Laid.heap (WSim.refl _ _ _)⟩⟩
  | @cons pc bs rest e ls h _ ih =>
    intro file n
    obtain ⟨hne, hlen, column, st, ho, hdir, htext, hrun⟩ := h
    obtain ⟨prog, p1, p2, p3⟩ := ih file (n + 1)
    obtain ⟨tt, q1, q2⟩ := htext file n
    have hrow : rowLine e = 32 :: (column ++ [10]) := by
      unfold rowLine
      rw [ho, ← leftPart_length (addr := pc) hlen, List.drop_left]
    refine ⟨.stmt file (n + 1) st :: prog, ?_, ?_, ?_⟩
    · intro known
      obtain ⟨evs, r1, r2⟩ := p1 known
      refine ⟨tt.map .tok ++ evs, ?_, .top q1 r2⟩
      rw [List.flatMap_cons, hrow]
      exact q2 known .lineStart evs _ r1
    · intro t ht
      rcases List.mem_cons.1 ht with rfl | ht
      · show MacroFree st
        cases st <;> first | trivial | exact hdir.elim
      · exact p2 t ht
    · intro t f fresh hF hpc hcpu hill hf
      obtain ⟨t1, r1, a1, l1⟩ := hrun t f file (n + 1) (Flat.ready hF) hpc hcpu hill hF.count (Or.inl hF.origin) hf
      have l1 := l1 hF.origin
      obtain ⟨F1, _, k2, k3⟩ := l1.flat hF
      have k4 : t1.cpu = t.cpu ∧ t1.allowIllegal = t.allowIllegal := by
        obtain ⟨_, _, _, _, _, _, _, _, _, _, _, _, _, rfl⟩ := l1
        exact ⟨rfl, rfl⟩
      obtain ⟨t2, r2, l2⟩ := p3 t1 f _ F1 (by rw [k3, hpc]) (k4.1.trans hcpu) (k4.2.trans hill) hf
      refine ⟨t2, (runFile_cons r1).trans r2, ?_⟩
      rw [k2] at l2
      exact l1.comp hF.count l2

  | @blank pc bs e ls h _ ih =>
    intro file n
    obtain ⟨prog, p1, p2, p3⟩ := ih file (n + 1)
    obtain ⟨tt, q1, q2⟩ := blank_at (file := file) (n := n)
    have hrow : rowLine e = [32, 10] := by
      unfold rowLine
      rw [h]
      rfl
    refine ⟨.stmt file (n + 1) .empty :: prog, ?_, ?_, ?_⟩
    · intro known
      obtain ⟨evs, r1, r2⟩ := p1 known
      refine ⟨tt.map .tok ++ evs, ?_, .top q1 r2⟩
      rw [List.flatMap_cons, hrow]
      exact q2 known .lineStart evs _ r1
    · intro t ht
      rcases List.mem_cons.1 ht with rfl | ht
      · exact trivial
      · exact p2 t ht
    · intro t f fresh hF hpc hcpu hill hf
      obtain ⟨g, rfl⟩ : ∃ g, f = g + 1 := ⟨f - 1, by omega⟩
      obtain ⟨t1, r1, l1, _⟩ := runTop_built (s := t) (file := file) (line := n + 1) (by intro _ _ _ h; cases h)
        (built_empty g (s := atLine t file (n + 1)) hF.running hF.heap).line
      obtain ⟨F1, _, k2, k3⟩ := l1.flat hF
      have k4 : t1.cpu = t.cpu ∧ t1.allowIllegal = t.allowIllegal := by
        obtain ⟨_, _, _, _, _, _, _, _, _, _, _, _, _, rfl⟩ := l1
        exact ⟨rfl, rfl⟩
      obtain ⟨t2, r2, l2⟩ := p3 t1 (g + 1) _ F1 (by rw [k3, hpc]; exact Int.add_zero pc) (k4.1.trans hcpu) (k4.2.trans hill) hf
      refine ⟨t2, (runFile_cons r1).trans r2, ?_⟩
      rw [k2] at l2
      exact l1.comp hF.count l2

private theorem parse_files {f : Nat} {ps : Program} {o fin : Bool} {s t : St}
    (h : forEachM (runFile (expandNode f) (hasUninit f)) ps (resetSt { s with finalPass := fin, outputOpen := fin && o }) = (.ok (), t)) :
    (passSem f ps o).parse fin s = some { t with nodeBase := t.nodes.length, currentScope := none } := by
  show (match runPass f ps o fin s with
    | (.ok _, s') => some s'
    | _ => none) = _
  unfold runPass
  rcases parsePass_cases f ps { s with finalPass := fin, outputOpen := fin && o } with ⟨t', k1, k2⟩ | ⟨r', t', k1, k2, _⟩
  · cases h.symm.trans k1
    rw [k2]
  · cases h.symm.trans k1
    exact absurd rfl (k2 ())

/-- A pass over `.org` and the statements of the rows. -/
private theorem rows_pass {cpu : Cpu} {ill : Bool} {o : Int} {bs : List Nat} {prog : List Top} {f : Nat} (file : Str)
    (hp : ∀ (t : St) (f : Nat) (fresh : Bool), Flat t fresh → t.pc = o → t.cpu = cpu → t.allowIllegal = ill → 4 < f →
      ∃ t', runFile (expandNode f) (hasUninit f) prog t = (.ok (), t') ∧ Laid t t' t.lastLabel bs)
    (hf : 4 < f) (s : St) (fin : Bool) (h1 : s.nodeBase ≤ s.nodes.length) (h2 : s.cpu = cpu) (h3 : s.allowIllegal = ill)
    (h4 : s.totalBytes = 0) (h5 : s.out = []) (h6 : s.syms = []) (hne : bs ≠ [])
    (ho : 0 ≤ o ∧ o < 65536) :
    ∃ s', (passSem f [.stmt file 1 (.org (.int o)) :: prog] true).parse fin s = some s' ∧ s'.nodeBase ≤ s'.nodes.length ∧
      s'.cpu = cpu ∧ s'.allowIllegal = ill ∧ s'.syms = [] ∧ s'.errorCount = 0 ∧ s'.symValueChanged = 0 ∧ s'.format = s.format ∧
      (fin = false → s'.totalBytes = 0 ∧ s'.out = []) ∧ (fin = true → s'.out = headerBytes s.format o ++ bs) := by
  obtain ⟨g, rfl⟩ : ∃ g, f = g + 1 := ⟨f - 1, by omega⟩
  let u : St := resetSt { s with finalPass := fin, outputOpen := fin && true }
  obtain ⟨ns, hns, r⟩ := org_run (f := g) (s := u) (e := .int o) (o := o) file 1 (by show 0 < g; omega) rfl h1 rfl
    (by
      show (rng o).map (·, false) = _
      unfold rng
      rw [if_pos (by omega)]
      rfl)
  let v : St := { u with
    file := file
    line := 1
    nodes := ns
    pcAssigned := u.pcAssigned + 1
    pc := o
    origin := o
    originSpecified := true
    orgOriginSpecified := true }
  have ht : v.totalBytes = 0 := h4
  have F : Flat v true := ⟨rfl, Nat.le_trans h1 hns, rfl, Int.le_of_eq ht.symm, fun _ => by rw [if_pos ht]; exact (Int.add_zero o).symm,
    fun _ h => by cases h⟩
  obtain ⟨t, r2, hl⟩ := hp v (g + 1) true F rfl h2 h3 hf
  have hrun : forEachM (runFile (expandNode (g + 1)) (hasUninit (g + 1))) [.stmt file 1 (.org (.int o)) :: prog] u = (.ok (), t) := by
    simp only [forEachM, run_bind]
    rw [(runFile_cons r).trans r2]
    rfl
  have hpass : (passSem (g + 1) [.stmt file 1 (.org (.int o)) :: prog] true).parse fin s =
      some { t with nodeBase := t.nodes.length, currentScope := none } :=
    parse_files hrun
  refine ⟨_, hpass, Nat.le_refl _, ?_⟩
  obtain ⟨_, _, _, _, _, _, _, h, ls, w, _, _, hh, rfl⟩ := hl
  have hhd : h = headerBytes s.format o := by
    rcases hh with rfl | hh
    · show outHdr v = _
      unfold outHdr
      rw [if_pos ht]
      rfl
    · exact absurd hh.2 hne
  refine ⟨h2, h3, h6, rfl, rfl, rfl, ?_, ?_⟩
  · rintro rfl
    refine ⟨?_, ?_⟩
    · show v.totalBytes + _ = 0
      rw [ht]
      rfl
    · show s.out ++ _ = []
      rw [h5]
      rfl
  · rintro rfl
    show s.out ++ (h ++ bs) = _
    rw [h5, hhd]
    rfl

/-- **C60**, a whole listing.  Let the rows `ls` of a listing be the rows of instructions and data and empty rows, one after the
other from the address `o`, with the bytes `bs` (`RowsReadBack`).  Cut address and bytes off and put `.org` with the address in
front: what is left is a source text.  Assembled for the same processor it gives no errors, and the output file has the
header and the bytes `bs`. -/
theorem C60_source {cpu : Cpu} {ill : Bool} {o : Int} {ls : List ListEntry} {bs : List Nat} (h : RowsReadBack cpu ill o ls bs)
    (hb : bs ≠ []) (h0 : 0 ≤ o) (h1 : o < 65536) (file : Str) (fmt : Format) (f : Nat) (hf : 4 < f) :
    let r := assembleText f [(file, listingText o ls)] { output := some true } { cpu := cpu, allowIllegal := ill, format := fmt }
    r.status = some 0 ∧ ∃ s1 s2, r.passes.map (fun x => (x.1, x.2.1.1, x.2.2.1)) =
        [(false, { cpu := cpu, allowIllegal := ill, format := fmt }, s1), (true, s1, s2)] ∧
      s1.errorCount = 0 ∧ s2.errorCount = 0 ∧ s2.out = headerBytes fmt o ++ bs := by
  obtain ⟨prog, p1, p2, p3⟩ := rows_program h file 1
  let S : St := { cpu := cpu, allowIllegal := ill, format := fmt }
  obtain ⟨tt, q1, q2⟩ := orgLine_at (file := file) (n := 0) h0 h1
  have htext : FilesText (fun _ => false) [(file, listingText o ls)] [.stmt file 1 (.org (.int o)) :: prog] := by
    refine .cons ?_ .nil
    obtain ⟨evs, r1, r2⟩ := p1 (knownNames fun _ => false)
    exact ⟨_, q2 _ .fileStart evs _ r1, .top q1 r2⟩
  have hC := C55_assembly f htext (by
    intro l hl t ht
    rw [List.mem_singleton.1 hl] at ht
    rcases List.mem_cons.1 ht with rfl | ht
    · exact trivial
    · exact p2 t ht) { output := some true } S (by intro x hx; cases hx) (by intro x hx; cases hx) (Int.le_refl 0) (by intro n hn; cases hn)
  obtain ⟨c1, c2, _⟩ := hC
  obtain ⟨s1, e1, a1, a2, a3, a4, a5, a6, a7, a8, _⟩ := rows_pass (f := f) file p3 hf S false (Nat.le_refl _) rfl rfl rfl rfl rfl hb ⟨h0, h1⟩
  obtain ⟨s2, e2, _, _, _, _, b5, _, _, _, b9⟩ := rows_pass (f := f) file p3 hf s1 true a1 a2 a3 (a8 rfl).1 (a8 rfl).2 a4 hb ⟨h0, h1⟩
  have hq : assembleProg f [.stmt file 1 (.org (.int o)) :: prog] { output := some true } S =
      ⟨some 0, [(false, S, s1), (true, s1, s2)], (1, 1), true⟩ := by
    have hloop : passLoop (passSem f [.stmt file 1 (.org (.int o)) :: prog] true) maxPasses 1 S [] = (some s1, 2, [(false, S, s1)]) := by
      show passLoop _ (19 + 1) 1 S [] = _
      unfold passLoop
      rw [e1]
      have hc : (passSem f [.stmt file 1 (.org (.int o)) :: prog] true).clean s1 = true := by
        show (s1.errorCount == 0 && s1.symValueChanged == 0 && unresolvedCount s1.syms == 0) = true
        rw [a5, a6, a4]
        rfl
      simp only [hc]
      rw [if_neg (by rintro ⟨_, _, h⟩; cases h)]
      rfl
    show assemble (passSem f [.stmt file 1 (.org (.int o)) :: prog] true) { output := some true } S = _
    unfold assemble
    rw [hloop]
    simp only [e2]
    have : (passSem f [.stmt file 1 (.org (.int o)) :: prog] true).errorCount s1 = 0 := a5
    rw [this]
    rfl
  rw [hq] at c1 c2
  exact ⟨c1.symm, s1, s2, c2.symm, a5, b5, by rw [b9 rfl, a7]⟩

/-- `nop` at $1000. -/
example : ∃ ls, RowsReadBack .c6502 false 0x1000 ls [0xEA] ∧
    listingText 0x1000 ls = cstr! " .org $1000\n nop \n" := by
  let s : St := { pc := 0x1000, origin := 0x1000, originSpecified := true, finalPass := true, outputOpen := true }
  refine ⟨[listRow (atLine s [] 1) (opRow Ins._nop 0 .i 0xEA 0x1000 0)], ?_, by decide +kernel⟩
  have h := readsBack_implied (s := s) (m := .i) (k := 0) (ins := Ins._nop) rfl (by decide +kernel) (by decide +kernel) rfl [] 1
  have e : getOpCode s.cpu s.allowIllegal Ins._nop .i = 0xEA := by decide +kernel
  rw [e] at h
  exact .cons h (.nil _)

/-! ## The rows of a program -/

private theorem rows_append {cpu : Cpu} {ill : Bool} {pc : Int} {l1 l2 : List ListEntry} {b1 b2 : List Nat}
    (h1 : RowsReadBack cpu ill pc l1 b1) (h2 : RowsReadBack cpu ill (pc + b1.length) l2 b2) :
    RowsReadBack cpu ill pc (l1 ++ l2) (b1 ++ b2) := by
  induction h1 with
  | nil pc => simpa using h2
  | cons h _ ih =>
    rw [List.cons_append, List.append_assoc]
    refine .cons h (ih ?_)
    rw [List.length_append, Int.natCast_add] at h2
    rw [Int.add_assoc]
    exact h2
  | blank h _ ih => exact .blank h (ih h2)

private theorem blank_rows {cpu : Cpu} {ill : Bool} {pc : Int} : ∀ {ls : List ListEntry}, (∀ e ∈ ls, e.output = []) →
    RowsReadBack cpu ill pc ls []
  | [], _ => .nil pc
  | e :: ls, h => .blank (h e (by simp)) (blank_rows fun x hx => h x (by simp [hx]))

private theorem rows_one {cpu : Cpu} {ill : Bool} {pc : Int} {e : ListEntry} {bs : List Nat} (h : ReadsBack cpu ill pc bs e) :
    RowsReadBack cpu ill pc [e] bs := by
  have := RowsReadBack.cons h (.nil (pc + bs.length))
  rwa [List.append_nil] at this

private theorem indX_word {cpu : Cpu} {ill : Bool} {ins : Int} (h0 : 0 ≤ ins) (h1 : ins < Ins._slo) (h : mnemonic ins ≠ "jmp") :
    getOpCode cpu ill ins .aix = -1 := by
  have tab : ∀ n : Fin Ins._slo.toNat, mnemonic ((n.val : Nat) : Int) ≠ "jmp" → getOpCode cpu ill ((n.val : Nat) : Int) .aix = -1 := by
    cases cpu <;> cases ill <;> decide +kernel
  have := tab ⟨ins.toNat, by omega⟩
  rw [show (((⟨ins.toNat, by omega⟩ : Fin Ins._slo.toNat).val : Nat) : Int) = ins from by show (ins.toNat : Int) = ins; omega] at this
  exact this h

private theorem emits_rows {f : Nat} {s : St} {st : Stmt} {bs : List Nat} {fresh : Bool} (hs : Flat s fresh)
    (hf : st.fuel + bs.length + 4 ≤ f) (h : Spec.Emits (ctxOf s) (envOf s) s.pc fresh bs st) (hr : Relistable textOf st) :
    Built f s st bs (fun ls => RowsReadBack s.cpu s.allowIllegal s.pc ls bs) := by
  cases st with
  | empty =>
    cases (show bs = [] from h)
    refine (built_empty f hs.running hs.heap).mono ?_
    rintro _ ls rfl
    exact .nil _
  | op ins mode e =>
    cases e with
    | none =>
      obtain ⟨hmode, h'⟩ := (show mode = .i ∧ Spec.OneByte s.cpu ins .implied bs from h)
      subst hmode
      obtain ⟨m, hm, hr, hg, rfl⟩ := oneByte_get (ill := s.allowIllegal) h' (Or.inl rfl)
      have : m = .i := by cases m <;> cases hm; rfl
      subst this
      refine (built_implied f hs.running hs.heap hr hg hs.room hs.origin).mono ?_
      rintro _ ls rfl
      exact rows_one (readsBack_implied rfl hr hg rfl s.file s.line)
    | some e =>
      rcases h with ⟨rfl, he, h⟩ | ⟨form, v, rfl, hv, hc, h⟩
      · obtain ⟨m, hm, hr, hg, rfl⟩ := oneByte_get (cpu := s.cpu) (ill := s.allowIllegal) h (Or.inr rfl)
        have : m = .A := by cases m <;> cases hm; rfl
        subst this
        have hi := acc_implied (cpu := s.cpu) (ill := s.allowIllegal) (ins := ins) (by omega)
        have key : ∀ nm, nm = [65] ∨ nm = [97] → Built f s (.op ins .a (some (.sym nm)))
            (toBytes [getOpCode s.cpu s.allowIllegal ins .A])
            (fun ls => RowsReadBack s.cpu s.allowIllegal s.pc ls (toBytes [getOpCode s.cpu s.allowIllegal ins .A])) := by
          intro nm hnm
          refine (built_acc (by omega) hnm hs.running hs.heap hr hg hs.room hs.origin).mono ?_
          rintro _ ls rfl
          exact rows_one (readsBack_implied rfl hr (by omega) hi s.file s.line)
        rcases he with rfl | rfl
        · exact key _ (Or.inl rfl)
        · exact key _ (Or.inr rfl)
      · obtain ⟨m, c, hen, rfl⟩ := shortest_encode (cpu := s.cpu) (ill := s.allowIllegal) h
        obtain ⟨h0, h1, _, _, v0, v1, _⟩ := h
        have hd : e.depth + 1 < f := by simp only [Stmt.fuel] at hf; omega
        refine (built_op hd hs.running hs.heap hv hc hen hs.room hs.origin).mono ?_
        rintro _ ls rfl
        have hg : ∀ m, getOpCode s.cpu s.allowIllegal ins m = -1 ∨ 0 ≤ getOpCode s.cpu s.allowIllegal ins m := fun m => by
          have := getOpCode_range s.cpu s.allowIllegal ins m; omega
        have hx : form = .indX → getOpCode s.cpu s.allowIllegal ins .aix = -1 := fun he => by
          subst he
          exact indX_word h0 h1 (hr rfl)
        refine rows_one ?_
        by_cases hb : getOpCode s.cpu s.allowIllegal ins .r = -1
        · have hp := hen
          rw [encode_pick hg hb] at hp
          exact readsBack_op (written_of_pick hp hx) hen v0 (by omega) s.file s.line
        · have hr0 : 0 ≤ getOpCode s.cpu s.allowIllegal ins .r := by have := hg .r; omega
          have hm : m = .r := by
            rw [encode_branch hr0] at hen
            split at hen <;> cases hen
            rfl
          subst hm
          refine readsBack_op .rel ?_ v0 (by omega) s.file s.line
          rw [encode_branch hr0] at hen
          exact (encode_branch hr0 (Form.mode .dir) s.pc v).trans hen
  | data size hd tl =>
    obtain ⟨hsz, h⟩ := (show _ ∧ Spec.items textOf (envOf s) size s.pc (hd :: tl) = some bs from h)
    refine (built_data hsz ?_ hs.running hs.heap hs.count h hs.origin hs.room).mono ?_
    · intro x hx
      have := mem_le_sum (List.mem_map_of_mem (f := Item.depth) hx)
      simp only [Stmt.fuel] at hf
      omega
    · intro _ ls hls
      exact data_rows (hls Quotable hr) (items_bytes h)
  | assign name e =>
    obtain ⟨v, h1, h2, rfl⟩ := h
    refine (built_assign (by simp only [Stmt.fuel] at hf; omega) hs.running hs.heap h1 h2).mono ?_
    rintro _ ls rfl
    exact .nil _
  | fill ve ne =>
    obtain ⟨v, n, h1, h2, h3, h4, h5, rfl⟩ := h
    simp only [Stmt.fuel, List.length_replicate] at hf
    have := built_fill (f := f) (s := s) (ve := ve) (ne := ne) (v := v) (n := n) (by omega) (by omega) (by omega) (by omega)
      hs.running hs.heap hs.count h1 h2 (by omega) (fun _ => h4) hs.origin hs.room (by
        intro he
        cases fresh with
        | true => exact Or.inl (by simpa [ctxOf] using h5 rfl)
        | false => exact Or.inr (hs.started he rfl))
    refine Built.mono (by simpa using this) fun _ ls hls => ?_
    exact data_rows (hls Quotable) (by intro b hb; rw [List.eq_of_mem_replicate hb]; exact h3)
  | load raw =>
    obtain ⟨name, nm, bytes, h1, h2, rfl⟩ := h
    refine (built_load (by omega) hs.running hs.heap hs.count h1 h2 hs.origin hs.room).mono ?_
    intro _ ls hls
    refine data_rows (hls Quotable) ?_
    intro b hb
    obtain ⟨c, _, rfl⟩ := List.mem_map.1 hb
    exact Nat.mod_lt _ (by decide)
  | _ => exact False.elim h

private theorem placed_rows {f : Nat} {s : St} {st : Stmt} {bs : List Nat} {fresh : Bool} (hs : Flat s fresh)
    (hf : st.fuel + bs.length + 4 ≤ f) (h : Spec.Placed (ctxOf s) (envOf s) s.pc fresh bs st) (hr : Relistable textOf st)
    (h0 : 0 ≤ s.pc) (h1 : s.pc + bs.length < 65536) :
    BuiltL f s st bs (fun ls => RowsReadBack s.cpu s.allowIllegal s.pc ls bs) := by
  rcases h with h | h | h
  · exact (emits_rows hs hf h hr).line
  · refine (built_far hs hf h).mono ?_
    rintro _ ls ⟨ins, e, v, rfl, hb, v0, v1, rfl, rfl⟩
    have : (longBytes (getOpCode s.cpu s.allowIllegal (invertBranch ins) .r) s.pc v).length = 5 := rfl
    obtain ⟨k1, k2⟩ := long_rows (s := s) hb (by omega) (by omega) v0 (by omega) s.file s.line
    exact rows_append (rows_one k1) (rows_one k2)
  · have hbs : bs = [] := by
      unfold Spec.Opens at h
      split at h
      · exact h.1
      · exact h.elim
    subst hbs
    refine (built_inc hs hf h).mono ?_
    intro _ ls hls
    exact blank_rows hls

/-- The rows of the final pass. -/
private theorem layout_rows {f : Nat} : ∀ {prog : List Top} {s : St} {ll' : Option Str} {bs : List Nat} {fresh : Bool},
    Flat s fresh → progFuel prog bs ≤ f → Spec.Layout (ctxOf s) s.lastLabel s.pc fresh prog ll' bs →
    (∀ t ∈ prog, RelistableTop textOf t) → 0 ≤ s.pc → s.pc + bs.length < 65536 → s.finalPass = true →
    ∃ s' ls, runFile (expandNode (f + 1)) (hasUninit (f + 1)) prog s = (.ok (), s') ∧ Laid s s' ll' bs ∧
      s'.listing = s.listing ++ ls ∧ RowsReadBack s.cpu s.allowIllegal s.pc ls bs
  | [], s, ll', bs, fresh, hs, _, h, _, _, _, _ => by
    obtain ⟨rfl, rfl⟩ := h
    exact ⟨s, [], rfl, Laid.heap (WSim.refl _ _ _), by simp, .nil _⟩
  | t :: ts, s, ll', bs, fresh, hs, hf, h, hr, h0, h1, hfp => by
    obtain ⟨ll1, b1, b2, k1, k2, rfl⟩ := h
    simp only [progFuel, List.map_cons, List.sum_cons, List.length_append] at hf
    rw [List.length_append] at h1
    have hB : ∀ file line st, (t = .stmt file line st ∨ ∃ name, t = .labelled file line name st) →
        Spec.Placed (ctxOf s) (envOf s) s.pc fresh b1 st → BuiltL f (atLine s file line) st b1
          (fun ls => RowsReadBack s.cpu s.allowIllegal s.pc ls b1) := by
      intro file line st ht hp
      have hs1 : Flat (atLine s file line) fresh := ⟨hs.running, hs.heap, hs.origin, hs.count, hs.image, hs.started⟩
      refine placed_rows hs1 ?_ hp ?_ h0 (by show s.pc + _ < _; omega)
      · rcases ht with rfl | ⟨_, rfl⟩ <;> simp only [Top.fuel] at hf <;> omega
      · have := hr t (by simp)
        rcases ht with rfl | ⟨_, rfl⟩ <;> exact this
    obtain ⟨s1, r1, a1, o1⟩ := line_built (f := f) hs (by omega) k1 (fun he => by subst he; exact .nil _) hB
    obtain ⟨hs1, hctx, hll, hpc⟩ := a1.flat hs
    rw [← hctx, ← hll, ← hpc] at k2
    have kp : s1.cpu = s.cpu ∧ s1.allowIllegal = s.allowIllegal ∧ s1.finalPass = s.finalPass := by
      obtain ⟨_, _, _, _, _, _, _, _, _, _, _, _, _, rfl⟩ := a1
      exact ⟨rfl, rfl, rfl⟩
    obtain ⟨s2, l2, r2, a2, e2, o2⟩ := layout_rows (f := f) (prog := ts) (bs := b2) hs1 (by simp only [progFuel]; omega) k2
      (fun t ht => hr t (by simp [ht])) (by omega) (by omega) (kp.2.2.trans hfp)
    obtain ⟨l1, e1, o1⟩ := o1 hfp
    refine ⟨s2, l1 ++ l2, (runFile_cons r1).trans r2, a1.comp hs.count a2, by rw [e2, e1, List.append_assoc], ?_⟩
    rw [kp.1, kp.2.1, hpc] at o2
    exact rows_append o1 o2

private theorem listing_next {f : Nat} {prog : Program} {o : Bool} {a b : St}
    (h : (passSem f prog o).parse false a = some b) : b.listing = a.listing := by
  have hr := passSem_parse h
  unfold runPass at hr
  rcases parsePass_cases f prog { a with finalPass := false, outputOpen := false && o } with ⟨t, h1, h2⟩ | ⟨r, t, _, h2, h3⟩
  · have T := passBody_tsteps (T := fun _ => true) f prog prog.uses_all
      (resetSt { a with finalPass := false, outputOpen := false && o }) (fun c => by cases c)
    rw [h1] at T
    rw [h2] at hr
    cases hr
    exact (T.noOut.2 rfl).2.2.2
  · rw [h3] at hr
    cases hr
    exact absurd rfl (h2 ())

private theorem settle_twice (C : Spec.Context) (head : List Top) : Spec.settle (Spec.settle C head) head = Spec.settle C head := by
  unfold Spec.settle
  rw [cpuAfter_twice]
  simp only [Bool.and_assoc, Bool.and_self]

/-- **C60, part**, for whole assemblies.  Assemble one or more files as in `C12_accepted_partial`: settings and assignments,
`.org` or `*=` with an address `o`, and then instructions, data, fills, binary files, included files, assignments, labels and branches out of
range, with the bytes `bs`, up to the address $FFFE.  Suppose the assembly succeeds.  Then `ls`, the rows of the listing, give a source text: `.org` and
the last columns of the rows.  This text is assembled without errors, and its output is the output of the program.
Missing: `jmp (v,x)` and texts with a backslash, a quote or a line feed (the claim fails for them, see
`C60_false_indirect` and the theorems after it), and what is missing in `C12_accepted_partial`. -/
theorem C60_program_partial (head : List Top) (file : Str) (line : Int) (st : Stmt) (e : Expr) (prog : List Top)
    (bs : List Nat) (hor : Spec.SetsOrigin e st) :
    ∃ f0, ∀ f, f0 ≤ f → ∀ (F : AsmFiles) (P : Program) (s0 s s1 s2 : St) (pre : List (Bool × St × St)) (o : Int)
      (ll : Option Str), P.flatten = head ++ .stmt file line st :: prog →
      F.output = some true → s0.out = [] → s0.totalBytes = 0 → s0.listing = [] → s0.currentScope = none →
      s0.nodeBase ≤ s0.nodes.length →
      let r := assembleProg f P F s0
      r.status = some 0 → r.passes = pre ++ [(false, s, s1), (true, s1, s2)] →
      (∀ x ∈ s.syms, x.isVar = false ∧ x.isMacroParam = false) →
      let C := Spec.settle (ctxOf s) head
      (∀ t ∈ head, Spec.HeadDraft C t) →
      Spec.eval (C.env none) 0x1000 e = some (o, false) → Spec.Draft C none o true prog ll bs → bs ≠ [] →
      (∀ t ∈ prog, RelistableTop textOf t) → 0 ≤ o → o + bs.length < 65536 →
      ∀ (name : Str) (g : Nat), 4 < g →
        let q := assembleText g [(name, listingText o s2.listing)] { output := some true }
          { cpu := s2.cpu, allowIllegal := s2.allowIllegal, format := s1.format }
        q.status = some 0 ∧ ∃ t1 t2, q.passes.map (fun x => (x.1, x.2.2.1)) = [(false, t1), (true, t2)] ∧
          t2.errorCount = 0 ∧ t2.out = s2.out := by
  obtain ⟨f0, hC⟩ := C12_accepted_partial head file line st e prog bs hor
  refine ⟨f0 + e.depth + progFuel prog bs + (head.map Top.fuel).sum + 3, ?_⟩
  intro f hf F P s0 s s1 s2 pre o ll hP hF h1 h2 hl h3 h4 r hst hr hx C hh hv hd hne hrl ho0 ho1 name k hk q
  obtain ⟨c1, c2, c3, c4, c5, _⟩ := hC f (by omega) F P s0 s s1 s2 pre o ll hP hF h1 h2 h3 h4 hst hr hx hh hv hd hne
  obtain ⟨g, rfl⟩ : ∃ g, f = g + 1 := ⟨f - 1, by omega⟩
  have hB := assemble_starts (passSem (g + 1) P F.output.isSome) F (fun s => Between s ∧ s.listing = [])
    (fun a b h ha => ⟨Between.next h ha.1, (listing_next h).trans ha.2⟩) s0 ⟨⟨h3, h4, h1, h2⟩, hl⟩
  obtain ⟨⟨B2, hl2⟩, p2⟩ := hB _ (show (true, s1, s2) ∈ r.passes by rw [hr]; simp)
  obtain ⟨t2, q4, rfl⟩ := pass_files p2
  let w0 : St := resetSt { s1 with finalPass := true, outputOpen := true && F.output.isSome }
  have hw0 : ctxOf w0 = C := c1
  rw [files_flatten _ _ _ _ (by show 0 ≤ s1.totalBytes; exact Int.le_of_eq B2.count.symm) (show t2.errorCount = w0.errorCount from c5), hP] at q4
  obtain ⟨w, q6, a1⟩ := head_run (f := g) (.stmt file line st :: prog) (ts := head) (s := w0) rfl B2.heap rfl rfl (by omega)
    (fun t ht => by rw [hw0]; exact c2 t ht)
  have hcw : ctxOf w = C := by
    rw [a1.ctx, hw0]
    exact settle_twice _ _
  have q4 := q6.symm.trans q4
  obtain ⟨k1, k2, k3, k4, k5, k6, k7, k8, k9, k10⟩ := a1.keeps
  have k11 : w.orgOriginSpecified = false ∧ w.finalPass = true ∧ w.listing = [] := by
    obtain ⟨_, _, _, _, _, rfl⟩ := a1
    exact ⟨rfl, rfl, hl2⟩
  have k4 : w.lastLabel = none := k4
  have k6 : w.totalBytes = 0 := k6.trans B2.count
  have hv' : Spec.eval (envOf w) w.pc e = some (o, false) := by
    rw [k5, show envOf w = (ctxOf w).env none from by rw [← k4]; rfl, hcw]
    exact hv
  have hub : w.nodeBase ≤ w.nodes.length := Nat.le_trans (Nat.le_of_eq k2) (Nat.le_trans B2.heap k3)
  obtain ⟨ns, ob, hns, ro⟩ := origin_run (f := g) (s := w) file line hor (by omega) k1 hub k11.1 hv'
  let v : St := { w with
    file := file
    line := line
    nodes := ns
    pcAssigned := w.pcAssigned + 1
    pc := o
    origin := o
    originSpecified := true
    orgOriginSpecified := ob }
  have hFl : Flat v true := ⟨k1, Nat.le_trans hub hns, rfl, Int.le_of_eq k6.symm,
    fun _ => by show o = o + _; rw [if_pos k6]; omega, fun _ h => (by cases h)⟩
  obtain ⟨s', ls, r2, a2, e2, o2⟩ := layout_rows (f := g) (s := v) (prog := prog) (ll' := ll) (bs := bs) hFl (by omega)
    (by show Spec.Layout (ctxOf w) w.lastLabel o true prog ll bs; rw [hcw, k4]; exact c3) hrl ho0 ho1 k11.2.1
  cases q4.symm.trans ((runFile_cons ro).trans r2)
  have e2 : t2.listing = ls := by
    rw [e2]
    show w.listing ++ ls = ls
    rw [k11.2.2]
    rfl
  have e3 : t2.cpu = v.cpu ∧ t2.allowIllegal = v.allowIllegal := by
    obtain ⟨_, _, _, _, _, _, _, _, _, _, _, _, _, rfl⟩ := a2
    exact ⟨rfl, rfl⟩
  have o2 : RowsReadBack t2.cpu t2.allowIllegal o t2.listing bs := by
    rw [e2, e3.1, e3.2]
    exact o2
  obtain ⟨z1, t1', t2', z2, _, z3, z4⟩ := C60_source o2 hne ho0 (by omega) name s1.format k hk
  refine ⟨z1, t1', t2', ?_, z3, ?_⟩
  · have := congrArg (List.map fun x : Bool × St × St => (x.1, x.2.2)) z2
    rw [List.map_map] at this
    exact this
  · exact z4.trans c4.symm

/-- The rows of a program with a label, and the source text made from them. -/
private def relProg : List Top := [.labelled [97] 2 [108] (.op Ins._nop .i none), .stmt [97] 3 (.data 2 (.expr (.sym [108])) []),
  .stmt [97] 4 (.data 1 (.str (cstr! "\"AB\"")) [.expr (.int 0x12)]), .stmt [97] 5 (.fill (.int 7) (.int 3))]

example : let r := assembleProg 60 [.stmt [97] 1 (.org (.int 0x10)) :: relProg] { output := some true } {}
    r.status = some 0 ∧ ∃ pre s s1 s2, r.passes = pre ++ [(false, s, s1), (true, s1, s2)] ∧
      (∀ x ∈ s.syms, x.isVar = false ∧ x.isMacroParam = false) ∧
      Spec.Draft (Spec.settle (ctxOf s) []) none 0x10 true relProg (some [108]) [0xEA, 0x10, 0, 65, 66, 0x12, 7, 7, 7] ∧
      (∀ t ∈ relProg, RelistableTop textOf t) ∧ s2.out = [0xEA, 0x10, 0, 65, 66, 0x12, 7, 7, 7] ∧
      listingText 0x10 s2.listing = cstr! " .org $0010\n nop \n .db $10, $00\n .db 'A', 'B'\n .db $12\n .db $07, $07\n .db $07\n" := by
  intro r
  have hst : r.status = some 0 := by decide +kernel
  obtain ⟨pre, s, s1, s2, hr, _⟩ := C29_success_partial _ _ _ hst
  have hr : r.passes = pre ++ [(false, s, s1), (true, s1, s2)] := hr
  have hlen : r.passes.length = 3 := by decide +kernel
  have hpre : pre.length = 1 := by
    rw [hr] at hlen
    simpa using hlen
  have hs : r.passes[1]? = some (false, s, s1) := by
    rw [hr, List.getElem?_append_right (by omega), hpre]
    rfl
  have hs2 : r.passes[2]? = some (true, s1, s2) := by
    rw [hr, List.getElem?_append_right (by omega), hpre]
    rfl
  have k1 : r.passes[1]?.map (fun e => e.2.1.cpu) = some .c6502 := by decide +kernel
  have k3 : r.passes[1]?.map (fun e => isMacroWord e.2.1 [108]) = some false := by decide +kernel
  have k4 : r.passes[1]?.map (fun e => e.2.1.syms.all fun x => x.isVar == false && x.isMacroParam == false) = some true := by
    decide +kernel
  have k5 : r.passes[1]?.map (fun e => (ctxOf e.2.1).env (some [108]) [108]) = some (some 0x10) := by decide +kernel
  have hout : r.passes[2]?.map (fun e => (e.2.2.out, listingText 0x10 e.2.2.listing)) =
      some ([0xEA, 0x10, 0, 65, 66, 0x12, 7, 7, 7], cstr! " .org $0010\n nop \n .db $10, $00\n .db 'A', 'B'\n .db $12\n .db $07, $07\n .db $07\n") := by decide +kernel
  rw [hs] at k1 k3 k4 k5
  rw [hs2] at hout
  simp only [Option.map_some, Option.some.injEq, Prod.mk.injEq] at k1 k3 k4 k5 hout
  refine ⟨hst, pre, s, s1, s2, hr, by simpa using k4, ?_, ?_, hout.1, hout.2⟩
  · have k5' : (Spec.settle (ctxOf s) []).env (some [108]) [108] = some 0x10 := k5
    refine ⟨some [108], [0xEA], _, ⟨⟨k3, by decide, by decide, ⟨_, k5'⟩, Or.inl ⟨by decide, rfl⟩⟩,
      Or.inl ⟨rfl, by decide, by decide, by decide, 0xEA, by decide, ?_, rfl⟩, Or.inr rfl⟩,
      ⟨some [108], [0x10, 0], _, ⟨rfl, Or.inl ⟨Or.inr (Or.inr rfl), ?_⟩⟩,
        ⟨some [108], [65, 66, 0x12], _, ⟨rfl, Or.inl ⟨Or.inr (Or.inl rfl), ?_⟩⟩,
          ⟨some [108], [7, 7, 7], _, ⟨rfl, Or.inl ⟨7, 3, rfl, rfl, by decide, by decide, (fun h => by cases h), rfl⟩⟩, ⟨rfl, rfl⟩, rfl⟩, rfl⟩, rfl⟩, rfl⟩
    · show Spec.decodeOf s.cpu 0xEA = _
      rw [k1]
      decide +kernel
    · show (Spec.itemValue ((Spec.settle (ctxOf s) []).env (some [108])) _ (.sym [108]) |>.bind (Spec.number 2)).bind _ = _
      simp only [Spec.itemValue, Spec.kids, Spec.eval, k5', List.all_nil, if_true]
      rfl
    · have ht : (Spec.settle (ctxOf s) []).text (cstr! "\"AB\"") = some (cstr! "AB") := by
        rw [show (Spec.settle (ctxOf s) []).text = textOf from rfl]
        decide +kernel
      simp [Spec.items, Spec.item, ht, Spec.itemValue, Spec.kids, Spec.eval, Spec.number, Spec.rng]
      decide
  · intro t ht
    simp only [relProg, List.mem_cons, List.not_mem_nil, or_false] at ht
    rcases ht with rfl | rfl | rfl | rfl
    · trivial
    · intro x hx
      simp only [List.mem_cons, List.not_mem_nil, or_false] at hx
      subst hx
      trivial
    · intro x hx
      simp only [List.mem_cons, List.not_mem_nil, or_false] at hx
      rcases hx with rfl | rfl
      · intro v hv
        have h : textOf (cstr! "\"AB\"") = some (cstr! "AB") := by decide +kernel
        rw [h] at hv
        cases hv
        refine ⟨by decide, ?_⟩
        unfold Quotable
        decide
      · trivial
    · trivial

end Verif
