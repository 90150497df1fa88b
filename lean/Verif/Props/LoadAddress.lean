import Verif.Lemmas.LoadAddress
import Verif.Props.Layout
import Verif.Props.Pass

/-! # Property C13: the load address is the address of `.org` -/

namespace Verif

/-- **C13, part**: a final pass in C64 format over any program, in any number of files, that starts with `.org e`, with
`e` of value `o`, and contains neither another `.org` nor `*=`: either nothing is written, or the file starts with the
two bytes of `o`, low byte first.  (The rest of the program is arbitrary: macros, blocks, loops, included text.)
Missing: programs with `*=`, where the origin in force is the one of the last `*=` that was executed. -/
theorem C13_org_partial (f : Nat) (file : Str) (line : Int) (e : Expr) (o : Int) (ts : List Top) (fs : Program)
    (output : Bool) (s : St) (h0 : s.out = []) (h1 : s.totalBytes = 0) (hc : s.format = .c64)
    (hb : s.nodeBase ≤ s.nodes.length) (hn : ∀ n ∈ s.nodes, n.kind ≠ .opr .pcAssign)
    (hp : Program.uses keepsOrigin (ts :: fs) = true) (hd : e.depth < f)
    (hv : Spec.eval (envOf { s with lastLabel := none }) 0x1000 e = some (o, false)) :
    let s' := (runPass (f + 1) ((.stmt file line (.org e) :: ts) :: fs) output true s).2
    s'.out = [] ∨ ∃ lo hi rest, s'.out = lo :: hi :: rest ∧ lo < 256 ∧ hi < 256 ∧
      ((lo + 256 * hi : Nat) : Int) = o % 65536 := by
  intro s'
  let a : St := resetSt { s with finalPass := true, outputOpen := true && output }
  obtain ⟨ns, hns, r⟩ := org_run (f := f) (s := a) file line hd rfl hb rfl hv
  have hstar : NoStar { a with
        file := file
        line := line
        nodes := ns
        pcAssigned := a.pcAssigned + 1
        pc := o
        origin := o
        originSpecified := true
        orgOriginSpecified := true } := by
    have hT : TOk (fun op => op ≠ .pcAssign) :=
      ⟨rfl, rfl, rfl, fun op => by cases op <;> rfl, fun op => by cases op <;> rfl⟩
    have := TPr.runTop (T := fun op => op ≠ .pcAssign) (expandNode_pr true (true && output) (f + 1)) (Pr.hasUninit (f + 1))
      (.stmt file line (.org e)) rfl a ⟨rfl, rfl, fun _ => by show 0 ≤ s.totalBytes; omega, fun h => absurd h (by decide)⟩
    rw [r] at this
    exact NoStar.tsteps rfl this hn
  generalize hb' : ({ a with
        file := file
        line := line
        nodes := ns
        pcAssigned := a.pcAssigned + 1
        pc := o
        origin := o
        originSpecified := true
        orgOriginSpecified := true } : St) = b at r hstar
  have hbo : b.origin = o := by rw [← hb']
  have hinv : HdrInv (fun v => v = o) b := by
    rw [← hb']
    exact ⟨hc, by show s.totalBytes = s.out.length; rw [h0, h1]; rfl, rfl, Or.inl h0⟩
  have hbody : forEachM (runFile (expandNode (f + 1)) (hasUninit (f + 1))) ((.stmt file line (.org e) :: ts) :: fs) a =
      forEachM (runFile (expandNode (f + 1)) (hasUninit (f + 1))) (ts :: fs) b := by
    show (runFile _ _ (.stmt file line (.org e) :: ts) >>= fun _ => _) a = (runFile _ _ ts >>= fun _ => _) b
    rw [run_bind, run_bind, runFile_cons r]
  have hrest := passBody_tsteps (T := keepsOrigin) (f + 1) (ts :: fs) hp b
    (fun _ => by rw [← hb']; show 0 ≤ s.totalBytes; omega) (fun _ => Or.inl (by rw [← hb']))
  have key := HdrInv.tsteps_org ⟨rfl, rfl⟩ hrest hstar hinv
  rw [← hbody] at key
  have hout : s'.out = (forEachM (runFile (expandNode (f + 1)) (hasUninit (f + 1)))
      ((.stmt file line (.org e) :: ts) :: fs) a).2.out := by
    show (runPass _ _ _ _ _).2.out = _
    unfold runPass
    rcases parsePass_cases (f + 1) ((.stmt file line (.org e) :: ts) :: fs)
      { s with finalPass := true, outputOpen := true && output } with ⟨t, h1, h2⟩ | ⟨r, t, h1, _, h2⟩
    · rw [h2]; show t.out = _; rw [h1]
    · rw [h2]; show t.out = _; rw [h1]
  rw [hout]
  rcases key.2.2.2 with h | ⟨v, rest, hv, h⟩
  · exact Or.inl h
  · exact Or.inr ⟨_, _, rest, h, by omega, by omega, by subst hv; omega⟩

/-- **C13, part**, for whole assemblies: the program starts with `.org e`, where `e` has the value `o` whatever the
symbols are, and contains neither another `.org` nor `*=`.  Then the file written by the final pass is empty or starts
with the two bytes of `o`. -/
theorem C13_assemble_partial (f : Nat) (file : Str) (line : Int) (e : Expr) (o : Int) (ts : List Top) (fs : Program)
    (F : AsmFiles) (s : St) (h0 : s.out = []) (h1 : s.totalBytes = 0) (hc : s.format = .c64)
    (hb : s.nodeBase ≤ s.nodes.length) (hn : ∀ n ∈ s.nodes, n.kind ≠ .opr .pcAssign)
    (hp : Program.uses keepsOrigin (ts :: fs) = true) (hd : e.depth < f)
    (hv : ∀ env, Spec.eval env 0x1000 e = some (o, false)) :
    ∀ p ∈ (assembleProg (f + 1) ((.stmt file line (.org e) :: ts) :: fs) F s).passes, p.1 = true →
      p.2.2.out = [] ∨ ∃ lo hi rest, p.2.2.out = lo :: hi :: rest ∧ lo < 256 ∧ hi < 256 ∧
        ((lo + 256 * hi : Nat) : Int) = o % 65536 := by
  intro p hm hfin
  have hT : TOk (fun op => op ≠ .pcAssign) :=
    ⟨rfl, rfl, rfl, fun op => by cases op <;> rfl, fun op => by cases op <;> rfl⟩
  have hall : Program.uses (fun op => op ≠ .pcAssign) ((.stmt file line (.org e) :: ts) :: fs) = true := by
    simp only [Program.uses, List.all_cons, Bool.and_eq_true] at hp ⊢
    have mono : ∀ t : Top, t.uses keepsOrigin = true → t.uses (fun op => op ≠ .pcAssign) = true :=
      fun t => t.uses_mono (by intro op; cases op <;> decide)
    exact ⟨⟨rfl, List.all_eq_true.mpr fun t ht => mono t (List.all_eq_true.mp hp.1 t ht)⟩,
      List.all_eq_true.mpr fun ts hts => List.all_eq_true.mpr fun t ht =>
        mono t (List.all_eq_true.mp (List.all_eq_true.mp hp.2 ts hts) t ht)⟩
  have key := assemble_starts (passSem (f + 1) ((.stmt file line (.org e) :: ts) :: fs) F.output.isSome) F
    (fun a => a.out = [] ∧ a.totalBytes = 0 ∧ a.format = .c64 ∧ a.nodeBase ≤ a.nodes.length ∧ NoStar a) (by
      intro a b hab ⟨a1, a2, a3, a4, a5⟩
      obtain ⟨t, ht, he⟩ := runPass_tsteps (T := fun op => op ≠ .pcAssign) (f + 1) _ hall F.output.isSome false a
        (fun c => by cases c)
      have n1 := NoStar.tsteps rfl ht a5
      have g := ht.rel (R := fun s t => (s.format = .c64 → t.format = .c64) ∧ t.nodeBase = s.nodeBase ∧
          s.nodes.length ≤ t.nodes.length) (fun _ => ⟨id, rfl, Nat.le_refl _⟩)
        (fun _ _ _ x y => ⟨fun h => y.1 (x.1 h), y.2.1.trans x.2.1, Nat.le_trans x.2.2 y.2.2⟩)
        (fun _ _ h => ⟨fun e => h.frame.format.trans e, h.frame.nodeBase, h.frame.nodes⟩)
        (fun _ _ => ⟨id, rfl, Nat.le_refl _⟩) (fun _ _ => ⟨id, rfl, Nat.le_refl _⟩) (fun _ => ⟨fun _ => rfl, rfl, Nat.le_refl _⟩)
      have h2 := C17_pass (f + 1) ((.stmt file line (.org e) :: ts) :: fs) F.output.isSome a
      rw [passSem_parse hab] at he h2
      have e1 : b.nodes = t.nodes := tail_proj he St.nodes rfl
      have e2 : b.format = t.format := tail_proj he St.format rfl
      refine ⟨h2.1.trans a1, h2.2.1.trans a2, e2.trans (g.1 a3), ?_, by unfold NoStar; rw [e1]; exact n1⟩
      rcases he with he | he
      · have : t.nodeBase ≤ t.nodes.length := by
          rw [g.2.1]
          exact Nat.le_trans a4 g.2.2
        rw [show b = t from he]
        exact this
      · rw [show b = _ from he]
        exact Nat.le_refl _) s ⟨h0, h1, hc, hb, hn⟩ p hm
  obtain ⟨⟨a1, a2, a3, a4, a5⟩, hpar⟩ := key
  have := C13_org_partial f file line e o ts fs F.output.isSome p.2.1 a1 a2 a3 a4 a5 hp hd (hv _)
  rw [hfin] at hpar
  rw [passSem_parse hpar] at this
  exact this

/-- The demo program starts with `.org $1000`; the rest contains labels, data, a macro definition and a call.  The final
pass writes the load address and nine bytes. -/
example : (demoProg.map (·.drop 1)).all (fun ts => ts.all (Top.uses keepsOrigin)) = true ∧
    ((assembleProg 30 demoProg { output := some true } { format := .c64 }).passes.map
      fun e => (e.1, e.2.2.out.take 2, e.2.2.out.length)) = [(false, [], 0), (false, [], 0), (true, [0x00, 0x10], 11)] := by
  decide +kernel

/-- `nop` before `.org $2000` and after it. -/
def gapProg : Program := [[
  .stmt [97] 1 (.op Ins._nop .i none),
  .stmt [97] 2 (.org (.int 0x2000)),
  .stmt [97] 3 (.op Ins._nop .i none)]]

/-- **C13** is false when code comes before `.org`: the first `nop` is assembled at $1000, as the listing says, but the header has the
address $2000 that `.org` set in the pass before. -/
theorem C13_stale_false : let r := assembleProg 12 gapProg { output := some true } { format := .c64 }
    r.status = some 0 ∧ (r.passes.getLast?.map fun p => p.2.2.out) = some [0x00, 0x20, 0xEA, 0xEA] ∧
      (r.passes.getLast?.map fun p => p.2.2.listing.map fun e => e.output.take 5) = some [cstr! "$1000", cstr! "$2000"] := by
  decide +kernel

end Verif
