import Verif.Lemmas.Data

/-! # Exact runs of `.fill` -/

namespace Verif

theorem orig_id {s : St} (h : s.originSpecified = true) : orig s = s := by
  unfold orig
  split
  · cases s
    cases h
    rfl
  · rfl

/-- A top-level statement whose expansion ends the program. -/
theorem runTop_exit {ex : Ptr → M Int} {hu : Ptr → M Bool} {file : Str} {line : Int} {st : Stmt}
    (hw : ∀ b n a, st ≠ .word b n a) {s s1 s2 : St} {p : Ptr} {c : Int}
    (h1 : buildStmt ex hu false st { s with file := file, line := line } = (.ok (some p), s1))
    (h2 : ex p s1 = (.exit c, s2)) : runTop ex hu (.stmt file line st) s = (.exit c, s2) := by
  have : runTop ex hu (.stmt file line st) = (modS fun s => { s with file := file, line := line }) >>= fun _ =>
      buildStmt ex hu false st >>= fun r => match r with
        | none => M.pure false
        | some p => ex p >>= fun _ => M.pure true := by
    cases st <;> first | rfl | exact absurd rfl (hw _ _ _)
  rw [this, modS_bind, bind_ok h1]
  show (ex p >>= fun _ => M.pure true) s1 = _
  show M.bind (ex p) _ s1 = _
  unfold M.bind
  rw [h2]

/-- No header is due. -/
def NoHdr (s : St) : Prop := emitting s = true → s.format = .bin ∨ 0 < s.totalBytes

theorem NoHdr.outHdr {s : St} (h : NoHdr s) (he : emitting s = true) : outHdr s = [] := by
  unfold Verif.outHdr
  rcases h he with h | h
  · simp [h, headerBytes]
  · rw [if_neg (by omega)]

theorem Asm.total {s s' : St} {n : Int} {bs : List Nat} {ls : List ListEntry} (h : Asm s s' n bs ls)
    (h0 : 0 ≤ s.totalBytes) : 0 ≤ s'.totalBytes := by
  obtain ⟨ns, cg, ds, bd, et, g, rfl⟩ := h
  show 0 ≤ s.totalBytes + _
  split <;> omega

theorem NoHdr.asm {s s' : St} {n : Int} {bs : List Nat} {ls : List ListEntry} (h : Asm s s' n bs ls) (h0 : 0 ≤ s.totalBytes)
    (hn : NoHdr s ∨ bs ≠ []) : NoHdr s' := by
  obtain ⟨ns, cg, ds, bd, et, g, rfl⟩ := h
  intro he
  have he' : emitting s = true := he
  show s.format = .bin ∨ 0 < s.totalBytes + _
  rw [if_pos he']
  rcases hn with hn | hn
  · rcases hn he' with h | h
    · exact Or.inl h
    · exact Or.inr (by omega)
  · have : 0 < bs.length := List.length_pos_iff.2 hn
    exact Or.inr (by omega)

/-- The helper nodes of `.fill`. -/
structure FillAt (s : St) (b : Int) (two one : Ptr) : Prop where
  two : ∃ c, Live s two ⟨.data 2 c, 0, []⟩ ∧ Live s c ⟨.con (b * 256 + b) false, 0, []⟩
  one : ∃ c, Live s one ⟨.data 1 c, 0, []⟩ ∧ Live s c ⟨.con b false, 0, []⟩

theorem expandDataCon_run {f : Nat} {s : St} {p c : Ptr} {size v : Int} (he : s.endExpansion = false)
    (hp : Live s p ⟨.data size c, 0, []⟩) (hc : Live s c ⟨.con v false, 0, []⟩) :
    expandNode (f + 2) p s = (.ok v, dataSt s size) := by
  rw [expandNode_run he hp]
  show expandNode (f + 1) c (dataSt s size) = _
  rw [expandNode_run (s := dataSt s size) he hc]
  rfl

/-- Output and listing of one helper node. -/
theorem fillEmit_run {f : Nat} {s : St} {p c : Ptr} {size v : Int} {bs : List Nat} (he : s.endExpansion = false)
    (hsize : size = 1 ∨ size = 2) (hv : InInt v) (hn : Spec.number size v = some bs)
    (hp : Live s p ⟨.data size c, 0, []⟩) (hc : Live s c ⟨.con v false, 0, []⟩) (hfin : s.finalPass = true)
    (ho : s.originSpecified = true) (hroom : Room s) (hh : NoHdr s) (hds : s.dataSize = size)
    {α : Type} (k : Int → M α) :
    ∃ bd, (do
      let b ← generateOutput (expandNode (f + 2)) p
      let bytes := if b = 0 then size else b
      generateListNode (expandNode (f + 2)) p
      addPc bytes
      k bytes : M α) s = (k size { s with
        expansionType := .dataBytes
        byteDelta := bd
        out := s.out ++ (if emitting s then outHdr s ++ bs else [])
        totalBytes := s.totalBytes + (if emitting s then (((outHdr s).length + bs.length : Nat) : Int) else 0)
        listing := s.listing ++ [listRow s (dataRow s.pc (bs.map Int.ofNat))]
        pc := s.pc + size }) := by
  have hlen := number_length hn (by omega)
  have hsz : size ≠ 0 := by omega
  -- the listing, from any state like s
  have list : ∀ t : St, t.endExpansion = false → Live t p ⟨.data size c, 0, []⟩ → Live t c ⟨.con v false, 0, []⟩ →
      generateListNode (expandNode (f + 2)) p t = (.ok (), { dataSt t size with
        listing := t.listing ++ [listRow t (dataRow t.pc (bs.map Int.ofNat))] }) := by
    intro t hte htp htc
    unfold generateListNode
    rw [bind_ok htp.run]
    show listData _ p t = _
    unfold listData
    rw [getS_bind, bind_ok (expandDataCon_run hte htp htc), getS_bind]
    obtain ⟨g1, g2⟩ := number_list hn (by omega)
    show (if (if v < 0 ∧ size = 1 then 0 else cand v 0xFF00 / 256) ≠ 0 ∧ size < 2 then ubM else
      addList (dataRow t.pc (if size > 1 then [cand v 0xFF, (if v < 0 ∧ size = 1 then 0 else cand v 0xFF00 / 256)]
        else [cand v 0xFF]))) (dataSt t size) = _
    rw [if_neg g1, g2]
    rfl
  have het : (if size = 0 then ExpType.dataStrings else .dataBytes) = .dataBytes := if_neg hsz
  by_cases hout : s.outputOpen = true
  · have hem : emitting s = true := by simp [emitting, hfin, hout, ho]
    have hhd := hh.outHdr hem
    obtain ⟨d, hw⟩ := withHeader_eq s
    rw [show (if s.totalBytes = 0 then headerBytes s.format s.origin else []) = outHdr s from rfl, hhd, outBytes_nil] at hw
    have hpay : payload (expandNode (f + 2)) p ⟨.data size c, 0, []⟩ (withHeader s) =
        (.ok (), outBytes (dataSt { s with byteDelta := d } size) bs) := by
      rw [hw]
      show writeDataNode _ p _ = _
      unfold writeDataNode
      rw [bind_ok (expandDataCon_run (s := { s with byteDelta := d }) he hp hc), if_neg (number_ne hn),
        writeDataValue_run (s := dataSt { s with byteDelta := d } size) hv hn (by show size = 0 ∨ size = 1 ∨ size = 2; omega)]
    have hr := hroom hem
    rw [hhd] at hr
    have hg := generateOutput_run (s := s) hout ho (by rw [hw]; simpa using hr)
      (by rw [hw]; exact Live.run (s := { s with byteDelta := d }) hp) hpay
    have hb : (outBytes (dataSt { s with byteDelta := d } size) bs).totalBytes - s.totalBytes = size := by
      show s.totalBytes + (bs.length : Int) - s.totalBytes = size
      rw [hlen]
      rcases hsize with h | h <;> rw [h] <;> simp <;> omega
    rw [hb] at hg
    refine ⟨d, ?_⟩
    rw [bind_ok hg]
    simp only [if_neg hsz]
    rw [bind_ok (list (outBytes (dataSt { s with byteDelta := d } size) bs) he hp hc)]
    show k size _ = _
    congr 1
    simp only [outBytes, dataSt, listRow, het, hem, if_true, hhd, List.nil_append, List.length_nil, Nat.zero_add, hds, ho]
  · have hout' : s.outputOpen = false := by simpa using hout
    have hem : emitting s = false := by simp [emitting, hout']
    refine ⟨s.byteDelta, ?_⟩
    rw [bind_ok (generateOutput_closed (Or.inl hout'))]
    simp only [if_true]
    rw [bind_ok (list s he hp hc)]
    show k size _ = _
    congr 1
    simp only [dataSt, listRow, het, hem, Bool.false_eq_true, if_false, List.append_nil, Int.add_zero, hds, ho]

/-- One round of the loop. -/
theorem fillStep_run {f : Nat} {s : St} {two one : Ptr} {b count : Int} (he : s.endExpansion = false)
    (hb : 0 ≤ b ∧ b ≤ 255) (hat : FillAt s b two one) (hfin : s.finalPass = true) (ho : s.originSpecified = true)
    (hroom : Room s) (hh : NoHdr s) (hcount : 0 < count) :
    ∃ s' ls, fillStep (expandNode (f + 2)) count two one s = (.ok (count - (if count > 1 then 2 else 1)), s') ∧
      Asm s s' (if count > 1 then 2 else 1) (List.replicate (if count > 1 then 2 else 1) b.toNat) ls ∧ s'.nodes = s.nodes ∧
      ∀ q, Spec.Prints q s.file s.line s.pc ls (List.replicate (if count > 1 then 2 else 1) b.toNat) := by
  have key : ∀ (w : Int) (p c : Ptr) (v : Int) (bs : List Nat), w = 1 ∨ w = 2 → InInt v → Spec.number w v = some bs →
      Live s p ⟨.data w c, 0, []⟩ → Live s c ⟨.con v false, 0, []⟩ →
      ∃ s' ls, ((modS fun s => { s with dataSize := w }) >>= fun _ => do
        let b ← generateOutput (expandNode (f + 2)) p
        let bytes := if b = 0 then w else b
        generateListNode (expandNode (f + 2)) p
        addPc bytes
        M.pure (count - bytes) : M Int) s = (.ok (count - w), s') ∧ Asm s s' w bs ls ∧ s'.nodes = s.nodes ∧
        ∀ q, Spec.Prints q s.file s.line s.pc ls bs := by
    intro w p c v bs hw hv hn hp hc
    let t : St := { s with dataSize := w }
    obtain ⟨bd, r⟩ := fillEmit_run (f := f) (s := t) he hw hv hn hp hc hfin ho hroom hh rfl
      (fun bytes => (M.pure (count - bytes) : M Int))
    refine ⟨{ t with
        expansionType := .dataBytes
        byteDelta := bd
        out := t.out ++ (if emitting t then outHdr t ++ bs else [])
        totalBytes := t.totalBytes + (if emitting t then (((outHdr t).length + bs.length : Nat) : Int) else 0)
        listing := t.listing ++ [listRow t (dataRow t.pc (bs.map Int.ofNat))]
        pc := t.pc + w }, [listRow s (dataRow s.pc (bs.map Int.ofNat))], ?_,
      ⟨s.nodes, s.codeGenerated, w, bd, .dataBytes, HeapSim.refl _ _ _, ?_⟩, rfl, fun q => ?_⟩
    · rw [modS_bind]
      exact r
    · simp only [if_pos hfin]
      rfl
    · have hlen := number_length hn (by omega)
      have h1 : bs.length = 1 ∨ bs.length = 2 := by split at hlen <;> omega
      exact Prints.one (by rintro rfl; simp at h1) (by omega) (dataRow_shows (number_bytes hn) s.pc)
  by_cases hc : count > 1
  · obtain ⟨c, hp, hcc⟩ := hat.two
    have hn : Spec.number 2 (b * 256 + b) = some (List.replicate 2 b.toNat) := by
      unfold Spec.number
      rw [if_neg (by decide), if_pos rfl, if_pos (by omega)]
      rw [show (b * 256 + b) % 256 = b by omega, show (b * 256 + b) / 256 = b by omega, show b % 256 = b by omega]
      rfl
    obtain ⟨s', ls, r, a, hn'⟩ := key 2 two c _ _ (Or.inr rfl) (by unfold InInt; omega) hn hp hcc
    unfold fillStep
    simp only [if_pos hc]
    exact ⟨s', ls, r, a, hn'⟩
  · obtain ⟨c, hp, hcc⟩ := hat.one
    have hn : Spec.number 1 b = some (List.replicate 1 b.toNat) := by
      unfold Spec.number
      rw [if_pos rfl, if_pos (by omega)]
      rw [show b % 256 = b by omega]
      rfl
    obtain ⟨s', ls, r, a, hn'⟩ := key 1 one c _ _ (Or.inl rfl) (by unfold InInt; omega) hn hp hcc
    unfold fillStep
    simp only [if_neg hc]
    exact ⟨s', ls, r, a, hn'⟩


theorem Asm.refl {s : St} (hh : NoHdr s) : Asm s s 0 [] [] := by
  refine ⟨s.nodes, s.codeGenerated, s.dataSize, s.byteDelta, s.expansionType, HeapSim.refl _ _ _, ?_⟩
  by_cases he : emitting s = true
  · simp [he, hh.outHdr he]
  · simp [he]

/-- The loop. -/
theorem fillLoop_run {g : Nat} {two one : Ptr} {b : Int} (hb : 0 ≤ b ∧ b ≤ 255) : ∀ (f n : Nat) (s : St), n ≤ 2 * f →
    s.endExpansion = false → FillAt s b two one → s.finalPass = true → s.originSpecified = true → Room s → NoHdr s →
    0 ≤ s.totalBytes →
    ∃ s' ls, fillLoop (expandNode (g + 2)) two one f n s = (.ok (), s') ∧ Asm s s' n (List.replicate n b.toNat) ls ∧
      ∀ q, Spec.Prints q s.file s.line s.pc ls (List.replicate n b.toNat)
  | 0, n, s, hn, _, _, _, _, _, hh, _ => by
    obtain rfl : n = 0 := by omega
    exact ⟨s, [], rfl, Asm.refl hh, fun q => .nil _⟩
  | f + 1, n, s, hn, he, hat, hfin, ho, hroom, hh, h0 => by
    by_cases hz : (n : Int) > 0
    · obtain ⟨s1, l1, r1, a1, hnodes, p1⟩ := fillStep_run (f := g) he hb hat hfin ho hroom hh hz
      have hw : ∃ w : Nat, (if (n : Int) > 1 then (2 : Nat) else 1) = w ∧ w ≤ n ∧ 1 ≤ w ∧ (n - w) ≤ 2 * f ∧
          (if (n : Int) > 1 then (2 : Int) else 1) = w := by
        by_cases h1 : (n : Int) > 1
        · refine ⟨2, if_pos h1, by omega, by omega, by omega, by rw [if_pos h1]; rfl⟩
        · refine ⟨1, if_neg h1, by omega, by omega, by omega, by rw [if_neg h1]; rfl⟩
      obtain ⟨w, e1, h1, h2, h3, e2⟩ := hw
      rw [e1, e2] at a1
      rw [e1] at p1
      rw [e2, show (n : Int) - w = ((n - w : Nat) : Int) by omega] at r1
      have room1 := a1.room hroom (by simp)
      have hdr1 := NoHdr.asm a1 h0 (Or.inl hh)
      have hf := a1.facts
      have hs : s1.finalPass = s.finalPass ∧ s1.originSpecified = s.originSpecified ∧ s1.file = s.file ∧ s1.line = s.line ∧
          s1.pc = s.pc + w := by
        obtain ⟨_, _, _, _, _, _, rfl⟩ := a1
        exact ⟨rfl, rfl, rfl, rfl, rfl⟩
      have hl : ∀ p m, Live s p m → Live s1 p m := fun p m h => by
        unfold Live
        rw [hnodes, hf.2.1]
        exact h
      have hat1 : FillAt s1 b two one := by
        obtain ⟨⟨c, hc1, hc2⟩, ⟨d, hd1, hd2⟩⟩ := hat
        exact ⟨⟨c, hl _ _ hc1, hl _ _ hc2⟩, ⟨d, hl _ _ hd1, hl _ _ hd2⟩⟩
      obtain ⟨s2, l2, r2, a2, p2⟩ := fillLoop_run hb f (n - w) s1 h3 (hf.2.2.2.1.trans he) hat1 (hs.1.trans hfin)
        (hs.2.1.trans ho) room1 hdr1 (a1.total h0)
      refine ⟨s2, l1 ++ l2, ?_, ?_, fun q => ?_⟩
      · unfold fillLoop
        rw [if_pos hz, bind_ok r1]
        exact r2
      · have := Asm.comp h0 a1 a2
        rw [List.replicate_append_replicate, show w + (n - w) = n by omega,
          show (w : Int) + ((n - w : Nat) : Int) = n by omega] at this
        exact this
      · have h := p2 q
        rw [hs.2.2.1, hs.2.2.2.1, hs.2.2.2.2] at h
        have := Prints.append (p1 q) (by rw [List.length_replicate]; exact h)
        rwa [List.replicate_append_replicate, show w + (n - w) = n by omega] at this
    · obtain rfl : n = 0 := by omega
      exact ⟨s, [], rfl, Asm.refl hh, fun q => .nil _⟩

/-- Assembling `.fill` with known values; outside of the final pass only for a positive count. -/
theorem fillStmt_run {f : Nat} {s : St} {ve ne : Expr} {v : Int} {n : Nat} (file : Str) (line : Int)
    (hf : 2 ≤ f) (hfn : n ≤ 2 * f) (hd1 : ve.depth < f) (hd2 : ne.depth < f) (he : s.endExpansion = false)
    (hb : s.nodeBase ≤ s.nodes.length) (h0 : 0 ≤ s.totalBytes)
    (hv : Spec.eval (envOf s) s.pc ve = some (v, false)) (hn : Spec.eval (envOf s) s.pc ne = some ((n : Int), false))
    (hrange : 0 ≤ v ∧ v ≤ 255)
    (hpos : s.finalPass = false → 0 < n) (hfin : s.finalPass = true → s.originSpecified = true ∧ Room s ∧ NoHdr s) :
    ∃ s' ls, runTop (expandNode (f + 1)) (hasUninit (f + 1)) (.stmt file line (.fill ve ne)) s = (.ok true, s') ∧
      Asm (atLine s file line) s' n (List.replicate n v.toNat) ls ∧
      (s.finalPass = true → ∀ q, Spec.Prints q file line s.pc ls (List.replicate n v.toNat)) := by
  let s0 := atLine s file line
  have hb0 : s0.nodeBase ≤ s0.nodes.length := hb
  obtain ⟨l1, q1, h1, h2⟩ := buildExpr_run (lk := look s) ve s0 hb
  let s1 : St := { s0 with nodes := s0.nodes ++ l1 }
  have hb1 : s1.nodeBase ≤ s1.nodes.length := by simp only [s1, List.length_append]; omega
  obtain ⟨l2, q2, h3, h4⟩ := buildExpr_run (lk := look s) ne s1 hb1
  let s2 : St := { s1 with nodes := s1.nodes ++ l2 }
  have hb2 : s2.nodeBase ≤ s2.nodes.length := by simp only [s2, List.length_append]; omega
  let N : Node := ⟨.opr .fill, 2, [q1, q2]⟩
  let s3 : St := { s2 with nodes := s2.nodes ++ [N] }
  have hl : Live s3 s2.nodes.length N := ⟨hb2, by simp [s3]⟩
  have t1 : ExprAt (look s) s.nodeBase s3.nodes ve q1 :=
    (h2.sim (HeapSim.append false _ _ l2)).sim (HeapSim.append false _ _ [N])
  have t2 : ExprAt (look s) s.nodeBase s3.nodes ne q2 := h4.sim (HeapSim.append false _ _ [N])
  obtain ⟨n4, r4, sim4, _⟩ := expand_ok (f := f) (s := s3) hd1 he t1 hv
  let s4 : St := { s3 with nodes := n4 }
  obtain ⟨n5, r5, sim5, _⟩ := expand_ok (f := f) (s := s4) hd2 he (t2.sim sim4) hn
  let s5 : St := { s4 with nodes := n5 }
  have sim : HeapSim true (look s) s.nodes n5 := by
    refine HeapSim.trans ?_ (sim4.trans sim5).mono
    show HeapSim true _ s.nodes (s.nodes ++ l1 ++ l2 ++ [N])
    exact ((HeapSim.append _ _ _ _).trans (HeapSim.append _ _ _ _)).trans (HeapSim.append _ _ _ _)
  have hb5 : s5.nodeBase ≤ s5.nodes.length := Nat.le_trans hb sim.1
  have pre : ∀ {s'}, (if s5.finalPass then do
          modS fun s => { s with dataSize := 0 }
          let c2 ← constantNode (v * 256 + v) false
          let two ← dataNode 2 c2
          let c1 ← constantNode v false
          let one ← dataNode 1 c1
          fillLoop (expandNode f) two one f n
        else addPc (if (n : Int) > 0 then (n : Int) else 1)) s5 = (.ok (), s') →
      runTop (expandNode (f + 1)) (hasUninit (f + 1)) (.stmt file line (.fill ve ne)) s = (.ok true, s') := by
    intro s' hs'
    refine runTop_stmt (v := v) (p := s2.nodes.length) (s1 := s3) (by intro _ _ _ h; cases h) ?_ ?_
    · refine built_run ?_
      show (buildExpr ve >>= fun p => buildExpr ne >>= fun q => operatorNode .fill [p, q]) s0 = _
      rw [bind_ok h1]
      show (buildExpr ne >>= fun q => operatorNode .fill [q1, q]) s1 = _
      rw [bind_ok h3]
      exact alloc_run _ _ _
    · rw [expandNode_run (s := s3) he hl]
      show expandFill (expandNode f) f N s3 = _
      unfold expandFill
      rw [bind_ok (opAt_run (show N.ops[0]? = some q1 from rfl) s3), bind_ok r4,
        bind_ok (opAt_run (show N.ops[1]? = some q2 from rfl) _), bind_ok r5, if_neg (by omega), getS_bind, bind_ok hs']
      rfl
  by_cases hfp : s.finalPass = true
  · obtain ⟨ho, hroom, hh⟩ := hfin hfp
    let C2 : Node := ⟨.con (v * 256 + v) false, 0, []⟩
    let T : Node := ⟨.data 2 s5.nodes.length, 0, []⟩
    let C1 : Node := ⟨.con v false, 0, []⟩
    let O : Node := ⟨.data 1 (s5.nodes.length + 2), 0, []⟩
    let s6 : St := { s5 with dataSize := 0, nodes := s5.nodes ++ [C2] ++ [T] ++ [C1] ++ [O] }
    have hat : FillAt s6 v (s5.nodes.length + 1) (s5.nodes.length + 3) := by
      have hb6 : s6.nodeBase ≤ s5.nodes.length := hb5
      refine ⟨⟨s5.nodes.length, ⟨Nat.le_trans hb6 (by omega), ?_⟩, ⟨hb6, ?_⟩⟩,
        ⟨s5.nodes.length + 2, ⟨Nat.le_trans hb6 (by omega), ?_⟩, ⟨Nat.le_trans hb6 (by omega), ?_⟩⟩⟩
      all_goals
        show (s5.nodes ++ [C2] ++ [T] ++ [C1] ++ [O])[_]? = _
        simp [C2, T, C1, O]
    obtain ⟨g, rfl⟩ : ∃ g, f = g + 2 := ⟨f - 2, by omega⟩
    obtain ⟨s', ls, r, a, p⟩ := fillLoop_run (g := g) hrange (g + 2) n s6 hfn he hat hfp ho hroom hh h0
    refine ⟨s', ls, pre ?_, ?_, fun _ => p⟩
    · rw [if_pos (show s5.finalPass = true from hfp), modS_bind]
      unfold constantNode dataNode
      rw [bind_assoc', getS_bind, bind_ok (alloc_run _ _ _), bind_ok (alloc_run _ _ _), bind_assoc', getS_bind,
        bind_ok (alloc_run _ _ _), bind_ok (alloc_run _ _ _)]
      simp only [List.length_append, List.length_cons, List.length_nil, Nat.zero_add, Nat.add_assoc, Nat.reduceAdd]
      exact r
    · obtain ⟨ns, cg, ds, bd, et, sim', rfl⟩ := a
      refine ⟨ns, cg, ds, bd, et, ?_, rfl⟩
      refine HeapSim.trans sim (HeapSim.trans ?_ sim')
      show HeapSim true _ n5 (n5 ++ [C2] ++ [T] ++ [C1] ++ [O])
      exact (((HeapSim.append _ _ _ _).trans (HeapSim.append _ _ _ _)).trans (HeapSim.append _ _ _ _)).trans
        (HeapSim.append _ _ _ _)
  · have hfp' : s.finalPass = false := by simpa using hfp
    refine ⟨{ s5 with pc := s5.pc + n }, [], pre ?_, ?_, fun h => absurd h hfp⟩
    · rw [if_neg (show ¬ s5.finalPass = true from hfp), if_pos (by have := hpos hfp'; omega)]
      rfl
    · refine ⟨n5, s.codeGenerated, s.dataSize, s.byteDelta, s.expansionType, sim, ?_⟩
      have : emitting s0 = false := emitting_final hfp'
      simp only [s0] at this
      simp only [this, Bool.false_eq_true, if_false, List.append_nil, Int.add_zero, ite_self]
      rfl

/-- Assembling `.fill` with arguments out of range. -/
theorem fillStmt_reject {f : Nat} {s : St} {ve ne : Expr} {v n : Int} (file : Str) (line : Int)
    (hd1 : ve.depth < f) (hd2 : ne.depth < f) (he : s.endExpansion = false) (hb : s.nodeBase ≤ s.nodes.length)
    (hv : Spec.eval (envOf s) s.pc ve = some (v, false)) (hn : Spec.eval (envOf s) s.pc ne = some (n, false))
    (hbad : v < 0 ∨ v > 255 ∨ n < 0) :
    ∃ s', runTop (expandNode (f + 1)) (hasUninit (f + 1)) (.stmt file line (.fill ve ne)) s = (.exit (-1), s') ∧
      s'.errorCount = s.errorCount + 1 ∧ s'.out = s.out ∧ s'.pc = s.pc := by
  let s0 := atLine s file line
  obtain ⟨l1, q1, h1, h2⟩ := buildExpr_run (lk := look s) ve s0 hb
  let s1 : St := { s0 with nodes := s0.nodes ++ l1 }
  have hb1 : s1.nodeBase ≤ s1.nodes.length := by
    have : s0.nodeBase ≤ s0.nodes.length := hb
    simp only [s1, List.length_append]
    omega
  obtain ⟨l2, q2, h3, h4⟩ := buildExpr_run (lk := look s) ne s1 hb1
  let s2 : St := { s1 with nodes := s1.nodes ++ l2 }
  have hb2 : s2.nodeBase ≤ s2.nodes.length := by simp only [s2, List.length_append]; omega
  let N : Node := ⟨.opr .fill, 2, [q1, q2]⟩
  let s3 : St := { s2 with nodes := s2.nodes ++ [N] }
  have hl : Live s3 s2.nodes.length N := ⟨hb2, by simp [s3]⟩
  have t1 : ExprAt (look s) s.nodeBase s3.nodes ve q1 :=
    (h2.sim (HeapSim.append false _ _ l2)).sim (HeapSim.append false _ _ [N])
  have t2 : ExprAt (look s) s.nodeBase s3.nodes ne q2 := h4.sim (HeapSim.append false _ _ [N])
  obtain ⟨n4, r4, sim4, _⟩ := expand_ok (f := f) (s := s3) hd1 he t1 hv
  let s4 : St := { s3 with nodes := n4 }
  obtain ⟨n5, r5, sim5, _⟩ := expand_ok (f := f) (s := s4) hd2 he (t2.sim sim4) hn
  let s5 : St := { s4 with nodes := n5 }
  refine ⟨{ s5 with errorCount := s5.errorCount + 1, log := s5.log ++ [.valueOutOfRange] }, ?_, rfl, rfl, rfl⟩
  refine runTop_exit (p := s2.nodes.length) (s1 := s3) (by intro _ _ _ h; cases h) ?_ ?_
  · refine built_run ?_
    show (buildExpr ve >>= fun p => buildExpr ne >>= fun q => operatorNode .fill [p, q]) s0 = _
    rw [bind_ok h1]
    show (buildExpr ne >>= fun q => operatorNode .fill [q1, q]) s1 = _
    rw [bind_ok h3]
    exact alloc_run _ _ _
  · rw [expandNode_run (s := s3) he hl]
    show expandFill (expandNode f) f N s3 = _
    unfold expandFill
    rw [bind_ok (opAt_run (show N.ops[0]? = some q1 from rfl) s3), bind_ok r4,
      bind_ok (opAt_run (show N.ops[1]? = some q2 from rfl) _), bind_ok r5, if_pos hbad]
    rfl

end Verif
