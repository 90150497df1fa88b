import Verif.Model.Memory
import Verif.Lemmas.Memory

/-! # Property C67: the memory tracker of debug builds is exact -/

namespace Verif.Memory

/-- The memory as a program using `MALLOC`, `REALLOC` and `FREE` may expect it: the blocks in use with their contents, and
how often something was freed that was not in use. -/
structure Spec.Heap where
  /-- blocks in use -/
  live : List (Nat × List Byte) := []
  /-- wrong calls of `FREE` -/
  errors : Nat := 0
deriving DecidableEq, Repr

/-- Contents of a block in use. -/
def Spec.Heap.get (h : Spec.Heap) (a : Nat) : Option (List Byte) := (h.live.find? fun b => b.1 == a).map (·.2)

/-- What an operation does: a new block has indeterminate bytes, a resized one keeps the bytes it had. -/
def Spec.Heap.step : Op → Spec.Heap → Spec.Heap
  | .malloc size a, h => { h with live := (a, List.replicate size none) :: h.live }
  | .realloc m size a, h =>
    match h.get m with
    | some c => { h with live := (a, c.take size ++ List.replicate (size - c.length) none) :: h.live.filter fun b => b.1 != m }
    | none => { h with live := (a, List.replicate size none) :: h.live }
  | .free m _, h =>
    if (h.get m).isSome then { h with live := h.live.filter fun b => b.1 != m } else { h with errors := h.errors + 1 }
  | .write m i v, h => { h with live := h.live.map fun b => if b.1 = m then (b.1, b.2.set i (some v)) else b }

/-- What is asked of the C library and of the program: addresses of blocks that are allocated are not given out again;
entries of the dictionary are not blocks of the program; `realloc` leaves the block where it is; only blocks in use or
addresses never given out are resized; something was allocated before the first `FREE`; writing stays within a block in
use. -/
def Allowed (s : S) (h : Spec.Heap) : Op → Prop
  | .malloc _ a => s.block a = none
  | .realloc m _ a => ((h.get m).isSome ∧ a = m) ∨ (s.block m = none ∧ s.block a = none)
  | .free _ e => s.block e = none ∧ s.dict.isSome
  | .write m i _ => i < ((h.get m).getD []).length

instance (s : S) (h : Spec.Heap) (op : Op) : Decidable (Allowed s h op) := by
  cases op <;> (unfold Allowed; infer_instance)

/-- Each operation of a sequence is allowed when its turn comes. -/
def AllowedAll (hash : Nat → Nat) : List Op → S → Spec.Heap → Prop
  | [], _, _ => True
  | op :: ops, s, h => Allowed s h op ∧
    match step hash op s with
    | .ok s' => AllowedAll hash ops s' (h.step op)
    | .error _ => True

instance decAllowedAll (hash : Nat → Nat) : ∀ (ops : List Op) (s : S) (h : Spec.Heap), Decidable (AllowedAll hash ops s h)
  | [], _, _ => isTrue trivial
  | op :: ops, s, h => by
    unfold AllowedAll
    have : Decidable (match step hash op s with
      | .ok s' => AllowedAll hash ops s' (h.step op)
      | .error _ => True) := by
      cases step hash op s with
      | ok s' => exact decAllowedAll hash ops s' (h.step op)
      | error _ => exact isTrue trivial
    infer_instance

/-- Number of bytes in use. -/
def Spec.Heap.bytes (h : Spec.Heap) : Nat := (h.live.map fun b => b.2.length).sum

private def S.find (hash : Nat → Nat) (s : S) (a : Nat) : Option Entry := (s.dict.getD PDict.create).search hash a

private def alive (o : Option Entry) : Bool :=
  match o with
  | some e => e.deleted == 0
  | none => false

private structure Inv (hash : Nat → Nat) (s : S) (h : Spec.Heap) : Prop where
  rep : (s.dict.getD PDict.create).Rep hash
  nodup : (s.blocks.map (·.1)).Nodup
  ent : ∀ b ∈ s.blocks, ∃ e, s.find hash b.1 = some e ∧ e.memory = b.1 ∧ e.size = b.2.length
  blk : ∀ a, s.find hash a ≠ none → a ∈ s.blocks.map (·.1)
  live : h.live = s.blocks.filter fun b => alive (s.find hash b.1)
  total : s.total = h.bytes % 2 ^ 64
  errs : s.errors = h.errors

private theorem block_none {l : List (Nat × List Byte)} {a : Nat} (h : (l.find? fun b => b.1 == a).map (·.2) = none) :
    a ∉ l.map (·.1) := by
  rw [Option.map_eq_none_iff, List.find?_eq_none] at h
  rintro hm
  obtain ⟨x, hx, rfl⟩ := List.mem_map.mp hm
  exact h x hx (by simp)

private theorem find_of_mem {l : List (Nat × List Byte)} (hn : (l.map (·.1)).Nodup) {a : Nat} {c : List Byte}
    (h : (a, c) ∈ l) : (l.find? fun b => b.1 == a).map (·.2) = some c := by
  induction l with
  | nil => cases h
  | cons x l ih =>
    rw [List.map_cons, List.nodup_cons] at hn
    rcases List.mem_cons.mp h with h | h
    · subst h
      simp
    · have : x.1 ≠ a := by
        rintro rfl
        exact hn.1 (List.mem_map.mpr ⟨_, h, rfl⟩)
      rw [List.find?_cons_of_neg (by simpa using this)]
      exact ih hn.2 h

private theorem mem_of_find {l : List (Nat × List Byte)} {a : Nat} {c : List Byte}
    (h : (l.find? fun b => b.1 == a).map (·.2) = some c) : (a, c) ∈ l := by
  cases hf : l.find? fun b => b.1 == a with
  | none => rw [hf] at h; cases h
  | some x =>
    rw [hf] at h
    have h1 := List.mem_of_find?_eq_some hf
    have h2 := List.find?_some hf
    simp only [Option.map_some, Option.some.injEq, beq_iff_eq] at h h2
    rw [← h, ← h2]
    exact h1

private theorem sum_filter {l : List (Nat × List Byte)} (hn : (l.map (·.1)).Nodup) {a : Nat} {c : List Byte}
    (h : (a, c) ∈ l) : (l.map fun b => b.2.length).sum = c.length + ((l.filter fun b => b.1 != a).map fun b => b.2.length).sum := by
  induction l with
  | nil => cases h
  | cons x l ih =>
    rw [List.map_cons, List.nodup_cons] at hn
    rcases List.mem_cons.mp h with h | h
    · subst h
      have : (l.filter fun b => b.1 != a) = l := by
        rw [List.filter_eq_self]
        intro y hy
        simp only [bne_iff_ne, ne_eq]
        rintro rfl
        exact hn.1 (List.mem_map.mpr ⟨_, hy, rfl⟩)
      simp [this]
    · have : x.1 ≠ a := by
        rintro rfl
        exact hn.1 (List.mem_map.mpr ⟨_, h, rfl⟩)
      have ht : (x.1 != a) = true := by simpa using this
      rw [List.filter_cons, if_pos ht, List.map_cons, List.map_cons, List.sum_cons, List.sum_cons, ih hn.2 h]
      omega

private theorem Inv.fresh {hash : Nat → Nat} {s : S} {h : Spec.Heap} (i : Inv hash s h) {a : Nat} (ha : s.block a = none) :
    s.find hash a = none := by
  cases hf : s.find hash a with
  | none => rfl
  | some e => exact absurd (i.blk a (by rw [hf]; simp)) (block_none ha)

private theorem Inv.malloc {hash : Nat → Nat} {s : S} {h : Spec.Heap} (i : Inv hash s h) (size : Nat) {a : Nat}
    (ha : s.block a = none) :
    Inv hash (pasmMalloc hash size a s) { h with live := (a, List.replicate size none) :: h.live } := by
  have hn := i.fresh ha
  obtain ⟨r, hs⟩ := i.rep.insert hn ⟨size, a, 0⟩
  have hf : ∀ k, (pasmMalloc hash size a s).find hash k = if k = a then some ⟨size, a, 0⟩ else s.find hash k := hs
  have hb := block_none ha
  have hne : ∀ b ∈ s.blocks, b.1 ≠ a := fun b hb' e => hb (List.mem_map.mpr ⟨b, hb', e⟩)
  refine ⟨r, ?_, ?_, ?_, ?_, ?_, i.errs⟩
  · show ((a, _) :: s.blocks).map (·.1) |>.Nodup
    rw [List.map_cons, List.nodup_cons]
    exact ⟨hb, i.nodup⟩
  · intro b hb'
    rcases List.mem_cons.mp hb' with rfl | hb'
    · exact ⟨_, by rw [hf, if_pos rfl], rfl, by simp⟩
    · rw [hf, if_neg (hne b hb')]
      exact i.ent b hb'
  · intro k hk
    rw [hf] at hk
    show k ∈ ((a, _) :: s.blocks).map (·.1)
    rw [List.map_cons, List.mem_cons]
    split at hk
    · exact .inl ‹_›
    · exact .inr (i.blk k hk)
  · show _ = ((a, _) :: s.blocks).filter _
    have h1 : alive ((pasmMalloc hash size a s).find hash a) = true := by rw [hf, if_pos rfl]; rfl
    rw [List.filter_cons, if_pos h1, i.live]
    show (a, _) :: _ = (a, _) :: _
    congr 1
    apply List.filter_congr
    intro b hb'
    rw [hf, if_neg (hne b hb')]
  · have ht := i.total
    show (s.total + size) % 2 ^ 64 = (((a, List.replicate size none) :: h.live).map fun b => b.2.length).sum % 2 ^ 64
    rw [List.map_cons, List.sum_cons, List.length_replicate]
    have : h.bytes = (h.live.map fun b => b.2.length).sum := rfl
    rw [← this]
    omega

private theorem Inv.get {hash : Nat → Nat} {s : S} {h : Spec.Heap} (i : Inv hash s h) {m : Nat} {c : List Byte}
    (hg : h.get m = some c) : (m, c) ∈ h.live ∧ (m, c) ∈ s.blocks ∧ s.block m = some c ∧
      ∃ e, s.find hash m = some e ∧ e.memory = m ∧ e.size = c.length ∧ e.deleted = 0 := by
  have h1 := mem_of_find hg
  have h2 := h1
  rw [i.live, List.mem_filter] at h2
  obtain ⟨e, h3, h4, h5⟩ := i.ent _ h2.1
  refine ⟨h1, h2.1, find_of_mem i.nodup h2.1, e, h3, h4, h5, ?_⟩
  have h6 := h2.2
  simp only [h3, alive, beq_iff_eq] at h6
  exact h6

private theorem Inv.live_nodup {hash : Nat → Nat} {s : S} {h : Spec.Heap} (i : Inv hash s h) : (h.live.map (·.1)).Nodup := by
  rw [i.live]
  exact List.Sublist.nodup (List.Sublist.map _ List.filter_sublist) i.nodup

private theorem Inv.get_none {hash : Nat → Nat} {s : S} {h : Spec.Heap} (i : Inv hash s h) {m : Nat} (hg : h.get m = none) :
    alive (s.find hash m) = false := by
  have h1 := block_none hg
  cases hf : s.find hash m with
  | none => rfl
  | some e =>
    have h2 := i.blk m (by rw [hf]; simp)
    obtain ⟨b, hb, rfl⟩ := List.mem_map.mp h2
    cases ha : alive (some e) with
    | false => rfl
    | true =>
      refine absurd (List.mem_map.mpr ⟨b, ?_, rfl⟩) h1
      rw [i.live, List.mem_filter]
      exact ⟨hb, by rw [hf]; exact ha⟩

private theorem step_inv {hash : Nat → Nat} {s : S} {h : Spec.Heap} (i : Inv hash s h) (op : Op) (ha : Allowed s h op) :
    ∃ s', step hash op s = .ok s' ∧ Inv hash s' (h.step op) := by
  cases op with
  | malloc size a => exact ⟨_, rfl, i.malloc size ha⟩
  | realloc m size a =>
    rcases ha with ⟨hl, rfl⟩ | ⟨h1, h2⟩
    · obtain ⟨c, hg⟩ := Option.isSome_iff_exists.mp hl
      obtain ⟨hlm, hbm, hbl, e, hfe, hem, hes, hed⟩ := i.get hg
      have hfe' : (s.dict.getD PDict.create).search hash a = some e := hfe
      obtain ⟨r, hs⟩ := i.rep.update a fun e => { e with memory := a, size := size }
      simp only [step, pasmRealloc, hfe', hem, hbl, Spec.Heap.step, hg]
      refine ⟨_, rfl, ?_⟩
      generalize hS : S.mk _ _ _ _ = s'
      have hf : ∀ k, s'.find hash k = if k = a then some { e with memory := a, size := size } else s.find hash k := by
        intro k
        rw [← hS]
        have := hs k
        rw [hfe'] at this
        exact this
      have hb' : s'.blocks = (a, resize c size) :: s.blocks.filter fun b => b.1 != a := by rw [← hS]
      have hne : ∀ b ∈ s.blocks.filter (fun b => b.1 != a), b.1 ≠ a := fun b hb => by
        have := (List.mem_filter.mp hb).2
        simpa using this
      have hlen : (resize c size).length = size := by
        simp only [resize, List.length_append, List.length_take, List.length_replicate]
        omega
      refine ⟨by rw [← hS]; exact r, ?_, ?_, ?_, ?_, ?_, by rw [← hS]; exact i.errs⟩
      · rw [hb', List.map_cons, List.nodup_cons]
        refine ⟨?_, List.Sublist.nodup (List.Sublist.map _ List.filter_sublist) i.nodup⟩
        intro hm
        obtain ⟨b, hb, he⟩ := List.mem_map.mp hm
        exact hne b hb he
      · intro b hb
        rw [hb'] at hb
        rcases List.mem_cons.mp hb with rfl | hb
        · exact ⟨_, by rw [hf, if_pos rfl], rfl, hlen.symm⟩
        · rw [hf, if_neg (hne b hb)]
          exact i.ent b (List.mem_filter.mp hb).1
      · intro k hk
        rw [hb', List.map_cons, List.mem_cons]
        by_cases hka : k = a
        · exact .inl hka
        · rw [hf, if_neg hka] at hk
          obtain ⟨b, hb, rfl⟩ := List.mem_map.mp (i.blk k hk)
          exact .inr (List.mem_map.mpr ⟨b, List.mem_filter.mpr ⟨hb, by simpa using hka⟩, rfl⟩)
      · have h1 : alive (s'.find hash a) = true := by rw [hf, if_pos rfl]; simp [alive, hed]
        rw [hb', List.filter_cons, if_pos h1, i.live]
        show (a, _) :: _ = (a, _) :: _
        congr 1
        rw [List.filter_filter, List.filter_filter]
        apply List.filter_congr
        intro b hb
        by_cases hba : b.1 = a
        · simp [hba]
        · rw [hf, if_neg hba, Bool.and_comm]
      · have ht := i.total
        have hsum := sum_filter i.live_nodup hlm
        have hbytes : h.bytes = (h.live.map fun b => b.2.length).sum := rfl
        rw [← hS]
        show addSize (subSize s.total e.size) size = ((((a, resize c size) :: h.live.filter fun b => b.1 != a).map fun b => b.2.length).sum) % 2 ^ 64
        rw [List.map_cons, List.sum_cons, hlen, hes]
        unfold addSize subSize
        omega
    · have hn := i.fresh h1
      have hn' : (s.dict.getD PDict.create).search hash m = none := hn
      have hg : h.get m = none := by
        cases hg : h.get m with
        | none => rfl
        | some c =>
          have := (i.get hg).2.2.1
          rw [h1] at this
          cases this
      refine ⟨pasmMalloc hash size a s, ?_, ?_⟩
      · simp only [step, pasmRealloc, hn']
      · simp only [Spec.Heap.step, hg]
        exact i.malloc size h2
  | free m e0 =>
    obtain ⟨he0, hd⟩ := ha
    obtain ⟨d, hd⟩ := Option.isSome_iff_exists.mp hd
    have hfind : ∀ k, s.find hash k = d.search hash k := fun k => by unfold S.find; rw [hd]; rfl
    have hrep : d.Rep hash := by
      have := i.rep
      rw [hd] at this
      exact this
    cases hg : h.get m with
    | some c =>
      obtain ⟨hlm, hbm, hbl, e, hfe, hem, hes, hed⟩ := i.get hg
      have hfe' := hfe
      rw [hfind] at hfe'
      obtain ⟨r, hs⟩ := hrep.update m fun e => { e with deleted := e.deleted + 1 }
      have hnone : (d.update hash m fun e => { e with deleted := e.deleted + 1 }).search hash e0 = none := by
        rw [hs]
        have h1 := i.fresh he0
        have h2 : e0 ≠ m := by
          rintro rfl
          rw [h1] at hfe
          cases hfe
        rw [if_neg h2, ← hfind]
        exact h1
      simp only [step, pasmFree, hd, hfe', hed, if_true, Spec.Heap.step, hg, Option.isSome_some, r.delete_none hnone]
      refine ⟨_, rfl, ?_⟩
      generalize hS : S.mk _ _ _ _ = s'
      have hf : ∀ k, s'.find hash k = if k = m then some { e with deleted := e.deleted + 1 } else s.find hash k := by
        intro k
        rw [← hS, hfind]
        have := hs k
        rw [hfe'] at this
        exact this
      have hb' : s'.blocks = s.blocks := by rw [← hS]
      refine ⟨by rw [← hS]; exact r, by rw [hb']; exact i.nodup, ?_, ?_, ?_, ?_, by rw [← hS]; exact i.errs⟩
      · intro b hb
        rw [hb'] at hb
        obtain ⟨e', h1, h2, h3⟩ := i.ent b hb
        by_cases hbm : b.1 = m
        · rw [hf, if_pos hbm]
          rw [hbm, hfe] at h1
          cases h1
          exact ⟨_, rfl, h2, h3⟩
        · rw [hf, if_neg hbm]
          exact ⟨e', h1, h2, h3⟩
      · intro k hk
        rw [hb']
        apply i.blk
        rw [hf] at hk
        split at hk
        · rename_i hkm
          rw [hkm, hfe]
          simp
        · exact hk
      · show h.live.filter _ = _
        rw [hb', i.live, List.filter_filter]
        apply List.filter_congr
        intro b hb
        by_cases hbm : b.1 = m
        · rw [hf, if_pos hbm]
          simp [hbm, alive]
        · rw [hf, if_neg hbm]
          have : (b.1 != m) = true := by simpa using hbm
          rw [this, Bool.true_and]
      · have ht := i.total
        have hsum := sum_filter i.live_nodup hlm
        have hbytes : h.bytes = (h.live.map fun b => b.2.length).sum := rfl
        rw [← hS]
        show subSize s.total e.size = (((h.live.filter fun b => b.1 != m).map fun b => b.2.length).sum) % 2 ^ 64
        rw [hes]
        unfold subSize
        omega
    | none =>
      have hal := i.get_none hg
      have hst : step hash (.free m e0) s = .ok { s with errors := s.errors + 1 } := by
        simp only [step, pasmFree, hd]
        rw [hfind] at hal
        cases hsr : d.search hash m with
        | none => rfl
        | some e =>
          rw [hsr] at hal
          simp only [alive, beq_eq_false_iff_ne] at hal
          simp only [if_neg hal]
      refine ⟨_, hst, ?_⟩
      simp only [Spec.Heap.step, hg, Option.isSome_none, Bool.false_eq_true, if_false]
      exact ⟨i.rep, i.nodup, i.ent, i.blk, i.live, i.total, congrArg (· + 1) i.errs⟩
  | write m j v =>
    obtain ⟨c, hg, hj⟩ : ∃ c, h.get m = some c ∧ j < c.length := by
      have ha' : j < ((h.get m).getD []).length := ha
      cases hg : h.get m with
      | none => rw [hg] at ha'; simp at ha'
      | some c => rw [hg] at ha'; exact ⟨c, rfl, ha'⟩
    obtain ⟨hlm, hbm, hbl, e, hfe, hem, hes, hed⟩ := i.get hg
    simp only [step, hbl, hj, if_true, Spec.Heap.step]
    refine ⟨_, rfl, ?_⟩
    generalize hu : (fun b : Nat × List Byte => if b.1 = m then (b.1, b.2.set j (some v)) else b) = u
    have u1 : ∀ b, (u b).1 = b.1 := fun b => by rw [← hu]; simp only; split <;> rfl
    have u2 : ∀ b, (u b).2.length = b.2.length := fun b => by rw [← hu]; simp only; split <;> simp
    have hkeys : ∀ l : List (Nat × List Byte), (l.map u).map (·.1) = l.map (·.1) := fun l => by
      rw [List.map_map]
      apply List.map_congr_left
      intro b _
      exact u1 b
    refine ⟨i.rep, ?_, ?_, ?_, ?_, ?_, i.errs⟩
    · show ((s.blocks.map u).map (·.1)).Nodup
      rw [hkeys]
      exact i.nodup
    · intro b hb
      obtain ⟨b0, hb0, rfl⟩ := List.mem_map.mp hb
      rw [u1, u2]
      exact i.ent b0 hb0
    · intro k hk
      show k ∈ (s.blocks.map u).map (·.1)
      rw [hkeys]
      exact i.blk k hk
    · show h.live.map u = (s.blocks.map u).filter _
      rw [i.live, List.filter_map]
      congr 1
      apply List.filter_congr
      intro b _
      show _ = alive (s.find hash (u b).1)
      rw [u1]
    · show s.total = ((h.live.map u).map fun b => b.2.length).sum % 2 ^ 64
      rw [List.map_map]
      have : (h.live.map ((fun b => b.2.length) ∘ u)) = h.live.map fun b => b.2.length := by
        apply List.map_congr_left
        intro b _
        exact u2 b
      rw [this]
      exact i.total

private theorem run_inv {hash : Nat → Nat} : ∀ (ops : List Op) {s : S} {h : Spec.Heap}, Inv hash s h → AllowedAll hash ops s h →
    ∃ s', run hash ops s = .ok s' ∧ Inv hash s' (ops.foldl (fun h op => h.step op) h)
  | [], s, h, i, _ => ⟨s, rfl, i⟩
  | op :: ops, s, h, i, ha => by
    obtain ⟨s1, h1, i1⟩ := step_inv i op ha.1
    obtain ⟨s2, h2, i2⟩ := run_inv ops i1 (by
      have := ha.2
      rw [h1] at this
      exact this)
    refine ⟨s2, ?_, i2⟩
    unfold run
    rw [h1]
    exact h2

/-- **C67, part**: as long as `realloc` leaves blocks where they are, the tracker is exact: for every sequence of operations,
of any length, the number of bytes is that of the blocks in use, exactly the wrong calls of `FREE` are reported, nothing
undefined happens, and every block in use has the contents the program expects. -/
theorem C67_exact_partial (hash : Nat → Nat) (ops : List Op) (ha : AllowedAll hash ops {} {}) :
    ∃ s, run hash ops {} = .ok s ∧
      let h := ops.foldl (fun h op => h.step op) ({} : Spec.Heap)
      s.total = h.bytes % 2 ^ 64 ∧ s.errors = h.errors ∧ ∀ a c, h.get a = some c → s.block a = some c := by
  have i0 : Inv hash {} {} := by
    refine ⟨PDict.Rep.create, List.nodup_nil, fun b hb => (by cases hb), fun a ha => ?_, rfl, rfl, rfl⟩
    exact absurd (PDict.search_create a) ha
  obtain ⟨s, h1, i⟩ := run_inv ops i0 ha
  exact ⟨s, h1, i.total, i.errs, fun a c hg => (i.get hg).2.2.1⟩

/-- A block that is resized in place and freed twice. -/
private def demo : List Op :=
  [.malloc 2 100, .malloc 3 200, .write 100 1 7, .realloc 100 4 100, .free 200 900, .free 200 901, .realloc 0 5 300]

private theorem demo_allowed : AllowedAll (fun k => k) demo {} {} := by decide +kernel

/-- The hypotheses hold for a sequence with all operations; the tracker then counts 9 bytes and one error. -/
example : ∃ s, run (fun k => k) demo {} = .ok s ∧ s.total = 9 ∧ s.errors = 1 ∧
    s.block 100 = some [none, some 7, none, none] := by
  obtain ⟨s, h1, h2, h3, h4⟩ := C67_exact_partial _ demo demo_allowed
  exact ⟨s, h1, h2, h3, h4 100 _ rfl⟩

private theorem run_append (hash : Nat → Nat) (x y : List Op) (s : S) :
    run hash (x ++ y) s = (run hash x s).bind (run hash y) := by
  induction x generalizing s with
  | nil => rfl
  | cons op x ih =>
    show run hash (op :: (x ++ y)) s = _
    unfold run
    cases step hash op s with
    | error e => rfl
    | ok s1 => exact ih s1

private theorem moved (hash : Nat → Nat) (a b v : Nat) (hab : b ≠ a) :
    ∃ s, run hash [.malloc 1 a, .write a 0 v, .realloc a 2 b] {} = .ok s ∧ s.dict.isSome ∧ s.find hash b = none ∧
      s.total = 2 ∧ s.errors = 0 ∧ s.blocks = [(b, [some v, none])] := by
  obtain ⟨r1, h1⟩ := (PDict.Rep.create (α := Entry) (hash := hash)).insert (PDict.search_create a) ⟨1, a, 0⟩
  obtain ⟨r2, h2⟩ := r1.update a fun e => { e with memory := b, size := 2 }
  have h3 := h1 a
  rw [if_pos rfl] at h3
  have hb := h2 b
  rw [if_neg hab, h1, if_neg hab, PDict.search_create] at hb
  refine ⟨⟨[(b, [some v, none])], some (((PDict.create : PDict Entry).insert hash a ⟨1, a, 0⟩).update hash a
    fun e => { e with memory := b, size := 2 }), 2, 0⟩, ?_, ?_, ?_, ?_, ?_, ?_⟩
  · simp [run, step, pasmMalloc, pasmRealloc, S.block, h3, resize, addSize, subSize]
  · rfl
  · exact hb
  · rfl
  · rfl
  · rfl

/-- **C67 is violated** when `realloc` moves a block: the entry stays under the old address.  Freeing the moved block is
reported as an error and its bytes stay counted, although the program did nothing wrong. -/
theorem C67_free_moved_false (hash : Nat → Nat) (a b v e : Nat) (hab : b ≠ a) :
    let ops : List Op := [.malloc 1 a, .write a 0 v, .realloc a 2 b, .free b e]
    (∃ s, run hash ops {} = .ok s ∧ s.errors = 1 ∧ s.total = 2) ∧
      ops.foldl (fun h op => h.step op) ({} : Spec.Heap) = { live := [], errors := 0 } := by
  obtain ⟨s, h1, h2, h3, h4, h5, h6⟩ := moved hash a b v hab
  obtain ⟨d, hd⟩ := Option.isSome_iff_exists.mp h2
  have h3' : d.search hash b = none := by
    unfold S.find at h3
    rw [hd] at h3
    exact h3
  refine ⟨⟨{ s with errors := s.errors + 1 }, ?_, by rw [h5], h4⟩, ?_⟩
  · have app := run_append hash
    have := app [.malloc 1 a, .write a 0 v, .realloc a 2 b] [.free b e] {}
    rw [h1] at this
    refine this.trans ?_
    simp [Except.bind, run, step, pasmFree, hd, h3']
  · simp [Spec.Heap.step, Spec.Heap.get]

/-- **C67 is violated** when `realloc` moves a block: resizing it again loses the contents. -/
theorem C67_contents_false (hash : Nat → Nat) (a b c v : Nat) (hab : b ≠ a) :
    let ops : List Op := [.malloc 1 a, .write a 0 v, .realloc a 2 b, .realloc b 3 c]
    (∃ s, run hash ops {} = .ok s ∧ s.block c = some [none, none, none]) ∧
      (ops.foldl (fun h op => h.step op) ({} : Spec.Heap)).get c = some [some v, none, none] := by
  obtain ⟨s, h1, h2, h3, h4, h5, h6⟩ := moved hash a b v hab
  have h3' : (s.dict.getD PDict.create).search hash b = none := h3
  refine ⟨⟨pasmMalloc hash 3 c s, ?_, ?_⟩, ?_⟩
  · have app := run_append hash
    have := app [.malloc 1 a, .write a 0 v, .realloc a 2 b] [.realloc b 3 c] {}
    rw [h1] at this
    refine this.trans ?_
    simp [Except.bind, run, step, pasmRealloc, h3']
  · simp [pasmMalloc, S.block, List.replicate]
  · simp [Spec.Heap.step, Spec.Heap.get]

/-- **C67 is violated**: `FREE` never gives a block back to the C library. -/
theorem C67_kept_false (hash : Nat → Nat) (m e : Nat) (s s' : S) (h : pasmFree hash m e s = .ok s') : s'.blocks = s.blocks := by
  unfold pasmFree at h
  cases hd : s.dict with
  | none => simp only [hd] at h; cases h
  | some d =>
    simp only [hd] at h
    cases hs : d.search hash m with
    | none => simp only [hs] at h; cases h; rfl
    | some e' =>
      simp only [hs] at h
      split at h <;> cases h <;> rfl

end Verif.Memory
