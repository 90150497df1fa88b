import Verif.Lemmas.PtrDict

/-! Hash tables with pointer keys in which each key occurs at most once: insertion, assignment and deletion. -/

namespace Verif.PDict

variable {α : Type} {hash : Nat → Nat}

/-- Well formed, not too full, every key at most once. -/
structure Rep (hash : Nat → Nat) (d : PDict α) : Prop where
  wf : d.Wf hash
  cnt : d.count < d.threshold
  one : ∀ k, (d.table.flatten.filter (same k)).length ≤ 1

theorem Rep.create : (PDict.create : PDict α).Rep hash := by
  have w : (PDict.create : PDict α).Wf hash := createSized_wf (by decide)
  refine ⟨w, by show 0 < 1024 * 9 / 10; decide, fun k => ?_⟩
  have h0 : (PDict.create : PDict α).table.flatten = [] := List.length_eq_zero_iff.1 (by rw [← w.cnt]; rfl)
  rw [h0]
  simp

theorem search_create (k : Nat) : (PDict.create : PDict α).search hash k = none := by
  have w : (PDict.create : PDict α).Wf hash := createSized_wf (by decide)
  have h0 : (PDict.create : PDict α).table.flatten = [] := List.length_eq_zero_iff.1 (by rw [← w.cnt]; rfl)
  rw [w.search_eq, h0]
  rfl

theorem Rep.insert {d : PDict α} (r : d.Rep hash) {k : Nat} (hk : d.search hash k = none) (v : α) :
    (d.insert hash k v).Rep hash ∧
      ∀ k', (d.insert hash k v).search hash k' = if k' = k then some v else d.search hash k' := by
  obtain ⟨w', _, hc', hf⟩ := insertF_spec (fuel := 1) r.wf r.cnt k v
  have h0 : d.table.flatten.filter (same k) = [] := by
    rw [r.wf.search_eq] at hk
    cases h : d.table.flatten.filter (same k) with
    | nil => rfl
    | cons a l => rw [h] at hk; cases hk
  have hl : ∀ k', ((d.link hash k v).table.flatten.filter (same k')).length ≤ 1 := by
    intro k'
    rw [filter_link r.wf]
    by_cases h : k = k'
    · subst h
      rw [h0]
      simp
    · simpa [h] using r.one k'
  have hfl : ∀ k', (d.insert hash k v).table.flatten.filter (same k') = (d.link hash k v).table.flatten.filter (same k') := by
    intro k'
    show (insertF hash 2 d k v).table.flatten.filter (same k') = _
    split at hf
    · rw [hf.2]
    · rw [hf.2, reverse_le_one (hl k')]
  have w2 : (d.insert hash k v).Wf hash := w'
  refine ⟨⟨w2, hc', fun k' => by rw [hfl]; exact hl k'⟩, fun k' => ?_⟩
  rw [w2.search_eq, hfl, filter_link r.wf]
  by_cases h : k' = k
  · subst h
    simp
  · rw [if_neg h, if_neg (fun e => h e.symm), List.nil_append, r.wf.search_eq]

theorem updateFirst_keys (k : Nat) (g : α → α) (l : List (Nat × α)) : (updateFirst k g l).map (·.1) = l.map (·.1) := by
  induction l with
  | nil => rfl
  | cons e l ih =>
    unfold updateFirst
    split
    · rfl
    · simp [ih]

theorem updateFirst_filter (k k' : Nat) (g : α → α) (l : List (Nat × α)) : (updateFirst k g l).filter (same k') =
    if k' = k then updateFirst k g (l.filter (same k')) else l.filter (same k') := by
  induction l with
  | nil => simp [updateFirst]
  | cons e l ih =>
    have hu : updateFirst k g (e :: l) = if e.1 = k then (e.1, g e.2) :: l else e :: updateFirst k g l := rfl
    rw [hu]
    by_cases he : e.1 = k
    · rw [if_pos he]
      by_cases hk : k' = k
      · subst hk
        have h1 : same k' e = true := by simp [same, he]
        have h2 : same k' (e.1, g e.2) = true := by simp [same, he]
        rw [List.filter_cons, if_pos h2, List.filter_cons, if_pos h1, if_pos rfl]
        simp only [updateFirst, he, if_true]
      · have h1 : same k' e = false := by simp [same, he]; omega
        have h2 : same k' (e.1, g e.2) = false := by simp [same, he]; omega
        simp [h1, h2, hk]
    · rw [if_neg he]
      by_cases hs : same k' e = true
      · have hk : ¬ k' = k := by
          intro h
          rw [h] at hs
          simp [same] at hs
          exact he hs
        rw [if_neg hk] at ih ⊢
        simp [hs, ih]
      · rw [List.filter_cons, if_neg hs, ih, List.filter_cons, if_neg hs]

theorem Rep.update {d : PDict α} (r : d.Rep hash) (k : Nat) (g : α → α) :
    (d.update hash k g).Rep hash ∧
      ∀ k', (d.update hash k g).search hash k' = if k' = k then (d.search hash k).map g else d.search hash k' := by
  have hlen : (d.update hash k g).table.flatten.length = d.table.flatten.length := by
    have h := Dict.flatten_modify_length d.table (d.slot hash k) (updateFirst k g) (r.wf.slot_lt k)
    have h2 : ∀ l : List (Nat × α), (updateFirst k g l).length = l.length := fun l => by
      have := congrArg List.length (updateFirst_keys k g l)
      simpa using this
    rw [h2] at h
    show (d.table.modify _ _).flatten.length = _
    omega
  have w : (d.update hash k g).Wf hash := by
    refine ⟨r.wf.pos, by simp [PDict.update, r.wf.len], ?_, by rw [hlen]; exact r.wf.cnt⟩
    intro i chain hi e he
    have hs : (d.update hash k g).slot hash e.1 = d.slot hash e.1 := slot_of_size rfl _
    rw [hs]
    simp only [PDict.update, List.getElem?_modify] at hi
    cases hd : d.table[i]? with
    | none => simp [hd] at hi
    | some c =>
      simp only [hd, Option.map_eq_map, Option.map_some, Option.some.injEq] at hi
      split at hi
      · subst hi
        have hm : e.1 ∈ (updateFirst k g c).map (·.1) := List.mem_map.mpr ⟨e, he, rfl⟩
        rw [updateFirst_keys] at hm
        obtain ⟨e', he', h2⟩ := List.mem_map.mp hm
        rw [← h2]
        exact r.wf.home i c hd e' he'
      · subst hi
        exact r.wf.home i c hd e he
  have hf : ∀ k', (d.update hash k g).table.flatten.filter (same k') =
      if k' = k then updateFirst k g (d.table.flatten.filter (same k')) else d.table.flatten.filter (same k') := by
    intro k'
    rw [w.filter_flatten, r.wf.filter_flatten]
    have hc : (d.update hash k g).chainOf hash k' =
        if d.slot hash k = d.slot hash k' then updateFirst k g (d.chainOf hash k') else d.chainOf hash k' := by
      unfold chainOf
      have hs : (d.update hash k g).slot hash k' = d.slot hash k' := slot_of_size rfl _
      rw [hs]
      simp only [PDict.update, List.getElem?_modify, r.wf.getElem?_slot k']
      split <;> simp
    rw [hc]
    by_cases hs : d.slot hash k = d.slot hash k'
    · rw [if_pos hs, updateFirst_filter]
    · rw [if_neg hs, if_neg (fun h => hs (by rw [h]))]
  have hu : ∀ l : List (Nat × α), (updateFirst k g l).length = l.length := fun l => by
    have := congrArg List.length (updateFirst_keys k g l)
    simpa using this
  refine ⟨⟨w, r.cnt, fun k' => ?_⟩, fun k' => ?_⟩
  · rw [hf]
    split
    · rw [hu]; exact r.one k'
    · exact r.one k'
  · rw [w.search_eq, hf, r.wf.search_eq, r.wf.search_eq]
    by_cases h : k' = k
    · subst h
      rw [if_pos rfl, if_pos rfl]
      cases hl : d.table.flatten.filter (same k') with
      | nil => rfl
      | cons e l =>
        have he : e ∈ d.table.flatten.filter (same k') := by rw [hl]; exact List.mem_cons_self
        have := (List.mem_filter.mp he).2
        simp only [same, beq_iff_eq] at this
        simp [updateFirst, this]
    · rw [if_neg h, if_neg h]

/-- Deleting a key that is not there changes nothing. -/
theorem Rep.delete_none {d : PDict α} (r : d.Rep hash) {k : Nat} (hk : d.search hash k = none) : d.delete hash k = d := by
  unfold PDict.delete
  unfold PDict.search at hk
  rw [r.wf.getElem?_slot] at hk ⊢
  simp only [Option.map_eq_none_iff, List.find?_eq_none] at hk
  simp only
  rw [if_neg]
  rw [List.any_eq_true]
  rintro ⟨x, hx, h⟩
  exact hk x hx h

end Verif.PDict
