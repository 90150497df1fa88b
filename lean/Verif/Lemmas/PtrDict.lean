import Verif.Model.PtrDict
import Verif.Lemmas.Dict

/-! Invariants of the hash table with pointer keys (compare `Lemmas/Dict`). -/

namespace Verif

namespace PDict

variable {α : Type} {hash : Nat → Nat}

/-- Equal keys. -/
def same (k : Nat) (e : Nat × α) : Bool := e.1 == k

/-- Structural invariant: right number of buckets, all keys in their bucket. -/
structure Wf (hash : Nat → Nat) (d : PDict α) : Prop where
  pos : 2 ≤ d.size
  len : d.table.length = d.size
  home : ∀ i chain, d.table[i]? = some chain → ∀ e ∈ chain, d.slot hash e.1 = i
  cnt : d.count = d.table.flatten.length

/-- The chain a key is looked up in. -/
def chainOf (hash : Nat → Nat) (d : PDict α) (k : Nat) : List (Nat × α) := (d.table[d.slot hash k]?).getD []

theorem Wf.slot_lt {d : PDict α} (w : d.Wf hash) (k : Nat) : d.slot hash k < d.table.length := by
  rw [w.len]; exact Nat.mod_lt _ (by have := w.pos; omega)

theorem Wf.getElem?_slot {d : PDict α} (w : d.Wf hash) (k : Nat) :
    d.table[d.slot hash k]? = some (d.chainOf hash k) := by
  unfold chainOf
  rw [List.getElem?_eq_getElem (w.slot_lt k)]; rfl

/-- The records of a key in the whole table are those in its chain. -/
theorem Wf.filter_flatten {d : PDict α} (w : d.Wf hash) (k : Nat) :
    d.table.flatten.filter (same k) = (d.chainOf hash k).filter (same k) := by
  refine Dict.filter_flatten_single _ _ _ _ (w.getElem?_slot k) ?_
  intro j c' hj hne
  rw [List.filter_eq_nil_iff]
  intro e he
  have := w.home j c' hj e he
  simp only [same, beq_iff_eq]
  intro h
  exact hne (this ▸ by rw [h])

theorem Wf.search_eq {d : PDict α} (w : d.Wf hash) (k : Nat) :
    d.search hash k = ((d.table.flatten.filter (same k)).head?).map (·.2) := by
  rw [w.filter_flatten, List.head?_filter]
  unfold search
  rw [w.getElem?_slot k]
  simp only
  rfl

theorem slot_of_size {d d' : PDict α} (h : d.size = d'.size) (k : Nat) : d.slot hash k = d'.slot hash k := by
  unfold slot; rw [h]

theorem link_wf {d : PDict α} (w : d.Wf hash) (k : Nat) (v : α) : (d.link hash k v).Wf hash where
  pos := w.pos
  len := by simp [link, w.len]
  home := by
    intro i chain hi e he
    have hs : (d.link hash k v).slot hash e.1 = d.slot hash e.1 := slot_of_size rfl _
    rw [hs]
    simp only [link, List.getElem?_modify] at hi
    cases hd : d.table[i]? with
    | none => simp [hd] at hi
    | some c =>
      simp only [hd, Option.map_eq_map, Option.map_some, Option.some.injEq] at hi
      split at hi
      · rename_i h
        subst hi
        simp only [List.mem_cons] at he
        rcases he with rfl | he
        · exact h
        · exact w.home i c hd e he
      · subst hi; exact w.home i c hd e he
  cnt := by
    have h := Dict.flatten_modify_length d.table (d.slot hash k) ((k, v) :: ·) (w.slot_lt k)
    simp only [link, w.cnt]
    simp only [List.length_cons] at h
    omega

theorem chainOf_link {d : PDict α} (w : d.Wf hash) (k k' : Nat) (v : α) :
    (d.link hash k v).chainOf hash k' =
      if d.slot hash k = d.slot hash k' then (k, v) :: d.chainOf hash k' else d.chainOf hash k' := by
  unfold chainOf
  have hs : (d.link hash k v).slot hash k' = d.slot hash k' := slot_of_size rfl _
  rw [hs]
  simp only [link, List.getElem?_modify, w.getElem?_slot k']
  split <;> simp

theorem filter_link {d : PDict α} (w : d.Wf hash) (k : Nat) (v : α) (k' : Nat) :
    (d.link hash k v).table.flatten.filter (same k') =
      (if k = k' then [(k, v)] else []) ++
        d.table.flatten.filter (same k') := by
  rw [(link_wf w k v).filter_flatten, w.filter_flatten, chainOf_link w]
  by_cases h : k = k'
  · subst h
    simp [same]
  · have : same k' (k, v) = false := by simpa [same] using h
    split <;> simp [h, this]

theorem createSized_wf {n : Nat} (h : 2 ≤ n) : (createSized n : PDict α).Wf hash where
  pos := h
  len := by simp [createSized]
  home := by
    intro i chain hi e he
    simp only [createSized, List.getElem?_replicate] at hi
    split at hi
    · simp only [Option.some.injEq] at hi; subst hi; simp at he
    · cases hi
  cnt := by simp [createSized]

/-- Rehashing a list of records that does not reach the threshold: every key's records come out in
reverse order. -/
theorem rehash {fuel : Nat} (es : List (Nat × α)) :
    ∀ (d : PDict α), d.Wf hash → d.count + es.length < d.threshold →
      let d' := es.foldl (fun d2 e => insertF hash fuel d2 e.1 e.2) d
      d'.Wf hash ∧ d'.size = d.size ∧ d'.count = d.count + es.length ∧
      ∀ k, d'.table.flatten.filter (same k) =
        (es.filter (same k)).reverse ++ d.table.flatten.filter (same k) := by
  induction es with
  | nil => intro d w h; exact ⟨w, rfl, rfl, fun k => rfl⟩
  | cons e es ih =>
    intro d w h
    have hins : insertF hash fuel d e.1 e.2 = d.link hash e.1 e.2 := by
      cases fuel with
      | zero => rfl
      | succ n =>
        simp only [insertF]
        rw [if_neg]
        simp only [List.length_cons] at h
        simp only [threshold, link] at h ⊢
        omega
    simp only [List.foldl_cons, hins]
    have h' : (d.link hash e.1 e.2).count + es.length < (d.link hash e.1 e.2).threshold := by
      simp only [List.length_cons] at h
      simp only [threshold, link] at h ⊢
      omega
    obtain ⟨w', hs, hc, hf⟩ := ih _ (link_wf w e.1 e.2) h'
    refine ⟨w', hs, ?_, fun k => ?_⟩
    · rw [hc]; simp only [link, List.length_cons]; omega
    · rw [hf, filter_link w e.1]
      by_cases hm : e.1 = k
      · subst hm
        simp [same]
      · have : same k e = false := by simpa [same] using hm
        simp [hm, this]

/-- What insertion does to the records of every key. -/
theorem insertF_spec {fuel : Nat} {d : PDict α} (w : d.Wf hash) (hc : d.count < d.threshold)
    (k : Nat) (v : α) :
    let d' := insertF hash (fuel + 1) d k v
    d'.Wf hash ∧ d'.count = d.count + 1 ∧ d'.count < d'.threshold ∧
    if d.count + 1 < d.threshold then
      d'.size = d.size ∧ ∀ k', d'.table.flatten.filter (same k') =
        (d.link hash k v).table.flatten.filter (same k')
    else
      d'.size = d.size * 2 ∧ ∀ k', d'.table.flatten.filter (same k') =
        ((d.link hash k v).table.flatten.filter (same k')).reverse := by
  have wl := link_wf w k v
  have ht : (d.link hash k v).threshold = d.threshold := rfl
  have hcl : (d.link hash k v).count = d.count + 1 := rfl
  simp only [insertF, ht, hcl]
  by_cases hlt : d.count + 1 < d.threshold
  · have : ¬ d.threshold ≤ d.count + 1 := by omega
    rw [if_neg this, if_pos hlt]
    exact ⟨wl, rfl, by rw [ht, hcl]; exact hlt, rfl, fun k' => rfl⟩
  · have h2 : d.threshold ≤ d.count + 1 := by omega
    rw [if_pos h2, if_neg hlt]
    have hp := w.pos
    have hn : (d.link hash k v).table.flatten.length = d.count + 1 := by rw [← wl.cnt]; rfl
    obtain ⟨w', hs, hcn, hf⟩ := rehash (fuel := fuel) (d.link hash k v).table.flatten
      (createSized ((d.link hash k v).size * 2)) (createSized_wf (hash := hash) (by show 2 ≤ d.size * 2; omega)) (by
        rw [hn]
        show 0 + (d.count + 1) < d.size * 2 * 9 / 10
        have : d.count + 1 ≤ d.size * 9 / 10 := by
          have : d.count < d.size * 9 / 10 := hc
          omega
        omega)
    refine ⟨w', ?_, ?_, hs, fun k' => ?_⟩
    · rw [hcn, hn]; simp [createSized]
    · rw [hcn, hn]
      show 0 + (d.count + 1) < _ * 9 / 10
      rw [hs]
      show 0 + (d.count + 1) < d.size * 2 * 9 / 10
      have : d.count < d.size * 9 / 10 := hc
      omega
    · rw [hf]
      have : (createSized ((d.link hash k v).size * 2) : PDict α).table.flatten = [] := by
        apply List.length_eq_zero_iff.1
        have := (createSized_wf (α := α) (hash := hash) (n := (d.link hash k v).size * 2)
          (by show 2 ≤ d.size * 2; omega)).cnt
        rw [← this]; rfl
      rw [this, List.filter_nil, List.append_nil]

theorem filter_le_one {l : List (Nat × α)} (h : (l.map (·.1)).Nodup) (k : Nat) : (l.filter (same k)).length ≤ 1 := by
  induction l with
  | nil => simp
  | cons e l ih =>
    rw [List.map_cons, List.nodup_cons] at h
    by_cases he : same k e = true
    · have : l.filter (same k) = [] := by
        rw [List.filter_eq_nil_iff]
        intro x hx hs
        simp only [same, beq_iff_eq] at he hs
        exact h.1 (List.mem_map.mpr ⟨x, hx, hs.trans he.symm⟩)
      simp [he, this]
    · simp [he, ih h.2]

theorem reverse_le_one {β : Type} {l : List β} (h : l.length ≤ 1) : l.reverse = l := by
  match l, h with
  | [], _ => rfl
  | [_], _ => rfl
  | _ :: _ :: _, h => simp at h

/-- Inserting rows with different keys: afterwards the records are the rows. -/
theorem insert_rows : ∀ (rows acc : List (Nat × α)) (d : PDict α), d.Wf hash → d.count < d.threshold →
    ((acc ++ rows).map (·.1)).Nodup → (∀ k, d.table.flatten.filter (same k) = acc.filter (same k)) →
    let d' := rows.foldl (fun d r => d.insert hash r.1 r.2) d
    d'.Wf hash ∧ ∀ k, d'.table.flatten.filter (same k) = (acc ++ rows).filter (same k)
  | [], acc, d, w, _, _, h => ⟨w, fun k => by rw [List.append_nil]; exact h k⟩
  | r :: rows, acc, d, w, hc, hn, h => by
    obtain ⟨w', _, hc', hf⟩ := insertF_spec (fuel := 1) w hc r.1 r.2
    have happ : acc ++ r :: rows = (acc ++ [r]) ++ rows := by simp
    rw [happ] at hn ⊢
    refine insert_rows rows (acc ++ [r]) (d.insert hash r.1 r.2) w' hc' hn fun k => ?_
    have hn1 : ((acc ++ [r]).map (·.1)).Nodup := by
      rw [List.map_append, List.nodup_append] at hn
      exact hn.1
    have hlink : (d.link hash r.1 r.2).table.flatten.filter (same k) = (acc ++ [r]).filter (same k) := by
      rw [filter_link w, h, List.filter_append]
      by_cases hk : r.1 = k
      · have hs : same k r = true := by simp [same, hk]
        have : acc.filter (same k) = [] := by
          have := filter_le_one hn1 k
          rw [List.filter_append] at this
          simp only [List.filter_cons, hs, if_true, List.filter_nil, List.length_append, List.length_singleton] at this
          exact List.length_eq_zero_iff.mp (by omega)
        rw [if_pos hk, this]
        simp [hs]
      · have hs : same k r = false := by simp [same, hk]
        simp [hk, hs]
    have hle := filter_le_one hn1 k
    show (insertF hash 2 d r.1 r.2).table.flatten.filter (same k) = _
    split at hf
    · rw [hf.2, hlink]
    · rw [hf.2, hlink, reverse_le_one hle]

theorem find_eq_filter (l : List (Nat × α)) (k : Nat) : l.find? (fun e => e.1 == k) = (l.filter (same k)).head? := by
  rw [List.head?_filter]
  rfl

end PDict

end Verif
