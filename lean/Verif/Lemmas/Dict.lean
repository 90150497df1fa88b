import Verif.Model.Dict
import Verif.Spec.FinMap
import Verif.Lemmas.Str

/-! Invariants of the hash table. -/

namespace Verif

theorem foldCase_eq (s : Str) : Spec.foldCase s = s.map tolower := rfl

namespace Dict

variable {α : Type}

/-- Keys equal up to case. -/
def same (k : Str) (e : Str × α) : Bool := Spec.foldCase e.1 == Spec.foldCase k

/-- Structural invariant: right number of buckets, all keys are strings stored in their bucket. -/
structure Wf (d : Dict α) : Prop where
  pos : 2 ≤ d.size
  len : d.table.length = d.size
  home : ∀ i chain, d.table[i]? = some chain → ∀ e ∈ chain, CStr e.1 ∧ d.slot e.1 = i
  cnt : d.count = d.table.flatten.length

/-- The chain a key is looked up in. -/
def chainOf (d : Dict α) (k : Str) : List (Str × α) := (d.table[d.slot k]?).getD []

theorem Wf.slot_lt {d : Dict α} (w : d.Wf) (k : Str) : d.slot k < d.table.length := by
  rw [w.len]; exact Nat.mod_lt _ (by have := w.pos; omega)

theorem Wf.getElem?_slot {d : Dict α} (w : d.Wf) (k : Str) :
    d.table[d.slot k]? = some (d.chainOf k) := by
  unfold chainOf
  rw [List.getElem?_eq_getElem (w.slot_lt k)]; rfl

theorem slot_congr (d : Dict α) {a b : Str} (h : Spec.foldCase a = Spec.foldCase b) :
    d.slot a = d.slot b := by
  unfold slot; rw [hashFunction_congr h]

theorem stricmp_beq {a b : Str} (ha : CStr a) (hb : CStr b) :
    (stricmp a b == 0) = (Spec.foldCase a == Spec.foldCase b) := by
  have := stricmp_eq_zero_iff ha hb
  rw [Bool.eq_iff_iff]; simpa [foldCase_eq] using this

theorem Wf.chain_cstr {d : Dict α} (w : d.Wf) (k : Str) : ∀ e ∈ d.chainOf k, CStr e.1 :=
  fun e he => (w.home _ _ (w.getElem?_slot k) e he).1

theorem filter_flatten_single {β : Type} (l : List (List β)) (p : β → Bool) (i : Nat) (c : List β)
    (hi : l[i]? = some c) (ho : ∀ j c', l[j]? = some c' → j ≠ i → c'.filter p = []) :
    l.flatten.filter p = c.filter p := by
  induction l generalizing i with
  | nil => simp at hi
  | cons a l ih =>
    simp only [List.flatten_cons, List.filter_append]
    cases i with
    | zero =>
      simp only [List.getElem?_cons_zero, Option.some.injEq] at hi
      subst hi
      have : l.flatten.filter p = [] := by
        rw [List.filter_eq_nil_iff]
        intro x hx
        obtain ⟨c', hc', hx'⟩ := List.mem_flatten.1 hx
        obtain ⟨j, hj⟩ := List.mem_iff_getElem?.1 hc'
        have := ho (j + 1) c' (by simpa using hj) (by omega)
        rw [List.filter_eq_nil_iff] at this
        exact this x hx'
      rw [this, List.append_nil]
    | succ i =>
      simp only [List.getElem?_cons_succ] at hi
      have h0 := ho 0 a (by simp) (by omega)
      rw [h0, List.nil_append]
      exact ih i hi (fun j c' hj hne => ho (j + 1) c' (by simpa using hj) (by omega))

/-- The records of a key in the whole table are those in its chain. -/
theorem Wf.filter_flatten {d : Dict α} (w : d.Wf) (k : Str) :
    d.table.flatten.filter (same k) = (d.chainOf k).filter (same k) := by
  refine filter_flatten_single _ _ _ _ (w.getElem?_slot k) ?_
  intro j c' hj hne
  rw [List.filter_eq_nil_iff]
  intro e he
  have := (w.home j c' hj e he).2
  simp only [same, beq_iff_eq]
  intro h
  exact hne (this ▸ slot_congr d h)

theorem Wf.search_eq {d : Dict α} (w : d.Wf) {k : Str} (hk : CStr k) :
    d.search k = ((d.table.flatten.filter (same k)).head?).map (·.2) := by
  rw [w.filter_flatten, List.head?_filter]
  unfold search
  rw [w.getElem?_slot k]
  simp only
  congr 1
  have hc := w.chain_cstr k
  generalize d.chainOf k = chain at hc
  induction chain with
  | nil => rfl
  | cons e chain ih =>
    have h1 : (stricmp e.1 k == 0) = same k e := stricmp_beq (hc e (by simp)) hk
    have ih := ih (fun e he => hc e (by simp [he]))
    simp only [List.find?_cons, h1, ih]

theorem flatten_modify_length {β : Type} (l : List (List β)) (i : Nat) (f : List β → List β)
    (h : i < l.length) : (l.modify i f).flatten.length + (l[i]).length
      = l.flatten.length + (f l[i]).length := by
  induction l generalizing i with
  | nil => simp at h
  | cons a l ih =>
    cases i with
    | zero => simp; omega
    | succ i =>
      have := ih i (by simpa using h)
      simp only [List.modify_succ_cons, List.flatten_cons, List.length_append,
        List.getElem_cons_succ]
      omega

theorem slot_of_size {d d' : Dict α} (h : d.size = d'.size) (k : Str) : d.slot k = d'.slot k := by
  unfold slot; rw [h]

theorem link_wf {d : Dict α} (w : d.Wf) {k : Str} (hk : CStr k) (v : α) : (d.link k v).Wf where
  pos := w.pos
  len := by simp [link, w.len]
  home := by
    intro i chain hi e he
    have hs : (d.link k v).slot e.1 = d.slot e.1 := slot_of_size rfl _
    rw [hs]
    simp only [link, List.getElem?_modify] at hi
    cases hd : d.table[i]? with
    | none => simp [hd] at hi
    | some c =>
      simp only [hd, Option.map_eq_map, Option.map_some, Option.some.injEq] at hi
      split at hi
      · rename_i h
        subst hi
        simp only [List.mem_cons] at he
        rcases he with rfl | he
        · exact ⟨hk, h⟩
        · exact w.home i c hd e he
      · subst hi; exact w.home i c hd e he
  cnt := by
    have h := flatten_modify_length d.table (d.slot k) ((k, v) :: ·) (w.slot_lt k)
    simp only [link, w.cnt]
    simp only [List.length_cons] at h
    omega

theorem chainOf_link {d : Dict α} (w : d.Wf) (k k' : Str) (v : α) :
    (d.link k v).chainOf k' =
      if d.slot k = d.slot k' then (k, v) :: d.chainOf k' else d.chainOf k' := by
  unfold chainOf
  have hs : (d.link k v).slot k' = d.slot k' := slot_of_size rfl _
  rw [hs]
  simp only [link, List.getElem?_modify, w.getElem?_slot k']
  split <;> simp

theorem filter_link {d : Dict α} (w : d.Wf) {k : Str} (hk : CStr k) (v : α) (k' : Str) :
    (d.link k v).table.flatten.filter (same k') =
      (if Spec.foldCase k = Spec.foldCase k' then [(k, v)] else []) ++
        d.table.flatten.filter (same k') := by
  rw [(link_wf w hk v).filter_flatten, w.filter_flatten, chainOf_link w]
  by_cases h : Spec.foldCase k = Spec.foldCase k'
  · have : same k' (k, v) = true := by simpa [same] using h
    simp [slot_congr d h, h, List.filter_cons, this]
  · have : same k' (k, v) = false := by simpa [same] using h
    split <;> simp [h, List.filter_cons, this]

theorem createSized_wf {n : Nat} (h : 2 ≤ n) : (createSized n : Dict α).Wf where
  pos := h
  len := by simp [createSized]
  home := by
    intro i chain hi e he
    simp only [createSized, List.getElem?_replicate] at hi
    split at hi
    · simp only [Option.some.injEq] at hi; subst hi; simp at he
    · cases hi
  cnt := by simp [createSized]

/-- Rehashing a list of records that does not reach the threshold: every key's records come out in
reverse order. -/
theorem rehash {fuel : Nat} (es : List (Str × α)) (hes : ∀ e ∈ es, CStr e.1) :
    ∀ (d : Dict α), d.Wf → d.count + es.length < d.threshold →
      let d' := es.foldl (fun d2 e => insertF fuel d2 e.1 e.2) d
      d'.Wf ∧ d'.size = d.size ∧ d'.count = d.count + es.length ∧
      ∀ k, d'.table.flatten.filter (same k) =
        (es.filter (same k)).reverse ++ d.table.flatten.filter (same k) := by
  induction es with
  | nil => intro d w h; exact ⟨w, rfl, rfl, fun k => rfl⟩
  | cons e es ih =>
    intro d w h
    have hk := hes e (by simp)
    have hins : insertF fuel d e.1 e.2 = d.link e.1 e.2 := by
      cases fuel with
      | zero => rfl
      | succ n =>
        simp only [insertF]
        rw [if_neg]
        simp only [List.length_cons] at h
        simp only [threshold, link] at h ⊢
        omega
    simp only [List.foldl_cons, hins]
    have h' : (d.link e.1 e.2).count + es.length < (d.link e.1 e.2).threshold := by
      simp only [List.length_cons] at h
      simp only [threshold, link] at h ⊢
      omega
    obtain ⟨w', hs, hc, hf⟩ := ih (fun e he => hes e (by simp [he])) _ (link_wf w hk e.2) h'
    refine ⟨w', hs, ?_, fun k => ?_⟩
    · rw [hc]; simp only [link, List.length_cons]; omega
    · rw [hf, filter_link w hk]
      by_cases hm : Spec.foldCase e.1 = Spec.foldCase k
      · have : same k e = true := by simpa [same] using hm
        simp [hm, List.filter_cons, this]
      · have : same k e = false := by simpa [same] using hm
        simp [hm, List.filter_cons, this]

theorem Wf.all_cstr {d : Dict α} (w : d.Wf) : ∀ e ∈ d.table.flatten, CStr e.1 := by
  intro e he
  obtain ⟨c, hc, he'⟩ := List.mem_flatten.1 he
  obtain ⟨j, hj⟩ := List.mem_iff_getElem?.1 hc
  exact (w.home j c hj e he').1

theorem link_ne_nil {d : Dict α} (w : d.Wf) {k : Str} (hk : CStr k) (v : α) :
    0 < (d.link k v).count := by simp [link]

/-- What insertion does to the records of every key. -/
theorem insertF_spec {fuel : Nat} {d : Dict α} (w : d.Wf) (hc : d.count < d.threshold)
    {k : Str} (hk : CStr k) (v : α) :
    let d' := insertF (fuel + 1) d k v
    d'.Wf ∧ d'.count = d.count + 1 ∧ d'.count < d'.threshold ∧
    if d.count + 1 < d.threshold then
      d'.size = d.size ∧ ∀ k', d'.table.flatten.filter (same k') =
        (d.link k v).table.flatten.filter (same k')
    else
      d'.size = d.size * 2 ∧ ∀ k', d'.table.flatten.filter (same k') =
        ((d.link k v).table.flatten.filter (same k')).reverse := by
  have wl := link_wf w hk v
  have ht : (d.link k v).threshold = d.threshold := rfl
  have hcl : (d.link k v).count = d.count + 1 := rfl
  simp only [insertF, ht, hcl]
  by_cases hlt : d.count + 1 < d.threshold
  · have : ¬ d.threshold ≤ d.count + 1 := by omega
    rw [if_neg this, if_pos hlt]
    exact ⟨wl, rfl, by rw [ht, hcl]; exact hlt, rfl, fun k' => rfl⟩
  · have h2 : d.threshold ≤ d.count + 1 := by omega
    rw [if_pos h2, if_neg hlt]
    have hp := w.pos
    have hn : (d.link k v).table.flatten.length = d.count + 1 := by rw [← wl.cnt]; rfl
    obtain ⟨w', hs, hcn, hf⟩ := rehash (fuel := fuel) (d.link k v).table.flatten wl.all_cstr
      (createSized ((d.link k v).size * 2)) (createSized_wf (by show 2 ≤ d.size * 2; omega)) (by
        rw [hn]
        show 0 + (d.count + 1) < d.size * 2 * 9 / 10
        have : d.count + 1 ≤ d.size * 9 / 10 := by
          have : d.count < d.size * 9 / 10 := hc
          omega
        omega)
    refine ⟨w', ?_, ?_, hs, fun k' => ?_⟩
    · rw [hcn, hn]; simp [createSized]
    · rw [hcn, hn]
      show 0 + (d.count + 1) < _ * 9 / 10
      rw [hs]
      show 0 + (d.count + 1) < d.size * 2 * 9 / 10
      have : d.count < d.size * 9 / 10 := hc
      omega
    · rw [hf]
      have : (createSized ((d.link k v).size * 2) : Dict α).table.flatten = [] := by
        apply List.length_eq_zero_iff.1
        have := (createSized_wf (α := α) (n := (d.link k v).size * 2)
          (by show 2 ≤ d.size * 2; omega)).cnt
        rw [← this]; rfl
      rw [this, List.filter_nil, List.append_nil]

theorem insert_fuel_irrelevant (fuel : Nat) {d : Dict α} (w : d.Wf) (hc : d.count < d.threshold)
    {k : Str} (hk : CStr k) (v : α) : insertF (fuel + 1) d k v = d.insert k v := by
  unfold insert
  have wl := link_wf w hk v
  have hn : (d.link k v).table.flatten.length = d.count + 1 := by rw [← wl.cnt]; rfl
  have key : ∀ (f g : Nat) (es : List (Str × α)) (d : Dict α), d.count + es.length < d.threshold →
      es.foldl (fun d2 e => insertF f d2 e.1 e.2) d = es.foldl (fun d2 e => insertF g d2 e.1 e.2) d := by
    intro f g es
    induction es with
    | nil => intro d _; rfl
    | cons e es ih =>
      intro d h
      have hins : ∀ f, insertF f d e.1 e.2 = d.link e.1 e.2 := by
        intro f
        cases f with
        | zero => rfl
        | succ n =>
          simp only [insertF]
          rw [if_neg]
          simp only [List.length_cons] at h
          simp only [threshold, link] at h ⊢
          omega
      simp only [List.foldl_cons, hins]
      apply ih
      simp only [List.length_cons] at h
      simp only [threshold, link] at h ⊢
      omega
  simp only [insertF]
  split
  · apply key fuel 1
    rw [hn]
    show 0 + (d.count + 1) < d.size * 2 * 9 / 10
    have h1 : d.count < d.size * 9 / 10 := hc
    have hp := w.pos
    omega
  · rfl

theorem eraseP_filter {β : Type} (l : List β) (p q : β → Bool) (h : ∀ x, p x = true → q x = true)
    (h2 : ∀ x ∈ l, q x = true → p x = true) :
    (l.eraseP p).filter q = (l.filter q).eraseP p := by
  induction l with
  | nil => rfl
  | cons a l ih =>
    have ih := ih (fun x hx => h2 x (by simp [hx]))
    by_cases hp : p a = true
    · have := h a hp
      simp [hp, List.filter_cons, this]
    · by_cases hq : q a = true
      · exact absurd (h2 a (by simp) hq) hp
      · simp [List.eraseP_cons, hp, List.filter_cons, hq, ih]

theorem eraseP_filter_disjoint {β : Type} (l : List β) (p q : β → Bool)
    (h : ∀ x ∈ l, p x = true → q x = false) :
    (l.eraseP p).filter q = l.filter q := by
  induction l with
  | nil => rfl
  | cons a l ih =>
    have ih := ih (fun x hx => h x (by simp [hx]))
    by_cases hp : p a = true
    · have := h a (by simp) hp
      simp [hp, List.filter_cons, this]
    · simp [hp, List.filter_cons, ih]

theorem eraseP_congr {β : Type} {l : List β} {p q : β → Bool} (h : ∀ x ∈ l, p x = q x) :
    l.eraseP p = l.eraseP q := by
  induction l with
  | nil => rfl
  | cons a l ih =>
    have ih := ih (fun x hx => h x (by simp [hx]))
    simp only [List.eraseP_cons, h a (by simp), ih]

/-- What deletion does to the records of every key. -/
theorem delete_spec {d : Dict α} (w : d.Wf) {k : Str} (hk : CStr k) :
    (d.delete k).Wf ∧ (d.delete k).size = d.size ∧
    (d.delete k).count =
      d.count - (if (d.table.flatten.filter (same k)) = [] then 0 else 1) ∧
    ∀ k', (d.delete k).table.flatten.filter (same k') =
      (d.table.flatten.filter (same k')).eraseP (same k) := by
  have hany : (d.chainOf k).any (fun e => stricmp e.1 k == 0) = (d.chainOf k).any (same k) := by
    have hc := w.chain_cstr k
    generalize d.chainOf k = chain at hc
    induction chain with
    | nil => rfl
    | cons e chain ih =>
      simp only [List.any_cons, ih (fun e he => hc e (by simp [he]))]
      rw [stricmp_beq (hc e (by simp)) hk]; rfl
  have hff := w.filter_flatten k
  have hnil : (d.table.flatten.filter (same k) = []) ↔ (d.chainOf k).any (same k) = false := by
    rw [hff, List.filter_eq_nil_iff, List.any_eq_false]
  unfold delete
  rw [w.getElem?_slot k]
  simp only [hany]
  by_cases ha : (d.chainOf k).any (same k) = true
  · rw [if_pos ha]
    have hne : ¬ (d.table.flatten.filter (same k) = []) := by rw [hnil, ha]; simp
    have hslot : d.slot k < d.table.length := w.slot_lt k
    have hchain : d.table[d.slot k] = d.chainOf k := by
      have := w.getElem?_slot k
      rw [List.getElem?_eq_getElem hslot] at this
      simpa using this
    have hlen := flatten_modify_length d.table (d.slot k)
      (·.eraseP fun e => stricmp e.1 k == 0) hslot
    rw [hchain] at hlen
    have he : ((d.chainOf k).eraseP fun e => stricmp e.1 k == 0) =
        (d.chainOf k).eraseP (same k) := by
      apply eraseP_congr
      intro e he
      exact stricmp_beq (w.chain_cstr k e he) hk
    have hel : ((d.chainOf k).eraseP (same k)).length = (d.chainOf k).length - 1 := by
      obtain ⟨e, he, hs⟩ := List.any_eq_true.1 ha
      exact List.length_eraseP_of_mem he hs
    have hpos : 0 < (d.chainOf k).length := by
      obtain ⟨e, he, hs⟩ := List.any_eq_true.1 ha
      exact List.length_pos_of_mem he
    have hs : ∀ k', (d.unlink k).slot k' = d.slot k' := fun k' => slot_of_size rfl _
    have wd : (d.unlink k).Wf := by
      constructor
      · exact w.pos
      · simp [unlink, w.len]
      · intro i chain hi e he
        rw [hs]
        simp only [unlink, List.getElem?_modify] at hi
        cases hd : d.table[i]? with
        | none => simp [hd] at hi
        | some c =>
          simp only [hd, Option.map_eq_map, Option.map_some, Option.some.injEq] at hi
          split at hi
          · subst hi
            exact w.home i c hd e (List.mem_of_mem_eraseP he)
          · subst hi; exact w.home i c hd e he
      · simp only [unlink, w.cnt]
        rw [he, hel] at hlen
        omega
    refine ⟨wd, rfl, by rw [if_neg hne]; rfl, fun k' => ?_⟩
    rw [wd.filter_flatten, w.filter_flatten]
    have hch : (d.unlink k).chainOf k' =
        if d.slot k = d.slot k' then (d.chainOf k').eraseP (same k) else d.chainOf k' := by
      unfold chainOf
      rw [hs]
      simp only [unlink, List.getElem?_modify, w.getElem?_slot k']
      split
      · simp only [Option.map_eq_map, Option.map_some, Option.getD_some]
        apply eraseP_congr
        intro e he
        exact stricmp_beq (w.chain_cstr k' e he) hk
      · simp
    rw [hch]
    by_cases hkk : Spec.foldCase k = Spec.foldCase k'
    · rw [if_pos (slot_congr d hkk)]
      apply eraseP_filter
      · intro x hx; simpa [same, hkk] using hx
      · intro x _ hx; simpa [same, hkk] using hx
    · have hdis : ∀ x ∈ d.chainOf k', same k x = true → same k' x = false := by
        intro x _ hx
        simp only [same, beq_iff_eq] at hx
        simp only [same, beq_eq_false_iff_ne, hx]
        exact hkk
      have : (List.filter (same k') (d.chainOf k')).eraseP (same k) =
          List.filter (same k') (d.chainOf k') := by
        apply List.eraseP_of_forall_not
        intro x hx hs
        obtain ⟨h1, h2⟩ := List.mem_filter.1 hx
        rw [hdis x h1 hs] at h2
        cases h2
      rw [this]
      split
      · exact eraseP_filter_disjoint _ _ _ hdis
      · rfl
  · rw [if_neg ha]
    have hnil' := hnil.2 (by simpa using ha)
    refine ⟨w, rfl, by simp [hnil'], fun k' => ?_⟩
    symm
    apply List.eraseP_of_forall_not
    intro x hx hs
    have hx1 := (List.mem_filter.1 hx).1
    have := List.filter_eq_nil_iff.1 hnil' x hx1
    exact this hs

end Dict

end Verif
