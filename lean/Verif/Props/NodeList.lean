import Verif.Model.NodeList

/-! # Property C66: each parse node is freed once, at the end of its pass -/

namespace Verif.NodeList

/-- Nodes below `lo` are freed, the others form the list; `ds` describes them. -/
private structure Chain (s : S) (k : Nat) (ds : List Desc) : Prop where
  len : s.cells.length = k + ds.length
  live : ∀ i d, ds[i]? = some d → s.cells[k + i]? = some
    { desc := d, prev := if i = 0 then none else some (k + i - 1),
      next := if i + 1 = ds.length then none else some (k + i + 1), live := true }
  dead : ∀ i c, i < k → s.cells[i]? = some c → c.live = false
  head : s.head = if ds = [] then none else some k

private theorem live?_of {s : S} {p : Nat} {c : Cell} (h : s.cells[p]? = some c) (hl : c.live = true) : s.live? p = some c := by
  unfold S.live?
  rw [h]
  simp [hl]

private theorem alloc_chain {s : S} {k : Nat} {ds : List Desc} (d : Desc) (h : Chain s k ds)
    (hc : s.cur = if ds = [] then none else some (k + ds.length - 1)) :
    ∃ s', alloc d s = some s' ∧ Chain s' k (ds ++ [d]) ∧ s'.cur = some (k + ds.length) ∧ s'.freed = s.freed := by
  unfold alloc
  by_cases hd : ds = []
  · subst hd
    rw [if_pos rfl] at hc
    have h1 := h.head
    rw [if_pos rfl] at h1
    have h2 := h.len
    simp only [hc, h1]
    refine ⟨_, rfl, ⟨by simp [h2], ?_, ?_, ?_⟩, by simp [h2], rfl⟩
    · intro i d' hi
      cases i with
      | zero =>
        cases hi
        simp only [List.length_nil, Nat.add_zero] at h2
        simp [← h2]
      | succ i => cases hi
    · intro i c hi hx
      rw [List.getElem?_append_left (by simp at h2; omega)] at hx
      exact h.dead i c hi hx
    · simp at h2 ⊢
      exact h2
  · have hpos : 0 < ds.length := List.length_pos_iff.mpr hd
    rw [if_neg hd] at hc
    have h1 := h.head
    rw [if_neg hd] at h1
    have h2 := h.len
    obtain ⟨dl, hdl⟩ : ∃ dl, ds[ds.length - 1]? = some dl := ⟨_, List.getElem?_eq_getElem (by omega)⟩
    have hlast := h.live _ _ hdl
    have he : k + (ds.length - 1) = k + ds.length - 1 := by omega
    rw [he] at hlast
    have hlast' := live?_of hlast rfl
    simp only [hc, h1, hlast']
    refine ⟨_, rfl, ⟨by simp [S.set, h2]; omega, ?_, ?_, ?_⟩, by rw [h2], rfl⟩
    · intro i d' hi
      simp only [S.set, List.length_append, List.length_singleton]
      by_cases hin : i < ds.length
      · rw [List.getElem?_append_left hin] at hi
        rw [List.getElem?_append_left (by simp; omega)]
        have := h.live i d' hi
        by_cases hil : i = ds.length - 1
        · subst hil
          have hkk : s.cells.length = k + (ds.length - 1) + 1 := by omega
          rw [hdl] at hi
          cases hi
          rw [he, List.getElem?_set_self (by omega)]
          have e1 : ¬ (ds.length - 1 + 1 = ds.length + 1) := by omega
          have e2 : k + ds.length - 1 + 1 = s.cells.length := by omega
          simp only [e1, if_false, e2]
        · have e1 : ¬ (i + 1 = ds.length + 1) := by omega
          have e2 : ¬ (i + 1 = ds.length) := by omega
          rw [List.getElem?_set_ne (by omega), this]
          simp only [e1, e2, if_false]
      · have hi2 : i = ds.length := by
          have := (List.getElem?_eq_some_iff.mp hi).1
          simp at this
          omega
        subst hi2
        rw [List.getElem?_append_right (Nat.le_refl _)] at hi
        simp only [Nat.sub_self, List.getElem?_cons_zero, Option.some.injEq] at hi
        subst hi
        rw [← h2, List.getElem?_append_right (by simp)]
        have e1 : ¬ (ds.length = 0) := by omega
        simp only [List.length_set, Nat.sub_self, List.getElem?_cons_zero, if_true, e1, if_false, h2]
    · intro i c hi hx
      simp only [S.set] at hx
      rw [List.getElem?_append_left (by simp; omega), List.getElem?_set_ne (by omega)] at hx
      exact h.dead i c hi hx
    · simp

private theorem allocAll_chain : ∀ (es : List Desc) {s : S} {k : Nat} {ds : List Desc}, Chain s k ds →
    (s.cur = if ds = [] then none else some (k + ds.length - 1)) →
    ∃ s', allocAll es s = some s' ∧ Chain s' k (ds ++ es) ∧ s'.freed = s.freed
  | [], s, k, ds, h, _ => ⟨s, rfl, by rw [List.append_nil]; exact h, rfl⟩
  | e :: es, s, k, ds, h, hc => by
    obtain ⟨s1, h1, h2, h3, h4⟩ := alloc_chain e h hc
    obtain ⟨s2, h5, h6, h7⟩ := allocAll_chain es h2 (by
      rw [if_neg (by simp), h3]
      simp)
    refine ⟨s2, ?_, ?_, h7.trans h4⟩
    · unfold allocAll
      rw [h1]
      exact h5
    · rw [List.append_assoc] at h6
      exact h6

/-- Removing the first node of the list. -/
private theorem remove_chain {s : S} {k : Nat} {d : Desc} {ds : List Desc} (h : Chain s k (d :: ds)) :
    ∃ c s', s.live? k = some c ∧ c.next = (if ds = [] then none else some (k + 1)) ∧ removeNode k s = some s' ∧
      Chain s' (k + 1) ds ∧ s'.freed = s.freed ++ (freeList d).map fun b => (k, b) := by
  have h0 := h.live 0 d rfl
  simp only [Nat.add_zero, if_true, List.length_cons] at h0
  have hl := live?_of h0 rfl
  have hlen := h.len
  have hh := h.head
  rw [if_neg (by simp)] at hh
  by_cases hd : ds = []
  · subst hd
    simp only [List.length_nil] at hl h0
    refine ⟨_, ⟨s.cells.set k ⟨d, none, none, false⟩, none, s.cur, s.freed ++ (freeList d).map fun b => (k, b)⟩, hl, by simp, ?_, ⟨?_, ?_, ?_, rfl⟩, rfl⟩
    · unfold removeNode
      rw [hl]
      simp only [setNext, setPrev, if_true, hh]
      unfold freeNode
      have : S.live? { s with head := none } k = s.live? k := rfl
      simp only [this, hl]
      rfl
    · simpa using hlen
    · intro i d' hi
      cases hi
    · intro i c hi hx
      by_cases hik : i = k
      · subst hik
        simp only at hx
        rw [List.getElem?_set_self (by simp at hlen; omega)] at hx
        cases hx
        rfl
      · simp only at hx
        rw [List.getElem?_set_ne (by omega)] at hx
        exact h.dead i c (by omega) hx
  · have hpos : 0 < ds.length := List.length_pos_iff.mpr hd
    obtain ⟨d1, hd1⟩ : ∃ d1, ds[0]? = some d1 := ⟨_, List.getElem?_eq_getElem hpos⟩
    have h1 := h.live 1 d1 (by simpa using hd1)
    have hne : ¬ (0 + 1 = ds.length + 1) := by omega
    simp only [hne, if_false] at hl h0
    simp only [Nat.one_ne_zero, if_false, List.length_cons] at h1
    generalize hn1 : (if 1 + 1 = ds.length + 1 then none else some (k + 1 + 1)) = n1 at h1
    have hl1 := live?_of h1 rfl
    refine ⟨_, ⟨(s.cells.set (k + 1) ⟨d1, none, n1, true⟩).set k ⟨d, none, some (k + 1), false⟩, some (k + 1), s.cur,
      s.freed ++ (freeList d).map fun b => (k, b)⟩, hl, by simp [hd], ?_, ⟨?_, ?_, ?_, ?_⟩, rfl⟩
    · unfold removeNode
      rw [hl]
      simp only [setNext, setPrev, hl1]
      have hh2 : (s.set (k + 1) ⟨d1, none, n1, true⟩).head = some k := hh
      simp only [hh2, if_true]
      unfold freeNode
      have : S.live? { (s.set (k + 1) ⟨d1, none, n1, true⟩) with head := some (k + 1) } k = some ⟨d, none, some (k + 1), true⟩ := by
        apply live?_of _ rfl
        show (s.cells.set (k + 1) _)[k]? = _
        rw [List.getElem?_set_ne (by omega)]
        exact h0
      rw [this]
      rfl
    · simp only [List.length_cons] at hlen
      simp only [List.length_set]
      omega
    · intro i d' hi
      have hi' := (List.getElem?_eq_some_iff.mp hi).1
      simp only [List.length_cons] at hlen
      simp only
      rw [List.getElem?_set_ne (by omega)]
      cases i with
      | zero =>
        rw [hd1] at hi
        cases hi
        rw [Nat.add_zero, List.getElem?_set_self (by omega)]
        simp only [if_true, Option.some.injEq, Cell.mk.injEq, true_and, and_true]
        rw [← hn1]
        by_cases hx : 1 = ds.length
        · rw [if_pos (by omega), if_pos (by omega)]
        · rw [if_neg (by omega), if_neg (by omega)]
      | succ i =>
        rw [List.getElem?_set_ne (by omega)]
        have := h.live (i + 1 + 1) d' (by simpa using hi)
        rw [show k + 1 + (i + 1) = k + (i + 1 + 1) by omega, this]
        simp only [List.length_cons, Option.some.injEq, Cell.mk.injEq, true_and, and_true]
        constructor
        · rw [if_neg (by omega), if_neg (by omega)]
        · by_cases hx : i + 1 + 1 = ds.length
          · rw [if_pos (by omega), if_pos hx]
          · rw [if_neg (by omega), if_neg hx]
    · intro i c hi hx
      simp only at hx
      by_cases hik : i = k
      · subst hik
        simp only [List.length_cons] at hlen
        rw [List.getElem?_set_self (by simp; omega)] at hx
        cases hx
        rfl
      · rw [List.getElem?_set_ne (by omega), List.getElem?_set_ne (by omega)] at hx
        exact h.dead i c (by omega) hx
    · simp [hd]

/-- The blocks freed for the nodes `ds` from address `k` on. -/
def freedOf : Nat → List Desc → List (Nat × Field)
  | _, [] => []
  | k, d :: ds => ((freeList d).map fun b => (k, b)) ++ freedOf (k + 1) ds

private theorem freeLoop_chain : ∀ (ds : List Desc) (f : Nat) {s : S} {k : Nat}, Chain s k ds → ds.length ≤ f →
    ∃ s', freeLoop f (if ds = [] then none else some k) s = some s' ∧ Chain s' (k + ds.length) [] ∧
      s'.freed = s.freed ++ freedOf k ds
  | [], f, s, k, h, _ => ⟨s, by cases f <;> rfl, h, by simp [freedOf]⟩
  | d :: ds, 0, s, k, h, hf => by simp at hf
  | d :: ds, f + 1, s, k, h, hf => by
    obtain ⟨c, s1, h1, h2, h3, h4, h5⟩ := remove_chain h
    obtain ⟨s2, h6, h7, h8⟩ := freeLoop_chain ds f h4 (by simpa using hf)
    refine ⟨s2, ?_, ?_, ?_⟩
    · rw [if_neg (by simp)]
      unfold freeLoop
      simp only [h1, h3, h2]
      exact h6
    · rw [List.length_cons, show k + (ds.length + 1) = k + 1 + ds.length by omega]
      exact h7
    · rw [h8, h5, freedOf, List.append_assoc]

/-- Between two passes: the list is empty and every node is freed. -/
structure Clean (s : S) : Prop where
  head : s.head = none
  cur : s.cur = none
  dead : ∀ (i : Nat) c, s.cells[i]? = some c → c.live = false

/-- **C66, part**: whatever nodes a pass allocates, `free_parse_tree` frees each of them, never reads, writes or frees a
block that was freed before, and leaves an empty list; the blocks freed are those of the nodes, in order. -/
theorem C66_free_partial (ds : List Desc) (s : S) (f : Nat) (h : Clean s) (hf : ds.length ≤ f) :
    ∃ s1 s2, allocAll ds s = some s1 ∧ s1.freed = s.freed ∧ s1.cells.length = s.cells.length + ds.length ∧
      freeTree f s1 = some s2 ∧ Clean s2 ∧ s2.cells.length = s1.cells.length ∧
      s2.freed = s.freed ++ freedOf s.cells.length ds := by
  have h0 : Chain s s.cells.length [] :=
    ⟨by simp, fun i d hd => (by cases hd), fun i c _ hx => h.dead i c hx, h.head⟩
  obtain ⟨s1, h1, h2, h3⟩ := allocAll_chain ds h0 h.cur
  rw [List.nil_append] at h2
  obtain ⟨s2, h4, h5, h6⟩ := freeLoop_chain ds f h2 hf
  refine ⟨s1, { s2 with head := none, cur := none }, h1, h3, h2.len, ?_, ⟨rfl, rfl, ?_⟩, ?_, ?_⟩
  · unfold freeTree
    rw [h2.head, h4]
  · intro i c hx
    have hl := h5.len
    simp only [List.length_nil, Nat.add_zero] at hl
    exact h5.dead i c (by rw [← hl]; exact (List.getElem?_eq_some_iff.mp hx).1) hx
  · have hl := h5.len
    rw [h2.len]
    exact hl
  · rw [← h3]
    exact h6

private theorem freeList_nodup (d : Desc) : (freeList d).Nodup ∧ .node ∈ freeList d ∧ ∀ b ∈ freeList d, b ∈ owned d := by
  unfold freeList owned
  rcases d with ⟨t, name, a, b⟩
  cases t <;> simp only [] <;> (repeat' split) <;> simp_all

private theorem mem_freedOf : ∀ (ds : List Desc) (k p : Nat) (b : Field), (p, b) ∈ freedOf k ds ↔
    ∃ i d, ds[i]? = some d ∧ p = k + i ∧ b ∈ freeList d
  | [], k, p, b => by simp [freedOf]
  | d :: ds, k, p, b => by
    rw [freedOf, List.mem_append, mem_freedOf ds (k + 1) p b]
    constructor
    · rintro (h | ⟨i, d', h1, h2, h3⟩)
      · obtain ⟨x, hx, he⟩ := List.mem_map.mp h
        cases he
        exact ⟨0, d, rfl, rfl, hx⟩
      · exact ⟨i + 1, d', by simpa using h1, by omega, h3⟩
    · rintro ⟨i, d', h1, h2, h3⟩
      cases i with
      | zero => cases h1; exact .inl (List.mem_map.mpr ⟨b, h3, by rw [h2]; rfl⟩)
      | succ i => exact .inr ⟨i, d', by simpa using h1, by omega, h3⟩

private theorem freedOf_nodup : ∀ (ds : List Desc) (k : Nat), (freedOf k ds).Nodup
  | [], k => List.nodup_nil
  | d :: ds, k => by
    rw [freedOf, List.nodup_append]
    refine ⟨?_, freedOf_nodup ds (k + 1), ?_⟩
    · have := (freeList_nodup d).1
      rw [List.nodup_iff_pairwise_ne] at this ⊢
      rw [List.pairwise_map]
      exact this.imp fun h e => h (by injection e)
    · intro a ha b hb e
      obtain ⟨x, _, rfl⟩ := List.mem_map.mp ha
      obtain ⟨p, y⟩ := b
      obtain ⟨i, d', _, h2, _⟩ := (mem_freedOf ds (k + 1) p y).mp hb
      injection e with e1 e2
      omega

/-- **C66, part**: over any number of passes, no block is freed twice, the node itself is freed for each node, and only
blocks are freed that the node owns. -/
theorem C66_passes_partial (f : Nat) : ∀ (pss : List (List Desc)) (s : S), Clean s →
    s.freed.Nodup → (∀ x ∈ s.freed, x.1 < s.cells.length) → (∀ ds ∈ pss, ds.length ≤ f) →
    ∃ s', passes f pss s = some s' ∧ Clean s' ∧ s'.freed.Nodup ∧
      s'.cells.length = s.cells.length + pss.flatten.length ∧
      ∀ i d, pss.flatten[i]? = some d → (∀ b, (s.cells.length + i, b) ∈ s'.freed ↔ b ∈ freeList d) ∧
        (s.cells.length + i, .node) ∈ s'.freed ∧ ∀ b, (s.cells.length + i, b) ∈ s'.freed → b ∈ owned d := by
  have key : ∀ (pss : List (List Desc)) (s : S), Clean s → (∀ ds ∈ pss, ds.length ≤ f) →
      ∃ s', passes f pss s = some s' ∧ Clean s' ∧ s'.cells.length = s.cells.length + pss.flatten.length ∧
        s'.freed = s.freed ++ freedOf s.cells.length pss.flatten := by
    intro pss
    induction pss with
    | nil => intro s h _; exact ⟨s, rfl, h, rfl, by simp [freedOf]⟩
    | cons ds pss ih =>
      intro s h hf
      obtain ⟨s1, s2, h1, _, h2, h3, h4, h5, h6⟩ := C66_free_partial ds s f h (hf ds List.mem_cons_self)
      obtain ⟨s3, h7, h8, h9, h10⟩ := ih s2 h4 fun x hx => hf x (List.mem_cons_of_mem _ hx)
      refine ⟨s3, ?_, h8, ?_, ?_⟩
      · unfold passes
        simp only [h1, h3]
        exact h7
      · rw [h9, h5, h2, List.flatten_cons, List.length_append]
        omega
      · have app : ∀ (a b : List Desc) (k : Nat), freedOf k (a ++ b) = freedOf k a ++ freedOf (k + a.length) b := by
          intro a b
          induction a with
          | nil => intro k; simp [freedOf]
          | cons x a iha =>
            intro k
            rw [List.cons_append, freedOf, freedOf, iha, List.append_assoc, List.length_cons,
              show k + 1 + a.length = k + (a.length + 1) by omega]
        rw [h10, h6, h5, h2, List.flatten_cons, app, List.append_assoc]
  intro pss s h hn hlt hf
  obtain ⟨s', h1, h2, h3, h4⟩ := key pss s h hf
  have hmem : ∀ i d, pss.flatten[i]? = some d → ∀ b, (s.cells.length + i, b) ∈ s'.freed ↔ b ∈ freeList d := by
    intro i d hd b
    rw [h4, List.mem_append, mem_freedOf]
    constructor
    · rintro (hx | ⟨j, d', hj, he, hb⟩)
      · have := hlt _ hx
        simp only at this
        omega
      · have : i = j := by omega
        subst this
        rw [hd] at hj
        cases hj
        exact hb
    · exact fun hb => .inr ⟨i, d, hd, rfl, hb⟩
  refine ⟨s', h1, h2, ?_, h3, fun i d hd => ⟨hmem i d hd, ?_, fun b hb => ?_⟩⟩
  · rw [h4, List.nodup_append]
    refine ⟨hn, freedOf_nodup _ _, ?_⟩
    intro a ha b hb e
    obtain ⟨p, y⟩ := b
    obtain ⟨i, _, _, hp, _⟩ := (mem_freedOf _ _ p y).mp hb
    subst e
    have := hlt _ ha
    simp only at this
    omega
  · exact (hmem i d hd .node).mpr (freeList_nodup d).2.1
  · exact (freeList_nodup d).2.2 b ((hmem i d hd b).mp hb)

/-- The nodes of `lab: asl a` and `x = 1`. -/
private def demo : List Desc := [
  ⟨.other, [], 0, 0⟩, ⟨.label, cstr! "lab", 0, 0⟩, ⟨.id, cstr! "A", 0, 0⟩, ⟨.other, [], 1, 0⟩, ⟨.id, cstr! "x", 0, 0⟩,
  ⟨.other, [], 0, 0⟩, ⟨.other, [], 2, 2⟩]

example : Clean {} ∧ ((passes 10 [demo, demo] {}).map fun s => s.freed.length) = some 20 := by
  refine ⟨⟨rfl, rfl, fun i c h => by cases h⟩, ?_⟩
  decide +kernel

/-- **C66 is violated**: not every block is freed.  The name of a label, the text of a string and the name in a macro call
never are, nor are names with a dot, `@`, `+` or `-`, nor the operand array of an instruction with the operand `A`. -/
theorem C66_leak_false (name : Str) :
    .name ∈ owned ⟨.label, name, 0, 0⟩ ∧ .name ∉ freeList ⟨.label, name, 0, 0⟩ ∧
    .strText ∈ owned ⟨.str, name, 0, 0⟩ ∧ .strText ∉ freeList ⟨.str, name, 0, 0⟩ ∧
    .macroName ∈ owned ⟨.macroEx, name, 0, 0⟩ ∧ .macroName ∉ freeList ⟨.macroEx, name, 0, 0⟩ ∧
    .name ∈ owned ⟨.id, 64 :: name, 0, 0⟩ ∧ .name ∉ freeList ⟨.id, 64 :: name, 0, 0⟩ ∧
    .ops ∈ owned ⟨.other, name, 1, 0⟩ ∧ .ops ∉ freeList ⟨.other, name, 1, 0⟩ := by
  have h : isNameValid (64 :: name) = false := by simp [isNameValid]
  simp [owned, freeList, h]

/-- **C66 is violated** for `remove_parse_node` alone (it is exported, but only `free_parse_tree` calls it): after the newest
node was removed `current_node` still points to it, and the next allocation writes to the freed block. -/
theorem C66_remove_false : ∃ s1 s2 : S, allocAll [⟨.other, [], 0, 0⟩, ⟨.other, [], 0, 0⟩] {} = some s1 ∧
    removeNode 1 s1 = some s2 ∧ alloc ⟨.other, [], 0, 0⟩ s2 = none := by
  refine ⟨(allocAll [⟨.other, [], 0, 0⟩, ⟨.other, [], 0, 0⟩] {}).getD {},
    ((allocAll [⟨.other, [], 0, 0⟩, ⟨.other, [], 0, 0⟩] {}).bind (removeNode 1)).getD {}, ?_⟩
  decide +kernel

end Verif.NodeList
