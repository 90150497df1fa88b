import Verif.Lemmas.Dict

/-! # Properties C18 (case-insensitive names), C19 and C20 (dictionary) -/

namespace Verif

/-- **C18.** The comparison used for names is equality of the case-folded names, and equal names have
equal hashes. -/
theorem C18_case_insensitive (a b : Str) (ha : CStr a) (hb : CStr b) :
    (stricmp a b = 0 ↔ Spec.foldCase a = Spec.foldCase b) ∧
    (stricmp a b = 0 → hashFunction a = hashFunction b) := by
  have h := stricmp_eq_zero_iff ha hb
  exact ⟨h, fun h0 => hashFunction_congr (h.1 h0)⟩

/-- **C18**, consequence: comparison is an equivalence relation. -/
theorem C18_equivalence :
    (∀ a, CStr a → stricmp a a = 0) ∧
    (∀ a b, CStr a → CStr b → stricmp a b = 0 → stricmp b a = 0) ∧
    (∀ a b c, CStr a → CStr b → CStr c → stricmp a b = 0 → stricmp b c = 0 → stricmp a c = 0) := by
  refine ⟨fun a ha => ?_, fun a b ha hb h => ?_, fun a b c ha hb hc h h' => ?_⟩
  · rw [stricmp_eq_zero_iff ha ha]
  · rw [stricmp_eq_zero_iff hb ha]; exact ((stricmp_eq_zero_iff ha hb).1 h).symm
  · rw [stricmp_eq_zero_iff ha hc, (stricmp_eq_zero_iff ha hb).1 h,
      (stricmp_eq_zero_iff hb hc).1 h']

example : CStr (cstr! "Start") ∧ CStr (cstr! "sTART") ∧ stricmp (cstr! "Start") (cstr! "sTART") = 0 ∧
    stricmp (cstr! "Start") (cstr! "star") ≠ 0 := by
  simp only [CStr]; decide

namespace Dict

variable {α : Type}

/-- A user operation on the model dictionary. -/
def step (d : Dict α) : Spec.DictOp α → Dict α
  | .insert k v => d.insert k v
  | .delete k => d.delete k

/-- A history of operations on a freshly created dictionary. -/
def run (ops : List (Spec.DictOp α)) : Dict α := ops.foldl step create

end Dict

/-- Keys used by an operation are C strings. -/
def opOk {α : Type} : Spec.DictOp α → Prop
  | .insert k _ => CStr k
  | .delete k => CStr k

/-- In the history no key is inserted while it is present. -/
def FreshInserts {α : Type} : Spec.Store α → List (Spec.DictOp α) → Prop
  | _, [] => True
  | s, op :: ops =>
    (match op with
      | .insert k _ => s.find k = none
      | .delete _ => True) ∧ FreshInserts (s.step op) ops

section

variable {α : Type}

open Dict

private structure Sim (d : Dict α) (s : Spec.Store α) : Prop where
  wf : d.Wf
  room : d.count < d.threshold
  recs : ∀ k, d.table.flatten.filter (same k) = s.filter (same k)

private theorem sim_search {d : Dict α} {s : Spec.Store α} (h : Sim d s) {k : Str} (hk : CStr k) :
    d.search k = s.find k := by
  rw [h.wf.search_eq hk, h.recs, List.head?_filter]; rfl

private theorem sim_create : Sim (create : Dict α) [] where
  wf := createSized_wf (by decide)
  room := by
    show 0 < 1024 * 9 / 10
    decide
  recs := by
    intro k
    have : (create : Dict α).table.flatten = [] := by
      apply List.length_eq_zero_iff.1
      exact (createSized_wf (α := α) (n := 1024) (by decide)).cnt.symm
    rw [this]

private theorem sim_delete {d : Dict α} {s : Spec.Store α} (h : Sim d s) {k : Str} (hk : CStr k) :
    Sim (d.delete k) (s.step (.delete k)) := by
  obtain ⟨w, hs, hc, hf⟩ := delete_spec h.wf hk
  refine ⟨w, ?_, fun k' => ?_⟩
  · have := h.room
    simp only [threshold] at this ⊢
    rw [hs, hc]; omega
  · rw [hf, h.recs]
    show _ = (s.eraseP (same k)).filter (same k')
    by_cases hkk : Spec.foldCase k = Spec.foldCase k'
    · symm
      apply eraseP_filter
      · intro x hx; simpa [same, hkk] using hx
      · intro x _ hx; simpa [same, hkk] using hx
    · have hdis : ∀ x ∈ s, same k x = true → same k' x = false := by
        intro x _ hx
        simp only [same, beq_iff_eq] at hx
        simp only [same, beq_eq_false_iff_ne, hx]
        exact hkk
      rw [eraseP_filter_disjoint _ _ _ hdis]
      apply List.eraseP_of_forall_not
      intro x hx hs
      obtain ⟨h1, h2⟩ := List.mem_filter.1 hx
      rw [hdis x h1 hs] at h2
      cases h2

private theorem filter_cons_store (s : Spec.Store α) (k : Str) (v : α) (k' : Str) :
    (if Spec.foldCase k = Spec.foldCase k' then [(k, v)] else []) ++ s.filter (same k') =
      List.filter (same k') ((k, v) :: s) := by
  by_cases h : Spec.foldCase k = Spec.foldCase k'
  · have : same k' (k, v) = true := by simpa [same] using h
    simp [h, this]
  · have : same k' (k, v) = false := by simpa [same] using h
    simp [h, this]

private theorem reverse_of_length_le_one {β : Type} (l : List β) (h : l.length ≤ 1) :
    l.reverse = l := by
  match l, h with
  | [], _ => rfl
  | [a], _ => rfl

private theorem sim_insert {d : Dict α} {s : Spec.Store α} (h : Sim d s)
    (hu : ∀ k, (s.filter (same k)).length ≤ 1) {k : Str} (hk : CStr k) (v : α)
    (hfresh : s.find k = none) :
    Sim (d.insert k v) (s.step (.insert k v)) ∧
      ∀ k', ((s.step (.insert k v)).filter (same k')).length ≤ 1 := by
  obtain ⟨w, hc, hroom, hif⟩ := insertF_spec (fuel := 1) h.wf h.room hk v
  have hnone : s.filter (same k) = [] := by
    rw [List.filter_eq_nil_iff]
    intro x hx hs
    simp only [Spec.Store.find, Option.map_eq_none_iff, List.find?_eq_none] at hfresh
    exact hfresh x hx hs
  have hlink : ∀ k', (d.link k v).table.flatten.filter (same k') =
      List.filter (same k') ((k, v) :: s) := by
    intro k'
    rw [filter_link h.wf hk, h.recs, filter_cons_store]
  have hu' : ∀ k', (List.filter (same k') ((k, v) :: s)).length ≤ 1 := by
    intro k'
    rw [← filter_cons_store]
    by_cases hkk : Spec.foldCase k = Spec.foldCase k'
    · have : s.filter (same k') = [] := by
        rw [← hnone]; congr 1; funext e; simp [same, hkk]
      simp [hkk, this]
    · simp only [hkk, if_false, List.nil_append]; exact hu k'
  refine ⟨⟨w, hroom, fun k' => ?_⟩, hu'⟩
  split at hif
  · exact (hif.2 k').trans (hlink k')
  · refine (hif.2 k').trans ?_
    rw [hlink, reverse_of_length_le_one _ (hu' k')]
    rfl

private theorem sim_run (ops : List (Spec.DictOp α)) (hok : ∀ op ∈ ops, opOk op) :
    ∀ (d : Dict α) (s : Spec.Store α), Sim d s → (∀ k, (s.filter (same k)).length ≤ 1) →
      d.count = s.length → FreshInserts s ops →
      Sim (ops.foldl Dict.step d) (s.run ops) ∧
        (ops.foldl Dict.step d).count = (s.run ops).length := by
  induction ops with
  | nil => intro d s h _ hc _; exact ⟨h, hc⟩
  | cons op ops ih =>
    intro d s h hu hc hf
    have ih := ih (fun op hop => hok op (by simp [hop]))
    obtain ⟨hf1, hf2⟩ := hf
    simp only [List.foldl_cons]
    cases op with
    | insert k v =>
      have hk : CStr k := hok (.insert k v) (by simp)
      obtain ⟨h', hu'⟩ := sim_insert h hu hk v hf1
      have hcnt := (insertF_spec (fuel := 1) h.wf h.room hk v).2.1
      refine ih _ _ h' hu' ?_ hf2
      show (d.insert k v).count = s.length + 1
      rw [← hc]; exact hcnt
    | delete k =>
      have hk : CStr k := hok (.delete k) (by simp)
      have hcnt := (delete_spec h.wf hk).2.2.1
      refine ih _ _ (sim_delete h hk) ?_ ?_ hf2
      · intro k'
        refine Nat.le_trans ?_ (hu k')
        exact (List.eraseP_sublist.filter _).length_le
      · show (d.delete k).count = (s.eraseP (same k)).length
        rw [hcnt, h.recs, hc]
        by_cases he : s.filter (same k) = []
        · rw [if_pos he, List.eraseP_of_forall_not]
          · rfl
          · intro x hx hs
            exact List.filter_eq_nil_iff.1 he x hx hs
        · rw [if_neg he]
          obtain ⟨x, hx⟩ := List.exists_mem_of_ne_nil _ he
          obtain ⟨hx1, hx2⟩ := List.mem_filter.1 hx
          exact (List.length_eraseP_of_mem hx1 hx2).symm

end

/-- **C19.** After any history of operations in which keys are inserted only while absent, searching
agrees with the abstract store (for every key, in any capitalisation), whatever growths and
collisions happened; the element count is the number of stored records. -/
theorem C19_dictionary_is_finite_map {α : Type} (ops : List (Spec.DictOp α))
    (hok : ∀ op ∈ ops, opOk op) (hfresh : FreshInserts [] ops) :
    (∀ k, CStr k → (Dict.run ops).search k = (Spec.Store.run [] ops).find k) ∧
      (Dict.run ops).count = (Spec.Store.run [] ops).length := by
  obtain ⟨h, hc⟩ := sim_run ops hok Dict.create [] sim_create (by simp) rfl hfresh
  exact ⟨fun k hk => sim_search h hk, hc⟩

example : ∀ (n : Nat), FreshInserts (α := Nat) []
    ((List.range (n+2)).map fun i => Spec.DictOp.insert (List.replicate (i+1) 65) i) ∧
    ∀ op ∈ (List.range (n+2)).map (fun i => Spec.DictOp.insert (List.replicate (i+1) 65) i),
      opOk op := by
  intro n
  constructor
  · have key : ∀ (l : List Nat) (s : Spec.Store Nat), l.Pairwise (· < ·) →
        (∀ e ∈ s, ∀ i ∈ l, e.1.length ≤ i) →
        FreshInserts s (l.map fun i => Spec.DictOp.insert (List.replicate (i+1) 65) i) := by
      intro l
      induction l with
      | nil => intros; trivial
      | cons i l ih =>
        intro s hl hs
        rw [List.pairwise_cons] at hl
        refine ⟨?_, ih _ hl.2 ?_⟩
        · simp only [Spec.Store.find, Option.map_eq_none_iff, List.find?_eq_none]
          intro e he
          have := hs e he i (by simp)
          simp only [beq_iff_eq]
          intro h
          have := congrArg List.length h
          simp [Spec.foldCase] at this
          omega
        · intro e he j hj
          rcases List.mem_cons.1 he with rfl | he
          · have := hl.1 j hj
            simp; omega
          · exact hs e he j (by simp [hj])
    exact key _ _ List.pairwise_lt_range (by simp)
  · intro op hop
    obtain ⟨i, _, rfl⟩ := List.mem_map.1 hop
    intro c hc
    rw [List.mem_replicate] at hc
    omega

section

variable {α : Type}

open Dict

private theorem size_insert_small {d : Dict α} {s : Spec.Store α} (h : Sim d s) {k : Str}
    (hk : CStr k) (v : α) (hlt : d.count + 1 < d.threshold) :
    Sim (d.insert k v) (s.step (.insert k v)) ∧ (d.insert k v).size = d.size ∧
      (d.insert k v).count = d.count + 1 := by
  obtain ⟨w, hc, hroom, hif⟩ := insertF_spec (fuel := 1) h.wf h.room hk v
  rw [if_pos hlt] at hif
  refine ⟨⟨w, hroom, fun k' => (hif.2 k').trans ?_⟩, hif.1, hc⟩
  rw [filter_link h.wf hk, h.recs, filter_cons_store]
  rfl

/-- Number of insertions of a history. -/
def insertCount : List (Spec.DictOp α) → Nat
  | [] => 0
  | .insert _ _ :: ops => insertCount ops + 1
  | .delete _ :: ops => insertCount ops

private theorem sim_run_small (ops : List (Spec.DictOp α)) (hok : ∀ op ∈ ops, opOk op) :
    ∀ (d : Dict α) (s : Spec.Store α), Sim d s → d.size = 1024 →
      d.count + insertCount ops < 921 →
      Sim (ops.foldl Dict.step d) (s.run ops) ∧ (ops.foldl Dict.step d).size = 1024 ∧
        (ops.foldl Dict.step d).count ≤ d.count + insertCount ops := by
  induction ops with
  | nil => intro d s h hs hc; exact ⟨h, hs, Nat.le_add_right _ _⟩
  | cons op ops ih =>
    intro d s h hs hc
    have ih := ih (fun op hop => hok op (by simp [hop]))
    simp only [List.foldl_cons]
    cases op with
    | insert k v =>
      have hk : CStr k := hok (.insert k v) (by simp)
      simp only [insertCount] at hc
      have ht : d.threshold = 921 := by simp [threshold, hs]
      obtain ⟨h', hs', hc'⟩ := size_insert_small h hk v (by omega)
      obtain ⟨a, b, c⟩ := ih (d.insert k v) (s.step (.insert k v)) h' (hs'.trans hs) (by omega)
      refine ⟨a, b, ?_⟩
      simp only [insertCount]
      have c : (ops.foldl Dict.step (d.insert k v)).count ≤ _ := c
      show (ops.foldl Dict.step (d.insert k v)).count ≤ _
      omega
    | delete k =>
      have hk : CStr k := hok (.delete k) (by simp)
      obtain ⟨w, hs', hc', _⟩ := delete_spec h.wf hk
      simp only [insertCount] at hc
      obtain ⟨a, b, c⟩ := ih (d.delete k) (s.step (.delete k)) (sim_delete h hk) (hs'.trans hs) (by omega)
      refine ⟨a, b, ?_⟩
      simp only [insertCount]
      have c : (ops.foldl Dict.step (d.delete k)).count ≤ _ := c
      show (ops.foldl Dict.step (d.delete k)).count ≤ _
      omega

end

/-- **C20** (before the first growth).  With duplicate keys allowed, searching returns the most recent
value as long as fewer than 921 insertions were made.  Missing from the full statement: histories
in which the table grows; see `C20_false_after_growth`. -/
theorem C20_most_recent_partial {α : Type} (ops : List (Spec.DictOp α))
    (hok : ∀ op ∈ ops, opOk op) (hn : insertCount ops < 921) (k : Str) (hk : CStr k) :
    (Dict.run ops).search k = (Spec.Store.run [] ops).find k := by
  have h := sim_run_small ops hok Dict.create [] sim_create rfl (by
    show 0 + _ < _; omega)
  exact sim_search h.1 hk

example : (Spec.Store.run [] [Spec.DictOp.insert (cstr! "x") 1, .insert (cstr! "X") 2,
    .insert (cstr! "x") 3, .delete (cstr! "x")]).find (cstr! "x") = some 2 ∧
    insertCount [Spec.DictOp.insert (cstr! "x") 1, .insert (cstr! "X") 2,
    .insert (cstr! "x") 3, .delete (cstr! "x")] < 921 := by decide

/-- **C20**, negation: insert `x` twice (values 1 then 2) and 919 further records; the 921st insertion
makes the table grow and searching `x` now yields the older value 1. -/
theorem C20_false_after_growth :
    ∃ ops : List (Spec.DictOp Nat), (∀ op ∈ ops, opOk op) ∧
      (Dict.run ops).search (cstr! "x") = some 1 ∧
      (Spec.Store.run [] ops).find (cstr! "x") = some 2 := by
  let pre : List (Spec.DictOp Nat) :=
    [.insert (cstr! "x") 1, .insert (cstr! "x") 2] ++
      List.replicate 918 (.insert (cstr! "y") 0)
  have hpre : ∀ op ∈ pre, opOk op := by
    intro op hop
    simp only [pre, List.mem_append, List.mem_cons, List.mem_replicate, List.not_mem_nil,
      or_false] at hop
    rcases hop with (rfl | rfl) | ⟨_, rfl⟩ <;> simp only [opOk, CStr] <;> decide
  have hic : ∀ n, insertCount (List.replicate n (Spec.DictOp.insert (cstr! "y") 0)) = n := by
    intro n
    induction n with
    | zero => rfl
    | succ n ih => simp only [List.replicate_succ, insertCount, ih]
  have hn : insertCount pre = 920 := by
    have : insertCount pre =
        insertCount (List.replicate 918 (Spec.DictOp.insert (cstr! "y") 0)) + 1 + 1 := rfl
    rw [this, hic]
  obtain ⟨hsim, hsz, hle⟩ := sim_run_small pre hpre Dict.create [] sim_create rfl (by
    rw [hn]; decide)
  have hy : CStr (cstr! "y") := by simp only [CStr]; decide
  have hx : CStr (cstr! "x") := by simp only [CStr]; decide
  have hsf : ∀ (n : Nat) (s : Spec.Store Nat),
      (Spec.Store.run s (List.replicate n (.insert (cstr! "y") 0))).filter (Dict.same (cstr! "x"))
        = s.filter (Dict.same (cstr! "x")) ∧
      (Spec.Store.run s (List.replicate n (.insert (cstr! "y") 0))).length = s.length + n := by
    intro n
    induction n with
    | zero => intro s; exact ⟨rfl, rfl⟩
    | succ n ih =>
      intro s
      simp only [List.replicate_succ]
      obtain ⟨h1, h2⟩ := ih (s.step (.insert (cstr! "y") 0))
      have hrun : Spec.Store.run s (Spec.DictOp.insert (cstr! "y") 0 ::
          List.replicate n (.insert (cstr! "y") 0)) =
          Spec.Store.run (s.step (.insert (cstr! "y") 0))
            (List.replicate n (.insert (cstr! "y") 0)) := rfl
      rw [hrun]
      refine ⟨h1.trans ?_, h2.trans ?_⟩
      · show List.filter _ ((cstr! "y", 0) :: s) = _
        rw [List.filter_cons, if_neg (by decide)]
      · show s.length + 1 + n = _
        omega
  have hrunpre : Spec.Store.run [] pre =
      Spec.Store.run [(cstr! "x", 2), (cstr! "x", 1)]
        (List.replicate 918 (.insert (cstr! "y") 0)) := by
    simp only [pre, Spec.Store.run, List.foldl_append]; rfl
  have hrecs : (Dict.run pre).table.flatten.filter (Dict.same (cstr! "x")) =
      [(cstr! "x", 2), (cstr! "x", 1)] := by
    show (pre.foldl Dict.step Dict.create).table.flatten.filter _ = _
    rw [hsim.recs, hrunpre, (hsf _ _).1]
    decide
  -- the number of elements before the last insertion
  have hcount : (Dict.run pre).count = 920 := by
    have key : ∀ (ops : List (Spec.DictOp Nat)) (d : Dict Nat) (s : Spec.Store Nat), Sim d s →
        d.size = 1024 → (∀ op ∈ ops, ∃ k v, op = .insert k v ∧ CStr k) →
        d.count + ops.length < 921 → (ops.foldl Dict.step d).count = d.count + ops.length := by
      intro ops
      induction ops with
      | nil => intros; rfl
      | cons op ops ih =>
        intro d s hs hz hop hlt
        obtain ⟨k, v, rfl, hk⟩ := hop op (by simp)
        simp only [List.length_cons] at hlt
        obtain ⟨h1, h2, h3⟩ := size_insert_small hs hk v (by
          have ht : d.threshold = 921 := by simp [Dict.threshold, hz]
          omega)
        simp only [List.foldl_cons, List.length_cons]
        have := ih (d.insert k v) _ h1 (h2.trans hz) (fun op h => hop op (by simp [h])) (by omega)
        show (ops.foldl Dict.step (d.insert k v)).count = _
        omega
    have hlen : pre.length = 920 := by
      simp only [pre, List.length_append, List.length_replicate, List.length_cons, List.length_nil]
    have := key pre Dict.create [] sim_create rfl (by
      intro op hop
      simp only [pre, List.mem_append, List.mem_cons, List.mem_replicate, List.not_mem_nil,
        or_false] at hop
      rcases hop with (rfl | rfl) | ⟨_, rfl⟩
      · exact ⟨_, _, rfl, hx⟩
      · exact ⟨_, _, rfl, hx⟩
      · exact ⟨_, _, rfl, hy⟩) (by rw [hlen]; decide)
    rw [hlen] at this
    exact this
  refine ⟨pre ++ [.insert (cstr! "y") 0], ?_, ?_, ?_⟩
  · intro op hop
    rcases List.mem_append.1 hop with h | h
    · exact hpre op h
    · rw [List.mem_singleton.1 h]; exact hy
  · have hrun : Dict.run (pre ++ [.insert (cstr! "y") 0]) =
        (Dict.run pre).insert (cstr! "y") 0 := by
      simp only [Dict.run, List.foldl_append]; rfl
    rw [hrun]
    obtain ⟨w, hc, hroom, hif⟩ := Dict.insertF_spec (fuel := 1) hsim.wf hsim.room hy 0
    have ht : (pre.foldl Dict.step Dict.create).threshold = 921 := by
      simp [Dict.threshold, hsz]
    have hcount' : (pre.foldl Dict.step Dict.create).count = 920 := hcount
    rw [if_neg (by omega)] at hif
    show Dict.search (Dict.insertF (1 + 1) (pre.foldl Dict.step Dict.create) _ _) _ = _
    rw [w.search_eq hx, hif.2, Dict.filter_link hsim.wf hy]
    have hrecs' : (pre.foldl Dict.step Dict.create).table.flatten.filter
      (Dict.same (cstr! "x")) = [(cstr! "x", 2), (cstr! "x", 1)] := hrecs
    rw [hrecs']
    decide
  · have hrun : Spec.Store.run [] (pre ++ [.insert (cstr! "y") 0]) =
        (cstr! "y", 0) :: Spec.Store.run [] pre := by
      simp only [Spec.Store.run, List.foldl_append]; rfl
    have hfind : ∀ s : Spec.Store Nat, s.find (cstr! "x") =
        ((s.filter (Dict.same (cstr! "x"))).head?).map (·.2) := by
      intro s; rw [List.head?_filter]; rfl
    rw [hfind, hrun, List.filter_cons, if_neg (by decide), hrunpre, (hsf _ _).1]
    decide

end Verif
