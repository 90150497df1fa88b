import Verif.Lemmas.Monad

/-! # Exact runs of the primitive operations -/

namespace Verif

/-- Pointer `p` is valid and holds node `n`. -/
def Live (s : St) (p : Ptr) (n : Node) : Prop := s.nodeBase ≤ p ∧ s.nodes[p]? = some n

theorem Live.run {s : St} {p : Ptr} {n : Node} (h : Live s p n) : node p s = (.ok n, s) := by
  unfold node
  rw [if_neg (Nat.not_lt.2 h.1), h.2]

theorem Live.lt {s : St} {p : Ptr} {n : Node} (h : Live s p n) : p < s.nodes.length := by
  rcases Nat.lt_or_ge p s.nodes.length with h' | h'
  · exact h'
  · have := h.2
    rw [List.getElem?_eq_none h'] at this
    cases this

theorem Live.set {s : St} {p : Ptr} {n : Node} (h : Live s p n) (m : Node) :
    setNode p m s = (.ok (), { s with nodes := s.nodes.set p m }) := by
  unfold setNode
  rw [if_neg]
  have := h.1
  have := h.lt
  intro h'
  rcases h' with h' | h'
  · exact absurd h' (Nat.not_lt.2 (by assumption))
  · exact absurd h' (Nat.not_le.2 (by assumption))

theorem opAt_run {n : Node} {i : Nat} {o : Ptr} (h : n.ops[i]? = some o) (s : St) : opAt n i s = (.ok o, s) := by
  unfold opAt
  rw [h]
  rfl

theorem sym_run {s : St} {i : SymPtr} {x : Sym} (h : s.syms[i]? = some x) : sym i s = (.ok x, s) := by
  unfold sym
  rw [h]

theorem modSym_run {s : St} {i : SymPtr} (h : i < s.syms.length) (f : Sym → Sym) :
    modSym i f s = (.ok (), { s with syms := s.syms.modify i f }) := by
  unfold modSym
  rw [if_pos h]

theorem alloc_run (k : Kind) (ops : List Ptr) (s : St) :
    allocNode k ops s = (.ok s.nodes.length, { s with nodes := s.nodes ++ [⟨k, ops.length, ops⟩] }) := rfl

theorem Live.append {s : St} {p : Ptr} {n : Node} (h : Live s p n) (l : List Node) :
    s.nodeBase ≤ p ∧ (s.nodes ++ l)[p]? = some n :=
  ⟨h.1, by rw [List.getElem?_append_left h.lt]; exact h.2⟩

theorem Live.alloc {s : St} (hb : s.nodeBase ≤ s.nodes.length) (n : Node) :
    s.nodeBase ≤ s.nodes.length ∧ (s.nodes ++ [n])[s.nodes.length]? = some n :=
  ⟨hb, by simp⟩

/-- One step of `expand_node`. -/
theorem expandNode_run {f : Nat} {p : Ptr} {s : St} {n : Node} (he : s.endExpansion = false) (h : Live s p n) :
    expandNode (f + 1) p s = expandKind (expandNode f) (hasUninit f) f p n s := by
  show (getS >>= _) s = _
  rw [getS_bind, if_neg (by rw [he]; decide), bind_ok h.run]

theorem operands_run {n : Node} (h : n.numOps ≤ n.ops.length) (s : St) :
    operands n s = (.ok (n.ops.take n.numOps), s) := by
  unfold operands
  rw [if_pos h]
  rfl

theorem built_run {m : M Ptr} {s s' : St} {p : Ptr} (h : m s = (.ok p, s')) : built m s = (.ok (some p), s') := by
  unfold built
  rw [bind_ok h]
  rfl

/-- A top-level statement that is not a word: build, then expand. -/
theorem runTop_stmt {ex : Ptr → M Int} {hu : Ptr → M Bool} {file : Str} {line : Int} {st : Stmt}
    (hw : ∀ b n a, st ≠ .word b n a) {s s1 s2 : St} {p : Ptr} {v : Int}
    (h1 : buildStmt ex hu false st { s with file := file, line := line } = (.ok (some p), s1))
    (h2 : ex p s1 = (.ok v, s2)) : runTop ex hu (.stmt file line st) s = (.ok true, s2) := by
  have : runTop ex hu (.stmt file line st) = (modS fun s => { s with file := file, line := line }) >>= fun _ =>
      buildStmt ex hu false st >>= fun r => match r with
        | none => M.pure false
        | some p => ex p >>= fun _ => M.pure true := by
    cases st <;> first | rfl | exact absurd rfl (hw _ _ _)
  rw [this, modS_bind, bind_ok h1]
  show (ex p >>= fun _ => M.pure true) s1 = _
  rw [bind_ok h2]
  rfl

theorem runFile_cons {ex : Ptr → M Int} {hu : Ptr → M Bool} {t : Top} {ts : List Top} {s s' : St}
    (h : runTop ex hu t s = (.ok true, s')) : runFile ex hu (t :: ts) s = runFile ex hu ts s' := by
  show (runTop ex hu t >>= _) s = _
  rw [bind_ok h]
  rfl

end Verif
