import Verif.Props.ListFile
import Verif.Props.Include
import Verif.Lemmas.ReadBack

/-! # Properties C57 and C60: the statements `.print on` and `.print off`, and the characters of rows -/

namespace Verif

/-- **C57**, `.print on` and `.print off` as statements.  In the final pass the statement adds to the listing the entries
described by `lstTable` (see `C57_print` for what they do to the list file) and sets the state; in the other passes it
does nothing.  No byte, symbol, counter or message changes. -/
theorem C57_print_statement (f : Nat) (s : St) (file : Str) (line : Int) (on : Bool) (he : s.endExpansion = false)
    (hb : s.nodeBase ≤ s.nodes.length) :
    runTop (expandNode (f + 1)) (hasUninit (f + 1)) (.stmt file line (.printState on)) s = (.ok true, { s with
      file := file
      line := line
      nodes := s.nodes ++ [⟨.printState on, 0, []⟩]
      listing := s.listing ++ if s.finalPass then lstTable s.printListState [.print on file line] else []
      printListState := if s.finalPass then on else s.printListState }) := by
  let T : St := { s with
      file := file
      line := line
      nodes := s.nodes ++ [⟨.printState on, 0, []⟩] }
  have e : runTop (expandNode (f + 1)) (hasUninit (f + 1)) (.stmt file line (.printState on)) s =
      (expandNode (f + 1) s.nodes.length >>= fun _ => M.pure true) T := by
    show (modS (fun s => { s with file := file, line := line }) >>= fun _ =>
      buildStmt (expandNode (f + 1)) (hasUninit (f + 1)) false (.printState on) >>= fun r => match r with
      | none => M.pure false
      | some p => do
        let _ ← expandNode (f + 1) p
        M.pure true) s = _
    rw [modS_bind]
    have : buildStmt (expandNode (f + 1)) (hasUninit (f + 1)) false (.printState on) { s with file := file, line := line } =
      (.ok (some s.nodes.length), T) := rfl
    rw [bind_ok this]
  have hn : node s.nodes.length T = (.ok ⟨.printState on, 0, []⟩, T) := node_run hb (by simp [T])
  have e1 : expandNode (f + 1) s.nodes.length T = expandPrintState (expandNode f) s.nodes.length T := by
    show (getS >>= _) T = _
    rw [getS_bind, if_neg (show ¬ T.endExpansion = true by rw [show T.endExpansion = false from he]; simp), bind_ok hn]
    rfl
  rw [e, run_bind, e1]
  unfold expandPrintState
  rw [getS_bind]
  by_cases hf : s.finalPass = true
  rotate_left
  · rw [if_neg (show ¬ T.finalPass = true from hf)]
    simp only [if_neg hf, List.append_nil]
    rfl
  · rw [if_pos (show T.finalPass = true from hf)]
    simp only [if_pos hf]
    have g1 : generateListNode (expandNode f) s.nodes.length T = listPrintState on T := by
      unfold generateListNode
      rw [bind_ok hn]
    have g2 : listPrintState on T = (.ok (), { T with
        listing := s.listing ++ (if on ≠ s.printListState then [⟨line, file, [], false, true⟩] else [])
        printListState := on }) := by
      unfold listPrintState
      rw [getS_bind]
      by_cases h : on = s.printListState
      · rw [if_pos (show on = T.printListState from h)]
        simp only [ne_eq, h, not_true_eq_false, if_false, List.append_nil]
        rfl
      · rw [if_neg (show ¬ on = T.printListState from h)]
        simp only [ne_eq, h, not_false_eq_true, if_true]
        rfl
    let U : St := { T with
        listing := s.listing ++ (if on ≠ s.printListState then [⟨line, file, [], false, true⟩] else [])
        printListState := on }
    have hu : node s.nodes.length U = (.ok ⟨.printState on, 0, []⟩, U) := node_run hb (by simp [U, T])
    rw [run_bind, run_bind, g1, g2]
    simp only
    rw [show ({ T with
        listing := s.listing ++ (if on ≠ s.printListState then [⟨line, file, [], false, true⟩] else [])
        printListState := on } : St) = U from rfl, bind_ok hu]
    cases on
    · simp only [lstTable]
      show (Res.ok true, U) = _
      simp only [U, T, Bool.false_eq_true, if_false, List.append_nil]
    · simp only [lstTable, if_true, List.append_nil]
      rw [← List.append_assoc]
      rfl

/-- In the final pass, from on to off and from off to on. -/
example : let s : St := { finalPass := true }
    s.endExpansion = false ∧ s.nodeBase ≤ s.nodes.length ∧ s.finalPass = true ∧
    lstTable s.printListState [.print false (cstr! "a") 7] = [⟨7, cstr! "a", [], false, true⟩] ∧
    lstTable false [.print true (cstr! "a") 9] = [⟨9, cstr! "a", [], false, true⟩, ⟨9, cstr! "a", [], true, false⟩] := by
  decide

/-- **C60.**  A row of three characters of a text consists of printable characters only, whatever the characters are.
(Not so the last row of a text, `C60_false_newline`.) -/
theorem C60_printable (pc : Int) (a b c : Nat) : ∀ x ∈ fullRow pc a b c, 32 ≤ x ∧ x ≤ 126 := by
  have hx : ∀ (w : Nat) (v : Int) (x : Nat), x ∈ fmtX w v → 32 ≤ x ∧ x ≤ 126 := fun w v => hex_printable w _
  have hc : ∀ c x : Nat, x ∈ showChar c → 32 ≤ x ∧ x ≤ 126 := by
    intro c x h
    unfold showChar at h
    split at h
    · simp only [List.mem_cons, List.not_mem_nil, or_false] at h
      omega
    · rw [List.mem_cons] at h
      rcases h with rfl | h
      · omega
      · exact hx _ _ _ h
  intro x h
  simp only [fullRow, rowHead, rowStart, dbWord, commaList, List.mem_append, List.mem_cons, List.mem_flatMap, List.mem_replicate,
    List.not_mem_nil, or_false] at h
  rcases h with (((h | ⟨v, -, h⟩) | ⟨-, h⟩) | h) | h
  · rcases h with h | (h | h) | h
    · omega
    · exact hx _ _ _ h
    · exact hx _ _ _ h
    · omega
  · rcases h with h | h | h
    · omega
    · omega
    · exact hx _ _ _ h
  · omega
  · omega
  · rcases h with (h | h | h) | (h | h | h) | h <;> first | omega | exact hc _ _ h

end Verif
