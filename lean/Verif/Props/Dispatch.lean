import Verif.Model.Dispatch
import Verif.Lemmas.PtrDict

/-! # Property C65: every node is expanded by the handler of its type -/

namespace Verif

/-- **C65, part**: a dictionary with pointer keys, made of any number of rows with different keys, finds exactly the rows,
whatever the hash function is (also when the dictionary has grown). -/
theorem C65_rows_partial {α : Type} (hash : Nat → Nat) (rows : List (Nat × α)) (h : (rows.map (·.1)).Nodup) (key : Nat) :
    (createOpTable hash rows).search hash key = (rows.find? fun r => r.1 == key).map (·.2) := by
  have w : (PDict.create : PDict α).Wf hash := PDict.createSized_wf (by decide)
  have h0 : (PDict.create : PDict α).table.flatten = [] := by
    apply List.length_eq_zero_iff.1
    rw [← w.cnt]
    rfl
  obtain ⟨w', hf⟩ := PDict.insert_rows rows [] PDict.create w (by show 0 < 1024 * 9 / 10; decide) (by simpa using h)
    (fun k => by rw [h0])
  rw [createOpTable, w'.search_eq, hf, List.nil_append, PDict.find_eq_filter]

/-- The tags of the operators are different, and so are those of the node types. -/
example (hash : Nat → Nat) : (operatorTable.map (·.1)).Nodup ∧ ((nodeTable hash).map (·.1)).Nodup ∧
    operatorTable.length = 46 ∧ (nodeTable hash).length = 9 := by
  refine ⟨?_, ?_, rfl, rfl⟩
  · decide
  · show [2, 4, 3, 5, 6, 9, 8, 11, 7].Nodup
    decide

private theorem operator_eq (hash : Nat → Nat) (ex : Ptr → M Int) (hu : Ptr → M Bool) (f : Nat) (p : Ptr) (n : Node) (op : Opr)
    (hk : n.kind = .opr op) : operatorNodeHandler hash ex hu f p n = expandOperator ex hu f op n := by
  unfold operatorNodeHandler
  rw [hk]
  simp only
  rw [C65_rows_partial hash operatorTable (by decide)]
  cases op <;> first
    | rfl
    | (show forRegHandler ex hu f n = _; unfold forRegHandler; rw [hk]; rfl)

/-- **C65, part**: with any hash function, the handlers found in the dictionaries do for each node what the case distinction
of the model does: the handler of its type is called (so no handler reads a member of the union that the node does not
have), the handler of its operator for operator nodes, and the error is reported exactly for string nodes, which have no
handler. -/
theorem C65_dispatch_partial (hash : Nat → Nat) (ex : Ptr → M Int) (hu : Ptr → M Bool) (f : Nat) (p : Ptr) (n : Node) :
    expandByTable hash ex hu f p n = expandKind ex hu f p n := by
  have hd : ((nodeTable hash).map (·.1)).Nodup := by
    show [2, 4, 3, 5, 6, 9, 8, 11, 7].Nodup
    decide
  unfold expandByTable expandKind
  rw [C65_rows_partial hash _ hd]
  rcases hk : n.kind with ⟨v, b⟩ | v | ⟨k, name, i⟩ | op | ⟨a, b, c, d⟩ | ⟨a, b, c⟩ | ⟨a, b⟩ | a
  case id => cases k <;> (simp only [nodeTag, nodeTable, List.find?, Option.map]; simp [hk])
  case opr => exact operator_eq hash ex hu f p n op hk
  all_goals (simp only [nodeTag, nodeTable, List.find?, Option.map]; simp [hk])

/-- **C65, part**: the interpreter with dictionaries is the interpreter of the model, for all trees and states. -/
theorem C65_expand_partial (hash : Nat → Nat) : ∀ (f : Nat), expandNodeByTable hash f = expandNode f
  | 0 => rfl
  | f + 1 => by
    funext p
    unfold expandNodeByTable expandNode
    rw [C65_expand_partial hash f]
    simp only [C65_dispatch_partial]

/-- **C65 is violated**: with 8-byte pointers the hash of every key shifts an `int` by 32 bits, which is undefined. -/
theorem C65_hash_false : ∀ key, hashPointer 8 key = none := fun _ => rfl

/-- With 4-byte pointers the hash is defined for every key. -/
theorem C65_hash_small (key : Nat) : ∃ h, hashPointer 4 key = some h := ⟨_, rfl⟩

/-- **C65 is violated**: creating a dictionary from any table reads bytes behind the end of the table, in its last row. -/
theorem C65_overread_false (rows : Nat) (h : 0 < rows) : rowCopy rows (rows - 1) = none := by
  unfold rowCopy
  rw [if_neg (by omega)]

/-- In the other rows the bytes read lie in the table. -/
theorem C65_rows_read (rows i : Nat) (h : i + 1 < rows) : rowCopy rows i = some 16 := by
  unfold rowCopy
  rw [if_pos (by omega)]

/-- An assignment `x = 2 + 3`: the handlers found in the dictionaries (with the hash function of 4-byte machines) call each
other and set the symbol. -/
example : (expandNodeByTable (fun k => (hashPointer 4 k).getD 0) 5 4 { nodes := [
      ⟨.con 2 false, 0, []⟩, ⟨.con 3 false, 0, []⟩, ⟨.opr .add, 2, [0, 1]⟩, ⟨.id .id (cstr! "x") none, 0, []⟩,
      ⟨.opr .equ, 2, [3, 2]⟩] }).2.syms.map (fun x => (x.fullname, x.value)) = [(cstr! "x", 5)] := by
  rw [C65_expand_partial]
  decide +kernel

end Verif
