import Verif.Lemmas.StepsExpand

/-! # Exact runs of the output functions -/

namespace Verif

/-- The state after the header test of `generate_output`. -/
def withHeader (s : St) : St :=
  if s.totalBytes = 0 then { s with
    byteDelta := (headerBytes s.format s.origin).length
    out := s.out ++ headerBytes s.format s.origin
    totalBytes := s.totalBytes + (headerBytes s.format s.origin).length }
  else s

theorem generateOutput_run {ex : Ptr → M Int} {p : Ptr} {s s2 : St} {n : Node} (ho : s.outputOpen = true)
    (hs : s.originSpecified = true) (hp : (withHeader s).pc ≤ (withHeader s).origin + (withHeader s).totalBytes)
    (hn : node p (withHeader s) = (.ok n, withHeader s)) (hw : payload ex p n (withHeader s) = (.ok (), s2)) :
    generateOutput ex p s = (.ok (s2.totalBytes - s.totalBytes), s2) := by
  unfold generateOutput
  rw [getS_bind, if_neg (by simp [ho, hs])]
  have h1 : (if s.totalBytes = 0 then writeHeader else M.pure ()) s = (.ok (), withHeader s) := by
    unfold withHeader
    split
    · rw [writeHeader_run s hs]
    · rfl
  rw [bind_ok h1, getS_bind, if_neg (by omega), bind_ok hn]
  rw [bind_ok hw]
  rfl

theorem generateOutput_closed {ex : Ptr → M Int} {p : Ptr} {s : St}
    (h : s.outputOpen = false ∨ s.originSpecified = false) : generateOutput ex p s = (.ok 0, s) := by
  unfold generateOutput
  rw [getS_bind, if_pos h]
  rfl

/-- What happens after the header test is a sequence of effects. -/
theorem generateOutput_steps {T : Opr → Bool} [TOk T] {ex : Ptr → M Int} (hex : ∀ p, Pr T true true (ex p)) (p : Ptr)
    (s : St) (hf : s.finalPass = true) (ho : s.outputOpen = true) (hs : s.originSpecified = true)
    (h0 : 0 ≤ s.totalBytes) (hd : T .org = false → OrgDone s := by exact fun h => absurd h (by decide)) :
    Steps T (withHeader s) (generateOutput ex p s).2 := by
  unfold generateOutput
  rw [getS_bind, if_neg (by simp [ho, hs])]
  have h1 : (if s.totalBytes = 0 then writeHeader else M.pure ()) s = (.ok (), withHeader s) := by
    unfold withHeader
    split
    · rw [writeHeader_run s hs]
    · rfl
  have hc : OutCond T (withHeader s) := by
    unfold withHeader
    split
    · rename_i hz
      refine ⟨hf, ho, hs, ?_, ?_, hd⟩
      · intro hf
        simp only at hf
        simp [headerBytes, hf, hz]
      · simp only
        omega
    · exact ⟨hf, ho, hs, fun _ => by omega, h0, hd⟩
  rw [bind_ok h1, getS_bind]
  split
  · exact (Pr.bind (Pr.error _) fun _ => Pr.exit _) _ hc.cond
  · exact (PrO.bind (PrO.of (Pr.node _)) fun n => PrO.bind (PrO.payload hex p n) fun _ =>
      PrO.bind (PrO.of Pr.getS') fun _ => PrO.of (Pr.pure _)) _ hc

/-- Appending bytes. -/
def outBytes (s : St) (bs : List Nat) : St := { s with out := s.out ++ bs, totalBytes := s.totalBytes + bs.length }

theorem outBytes_nil (s : St) : outBytes s [] = s := by
  unfold outBytes
  simp

theorem outBytes_append (s : St) (a b : List Nat) : outBytes (outBytes s a) b = outBytes s (a ++ b) := by
  unfold outBytes
  simp only [List.append_assoc, List.length_append]
  congr 1
  omega

theorem withHeader_eq (s : St) : ∃ d, withHeader s =
    { outBytes s (if s.totalBytes = 0 then headerBytes s.format s.origin else []) with byteDelta := d } := by
  unfold withHeader
  split
  · exact ⟨_, rfl⟩
  · refine ⟨s.byteDelta, ?_⟩
    rw [outBytes_nil]

theorem writeByte_run (v : Int) (s : St) : writeByte v s = (.ok (), outBytes s [(v % 256).toNat]) := rfl

theorem writeWord_run (v : Int) (s : St) :
    writeWord v s = (.ok (), outBytes s [(v % 256).toNat, (v % 65536 / 256).toNat]) := by
  unfold writeWord
  rw [run_bind, writeByte_run]
  simp only [writeByte_run, outBytes_append, cand_ff, cand_ff00, List.cons_append, List.nil_append]
  have h1 : v % 256 % 256 = v % 256 := by omega
  have h2 : v % 65536 / 256 % 256 = v % 65536 / 256 := by omega
  rw [h1, h2]

theorem writeStringNode_run (v : Str) (s : St) : writeStringNode v s =
    (.ok (), outBytes s (v.map (· % 256) ++ if s.dataSize = 2 ∧ v.length % 2 = 1 then [0] else [])) := by
  unfold writeStringNode
  rw [run_bind]
  have h1 : writeBytes v s = (.ok (), outBytes s (v.map (· % 256))) := by
    unfold writeBytes outBytes
    simp
  rw [h1]
  simp only [getS_bind]
  by_cases h : s.dataSize = 2 ∧ v.length % 2 = 1
  · rw [if_pos h, if_pos (show (outBytes s _).dataSize = 2 ∧ _ from h), writeByte_run, outBytes_append]
    rfl
  · rw [if_neg h, if_neg (show ¬ ((outBytes s _).dataSize = 2 ∧ _) from h), List.append_nil]
    rfl

end Verif
