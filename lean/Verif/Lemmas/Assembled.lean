import Verif.Lemmas.Stmt

/-! # Assembling a piece of program: vocabulary of the statements about single lines -/

namespace Verif

/-- The assembler can take another statement: `.end` not reached, node heap consistent, and no bytes missing between
the output and the location counter. -/
structure Ready (s : St) : Prop where
  running : s.endExpansion = false
  heap : s.nodeBase ≤ s.nodes.length
  noGap : s.finalPass = true → s.outputOpen = true → s.originSpecified = true ∨ s.pcAssigned > 0 →
    s.pc ≤ s.origin + s.totalBytes + (if s.totalBytes = 0 then headerBytes s.format s.origin else []).length

/-- In this state bytes go to the output file. -/
def Writes (s : St) : Prop :=
  s.finalPass = true ∧ s.outputOpen = true ∧ (s.originSpecified = true ∨ s.pcAssigned > 0)

instance (s : St) : Decidable (Writes s) := inferInstanceAs (Decidable (_ ∧ _))

/-- Between `s` and `s'` exactly the bytes `bs` were assembled. -/
structure Assembled (s s' : St) (bs : List Nat) : Prop where
  pc : s'.pc = s.pc + bs.length
  errors : s'.errorCount = s.errorCount
  warnings : s'.warningCount = s.warningCount
  log : s'.log = s.log
  syms : s'.syms = s.syms
  written : Writes s → s'.out = s.out ++ (if s.totalBytes = 0 then headerBytes s.format s.origin else []) ++ bs
  notWritten : ¬ Writes s → s'.out = s.out

theorem Ready.room {s : St} (h : Ready s) : Room (orig s) := by
  intro he
  simp only [emitting, Bool.and_eq_true] at he
  rw [orig_eq s] at he ⊢
  refine h.noGap he.1.1 he.1.2 ?_
  have := he.2
  unfold orig at this
  split at this
  · exact Or.inr (by assumption)
  · exact Or.inl this

theorem emitting_iff (s : St) (file : Str) (line : Int) : emitting (orig (atLine s file line)) = true ↔ Writes s := by
  rw [orig_atLine]
  have : emitting (atLine (orig s) file line) = emitting (orig s) := rfl
  rw [this]
  unfold emitting orig Writes
  split
  · rename_i h
    simp [h]
  · rename_i h
    simp [h, and_assoc]

theorem Asm.assembled {s s' : St} {file : Str} {line n : Int} {bs : List Nat} {ls : List ListEntry}
    (h : Asm (orig (atLine s file line)) s' n bs ls) (hn : n = bs.length) : Assembled s s' bs := by
  have hw := emitting_iff s file line
  obtain ⟨ns, cg, ds, bd, et, g, rfl⟩ := h
  have e := orig_eq (atLine s file line)
  refine ⟨?_, ?_, ?_, ?_, ?_, ?_, ?_⟩
  · rw [hn]
    show (orig (atLine s file line)).pc + _ = _
    rw [e]
    rfl
  · show (orig (atLine s file line)).errorCount = _
    rw [e]
    rfl
  · show (orig (atLine s file line)).warningCount = _
    rw [e]
    rfl
  · show (orig (atLine s file line)).log = _
    rw [e]
    rfl
  · show (orig (atLine s file line)).syms = _
    rw [e]
    rfl
  · intro hh
    show (orig (atLine s file line)).out ++ _ = _
    rw [if_pos (hw.2 hh), e, List.append_assoc]
    rfl
  · intro hh
    show (orig (atLine s file line)).out ++ _ = _
    rw [if_neg (fun h => hh (hw.1 h)), e]
    exact List.append_nil _

theorem Asm.listing {s s' : St} {file : Str} {line n : Int} {bs : List Nat} {ls : List ListEntry}
    (h : Asm (orig (atLine s file line)) s' n bs ls) :
    s'.listing = s.listing ++ (if s.finalPass then ls else []) := by
  obtain ⟨ns, cg, ds, bd, et, g, rfl⟩ := h
  show (orig (atLine s file line)).listing ++ (if (orig (atLine s file line)).finalPass then _ else _) = _
  rw [orig_eq (atLine s file line)]
  rfl

theorem instrBytes_len (m : Mode) (c pc v : Int) : opByteCount m + 1 = ((toBytes (instrBytes m c pc v)).length : Int) := by
  rw [toBytes, List.length_map, instrBytes_length]

end Verif
