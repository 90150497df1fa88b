import Verif.Lemmas.ReadBack
import Verif.Lemmas.ForReg
import Verif.Props.LongBranch
import Verif.Props.Data
import Verif.Props.Text

/-! # The last column of the listing

The last column of a listing row is a line of assembler source.  Read as a source line and assembled at the address in
the row, it gives the bytes in the row. -/

namespace Verif

open Spec

/-- The row shows the bytes, one to three of them, and its last column is a source line with one statement, an instruction or
a data directive, in any place of any file.  The assembly of this statement at this address (with these settings, in any
state) gives the bytes again, and nothing else that matters changes. -/
def ReadsBack (cpu : Cpu) (illegal : Bool) (addr : Int) (bs : List Nat) (e : ListEntry) : Prop :=
  bs ≠ [] ∧ bs.length ≤ 3 ∧ ∃ column st, e.output = leftPart addr bs ++ column ∧ Direct st ∧
    (∀ file n, LineAt file n st (32 :: (column ++ [10]))) ∧
    ∀ (t : St) (f : Nat) (file : Str) (line : Int), Ready t → t.pc = addr → t.cpu = cpu → t.allowIllegal = illegal →
      0 ≤ t.totalBytes → t.originSpecified = true ∨ t.pcAssigned > 0 → 4 < f →
      ∃ t', runTop (expandNode f) (hasUninit f) (.stmt file line st) t = (.ok true, t') ∧ Assembled t t' bs ∧
        (t.originSpecified = true → Laid t t' t.lastLabel bs)

private theorem asm_laid {t t' : St} {file : Str} {line n : Int} {bs : List Nat} {ls : List ListEntry}
    (h : Asm (orig (atLine t file line)) t' n bs ls) (hn : n = bs.length) (ho : t.originSpecified = true) :
    Laid t t' t.lastLabel bs := by
  rw [orig_id (s := atLine t file line) ho, hn] at h
  exact Laid.pre file line t.lastLabel (WSim.refl _ _ _) (Laid.of h)

private theorem instr_small (m : Mode) (c pc v : Int) : toBytes (instrBytes m c pc v) ≠ [] ∧ (toBytes (instrBytes m c pc v)).length ≤ 3 := by
  unfold instrBytes
  cases m <;> refine ⟨by simp [toBytes, opByteCount], ?_⟩ <;> simp [toBytes, opByteCount] <;> decide

/-- An operand row. -/
theorem readsBack_op {s : St} {form : Form} {m : Mode} {ins c v : Int} (hm : WrittenIn form m)
    (hen : encode (getOpCode s.cpu s.allowIllegal ins) (Form.mode form) s.pc v = some (m, c)) (h0 : 0 ≤ v) (h1 : v < 65536)
    (file : Str) (line : Int) :
    ReadsBack s.cpu s.allowIllegal s.pc (toBytes (instrBytes m c s.pc v)) (listRow (atLine s file line) (opRow ins 1 m c s.pc v)) := by
  have hcode := encode_code (fun m => by have := getOpCode_range s.cpu s.allowIllegal ins m; omega) hen
  have hra := getOpCode_range s.cpu s.allowIllegal ins m
  have hne : getOpCode s.cpu s.allowIllegal ins m ≠ -1 := by omega
  obtain ⟨col, hcol⟩ := (opRow_shows (s := atLine s file line) (ins := ins) (k := 1) (m := m) (c := c) (by omega) (by omega) s.pc v).text
  refine ⟨(instr_small ..).1, (instr_small ..).2, opColumn ins 1 m v, .op ins (Form.mode form) (some (.int v)), ?_, trivial,
    fun file n => operand_reads hm (getOpCode_ins hne) h0 h1, ?_⟩
  · have hb : ∀ b ∈ toBytes (instrBytes m c s.pc v), b < 256 := by
      intro b hb
      unfold toBytes at hb
      simp only [List.mem_map] at hb
      obtain ⟨x, _, rfl⟩ := hb
      omega
    rw [← rowHead_eq hb, instrBytes_range (by omega) (by omega)]
    rfl
  · intro t f file line ht hpc hcpu hill _ _ hf
    obtain ⟨f, rfl⟩ : ∃ g, f = g + 1 := ⟨f - 1, by omega⟩
    obtain ⟨t', r, a⟩ := opStmt_run (e := .int v) file line (show 0 + 1 < f by omega) ht.running ht.heap
      (by simp only [Spec.eval, Spec.rng, InInt]; rw [if_pos (by omega)]; rfl) rfl
      (by rw [hcpu, hill, hpc]; exact hen) ht.room
    rw [hpc] at a
    exact ⟨t', r, a.assembled (instrBytes_len ..), asm_laid a (instrBytes_len ..)⟩

/-- The form of an accepted mode. -/
theorem written_of_pick {get : Mode → Int} {form : Form} {v : Int} {m : Mode} {c : Int} (h : pick get form v = some (m, c))
    (hx : form = .indX → get .aix = -1) : WrittenIn form m := by
  obtain ⟨_, h1, h2, h3, _⟩ := pick_some h
  rcases has_pair h2 h3 with h | h
  · rw [h]
    cases form <;> constructor
  · cases form <;> cases h <;> first | constructor | exact absurd (hx rfl) h1

/-- In the final pass, at $1000. -/
private def sb : St := { pc := 0x1000, origin := 0x1000, originSpecified := true, finalPass := true, outputOpen := true }

/-- **C60** (instructions with operand, branches in their short form).  In the final pass an instruction about which
nothing is reported, with an operand between 0 and $FFFF, gets a row whose last column, read as a source line and
assembled at this address, gives the bytes of the row again.  Missing: `(v,x)` with a word, whose row lacks the
parentheses (it violates the claim, see below), and operands outside the range, which are shown with eight digits. -/
theorem C60_instruction_partial {s s' : St} {f : Nat} {ins : Int} {form : Form} {e : Expr} {v : Int} (file : Str)
    (line : Int) (hs : Ready s) (hw : Writes s) (ht : 0 ≤ s.totalBytes)
    (hf : e.depth + 1 < f) (hv : Spec.eval (envOf s) s.pc e = some (v, false)) (hc : e.complete (envOf s) s.pc = true)
    (hshort : getOpCode s.cpu s.allowIllegal ins .r = -1 ∨ (-127 ≤ v - (s.pc + 2) ∧ v - (s.pc + 2) ≤ 128))
    (h0 : 0 ≤ v) (h1 : v < 65536) (hx : form = .indX → getOpCode s.cpu s.allowIllegal ins .aix = -1) {b : Bool}
    (hrun : runTop (expandNode (f + 1)) (hasUninit (f + 1)) (.stmt file line (.op ins (Form.mode form) (some e))) s =
      (.ok b, s')) (herr : s'.errorCount = s.errorCount) :
    ∃ bs e, s'.out = s.out ++ (if s.totalBytes = 0 then headerBytes s.format s.origin else []) ++ bs ∧
      s'.listing = s.listing ++ [e] ∧ Shows file line s.pc bs e ∧ ReadsBack s.cpu s.allowIllegal s.pc bs e := by
  have hg : ∀ m, getOpCode s.cpu s.allowIllegal ins m = -1 ∨ 0 ≤ getOpCode s.cpu s.allowIllegal ins m := fun m => by
    have := getOpCode_range s.cpu s.allowIllegal ins m; omega
  rcases instr_accepted (ins := ins) (form := form) file line hs hf hv hc (fun _ => ht) hshort with h | ⟨_, m, c, hen, _⟩
  · rw [hrun] at h
    have h2 := h.2
    simp only [herr] at h2
    omega
  · obtain ⟨s2, r, a⟩ := opStmt_run file line hf hs.running hs.heap hv hc hen hs.room
    have hcode := encode_code hg hen
    have hra := getOpCode_range s.cpu s.allowIllegal ins m
    rw [hrun] at r
    cases r
    refine ⟨toBytes (instrBytes m c s.pc v), _, (a.assembled (instrBytes_len ..)).written hw, by rw [a.listing, if_pos hw.1],
      opRow_shows (s := atLine s file line) (by omega) (by omega) s.pc v, ?_⟩
    by_cases hr : getOpCode s.cpu s.allowIllegal ins .r = -1
    · have hp := hen
      rw [encode_pick hg hr] at hp
      exact readsBack_op (written_of_pick hp hx) hen h0 h1 file line
    · have hr0 : 0 ≤ getOpCode s.cpu s.allowIllegal ins .r := by have := hg .r; omega
      have hm : m = .r := by
        rw [encode_branch hr0] at hen
        split at hen <;> cases hen
        rfl
      subst hm
      refine readsBack_op .rel ?_ h0 h1 file line
      rw [encode_branch hr0] at hen
      exact (encode_branch hr0 (Form.mode .dir) s.pc v).trans hen

/-- `lda ($12),y` at $1000. -/
example : Ready sb ∧ Writes sb ∧
    Spec.eval (envOf sb) sb.pc (.bin .sub (.int 0x22) (.int 0x10)) = some (0x12, false) ∧
    getOpCode sb.cpu sb.allowIllegal Ins._lda .r = -1 ∧
    let r := runTop (expandNode 6) (hasUninit 6)
      (.stmt [112] 7 (.op Ins._lda (Form.mode .indY) (some (.bin .sub (.int 0x22) (.int 0x10))))) sb
    r.1 = .ok true ∧ r.2.errorCount = sb.errorCount ∧ r.2.out = [0xB1, 0x12] ∧
    r.2.listing = [{ line := 7, file := [112], output := leftPart 0x1000 [0xB1, 0x12] ++ cstr! "lda ($12),y " }] :=
  ⟨⟨by decide, by decide, by decide⟩, by unfold Writes; decide, by decide +kernel, by decide +kernel, by decide +kernel⟩

theorem readsBack_implied {s : St} {m : Mode} {k : Nat} {ins : Int} (hk : opByteCount m = 0)
    (hr : getOpCode s.cpu s.allowIllegal ins .r = -1) (hi : 0 ≤ getOpCode s.cpu s.allowIllegal ins .i)
    (hm : getOpCode s.cpu s.allowIllegal ins m = getOpCode s.cpu s.allowIllegal ins .i) (file : Str) (line : Int) :
    ReadsBack s.cpu s.allowIllegal s.pc (toBytes [getOpCode s.cpu s.allowIllegal ins m])
      (listRow (atLine s file line) (opRow ins k m (getOpCode s.cpu s.allowIllegal ins m) s.pc 0)) := by
  have hra := getOpCode_range s.cpu s.allowIllegal ins m
  refine ⟨by simp [toBytes], by simp [toBytes], opColumn ins k m 0, .op ins .i none, ?_, trivial, fun file n =>
    implied_reads (getOpCode_ins (cpu := s.cpu) (ill := s.allowIllegal) (m := m) (by omega)) hk 0, ?_⟩
  · have hb : ∀ b ∈ toBytes [getOpCode s.cpu s.allowIllegal ins m], b < 256 := by
      intro b hb
      unfold toBytes at hb
      simp only [List.mem_map] at hb
      obtain ⟨x, _, rfl⟩ := hb
      omega
    have hl : (toBytes [getOpCode s.cpu s.allowIllegal ins m]).map Int.ofNat = instrBytes m (getOpCode s.cpu s.allowIllegal ins m) s.pc 0 := by
      have := instrBytes_range (m := m) (pc := s.pc) (v := 0) (c := getOpCode s.cpu s.allowIllegal ins m) (by omega) (by omega)
      rw [← this]
      unfold instrBytes
      rw [hk]
      rfl
    rw [← rowHead_eq hb, hl]
    rfl
  · intro t f file line ht hpc hcpu hill _ _ hf
    obtain ⟨f, rfl⟩ : ∃ g, f = g + 1 := ⟨f - 1, by omega⟩
    obtain ⟨t', r, a⟩ := impliedStmt_run (f := f) (ins := ins) file line ht.running ht.heap (by rw [hcpu, hill]; exact hr)
      (by rw [hcpu, hill]; exact hi) ht.room
    rw [hcpu, hill, ← hm] at a
    exact ⟨t', r, a.assembled rfl, asm_laid a rfl⟩

/-- Instructions on the accumulator may be written without the `a`. -/
theorem acc_implied {cpu : Cpu} {ill : Bool} {ins : Int} (h : getOpCode cpu ill ins .A ≠ -1) :
    getOpCode cpu ill ins .A = getOpCode cpu ill ins .i := by
  have hin := getOpCode_ins h
  have tab : ∀ n : Fin 118, getOpCode cpu ill ((n.val : Nat) : Int) .A ≠ -1 →
      getOpCode cpu ill ((n.val : Nat) : Int) .A = getOpCode cpu ill ((n.val : Nat) : Int) .i := by
    cases cpu <;> cases ill <;> decide +kernel
  have := tab ⟨ins.toNat, by omega⟩
  rw [show (((⟨ins.toNat, by omega⟩ : Fin 118).val : Nat) : Int) = ins from by show (ins.toNat : Int) = ins; omega] at this
  exact this h

/-- **C60** (instructions without operand, and with the accumulator as operand). -/
theorem C60_implied {s : St} {f : Nat} {ins : Int} (file : Str) (line : Int) (hs : Ready s) (hw : Writes s)
    (hr : getOpCode s.cpu s.allowIllegal ins .r = -1) :
    (getOpCode s.cpu s.allowIllegal ins .i ≠ -1 →
      ∃ s' bs e, runTop (expandNode (f + 1)) (hasUninit (f + 1)) (.stmt file line (.op ins .i none)) s = (.ok true, s') ∧
        s'.out = s.out ++ (if s.totalBytes = 0 then headerBytes s.format s.origin else []) ++ bs ∧ bs.length = 1 ∧
        s'.listing = s.listing ++ [e] ∧ ReadsBack s.cpu s.allowIllegal s.pc bs e) ∧
    (∀ nm, nm = [65] ∨ nm = [97] → getOpCode s.cpu s.allowIllegal ins .A ≠ -1 →
      ∃ s' bs e, runTop (expandNode (f + 2)) (hasUninit (f + 2)) (.stmt file line (.op ins .a (some (.sym nm)))) s =
          (.ok true, s') ∧
        s'.out = s.out ++ (if s.totalBytes = 0 then headerBytes s.format s.origin else []) ++ bs ∧ bs.length = 1 ∧
        s'.listing = s.listing ++ [e] ∧ ReadsBack s.cpu s.allowIllegal s.pc bs e) := by
  constructor
  · intro hi
    have hra := getOpCode_range s.cpu s.allowIllegal ins .i
    obtain ⟨s', r, a⟩ := impliedStmt_run (f := f) file line hs.running hs.heap hr (by omega) hs.room
    exact ⟨s', _, _, r, (a.assembled rfl).written hw, rfl, by rw [a.listing, if_pos hw.1],
      readsBack_implied (m := .i) rfl hr (by omega) rfl file line⟩
  · intro nm hA hi
    have hra := getOpCode_range s.cpu s.allowIllegal ins .A
    have hAi := acc_implied hi
    obtain ⟨s', r, a⟩ := accStmt_run (f := f) file line hA hs.running hs.heap hr (by omega) hs.room
    exact ⟨s', _, _, r, (a.assembled rfl).written hw, rfl, by rw [a.listing, if_pos hw.1],
      readsBack_implied (m := .A) rfl hr (by omega) hAi file line⟩

/-- `rts` and `asl a`. -/
example : Ready sb ∧ Writes sb ∧ getOpCode sb.cpu sb.allowIllegal Ins._asl .A ≠ -1 ∧
    getOpCode sb.cpu sb.allowIllegal Ins._asl .r = -1 ∧
    ((runTop (expandNode 6) (hasUninit 6) (.stmt [112] 7 (.op Ins._rts .i none)) sb).2.listing).map (·.output) =
      [leftPart 0x1000 [0x60] ++ cstr! "rts "] ∧
    ((runTop (expandNode 6) (hasUninit 6) (.stmt [112] 7 (.op Ins._asl .a (some (.sym [97])))) sb).2.listing).map (·.output) =
      [leftPart 0x1000 [0x0A] ++ cstr! "asl "] :=
  ⟨⟨by decide, by decide, by decide⟩, by unfold Writes; decide, by decide +kernel, by decide +kernel, by decide +kernel,
    by decide +kernel⟩

theorem long_rows {s : St} {ins v2 : Int} (hr : getOpCode s.cpu s.allowIllegal ins .r ≠ -1) (hp0 : 0 ≤ s.pc + 5)
    (hp1 : s.pc + 5 < 65536) (h0 : 0 ≤ v2) (h1 : v2 < 65536) (file : Str) (line : Int) :
    ReadsBack s.cpu s.allowIllegal s.pc (toBytes (instrBytes .r (getOpCode s.cpu s.allowIllegal (invertBranch ins) .r) s.pc (s.pc + 5)))
      (listRow (atLine s file line) (opRow (invertBranch ins) 1 .r (getOpCode s.cpu s.allowIllegal (invertBranch ins) .r) s.pc (s.pc + 5))) ∧
    ReadsBack s.cpu s.allowIllegal (s.pc + 2) (toBytes (instrBytes .a 0x4C (s.pc + 2) v2))
      (listRow (atLine s file line) (opRow Ins._jmp 1 .a 0x4C (s.pc + 2) v2)) := by
  have hr2 := invert_code hr
  have hra := getOpCode_range s.cpu s.allowIllegal (invertBranch ins) .r
  refine ⟨?_, ?_⟩
  · refine readsBack_op (form := .dir) .rel ?_ (by omega) hp1 file line
    rw [encode_branch (by omega), if_neg (by simp [branchBad]; omega)]
  · obtain ⟨j1, j2, j3⟩ := jmp_code s.cpu s.allowIllegal v2
    have := readsBack_op (s := { s with pc := s.pc + 2 }) (form := .dir) (m := .a) (ins := Ins._jmp) (c := 0x4C) (v := v2) .abs ?_ h0 h1 file line
    · exact this
    · show encode (getOpCode s.cpu s.allowIllegal Ins._jmp) (Form.mode .dir) (s.pc + 2) v2 = _
      have hzp : getOpCode s.cpu s.allowIllegal Ins._jmp .zp = -1 := by
        cases s.cpu <;> cases s.allowIllegal <;> decide +kernel
      rw [encode_pick (fun m => by have := getOpCode_range s.cpu s.allowIllegal Ins._jmp m; omega) j1]
      simp only [pick, Form.pair]
      simp [hzp, j2]

/-- **C60** (branches out of range).  Both rows of the statement, the inverted branch and the `jmp`, can be read back. -/
theorem C60_long_branch {s : St} {f : Nat} {ins : Int} {mode0 : Mode} {e : Expr} {v v2 : Int} (file : Str) (line : Int)
    (hs : Ready s) (hw : Writes s) (ht0 : 0 ≤ s.totalBytes) (hr : getOpCode s.cpu s.allowIllegal ins .r ≠ -1)
    (hf : e.depth + 1 < f) (hv : Spec.eval (envOf s) s.pc e = some (v, false)) (hc : e.complete (envOf s) s.pc = true)
    (hv2 : Spec.eval (envOf s) (s.pc + 2) e = some (v2, false)) (hz : v = 0 → ∀ n, e ≠ .sym (64 :: n))
    (hfar : v - (s.pc + 2) < -127 ∨ 128 < v - (s.pc + 2)) (hin : InInt (v - (s.pc + 2)))
    (hp0 : 0 ≤ s.pc + 5) (hp1 : s.pc + 5 < 65536) (h0 : 0 ≤ v2) (h1 : v2 < 65536) :
    ∃ s' b1 b2 e1 e2, runTop (expandNode (f + 1)) (hasUninit (f + 1)) (.stmt file line (.op ins mode0 (some e))) s =
        (.ok true, s') ∧
      s'.out = s.out ++ (if s.totalBytes = 0 then headerBytes s.format s.origin else []) ++ (b1 ++ b2) ∧ b1.length = 2 ∧
      s'.listing = s.listing ++ [e1, e2] ∧
      ReadsBack s.cpu s.allowIllegal s.pc b1 e1 ∧ ReadsBack s.cpu s.allowIllegal (s.pc + 2) b2 e2 := by
  have hr2 := invert_code hr
  have hra := getOpCode_range s.cpu s.allowIllegal (invertBranch ins) .r
  have hpc : InInt (s.pc + 5) := ⟨by omega, by omega⟩
  obtain ⟨s'', r, a⟩ := longStmt_run (mode0 := mode0) file line hf hs.running hs.heap hv hc hr hv2 hz
    hin (by simp only [branchBad, Bool.or_eq_true, decide_eq_true_eq]; omega) hr2 hpc ht0 hs.room
  have as := a.assembled (by rfl)
  have hwd : warned s'' = { s'' with warningCount := (warned s'').warningCount, log := (warned s'').log } := by
    unfold warned
    split <;> rfl
  refine ⟨warned s'', toBytes (instrBytes .r (getOpCode s.cpu s.allowIllegal (invertBranch ins) .r) s.pc (s.pc + 5)),
    toBytes (instrBytes .a 0x4C (s.pc + 2) v2),
    listRow (atLine s file line) (opRow (invertBranch ins) 1 .r (getOpCode s.cpu s.allowIllegal (invertBranch ins) .r) s.pc (s.pc + 5)),
    listRow (atLine s file line) (opRow Ins._jmp 1 .a 0x4C (s.pc + 2) v2), r, ?_, rfl, ?_, ?_, ?_⟩
  · rw [hwd]
    exact as.written hw
  · rw [hwd]
    show s''.listing = _
    rw [a.listing, if_pos hw.1]
    rfl
  · exact (long_rows hr hp0 hp1 h0 h1 file line).1
  · exact (long_rows hr hp0 hp1 h0 h1 file line).2

/-- `bne $2000` at $1000. -/
example : Ready sb ∧ Writes sb ∧ getOpCode sb.cpu sb.allowIllegal Ins._bne .r ≠ -1 ∧
    Spec.eval (envOf sb) (sb.pc + 2) (.int 0x2000) = some (0x2000, false) ∧
    ((runTop (expandNode 6) (hasUninit 6) (.stmt [112] 7 (.op Ins._bne .a (some (.int 0x2000)))) sb).2.listing).map (·.output) =
      [leftPart 0x1000 [0xF0, 0x03] ++ cstr! "beq $1005 ", leftPart 0x1002 [0x4C, 0x00, 0x20] ++ cstr! "jmp $2000 "] :=
  ⟨⟨by decide, by decide, by decide⟩, by unfold Writes; decide, by decide +kernel, by decide +kernel, by decide +kernel⟩

/-! ## Data -/

private theorem byte_item {env : Str → Option Int} (txt : Str → Option Str) (pc : Int) {b : Nat} (hb : b < 256) :
    Spec.item txt env 1 pc (byteItem b) = some [b] := by
  have h1 : Spec.itemValue env pc (.int b) = some (b : Int) := by
    unfold Spec.itemValue
    rw [eval_const (by omega)]
    rfl
  have h2 : Spec.number 1 (b : Int) = some [b] := by
    unfold Spec.number
    rw [if_pos rfl, if_pos (by omega)]
    have : ((b : Int) % 256).toNat = b := by omega
    rw [this]
  show (Spec.itemValue env pc (.int b)).bind (Spec.number 1) = some [b]
  rw [h1]
  exact h2

private theorem bytes_items {env : Str → Option Int} (txt : Str → Option Str) : ∀ {bs : List Nat} (pc : Int), (∀ b ∈ bs, b < 256) →
    Spec.items txt env 1 pc (bs.map byteItem) = some bs
  | [], _, _ => rfl
  | b :: bs, pc, h => by
    have hb := h b (by simp)
    have h1 := byte_item (env := env) txt pc hb
    have ih := bytes_items (env := env) txt (pc + (([b] : List Nat).length : Nat)) (bs := bs) (fun x hx => h x (by simp [hx]))
    simp only [List.map_cons, Spec.items, h1, Option.bind_some, ih, Option.map_some]
    rfl

theorem items_bytes {env : Str → Option Int} {txt : Str → Option Str} {size : Int} : ∀ {xs : List Item} {pc : Int}
    {bs : List Nat}, Spec.items txt env size pc xs = some bs → ∀ b ∈ bs, b < 256
  | [], pc, bs, h => by
    cases h
    simp
  | x :: xs, pc, bs, h => by
    unfold Spec.items at h
    cases hx : Spec.item txt env size pc x with
    | none => rw [hx] at h; cases h
    | some b =>
      rw [hx, Option.bind_some] at h
      cases hr : Spec.items txt env size (pc + b.length) xs with
      | none => rw [hr] at h; cases h
      | some r =>
        rw [hr] at h
        cases h
        have h1 : ∀ c ∈ b, c < 256 := by
          cases x with
          | str raw =>
            simp only [Spec.item] at hx
            cases ht : txt raw with
            | none => rw [ht] at hx; cases hx
            | some v =>
              rw [ht] at hx
              cases hx
              intro c hc
              simp only [Spec.text, List.mem_append, List.mem_map] at hc
              rcases hc with ⟨y, _, rfl⟩ | hc
              · omega
              · split at hc
                · simp only [List.mem_singleton] at hc
                  omega
                · cases hc
          | expr e =>
            simp only [Spec.item] at hx
            cases hv : Spec.itemValue env pc e with
            | none => rw [hv] at hx; cases hx
            | some v =>
              rw [hv] at hx
              exact number_bytes hx
        intro c hc
        rcases List.mem_append.mp hc with hc | hc
        · exact h1 c hc
        · exact items_bytes hr c hc

/-- A row of data can be read back. -/
theorem readsBack_data {cpu : Cpu} {ill : Bool} {file : Str} {line addr : Int} {bs : List Nat} {e : ListEntry}
    (h : ShowsData Quotable file line addr bs e) (h0 : bs ≠ []) (h3 : bs.length ≤ 3) (hb : ∀ b ∈ bs, b < 256) :
    ReadsBack cpu ill addr bs e := by
  obtain ⟨ts, ht, ho⟩ := h.text
  cases bs with
  | nil => exact absurd rfl h0
  | cons b bs =>
    refine ⟨h0, h3, _, .data 1 (byteItem b) (bs.map byteItem), ho, trivial, fun file n => data_reads hb ht, ?_⟩
    intro t f file line hr hpc _ _ htb hor hf
    obtain ⟨f, rfl⟩ : ∃ g, f = g + 1 := ⟨f - 1, by omega⟩
    have hdep : ∀ x ∈ byteItem b :: bs.map byteItem, x.depth + (byteItem b :: bs.map byteItem).length < f := by
      intro x hx
      have hd : x.depth = 0 := by
        have hx : x ∈ (b :: bs).map byteItem := hx
        simp only [List.mem_map] at hx
        obtain ⟨y, _, rfl⟩ := hx
        rfl
      simp only [List.length_cons, List.length_map] at h3 ⊢
      omega
    obtain ⟨t', ls, r, a, _⟩ := dataStmt_run (f := f) file line (Or.inr (Or.inl rfl)) hdep hr.running hr.heap htb
      (bytes_items (env := envOf t) (bs := b :: bs) textOf t.pc hb) hor hr.room
    exact ⟨t', r, a.assembled rfl, asm_laid a rfl⟩

/-- The rows, one after the other, show these bytes and can be read back.  Rows without text stand where files begin and end. -/
inductive RowsReadBack (cpu : Cpu) (illegal : Bool) : Int → List ListEntry → List Nat → Prop where
  | nil (pc : Int) : RowsReadBack cpu illegal pc [] []
  | cons {pc : Int} {bs rest : List Nat} {e : ListEntry} {ls : List ListEntry} (h : ReadsBack cpu illegal pc bs e)
      (t : RowsReadBack cpu illegal (pc + bs.length) ls rest) : RowsReadBack cpu illegal pc (e :: ls) (bs ++ rest)
  | blank {pc : Int} {bs : List Nat} {e : ListEntry} {ls : List ListEntry} (h : e.output = [])
      (t : RowsReadBack cpu illegal pc ls bs) : RowsReadBack cpu illegal pc (e :: ls) bs

theorem data_rows {cpu : Cpu} {ill : Bool} {file : Str} {line pc : Int} {ls : List ListEntry} {bs : List Nat}
    (h : Spec.Prints Quotable file line pc ls bs) (hb : ∀ b ∈ bs, b < 256) : RowsReadBack cpu ill pc ls bs := by
  induction h with
  | nil pc => exact .nil pc
  | cons k0 k3 k t ih =>
    exact .cons (readsBack_data k k0 k3 fun b hx => hb b (by simp [hx])) (ih fun b hx => hb b (by simp [hx]))

/-- **C60** (data directives).  The last column of each row of a data directive, read as a source line and assembled at
the address of the row, gives the bytes of the row again; all rows together show the bytes the directive appends.
Missing: texts with a backslash, a quote or a line feed (backslash and line feed violate the claim, see below), and the
texts in `.word` excluded in C41. -/
theorem C60_data_partial {s : St} {f : Nat} {size : Int} {hd : Item} {tl : List Item} {bs : List Nat} (file : Str)
    (line : Int) (hs : Ready s) (hw : Writes s) (h0 : 0 ≤ s.totalBytes)
    (ho : s.originSpecified = true ∨ s.pcAssigned > 0)
    (hsize : size = 0 ∨ size = 1 ∨ size = 2) (hf : ∀ x ∈ hd :: tl, x.depth + (hd :: tl).length < f)
    (hv : Spec.items textOf (envOf s) size s.pc (hd :: tl) = some bs)
    (hp : ∀ x ∈ hd :: tl, Spec.Printable Quotable textOf size x) :
    ∃ s' ls, runTop (expandNode (f + 1)) (hasUninit (f + 1)) (.stmt file line (.data size hd tl)) s = (.ok true, s') ∧
      s'.out = s.out ++ (if s.totalBytes = 0 then headerBytes s.format s.origin else []) ++ bs ∧
      s'.listing = s.listing ++ ls ∧ RowsReadBack s.cpu s.allowIllegal s.pc ls bs := by
  obtain ⟨s', ls, r, h1, h2, h3⟩ := C41_data_partial file line hs hw h0 ho hsize hf hv hp
  exact ⟨s', ls, r, h1, h2, data_rows h3 (items_bytes hv)⟩

/-- `.byte "AB$", 300/2` at $1000. -/
example : Ready sb ∧ Writes sb ∧
    Spec.items textOf (envOf sb) 1 sb.pc [.str (cstr! "\"AB$\""), .expr (.bin .div (.int 300) (.int 2))] =
      some [65, 66, 36, 150] ∧
    Spec.Printable Quotable textOf 1 (.str (cstr! "\"AB$\"")) ∧
    ((runTop (expandNode 9) (hasUninit 9) (.stmt [112] 7 (.data 1 (.str (cstr! "\"AB$\""))
      [.expr (.bin .div (.int 300) (.int 2))])) sb).2.listing).map (·.output) =
      [leftPart 0x1000 [65, 66, 36] ++ cstr! ".db 'A', 'B', '$'", leftPart 0x1003 [150] ++ cstr! ".db $96"] := by
  refine ⟨⟨by decide, by decide, by decide⟩, by unfold Writes; decide, by decide +kernel, ?_, by decide +kernel⟩
  intro v hv
  have h : textOf (cstr! "\"AB$\"") = some (cstr! "AB$") := by decide +kernel
  rw [h] at hv
  cases hv
  refine ⟨by decide, ?_⟩
  unfold Quotable
  decide

/-! ## Rows that cannot be read back -/

/-- The output and the last columns of a program, if it is assembled. -/
private def shown (cpu : Cpu) (text : Str) : Option Int × Option (List Nat × List Str) :=
  let r := assembleText 60 [([112], text)] { output := some true } { cpu := cpu }
  (r.status, (r.passes.getLast?.map fun x => (x.2.2.1.out, x.2.2.1.listing.map (·.output))))

/-- **C60**, negation: `jmp ($1234,x)` of the 65C02 is listed as `jmp $1234,x`, which is not an instruction. -/
theorem C60_false_indirect :
    shown .c65C02 (cstr! " .org $1000\n jmp ($1234,x)\n") =
      (some 0, some ([0x7C, 0x34, 0x12], [leftPart 0x1000 [0x7C, 0x34, 0x12] ++ cstr! "jmp $1234,x "])) ∧
    (shown .c65C02 (cstr! " .org $1000\n jmp $1234,x \n")).1 = some (-1) := by
  refine ⟨?_, ?_⟩ <;> decide +kernel

/-- **C60**, negation: a backslash in a text is listed as `'\'`.  Read back, it is the byte of a
quote: other bytes come out, and nothing is reported. -/
theorem C60_false_backslash :
    shown .c6502 (cstr! " .org $1000\n .db \"a\\\\b\"\n") =
      (some 0, some ([97, 92, 98], [leftPart 0x1000 [97, 92, 98] ++ cstr! ".db 'a', '\\', 'b'"])) ∧
    (shown .c6502 (cstr! " .org $1000\n .db 'a', '\\', 'b'\n")).1 = some 0 ∧
    (shown .c6502 (cstr! " .org $1000\n .db 'a', '\\', 'b'\n")).2.map (·.1) = some [97, 39, 98] := by
  refine ⟨?_, ?_, ?_⟩ <;> decide +kernel

/-- **C60**, negation: a line feed at the end of a text is written into the row as it is, and breaks it in two lines,
which are not a statement. -/
theorem C60_false_newline :
    shown .c6502 (cstr! " .org $1000\n .db \"a\\n\"\n") =
      (some 0, some ([97, 10], [leftPart 0x1000 [97, 10] ++ cstr! ".db 'a', '\n'"])) ∧
    (shown .c6502 (cstr! " .org $1000\n .db 'a', '\n'\n")).1 = some (-1) := by
  refine ⟨?_, ?_⟩ <;> decide +kernel

end Verif
