import Verif.Lemmas.LastLabel
import Verif.Lemmas.PassInv
import Verif.Lemmas.ParamNames
import Verif.Lemmas.Run

/-! # The label of local names inside macro calls -/

namespace Verif

/-! ## Counters -/

theorem Step.dict {T : Opr → Bool} {s t : St} (h : Step T s t) : DictLe s.macroDict t.macroDict := by
  cases h with
  | quiet h => exact h.macroDict
  | _ => exact DictLe.refl _

theorem Steps.dict {T : Opr → Bool} {s t : St} (h : Steps T s t) : DictLe s.macroDict t.macroDict :=
  h.rel (R := fun s t => DictLe s.macroDict t.macroDict) (fun _ => DictLe.refl _) (fun _ _ _ => DictLe.trans) (fun _ _ => Step.dict)

theorem TSteps.dict {T : Opr → Bool} {s t : St} (h : TSteps T s t) : DictLe s.macroDict t.macroDict :=
  h.rel (R := fun s t => DictLe s.macroDict t.macroDict) (fun _ => DictLe.refl _) (fun _ _ _ => DictLe.trans) (fun _ _ => Step.dict)
    (fun _ _ => DictLe.refl _) (fun _ _ => DictLe.refl _) (fun _ => DictLe.refl _)

theorem macroCount_bump {d : List (Str × Nat)} {name : Str} {c : Nat} (h : macroCount d name = some c) :
    macroCount (d.map fun e => if stricmp e.1 name == 0 then (e.1, e.2 + 1) else e) name = some (c + 1) := by
  unfold macroCount at h ⊢
  rw [List.find?_map]
  have : ((fun e : Str × Nat => stricmp e.1 name == 0) ∘ fun e : Str × Nat => if stricmp e.1 name == 0 then (e.1, e.2 + 1) else e) =
      fun e : Str × Nat => stricmp e.1 name == 0 := by
    funext e
    simp only [Function.comp]
    split <;> rfl
  rw [this]
  cases hf : d.find? (fun e => stricmp e.1 name == 0) with
  | none => rw [hf] at h; cases h
  | some x =>
    rw [hf] at h
    cases h
    have := List.find?_some hf
    simp only [Option.map_some]
    rw [if_pos this]

theorem createMacroEntry_found {s : St} {name : Str} {c : Nat} (h : macroCount s.macroDict name = some c) :
    createMacroEntry name s = (.ok true, s) := by
  unfold createMacroEntry
  rw [getS_bind]
  simp only [h]
  rfl

theorem entryCount_found {s : St} {name : Str} {c : Nat} (h : macroCount s.macroDict name = some c) :
    entryCount name true s = (.ok c, s) := by
  unfold entryCount
  rw [getS_bind]
  simp only [h]
  rfl

/-! ## Hexadecimal numbers -/

/-- The value of a hexadecimal digit in lower case. -/
def hexDigVal (c : Nat) : Nat := if c ≤ 57 then c - 48 else c - 87

/-- The value of a text of such digits. -/
def hexTextVal (ds : Str) : Nat := ds.foldl (fun a c => 16 * a + hexDigVal c) 0

private theorem digit_lower {d : Nat} (hd : d < 16) :
    hexDigVal (tolower (if 97 ≤ d.digitChar.toNat ∧ d.digitChar.toNat ≤ 102 then d.digitChar.toNat - 32 else d.digitChar.toNat)) = d := by
  have : ∀ d : Fin 16, hexDigVal (tolower (if 97 ≤ d.val.digitChar.toNat ∧ d.val.digitChar.toNat ≤ 102 then d.val.digitChar.toNat - 32
    else d.val.digitChar.toNat)) = d.val := by decide
  exact this ⟨d, hd⟩

private theorem digits_value (n : Nat) : hexTextVal (((Nat.toDigits 16 n).map fun c =>
    if 97 ≤ c.toNat ∧ c.toNat ≤ 102 then c.toNat - 32 else c.toNat).map tolower) = n := by
  induction n using Nat.strongRecOn with
  | ind n ih =>
    rw [Nat.toDigits_eq_if (by decide)]
    split
    · rename_i h
      simp only [List.map_cons, List.map_nil, hexTextVal, List.foldl_cons, List.foldl_nil, digit_lower h]
      omega
    · have := ih (n / 16) (by omega)
      simp only [List.map_append, List.map_cons, List.map_nil, hexTextVal, List.foldl_append, List.foldl_cons, List.foldl_nil,
        digit_lower (Nat.mod_lt n (by decide : 16 > 0))]
      unfold hexTextVal at this
      rw [this]
      omega

theorem hexStr_value (w n : Nat) : hexTextVal ((hexStr w n).map tolower) = n := by
  unfold hexStr
  rw [List.map_append]
  unfold hexTextVal
  rw [List.foldl_append]
  have : ∀ k, (List.map tolower (List.replicate k 48)).foldl (fun a c => 16 * a + hexDigVal c) 0 = 0 := by
    intro k
    induction k with
    | zero => rfl
    | succ k ih =>
      rw [List.replicate_succ, List.map_cons, List.foldl_cons]
      exact ih
  rw [this]
  exact digits_value n

/-- The label under which the local names of a macro call are kept. -/
def callLabel (name : Str) (c : Nat) : Str := name ++ [58, 58] ++ hexStr 8 c

private theorem split_at {a b x y : Str} {d : Nat} (ha : d ∉ a) (hb : d ∉ b) (h : a ++ d :: x = b ++ d :: y) : a = b ∧ x = y := by
  induction a generalizing b with
  | nil =>
    cases b with
    | nil => simpa using h
    | cons e b => simp only [List.nil_append, List.cons_append, List.cons.injEq] at h; exact absurd (h.1 ▸ List.mem_cons_self ..) hb
  | cons e a ih =>
    cases b with
    | nil => simp only [List.nil_append, List.cons_append, List.cons.injEq] at h; exact absurd (h.1 ▸ List.mem_cons_self ..) ha
    | cons e' b =>
      simp only [List.cons_append, List.cons.injEq] at h
      obtain ⟨rfl, h⟩ := h
      obtain ⟨rfl, rfl⟩ := ih (fun h => ha (List.mem_cons_of_mem _ h)) (fun h => hb (List.mem_cons_of_mem _ h)) h
      exact ⟨rfl, rfl⟩

private theorem tolower_special {c d : Nat} (hd : d = 58 ∨ d = 95) (h : tolower c = d) : c = d := by
  unfold tolower at h
  split at h <;> omega

/-- Names under different call labels differ. -/
theorem callLabel_ne {n1 n2 : Str} {c1 c2 : Nat} (h1 : 58 ∉ n1) (h2 : 58 ∉ n2) (x y : Str)
    (h : (callLabel n1 c1 ++ [95, 95] ++ x).map tolower = (callLabel n2 c2 ++ [95, 95] ++ y).map tolower) :
    n1.map tolower = n2.map tolower ∧ c1 = c2 := by
  have e : ∀ n c (z : Str), (callLabel n c ++ [95, 95] ++ z).map tolower = n.map tolower ++ 58 :: 58 :: ((hexStr 8 c).map tolower ++ 95 :: 95 :: z.map tolower) := by
    intro n c z
    simp [callLabel, tolower]
  rw [e, e] at h
  have hn : ∀ {n : Str}, 58 ∉ n → 58 ∉ n.map tolower := by
    intro n hn hm
    obtain ⟨c, hc, h⟩ := List.mem_map.1 hm
    exact hn (tolower_special (.inl rfl) h ▸ hc)
  obtain ⟨q1, q2⟩ := split_at (hn h1) (hn h2) h
  refine ⟨q1, ?_⟩
  have hx : ∀ c, 95 ∉ (hexStr 8 c).map tolower := by
    intro c hm
    obtain ⟨d, hd, h⟩ := List.mem_map.1 hm
    exact (hex_range _ _ _ hd).2.1 (tolower_special (.inr rfl) h)
  simp only [List.cons.injEq, true_and] at q2
  obtain ⟨q3, _⟩ := split_at (hx c1) (hx c2) q2
  rw [← hexStr_value 8 c1, q3, hexStr_value]

/-! ## Macro calls -/

/-- All sequences of effects. -/
abbrev Effects (s t : St) : Prop := Steps (fun _ => true) s t

/-- The text of the macro called at node `body` is expanded in state `u` (unless the program has ended or the symbol has no text),
and `t` is a state after that. -/
def RunsText (u t : St) (body : Ptr) : Prop :=
  u.endExpansion = true ∨ ∃ n i, u.nodes[body]? = some n ∧ (∃ name, n.kind = .id .macroId name i) ∧
    (i = none ∨ ∃ j x, i = some j ∧ u.syms[j]? = some x ∧ (x.macroNode = none ∨
      ∃ b g w u', x.macroNode = some b ∧ expandNode g b u = (.ok w, u') ∧ Effects u' t))

theorem Pr.effects {b o : Bool} {α : Type} {m : M α} {s s' : St} {a : α} (h : Pr (fun _ => true) b o m) (hc : Cond (fun _ => true) b o s)
    (e : m s = (.ok a, s')) : Effects s s' ∧ Cond (fun _ => true) b o s' := by
  have := h s hc
  rw [e] at this
  exact ⟨this, hc.steps this⟩

theorem RunsText.after {u t t' : St} {body : Ptr} (h : RunsText u t body) (e : Effects t t') : RunsText u t' body := by
  rcases h with h | ⟨n, i, h1, h2, h | ⟨j, x, h3, h4, h | ⟨b, g, w, u', h5, h6, h7⟩⟩⟩
  · exact .inl h
  · exact .inr ⟨n, i, h1, h2, .inl h⟩
  · exact .inr ⟨n, i, h1, h2, .inr ⟨j, x, h3, h4, .inl h⟩⟩
  · exact .inr ⟨n, i, h1, h2, .inr ⟨j, x, h3, h4, .inr ⟨b, g, w, u', h5, h6, h7.trans e⟩⟩⟩

theorem tag_macroId {k : Kind} {name : Str} (h : k.tag = .id .macroId name none) : ∃ i, k = .id .macroId name i := by
  cases k with
  | id a b c => cases h; exact ⟨c, rfl⟩
  | con _ _ => cases h
  | opcode _ _ _ _ => cases h
  | _ => cases h

/-- The call node's inner node: the text is expanded under the label of the call. -/
theorem macroId_text {f : Nat} {p : Ptr} {name : Str} {c : Nat} {b o : Bool} {s s' : St} {v : Int} (hc : Cond (fun _ => true) b o s)
    (ht : HasTag p (.id .macroId name none) s)
    (hm : macroCount s.macroDict name = some c) (h : expandMacroId (expandNode f) p name s = (.ok v, s')) :
    ∃ u, Effects s u ∧ Effects u s' ∧ u.lastLabel = some (callLabel name c) ∧ RunsText u s' p := by
  unfold expandMacroId at h
  rw [bind_ok (createMacroEntry_found hm), getS_bind, bind_ok (entryCount_found hm)] at h
  have p1 : Effects s { s with lastLabel := some (callLabel name c) } := Pr.modS (b := b) (o := o)
    (g := fun s => { s with lastLabel := some (callLabel name c) }) (by quiet) s hc
  have c1 := hc.steps p1
  have hex : ∀ p, Pr (fun _ => true) b o (expandNode f p) := fun p => expandNode_pr b o f p
  obtain ⟨_, s1, e1, h⟩ := bind_ok_inv h
  cases e1
  obtain ⟨_, u, e2, h⟩ := bind_ok_inv h
  have pid : Pr (fun _ => true) b o (expandId p name) := by pr
  obtain ⟨p2, c2⟩ := pid.effects c1 e2
  have hl : u.lastLabel = some (callLabel name c) := by
    have := (Lab.expandId p name) _ _ _ e2
    have h1 := this.label
    have h2 := this.some rfl
    cases hu : u.lastLabel with
    | none => rw [hu] at h2; cases h2
    | some l => rw [hu] at h1; exact congrArg some h1
  have t2 := ht.steps (p1.trans p2)
  have rest : Effects u s' := by
    have : Pr (fun _ => true) b o (do
      let n ← node p
      match n.kind with
      | .id _ _ (some i) => do
        let x ← sym i
        match x.macroNode with
        | none => do
          modS fun s' => { s' with lastLabel := s.lastLabel }
          M.pure 0
        | some b => do
          let _ ← expandNode f b
          modS fun s' => { s' with lastLabel := s.lastLabel }
          let x ← sym i
          M.pure x.value
      | .id _ _ none => do
        modS fun s' => { s' with lastLabel := s.lastLabel }
        M.pure 0
      | _ => ubM : M Int) := by pr
    exact (this.effects c2 h).1
  refine ⟨u, p1.trans p2, rest, hl, .inr ?_⟩
  obtain ⟨n, u0, e3, h3⟩ := bind_ok_inv h
  clear h
  have hn : u.nodes[p]? = some n ∧ u0 = u := by
    rcases node_cases p u with e | ⟨m, hm, _, e⟩
    · rw [e] at e3; cases e3
    · rw [e] at e3; cases e3; exact ⟨hm, rfl⟩
  obtain ⟨hn, rfl⟩ := hn
  obtain ⟨m, hm', tm⟩ := t2
  rw [hn] at hm'
  cases hm'
  obtain ⟨i, hk⟩ := tag_macroId tm
  refine ⟨n, i, hn, ⟨name, hk⟩, ?_⟩
  cases i with
  | none => exact .inl rfl
  | some j =>
    rw [hk] at h3
    obtain ⟨x, u1, e4, h4⟩ := bind_ok_inv h3
    clear h3
    have hx : u0.syms[j]? = some x ∧ u1 = u0 := by
      unfold sym at e4
      split at e4 <;> cases e4
      exact ⟨‹_›, rfl⟩
    obtain ⟨hx, rfl⟩ := hx
    refine .inr ⟨j, x, rfl, hx, ?_⟩
    cases hb : x.macroNode with
    | none => exact .inl rfl
    | some bd =>
      simp only [hb] at h4
      obtain ⟨w, u', e5, h⟩ := bind_ok_inv h4
      refine .inr ⟨bd, f, w, u', rfl, e5, ?_⟩
      have p5 := ((hex bd).effects c2 e5).2
      have : Pr (fun _ => true) b o (do
          modS fun s' => { s' with lastLabel := s.lastLabel }
          let x ← sym j
          M.pure x.value : M Int) := by pr
      exact (this.effects p5 h).1

/-- A macro call: the text of the macro is expanded once, while local names belong to the label made of the name of the macro and the
number of calls before, and this number is larger afterwards. -/
theorem macroEx_text {f : Nat} {p body : Ptr} {name : Str} {params : Option Ptr} {num num' : Nat} {ops ops' : List Ptr} {i : Option SymPtr} {c : Nat}
    {s s' : St} {v : Int} (hL : Live s p ⟨.macroEx name body params, num, ops⟩) (hB : Live s body ⟨.id .macroId name i, num', ops'⟩)
    (he : s.endExpansion = false) (ht : s.finalPass = true → 0 ≤ s.totalBytes) (hm : macroCount s.macroDict name = some c)
    (h : expandNode f p s = (.ok v, s')) :
    ∃ c' u, c ≤ c' ∧ Effects s u ∧ Effects u s' ∧ RunsText u s' body ∧ (u.endExpansion = false → u.lastLabel = some (callLabel name c')) ∧
      (∃ c'', macroCount s'.macroDict name = some c'' ∧ c' < c'') := by
  cases f with
  | zero => cases h
  | succ f =>
  rw [expandNode_run he hL] at h
  change expandMacroEx (expandNode f) name body params s = _ at h
  unfold expandMacroEx at h
  have c0 : Cond (fun _ => true) s.finalPass s.outputOpen s := ⟨rfl, rfl, ht, fun h => absurd h (by decide)⟩
  have hex : ∀ p, Pr (fun _ => true) s.finalPass s.outputOpen (expandNode f p) := fun p => expandNode_pr _ _ f p
  rw [bind_ok (createMacroEntry_found hm)] at h
  obtain ⟨_, s1, e1, h⟩ := bind_ok_inv h
  obtain ⟨p1, c1⟩ := (show Pr (fun _ => true) s.finalPass s.outputOpen pushMacroParams by pr).effects c0 e1
  obtain ⟨_, s2, e2, h⟩ := bind_ok_inv h
  obtain ⟨p2, c2⟩ := (show Pr (fun _ => true) s.finalPass s.outputOpen (modS fun s => { s with expansionType := .macroParameter, macroParamIndex := 0 }) by pr).effects c1 e2
  obtain ⟨_, s3, e3, h⟩ := bind_ok_inv h
  obtain ⟨p3, c3⟩ := (show Pr (fun _ => true) s.finalPass s.outputOpen (match params with
    | some q => do
      let _ ← expandNode f q
      M.pure ()
    | none => M.pure ()) by pr).effects c2 e3
  have p03 := (p1.trans p2).trans p3
  obtain ⟨c', hm3, hc'⟩ := p03.dict _ _ hm
  rw [getS_bind, bind_ok (entryCount_found hm3)] at h
  obtain ⟨_, s4, e4, h⟩ := bind_ok_inv h
  obtain ⟨p4, c4⟩ := (show Pr (fun _ => true) s.finalPass s.outputOpen (modS fun s => { s with lastLabel := some (name ++ [58, 58] ++ hexStr 4 c') }) by pr).effects c3 e4
  have hm4 : macroCount s4.macroDict name = some c' := by
    cases e4
    exact hm3
  obtain ⟨w, s5, e5, h⟩ := bind_ok_inv h
  obtain ⟨p5, c5⟩ := (hex body).effects c4 e5
  obtain ⟨c5', hm5, hc5⟩ := p5.dict _ _ hm4
  have prest : Pr (fun _ => true) s.finalPass s.outputOpen (do
    bumpMacro name true
    modS fun s' => { s' with lastLabel := s3.lastLabel }
    popMacroParams
    M.pure 0 : M Int) := by pr
  have p6 := (prest.effects c5 h).1
  have p04 := p03.trans p4
  have last : ∃ c'', macroCount s'.macroDict name = some c'' ∧ c' < c'' := by
    obtain ⟨_, s6, e6, h⟩ := bind_ok_inv h
    have prest : Pr (fun _ => true) s.finalPass s.outputOpen (do
      modS fun s' => { s' with lastLabel := s3.lastLabel }
      popMacroParams
      M.pure 0 : M Int) := by pr
    have c6 := ((show Pr (fun _ => true) s.finalPass s.outputOpen (bumpMacro name true) by pr).effects c5 e6).2
    have p7 := (prest.effects c6 h).1
    have hm6 : macroCount s6.macroDict name = some (c5' + 1) := by
      cases e6
      exact macroCount_bump hm5
    obtain ⟨c7, h7', h7⟩ := p7.dict _ _ hm6
    exact ⟨c7, h7', by omega⟩
  obtain ⟨n', hL', tg⟩ := (show ∃ n', Live _ body n' ∧ n'.kind.tag = .id .macroId name none from by
    obtain ⟨n', h1, h2⟩ := p04.frame.tags body _ hB.2
    exact ⟨n', ⟨by rw [p04.frame.nodeBase]; exact hB.1, h1⟩, h2⟩)
  cases hend : s4.endExpansion with
  | true => exact ⟨c', s4, hc', p04, p5.trans p6, .inl hend, fun h => (by rw [hend] at h; cases h), last⟩
  | false =>
    cases f with
    | zero => cases e5
    | succ f =>
    rw [expandNode_run hend hL'] at e5
    obtain ⟨j, hk⟩ := tag_macroId tg
    unfold expandKind at e5
    simp only [hk] at e5
    obtain ⟨u', q1, q2, q3, q4⟩ := macroId_text c4 ⟨n', hL'.2, tg⟩ hm4 e5
    exact ⟨c', u', hc', p04.trans q1, q2.trans p6, q4.after p6, fun _ => q3, last⟩

/-! ## Names under labels -/

theorem stricmp_fold_right (x : Str) : ∀ {a b : Str}, a.map tolower = b.map tolower → stricmp x a = stricmp x b := by
  induction x with
  | nil =>
    intro a b h
    cases a <;> cases b <;> simp_all [stricmp]
  | cons c x ih =>
    intro a b h
    cases a with
    | nil => cases b <;> simp_all
    | cons d a =>
      cases b with
      | nil => simp_all
      | cons e b =>
        simp only [List.map_cons, List.cons.injEq] at h
        simp only [stricmp, h.1, ih h.2]

theorem macroCount_fold {d : List (Str × Nat)} {a b : Str} (h : a.map tolower = b.map tolower) : macroCount d a = macroCount d b := by
  unfold macroCount
  congr 2
  funext e
  rw [stricmp_fold_right _ h]

/-- The name under which a local name is kept. -/
theorem localKey {u : St} {L x : Str} (hl : u.lastLabel = some L) (hx : x.head? = some 64) :
    ∃ y, (addSymbolKey u x).2 = L ++ [95, 95] ++ y := by
  cases x with
  | nil => cases hx
  | cons c r =>
    cases hx
    unfold addSymbolKey
    simp only [dropDot, hl, formatLocal]
    unfold stripColon
    split
    · rw [List.dropLast_append_of_ne_nil (by simp)]
      exact ⟨_, rfl⟩
    · exact ⟨_, rfl⟩

theorem callLabels_apart {u1 u2 : St} {n1 n2 x y : Str} {c1 c2 : Nat} (h1 : u1.lastLabel = some (callLabel n1 c1))
    (h2 : u2.lastLabel = some (callLabel n2 c2)) (m1 : 58 ∉ n1) (m2 : 58 ∉ n2) (hx : x.head? = some 64) (hy : y.head? = some 64)
    (h : ((addSymbolKey u1 x).2).map tolower = ((addSymbolKey u2 y).2).map tolower) : n1.map tolower = n2.map tolower ∧ c1 = c2 := by
  obtain ⟨a, ha⟩ := localKey h1 hx
  obtain ⟨b, hb⟩ := localKey h2 hy
  rw [ha, hb] at h
  exact callLabel_ne m1 m2 a b h

end Verif
