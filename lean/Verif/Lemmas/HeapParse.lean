import Verif.Lemmas.HeapExpand

/-! # The parser builds a typed tree -/

namespace Verif.Heap

variable {α β : Type} {w v : List Col} {τ : Option ExpType} {ex : Ptr → M Int} {hu : Ptr → M Bool}

/-- An operator of an expression. -/
theorem Hq.exprOp {op : Opr} (ho : exprOp op = true) {ops : List Ptr} (h : ∀ o ∈ ops, Ex w o) :
    Hq w τ (fun v p => Has v p .expr) (operatorNode op ops) :=
  Hq.alloc (c := .expr) ⟨ho, h⟩ (fun h => by cases h)

/-- A statement made of expressions and statements. -/
theorem Hq.codeOp {op : Opr} {ops : List Ptr} (h : CodeOk w ops (.opr op)) :
    Hq w τ (fun v p => Has v p .code) (operatorNode op ops) :=
  Hq.alloc (c := .code) h (fun h => by cases h)

theorem Hq.idNode {k : IdKind} (name : Str) (hk : k ≠ .macroId) : Hq w τ (fun v p => Has v p .id) (idNode k name) :=
  Hq.alloc (c := .id) ⟨⟨k, name, none, rfl, hk⟩, rfl⟩ (fun h => by cases h)

theorem Hq.itemNode (name : Str) : Hq w τ (fun v p => Has v p .item) (Verif.idNode .id name) :=
  Hq.alloc (c := .item) ⟨⟨name, none, rfl⟩, rfl⟩ fun _ a b j h => by cases h

theorem Hq.macroIdNode (name : Str) : Hq w τ (fun v p => Has v p .code) (Verif.idNode .macroId name) :=
  Hq.alloc (c := .code) ⟨rfl, rfl⟩ (fun h => by cases h)

theorem Hq.stringNode (raw : Str) : Hq w τ (fun v p => Has v p .expr) (stringNode raw) := by
  unfold Verif.stringNode
  refine Hq.bind (Hp.liftO _) fun r => ?_
  dsimp only
  exact Hq.bind (by hp) fun _ => Hq.alloc (c := .expr) ⟨rfl, fun o ho => by cases ho⟩ (fun h => by cases h)

/-- Every expression but a single name. -/
theorem Hq.buildExpr : ∀ (e : Expr) {w : List Col}, Hq w τ (fun v p => Ex v p ∧ ((∃ n, e = .sym n) ∨ Has v p .expr)) (buildExpr e)
  | .int x, w => (Hq.constantNode x false).weak fun _ _ _ h => ⟨.inr h, .inr h⟩
  | .sym name, w => (Hq.idNode (k := .id) name (by decide)).weak fun _ _ _ h => ⟨.inl h, .inl ⟨name, rfl⟩⟩
  | .pc, w => (Hq.constantNode 0 true).weak fun _ _ _ h => ⟨.inr h, .inr h⟩
  | .un op e, w => by
    unfold Verif.buildExpr
    refine Hq.bind' (Hq.buildExpr e) fun v p hv hp => (Hq.exprOp (by cases op <;> rfl) fun o ho => ?_).weak fun _ _ _ h => ⟨.inr h, .inr h⟩
    rw [List.mem_singleton.mp ho]
    exact hp.1
  | .bin op a b, w => by
    unfold Verif.buildExpr
    refine Hq.bind' (Hq.buildExpr a) fun v p hv hp => Hq.bind' (Hq.buildExpr b) fun u q hu hq =>
      (Hq.exprOp (by cases op <;> rfl) fun o ho => ?_).weak fun _ _ _ h => ⟨.inr h, .inr h⟩
    simp only [List.mem_cons, List.not_mem_nil, or_false] at ho
    rcases ho with rfl | rfl
    · exact hp.1.mono hu
    · exact hq.1

theorem Hq.expr (e : Expr) : Hq w τ (fun v p => Ex v p) (Verif.buildExpr e) := (Hq.buildExpr e).weak fun _ _ _ h => h.1

/-- The initial value in a `.var` list. -/
theorem Hq.varExpr (e : Expr) : Hq w τ (fun v p => Has v p .item ∨ Has v p .expr) (Verif.buildExpr e) := by
  by_cases h : ∃ n, e = .sym n
  · obtain ⟨n, rfl⟩ := h
    exact (Hq.itemNode n).weak fun _ _ _ h => .inl h
  · exact (Hq.buildExpr e).weak fun _ _ _ h' => .inr (h'.2.resolve_left h)

theorem Hq.buildItem (x : Item) : Hq w τ (fun v p => Ex v p) (buildItem x) := by
  cases x with
  | expr e => exact Hq.expr e
  | str raw => exact (Hq.stringNode raw).weak fun _ _ _ h => .inr h

theorem Hq.argNode {ops : List Ptr} (h : ∀ o ∈ ops, Has w o .arg ∨ Ex w o) :
    Hq w τ (fun v p => Has v p .arg) (operatorNode .exprList ops) :=
  Hq.alloc (c := .arg) ⟨rfl, h⟩ (fun h => by cases h)

theorem Hq.listNode {ops : List Ptr} (h : ∀ o ∈ ops, Has w o .list ∨ Has w o .item ∨ Has w o .expr) :
    Hq w τ (fun v p => Has v p .list) (operatorNode .exprList ops) :=
  Hq.alloc (c := .list) ⟨rfl, h⟩ (fun h => by cases h)

theorem Hq.buildItemsTl : ∀ (xs : List Item) {w : List Col} (p : Ptr), Has w p .arg →
    Hq w τ (fun v p => Has v p .arg) (buildItemsTl xs p)
  | [], w, p, h => Hq.pure _ fun _ hv => h.mono hv
  | x :: xs, w, p, h => by
    unfold Verif.buildItemsTl
    refine Hq.bind' (Hq.buildItem x) fun v q hv hq => Hq.bind' (Hq.argNode fun o ho => ?_) fun u r hu hr =>
      Hq.buildItemsTl xs r hr
    simp only [List.mem_cons, List.not_mem_nil, or_false] at ho
    rcases ho with rfl | rfl
    · exact .inl (h.mono hv)
    · exact .inr hq

theorem Hq.buildItems (hd : Item) (tl : List Item) : Hq w τ (fun v p => Has v p .arg) (buildItems hd tl) := by
  unfold Verif.buildItems
  refine Hq.bind' (Hq.buildItem hd) fun v q hv hq => Hq.bind' (Hq.argNode fun o ho => ?_) fun u r hu hr =>
    Hq.buildItemsTl tl r hr
  rw [List.mem_singleton.mp ho]
  exact .inr hq

theorem Hq.buildItems? (x : Option (Item × List Item)) : Hq w τ (fun v p => ∀ q, p = some q → Has v q .arg) (buildItems? x) := by
  unfold Verif.buildItems?
  split
  · exact Hq.pure _ fun _ _ q h => by cases h
  · exact Hq.bind' (Hq.buildItems _ _) fun v p hv hp => Hq.pure _ fun u hu q h => by cases h; exact hp.mono hu

theorem Hq.buildVarsTl : ∀ (xs : List (Str × Option Expr)) {w : List Col} (p : Ptr), Has w p .list →
    Hq w τ (fun v p => Has v p .list) (buildVarsTl xs p)
  | [], w, p, h => Hq.pure _ fun _ hv => h.mono hv
  | (name, none) :: xs, w, p, h => by
    unfold Verif.buildVarsTl
    refine Hq.bind' (Hq.itemNode name) fun v q hv hq => Hq.bind' (Hq.listNode fun o ho => ?_) fun u r hu hr =>
      Hq.buildVarsTl xs r hr
    simp only [List.mem_cons, List.not_mem_nil, or_false] at ho
    rcases ho with rfl | rfl
    · exact .inl (h.mono hv)
    · exact .inr (.inl hq)
  | (name, some e) :: xs, w, p, h => by
    unfold Verif.buildVarsTl
    refine Hq.bind' (Hq.varExpr e) fun v1 x hv1 hx => ?_
    refine Hq.bind' (Hq.itemNode name) fun v q hv hq => Hq.bind' (Hq.listNode fun o ho => ?_) fun u r hu hr =>
      Hq.buildVarsTl xs r hr
    simp only [List.mem_cons, List.not_mem_nil, or_false] at ho
    rcases ho with rfl | rfl | rfl
    · exact .inl ((h.mono hv1).mono hv)
    · exact .inr (.inl hq)
    · exact .inr (hx.imp (·.mono hv) (·.mono hv))

theorem Hq.buildVars (hd : Str × Option Expr) (tl : List (Str × Option Expr)) :
    Hq w τ (fun v p => Has v p .list) (buildVars hd tl) := by
  unfold Verif.buildVars
  refine Hq.bind' (Q := fun v p => Has v p .list) ?_ fun v p hv hp => Hq.buildVarsTl tl p hp
  split
  · refine Hq.bind' (Hq.itemNode _) fun v q hv hq => Hq.listNode fun o ho => ?_
    rw [List.mem_singleton.mp ho]
    exact .inr (.inl hq)
  · refine Hq.bind' (Hq.varExpr _) fun v1 x hv1 hx => Hq.bind' (Hq.itemNode _) fun v q hv hq => Hq.listNode fun o ho => ?_
    simp only [List.mem_cons, List.not_mem_nil, or_false] at ho
    rcases ho with rfl | rfl
    · exact .inr (.inl hq)
    · exact .inr (hx.imp (·.mono hv) (·.mono hv))

theorem Hq.macroExpandNode (name : Str) {params : Option Ptr} (h : ∀ q, params = some q → Has w q .arg) :
    Hq w τ (fun v p => Any v p) (macroExpandNode name params) := by
  unfold Verif.macroExpandNode
  refine Hq.bind' (Hq.macroIdNode name) fun v m hv hm => ?_
  have hn : NodeOk v .code { kind := .macroEx name m params, numOps := 0, ops := [] } := ⟨⟨hm, fun q hq => (h q hq).mono hv⟩, rfl⟩
  exact (Hq.alloc (c := .code) hn (fun h => by cases h)).weak fun _ _ _ h => .inr (.inl h)

theorem Hq.labelNode (name : Str) : Hq w τ (fun v p => Has v p .id) (labelNode name) := by
  unfold Verif.labelNode
  refine Hq.bind Hp.getS fun s => ?_
  split
  · split <;> exact Hq.idNode _ (by decide)
  · exact Hq.idNode _ (by decide)
  · exact Hq.idNode _ (by decide)
  · exact Hq.bind (by hp) fun _ => Hq.idNode _ (by decide)

theorem Hq.buildLabel (name : Str) : Hq w τ (fun v p => Any v p) (buildLabel name) := by
  unfold Verif.buildLabel
  refine Hq.bind' (Hq.constantNode _ _) fun v c hv hc => Hq.bind' (Hq.labelNode name) fun u l hu hl => ?_
  have hn : CodeOk u [l, c] (.opr .equ) := fun o ho => by
    simp only [List.mem_cons, List.not_mem_nil, or_false] at ho
    rcases ho with rfl | rfl
    · exact .inl (.inl hl)
    · exact .inl (.inr (hc.mono hu))
  exact (Hq.codeOp hn).weak fun _ _ _ h => .inr (.inl h)

theorem Hp.lexMacroName (name : Str) : Hp w τ (lexMacroName name) := by
  unfold Verif.lexMacroName
  refine Hp.bind (by hp) fun s => ?_
  split
  · exact Hp.modSym (fun x => ⟨rfl, rfl, rfl, rfl, id, fun _ => rfl, id, id, fun _ => rfl⟩) fun x b h => .inl h
  · hp

/-- What a builder returns. -/
def Res1 (v : List Col) (r : Option Ptr) : Prop := ∀ p, r = some p → Any v p

theorem Hq.built {m : M Ptr} (h : Hq w τ (fun v p => Any v p) m) : Hq w τ Res1 (built m) := by
  unfold Verif.built
  exact Hq.bind' h fun v p hv hp => Hq.pure _ fun u hu q hq => by cases hq; exact hp.mono hu

theorem Hq.andThen {m : M (Option Ptr)} {k : Ptr → M (Option Ptr)} (hm : Hq w τ Res1 m)
    (hk : ∀ v p, w <+: v → Any v p → Hq v τ Res1 (k p)) : Hq w τ Res1 (andThen m k) := by
  unfold Verif.andThen
  refine Hq.bind' hm fun v r hv hr => ?_
  split
  · exact hk v _ hv (hr _ rfl)
  · exact Hq.pure _ fun u hu q hq => by cases hq

theorem Hq.op {op : Opr} {ops : List Ptr} (h : CodeOk w ops (.opr op)) : Hq w τ (fun v p => Any v p) (operatorNode op ops) :=
  (Hq.codeOp h).weak fun _ _ _ h => .inr (.inl h)

theorem Hq.op1 {op : Opr} {p : Ptr} (hp : Any w p) (h : (∀ o ∈ [p], Any w o) → CodeOk w [p] (.opr op)) :
    Hq w τ (fun v p => Any v p) (operatorNode op [p]) :=
  Hq.op (h fun o ho => by rw [List.mem_singleton.mp ho]; exact hp)

theorem Hq.op2 {op : Opr} {p q : Ptr} (hp : Any w p) (hq : Any w q) (h : (∀ o ∈ [p, q], Any w o) → CodeOk w [p, q] (.opr op)) :
    Hq w τ (fun v p => Any v p) (operatorNode op [p, q]) :=
  Hq.op (h fun o ho => by
    simp only [List.mem_cons, List.not_mem_nil, or_false] at ho
    rcases ho with rfl | rfl <;> assumption)

theorem Hq.op3 {op : Opr} {p q r : Ptr} (hp : Any w p) (hq : Any w q) (hr : Any w r)
    (h : (∀ o ∈ [p, q, r], Any w o) → CodeOk w [p, q, r] (.opr op)) :
    Hq w τ (fun v p => Any v p) (operatorNode op [p, q, r]) :=
  Hq.op (h fun o ho => by
    simp only [List.mem_cons, List.not_mem_nil, or_false] at ho
    rcases ho with rfl | rfl | rfl <;> assumption)

theorem Hq.buildStmt (hs : Sem ex hu) : ∀ (st : Stmt) (inMacro : Bool) {w : List Col}, Hq w none Res1 (buildStmt ex hu inMacro st)
  | .empty, b, w => by
    unfold Verif.buildStmt
    exact Hq.built (Hq.op fun o ho => by cases ho)
  | .op ins mode none, b, w => by
    unfold Verif.buildStmt
    exact Hq.built ((Hq.opcodeNode hs ins mode fun o ho => by cases ho).weak fun _ _ _ h => .inr (.inr h))
  | .op ins mode (some e), b, w => by
    unfold Verif.buildStmt
    refine Hq.built (Hq.bind' (Hq.expr e) fun v p hv hp => (Hq.opcodeNode hs ins mode fun o ho => ?_).weak fun _ _ _ h => .inr (.inr h))
    rw [List.mem_singleton.mp ho]
    exact hp
  | .org e, b, w => by
    unfold Verif.buildStmt
    exact Hq.built (Hq.bind' (Hq.expr e) fun v p hv hp => Hq.op1 (.inl hp) id)
  | .ds e, b, w => by
    unfold Verif.buildStmt
    exact Hq.built (Hq.bind' (Hq.expr e) fun v p hv hp => Hq.op1 (.inl hp) id)
  | .data size hd tl, b, w => by
    unfold Verif.buildStmt
    exact Hq.built (Hq.bind' (Hq.buildItems hd tl) fun v p hv hp => (Hq.dataNode size (.inl hp)).weak fun _ _ _ h => .inr (.inl h))
  | .fill x n, b, w => by
    unfold Verif.buildStmt
    exact Hq.built (Hq.bind' (Hq.expr x) fun v p hv hp => Hq.bind' (Hq.expr n) fun u q hu hq =>
      Hq.op2 (.inl (hp.mono hu)) (.inl hq) id)
  | .print all items, b, w => by
    unfold Verif.buildStmt
    refine Hq.built (Hq.bind' (Hq.buildItems? items) fun v p hv hp => Hq.op ?_)
    have : ∀ o ∈ p.toList, Has v o .arg := fun o ho => hp o (Option.mem_toList.mp ho)
    cases all <;> exact this
  | .printState on, b, w => by
    unfold Verif.buildStmt
    have hn : NodeOk w .code { kind := .printState on, numOps := 0, ops := [] } := rfl
    exact Hq.built ((Hq.alloc (c := .code) hn (fun h => by cases h)).weak fun _ _ _ h => .inr (.inl h))
  | .sect name, b, w => by
    unfold Verif.buildStmt
    exact Hq.built (Hq.bind' (Hq.idNode name (by decide)) fun v p hv hp => Hq.op1 (.inl (.inl hp)) id)
  | .endSect, b, w => by
    unfold Verif.buildStmt
    exact Hq.built (Hq.op fun o ho => by cases ho)
  | .endProg, b, w => by
    unfold Verif.buildStmt
    exact Hq.built (Hq.op fun o ho => by cases ho)
  | .load raw, b, w => by
    unfold Verif.buildStmt
    exact Hq.built (Hq.bind' (Hq.stringNode raw) fun v p hv hp => Hq.op1 (.inl (.inr hp)) id)
  | .inc raw, b, w => by
    unfold Verif.buildStmt
    exact Hq.built (Hq.bind' (Hq.stringNode raw) fun v p hv hp => Hq.op1 (.inl (.inr hp)) id)
  | .word first name args, b, w => by
    unfold Verif.buildStmt
    refine Hq.bind Hp.getS fun s => Hq.ite ?_ (Hq.ite (Hq.pure _ fun u hu q hq => by cases hq) (Hq.built (Hq.buildLabel name)))
    exact Hq.built (Hq.bind' (Hq.buildItems? args) fun v p hv hp => Hq.macroExpandNode name hp)
  | .assign name e, b, w => by
    unfold Verif.buildStmt
    exact Hq.built (Hq.bind' (Hq.expr e) fun v p hv hp => Hq.bind' (Hq.idNode name (by decide)) fun u i hu hi =>
      Hq.op2 (.inl (.inl hi)) (.inl (hp.mono hu)) id)
  | .pcAssign e, b, w => by
    unfold Verif.buildStmt
    exact Hq.built (Hq.bind' (Hq.expr e) fun v p hv hp => Hq.op1 (.inl hp) id)
  | .ifThen c t, b, w => by
    unfold Verif.buildStmt
    exact Hq.bind' (Hq.expr c) fun v p hv hp => Hq.andThen (Hq.buildStmt hs t b) fun u q hu hq =>
      Hq.built (Hq.op2 (.inl (hp.mono hu)) hq id)
  | .ifElse c t e, b, w => by
    unfold Verif.buildStmt
    exact Hq.bind' (Hq.expr c) fun v p hv hp => Hq.andThen (Hq.buildStmt hs t b) fun u q hu hq =>
      Hq.andThen (Hq.buildStmt hs e b) fun u2 r hu2 hr =>
        Hq.built (Hq.op3 (.inl ((hp.mono hu).mono hu2)) (hq.mono hu2) hr id)
  | .repeatLoop body c, b, w => by
    unfold Verif.buildStmt
    exact Hq.andThen (Hq.buildStmt hs body b) fun v p hv hp => Hq.built (Hq.bind' (Hq.expr c) fun u q hu hq =>
      Hq.op2 (hp.mono hu) (.inl hq) id)
  | .doLoop body c, b, w => by
    unfold Verif.buildStmt
    exact Hq.andThen (Hq.buildStmt hs body b) fun v p hv hp => Hq.built (Hq.bind' (Hq.expr c) fun u q hu hq =>
      Hq.op2 (hp.mono hu) (.inl hq) id)
  | .whileLoop c body, b, w => by
    unfold Verif.buildStmt
    exact Hq.bind' (Hq.expr c) fun v p hv hp => Hq.andThen (Hq.buildStmt hs body b) fun u q hu hq =>
      Hq.built (Hq.op2 (.inl (hp.mono hu)) hq id)
  | .forLoop name start stop step body next, b, w => by
    unfold Verif.buildStmt
    refine Hq.bind' (Hq.expr start) fun v1 ps h1 hps => Hq.bind' (Hq.idNode name (by decide)) fun v2 i h2 hi => ?_
    refine Hq.bind' (Hq.op2 (.inl (.inl hi)) (.inl (hps.mono h2)) id) fun v3 asn h3 hasn => ?_
    refine Hq.bind' (Hq.expr stop) fun v4 pe h4 hpe => ?_
    refine Hq.bind' (Q := fun v l => ∀ o ∈ l, Ex v o) ?_ fun v5 pst h5 hpst => ?_
    · split
      · exact Hq.bind' (Hq.expr _) fun v p hv hp => Hq.pure _ fun u hu o ho => by
          rw [List.mem_singleton.mp ho]; exact hp.mono hu
      · exact Hq.pure _ fun u hu o ho => by cases ho
    · refine Hq.andThen (Hq.buildStmt hs body b) fun v6 pb h6 hpb => Hq.built ?_
      refine Hq.bind' (Hq.idNode next (by decide)) fun v7 nx h7 hnx => Hq.op fun o ho => ?_
      simp only [List.mem_append, List.mem_cons, List.not_mem_nil, or_false] at ho
      rcases ho with (rfl | rfl | rfl | rfl) | ho
      · exact (((hasn.mono h4).mono h5).mono h6).mono h7
      · exact .inl (((hpe.mono h5).mono h6).mono h7)
      · exact hpb.mono h7
      · exact .inl (.inl hnx)
      · exact .inl (((hpst o ho).mono h6).mono h7)
  | .forReg isX start stop up body, b, w => by
    unfold Verif.buildStmt
    refine Hq.bind' (Hq.expr start) fun v1 ps h1 hps => Hq.bind' (Hq.expr stop) fun v2 pe h2 hpe => ?_
    refine Hq.andThen (Hq.buildStmt hs body b) fun v3 pb h3 hpb => Hq.built ?_
    refine Hq.bind' (Hq.constantNode _ _) fun v4 c h4 hc => Hq.op ?_
    have : ∀ o ∈ [ps, pe, pb, c], Any v4 o := fun o ho => by
      simp only [List.mem_cons, List.not_mem_nil, or_false] at ho
      rcases ho with rfl | rfl | rfl | rfl
      · exact .inl (((hps.mono h2).mono h3).mono h4)
      · exact .inl ((hpe.mono h3).mono h4)
      · exact hpb.mono h4
      · exact .inl (.inr hc)
    cases isX <;> exact this
  | .macroDef name body, b, w => by
    unfold Verif.buildStmt
    refine Hq.bind (Hp.lexMacroName name) fun _ => Hq.andThen (Hq.buildStmt hs body true) fun v pb hv hpb => Hq.built ?_
    exact Hq.bind' (Hq.macroIdNode name) fun u i hu hi => Hq.op2 (.inr (.inl hi)) (hpb.mono hu) id
  | .var hd tl, b, w => by
    unfold Verif.buildStmt
    refine Hq.built (Hq.bind' (Hq.buildVars hd tl) fun v p hv hp => Hq.op fun o ho => ?_)
    rw [List.mem_singleton.mp ho]
    exact hp
  | .seq a c, b, w => by
    unfold Verif.buildStmt
    exact Hq.andThen (Hq.buildStmt hs a b) fun v p hv hp => Hq.andThen (Hq.buildStmt hs c b) fun u q hu hq =>
      Hq.built (Hq.op2 (hp.mono hu) hq id)
  | .at line s, b, w => by
    unfold Verif.buildStmt
    exact Hq.bind (by hp) fun _ => Hq.buildStmt hs s b

theorem Hp.runLabelled (hs : Sem ex hu) (label : Str) (st : Stmt) : Hp w none (runLabelled ex hu label st) := by
  unfold Verif.runLabelled
  refine Hp.bind' (Hq.buildStmt hs st false) fun v r hv hr => ?_
  split
  · hp
  · refine Hp.bind' (Hq.buildLabel label) fun u l hu hl => ?_
    exact Hp.bind (hs.c _ _ hl) fun _ => Hp.bind (hs.c _ _ ((hr _ rfl).mono hu)) fun _ => Hp.pure _

theorem Hp.runStmt (hs : Sem ex hu) (st : Stmt) : Hp w none (do
    let r ← Verif.buildStmt ex hu false st
    match r with
    | none => M.pure false
    | some p => do
      let _ ← ex p
      M.pure true) := by
  refine Hp.bind' (Hq.buildStmt hs st false) fun v r hv hr => ?_
  split
  · hp
  · exact Hp.bind (hs.c _ _ (hr _ rfl)) fun _ => Hp.pure _

theorem Hp.runTop (hs : Sem ex hu) (t : Top) : Hp w none (runTop ex hu t) := by
  have h1 := fun a b => Hp.runLabelled (w := w) hs a b
  have h2 := fun a => Hp.runStmt (w := w) hs a
  unfold Verif.runTop
  split
  · refine Hp.bind (by hp) fun _ => Hp.bind (by hp) fun s => Hp.ite (h2 _) (by hp)
  · refine Hp.bind (by hp) fun _ => h2 _
  · refine Hp.bind (by hp) fun _ => Hp.bind (by hp) fun s => Hp.ite ?_ (h1 _ _)
    split
    · exact Hp.bind' (Hq.macroExpandNode _ fun q hq => by cases hq) fun v p hv hp => Hp.bind (hs.c _ _ hp) fun _ => Hp.pure _
    · hp
  · hp
  · hp
  · hp

theorem Hp.runFile (hs : Sem ex hu) : ∀ ts : List Top, Hp w none (runFile ex hu ts)
  | [] => Hp.pure _
  | t :: ts => by
    unfold Verif.runFile
    exact Hp.bind (Hp.runTop hs t) fun g => Hp.ite (Hp.runFile hs ts) (Hp.error _)

/-- The body of a pass. -/
theorem Hp.passBody (f : Nat) (prog : Program) :
    Hp w none (Verif.forEachM (Verif.runFile (expandNode f) (hasUninit f)) prog) :=
  Hp.forEachM prog fun ts _ => Hp.runFile (sem_expandNode f) ts

/-- A pass keeps the heap typed, and ordinary symbols keep their values unless a change is counted. -/
theorem runPass_good (f : Nat) (prog : Program) (output final : Bool) (s : St) (h : Good w s) :
    ∃ v, w <+: v ∧ Good v (runPass f prog output final s).2 ∧ SymsLe s.syms (runPass f prog output final s).2.syms ∧
      ((runPass f prog output final s).2.symValueChanged = 0 → ValLe s.syms (runPass f prog output final s).2.syms) := by
  have hb := Hp.passBody (w := w) f prog w (resetSt { s with finalPass := final, outputOpen := final && output })
    (List.prefix_refl _) (h.of rfl rfl) (fun e he => by cases he)
  unfold runPass
  rcases parsePass_cases f prog { s with finalPass := final, outputOpen := final && output } with
    ⟨t, h1, h2⟩ | ⟨r, t, h1, _, h2⟩ <;>
  · rw [h1] at hb
    rw [h2]
    obtain ⟨v, a, b, c, _, _⟩ := hb
    exact ⟨v, a, b.of rfl rfl, c.syms, fun e => c.val e⟩

theorem Good.start {s : St} (h1 : s.nodes = []) (h2 : ∀ x ∈ s.syms, x.macroNode = none) : Good [] s := by
  refine ⟨by rw [h1]; rfl, fun q n c hn => ?_, fun q n k name j hn => ?_, fun i x b hx hb => ?_⟩
  · rw [h1] at hn; cases hn
  · rw [h1] at hn; cases hn
  · rw [h2 x (List.mem_of_getElem? hx)] at hb; cases hb

end Verif.Heap
