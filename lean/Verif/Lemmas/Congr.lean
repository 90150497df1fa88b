import Verif.Lemmas.Data

/-! # Expressions only depend on the names in them -/

namespace Verif

theorem eval_congr {env env' : Str → Option Int} {pc : Int} : ∀ {e : Expr}, (∀ n ∈ e.names, env n = env' n) →
    Spec.eval env pc e = Spec.eval env' pc e
  | .int v, _ => rfl
  | .pc, _ => rfl
  | .sym name, h => by simp only [Spec.eval]; rw [h name (by simp [Expr.names])]
  | .un op e, h => by simp only [Spec.eval]; rw [eval_congr (e := e) h]
  | .bin op a b, h => by
    have ha := eval_congr (pc := pc) (e := a) (fun n hn => h n (by simp [Expr.names, hn]))
    have hb := eval_congr (pc := pc) (e := b) (fun n hn => h n (by simp [Expr.names, hn]))
    cases op <;> simp only [Spec.eval] <;> rw [ha, hb]

theorem complete_congr {env env' : Str → Option Int} {pc : Int} : ∀ {e : Expr}, (∀ n ∈ e.names, env n = env' n) →
    e.complete env pc = e.complete env' pc
  | .int v, _ => rfl
  | .pc, _ => rfl
  | .sym name, _ => rfl
  | .un op e, h => by simp only [Expr.complete]; rw [complete_congr (e := e) h]
  | .bin op a b, h => by
    have h1 : ∀ n ∈ a.names, env n = env' n := fun n hn => h n (by simp [Expr.names, hn])
    have h2 : ∀ n ∈ b.names, env n = env' n := fun n hn => h n (by simp [Expr.names, hn])
    have ha := eval_congr (pc := pc) h1
    have hb := eval_congr (pc := pc) h2
    have ca := complete_congr (pc := pc) h1
    have cb := complete_congr (pc := pc) h2
    cases op <;> simp only [Expr.complete] <;> simp only [ha, hb, ca, cb]

theorem itemValue_congr {env env' : Str → Option Int} {pc : Int} {e : Expr}
    (h : ∀ n ∈ e.names, env n = env' n) : Spec.itemValue env pc e = Spec.itemValue env' pc e := by
  have he := eval_congr (pc := pc) (e := e) h
  have hk : ∀ k ∈ Spec.kids e, (((Spec.eval env pc k).any fun r => !r.2) && k.complete env pc) =
      (((Spec.eval env' pc k).any fun r => !r.2) && k.complete env' pc) := by
    intro k hk
    have hn : ∀ n ∈ k.names, env n = env' n := by
      intro n hn
      apply h
      cases e with
      | un op a => simp only [Spec.kids, List.mem_singleton] at hk; subst hk; exact hn
      | bin op a b =>
        simp only [Spec.kids, List.mem_cons, List.not_mem_nil, or_false] at hk
        rcases hk with rfl | rfl <;> simp [Expr.names, hn]
      | _ => cases hk
    rw [eval_congr hn, complete_congr hn]
  have hall : (Spec.kids e).all (fun k => ((Spec.eval env pc k).any fun r => !r.2) && k.complete env pc) =
      (Spec.kids e).all (fun k => ((Spec.eval env' pc k).any fun r => !r.2) && k.complete env' pc) := by
    cases e with
    | un op a => simp only [Spec.kids, List.all_cons, List.all_nil]; rw [hk a (by simp [Spec.kids])]
    | bin op a b =>
      simp only [Spec.kids, List.all_cons, List.all_nil]
      rw [hk a (by simp [Spec.kids]), hk b (by simp [Spec.kids])]
    | _ => rfl
  unfold Spec.itemValue
  rw [hall, he]

theorem item_congr {txt : Str → Option Str} {env env' : Str → Option Int} {size pc : Int} {x : Item}
    (h : ∀ n ∈ x.names, env n = env' n) : Spec.item txt env size pc x = Spec.item txt env' size pc x := by
  cases x with
  | str raw => rfl
  | expr e =>
    show (Spec.itemValue env pc e).bind _ = (Spec.itemValue env' pc e).bind _
    rw [itemValue_congr h]

theorem items_congr {txt : Str → Option Str} {env env' : Str → Option Int} {size : Int} : ∀ {xs : List Item} {pc : Int},
    (∀ x ∈ xs, ∀ n ∈ x.names, env n = env' n) → Spec.items txt env size pc xs = Spec.items txt env' size pc xs
  | [], _, _ => rfl
  | x :: xs, pc, h => by
    simp only [Spec.items]
    rw [item_congr (h x (by simp))]
    congr 1
    funext b
    rw [items_congr (fun y hy => h y (by simp [hy]))]

theorem ExprAt.congr {lk lk' : Str → Option SymPtr} {base : Nat} {ns : List Node} : ∀ {e : Expr} {p : Ptr},
    (∀ n ∈ e.names, lk n = lk' n) → ExprAt lk base ns e p → ExprAt lk' base ns e p
  | .int v, p, _, h => h
  | .pc, p, _, h => h
  | .sym name, p, hn, h => by
    obtain ⟨hb, c, hc, hok⟩ := h
    refine ⟨hb, c, hc, ?_⟩
    rw [← hn name (by simp [Expr.names])]
    exact hok
  | .un op e, p, hn, h => by
    obtain ⟨hb, q, hq, h1⟩ := h
    exact ⟨hb, q, hq, ExprAt.congr (e := e) hn h1⟩
  | .bin op a b, p, hn, h => by
    obtain ⟨hb, q, r, hq, h1, h2⟩ := h
    exact ⟨hb, q, r, hq, h1.congr fun n h => hn n (by simp [Expr.names, h]),
      h2.congr fun n h => hn n (by simp [Expr.names, h])⟩

theorem Done.congr {lk lk' : Str → Option SymPtr} {syms : List Sym} {ns : List Node} : ∀ {e : Expr} {p : Ptr},
    (∀ n ∈ e.names, lk n = lk' n) → Done lk syms ns e p → Done lk' syms ns e p
  | .int v, p, _, h => h
  | .pc, p, _, h => h
  | .sym name, p, hn, h => by
    obtain ⟨i, x, h1, h2, h3, h4⟩ := h
    exact ⟨i, x, h1, by rw [← hn name (by simp [Expr.names])]; exact h2, h3, h4⟩
  | .un op e, p, hn, h => by
    obtain ⟨q, hq, h1⟩ := h
    exact ⟨q, hq, Done.congr (e := e) hn h1⟩
  | .bin op a b, p, hn, h => by
    obtain ⟨q, r, hq, h1, h2⟩ := h
    exact ⟨q, r, hq, h1.congr fun n h => hn n (by simp [Expr.names, h]),
      h2.congr fun n h => hn n (by simp [Expr.names, h])⟩

theorem Done.entries {lk : Str → Option SymPtr} {syms syms' : List Sym} {ns : List Node} : ∀ {e : Expr} {p : Ptr},
    (∀ n ∈ e.names, ∀ i, lk n = some i → syms[i]? = syms'[i]?) → Done lk syms ns e p → Done lk syms' ns e p
  | .int v, p, _, h => h
  | .pc, p, _, h => h
  | .sym name, p, hn, h => by
    obtain ⟨i, x, h1, h2, h3, h4⟩ := h
    exact ⟨i, x, h1, h2, by rw [← hn name (by simp [Expr.names]) i h2]; exact h3, h4⟩
  | .un op e, p, hn, h => by
    obtain ⟨q, hq, h1⟩ := h
    exact ⟨q, hq, Done.entries (e := e) hn h1⟩
  | .bin op a b, p, hn, h => by
    obtain ⟨q, r, hq, h1, h2⟩ := h
    exact ⟨q, r, hq, h1.entries fun n h => hn n (by simp [Expr.names, h]),
      h2.entries fun n h => hn n (by simp [Expr.names, h])⟩

theorem ItemAt.congr {lk lk' : Str → Option SymPtr} {base : Nat} {ns : List Node} {x : Item} {p : Ptr}
    (hn : ∀ n ∈ x.names, lk n = lk' n) (h : ItemAt lk base ns x p) : ItemAt lk' base ns x p := by
  cases x with
  | expr e => exact ExprAt.congr (e := e) hn h
  | str raw => exact h

theorem ListAt.congr {lk lk' : Str → Option SymPtr} {base : Nat} {ns : List Node} : ∀ {xs : List Item} {p : Ptr},
    (∀ x ∈ xs, ∀ n ∈ x.names, lk n = lk' n) → ListAt lk base ns xs p → ListAt lk' base ns xs p
  | [], _, _, h => h
  | [x], p, hn, h => by
    obtain ⟨hb, q, hq, h1⟩ := h
    exact ⟨hb, q, hq, h1.congr (hn x (by simp))⟩
  | x :: y :: ys, p, hn, h => by
    obtain ⟨hb, r, q, hq, h1, h2⟩ := h
    exact ⟨hb, r, q, hq, ListAt.congr (fun z hz => hn z (List.mem_cons_of_mem _ hz)) h1, h2.congr (hn x (by simp))⟩

/-- Names whose meaning does not depend on the last label. -/
def globalName (name : Str) : Bool := (dropDot name).head? != some 64

theorem addSymbolKey_label {s : St} {name : Str} (ll : Option Str) (ns : List Node) (h : globalName name = true) :
    addSymbolKey { s with lastLabel := ll, nodes := ns } name = addSymbolKey s name := by
  unfold globalName at h
  unfold addSymbolKey
  simp only
  generalize dropDot name = d at h
  congr 2
  cases d with
  | nil => rfl
  | cons c cs =>
    have hc : c ≠ 64 := by
      intro hc
      subst hc
      simp at h
    have e : ∀ o : Option Str, (match c :: cs, o with
        | 64 :: _, some l => formatLocal (c :: cs) l
        | _, _ => c :: cs) = c :: cs := by
      intro o
      split
      · rename_i heq
        cases heq
        exact absurd rfl hc
      · rfl
    exact (e ll).trans (e s.lastLabel).symm

theorem look_label {s : St} {name : Str} (ll : Option Str) (ns : List Node) (h : globalName name = true) :
    look { s with lastLabel := ll, nodes := ns } name = look s name := by
  unfold look
  rw [addSymbolKey_label ll ns h]

theorem envOf_label {s : St} {name : Str} (ll : Option Str) (ns : List Node) (h : globalName name = true) :
    envOf { s with lastLabel := ll, nodes := ns } name = envOf s name := by
  unfold envOf
  rw [look_label ll ns h]

end Verif
