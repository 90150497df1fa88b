import Verif.Lemmas.MacroArgs

/-! # Properties: macro calls -/

namespace Verif

/-- A macro `i` that emits its two parameters, and one call `i 5,6`. -/
def macroDefs : List Top :=
  [.stmt [97] 1 (.macroDef [105] (.data 1 (.expr (.sym (paramName 1))) [.expr (.sym (paramName 2))])),
    .stmt [97] 2 (.word true [105] (some (.expr (.int 5), [.expr (.int 6)])))]

/-- The state after these lines. -/
def macroState : St := (runFile (expandNode 30) (hasUninit 30) macroDefs {}).2

/-- The state after parsing a further call. -/
def macroCall (args : List Item) : St :=
  (buildStmt (expandNode 30) (hasUninit 30) false (.word true [105] (args.head?.map fun a => (a, args.tail))) macroState).2

/-! ## C31: parameters after a call -/

/-- **C31**, as far as it holds.  Whatever the called macro does: when the call returns without an error message, the
parameters `\1 … \n` in use at the time of the call, `n` being the largest number of arguments of any call so far, exist
and have the values they had before; also the stack of saved values is as before.  Missing: parameters beyond `n`
that exist because the text of some macro mentions them (`C31_beyond_false`). -/
theorem C31_params_partial {s s' : St} {p body : Ptr} {name : Str} {params : Option Ptr} {num : Nat} {ops : List Ptr} {f : Nat} {v : Int}
    (hL : Live s p ⟨.macroEx name body params, num, ops⟩) (he : s.endExpansion = false)
    (h : expandNode f p s = (.ok v, s')) (hn : s'.errorCount = s.errorCount) :
    (∀ k, 1 ≤ k → k ≤ s.maxMacroParam → (paramOf s k).isSome = true ∧ paramOf s' k = paramOf s k) ∧
      s'.paramStack = s.paramStack := by
  refine ⟨fun k h1 hk => ?_, (expandNode_bal f p s v s' h).stack hn⟩
  cases f with
  | zero => cases h
  | succ f =>
    rw [expandNode_run he hL] at h
    exact macroEx_params (expandNode_bal f) h hn h1 hk

/-- The call `i 1,2` while the parameters are 5 and 6: after it they are 5 and 6 again. -/
example : ∃ s', expandNode 20 18 (macroCall [.expr (.int 1), .expr (.int 2)]) = (.ok 0, s') ∧
    paramOf s' 1 = some 5 ∧ paramOf s' 2 = some 6 := by
  let s := macroCall [.expr (.int 1), .expr (.int 2)]
  have e : (match (expandNode 20 18 s).1 with | .ok v => some v | _ => none) = some 0 ∧
    (expandNode 20 18 s).2.errorCount = s.errorCount := by decide +kernel
  have r : expandNode 20 18 s = (.ok 0, (expandNode 20 18 s).2) := by
    cases h : expandNode 20 18 s with
    | mk r s' =>
      rw [h] at e
      cases r with
      | ok v => have := Option.some.inj e.1; subst this; rfl
      | _ => exact absurd e.1 (by intro h; cases h)
  have := C31_params_partial (s := s) (p := 18) (name := [105]) (body := 17) (params := some 16) (num := 0) (ops := [])
    ⟨by decide +kernel, by decide +kernel⟩ (by decide +kernel) r e.2
  refine ⟨_, r, ?_, ?_⟩
  · rw [(this.1 1 (by decide) (by decide +kernel)).2]
    decide +kernel
  · rw [(this.1 2 (by decide) (by decide +kernel)).2]
    decide +kernel

/-- Every expansion, whatever it contains, leaves the stack of saved values as it was when it reports no error. -/
theorem C31_stack {f : Nat} {s s' : St} {p : Ptr} {v : Int} (h : expandNode f p s = (.ok v, s'))
    (hn : s'.errorCount = s.errorCount) : s'.paramStack = s.paramStack :=
  (expandNode_bal f p s v s' h).stack hn

/-- The macro call above, with three lists of saved values on the stack. -/
example : (expandNode 20 18 { macroCall [.expr (.int 1), .expr (.int 2)] with paramStack := [[7], [], [8, 9]] }).2.paramStack =
    [[7], [], [8, 9]] := by decide +kernel

/-- **C31**, negation: a macro that mentions `\2` is called with one argument and calls `i 3,4`.  Before that call `\2` exists and
is 0, afterwards it is 4. -/
theorem C31_beyond_false :
    let r := runFile (expandNode 30) (hasUninit 30)
      [.stmt [97] 1 (.org (.int 4096)),
        .stmt [97] 2 (.macroDef [105] (.op Ins._nop .i none)),
        .stmt [97] 3 (.macroDef [111] (.seq (.data 1 (.expr (.sym (paramName 2))) [])
          (.seq (.word true [105] (some (.expr (.int 3), [.expr (.int 4)]))) (.data 1 (.expr (.sym (paramName 2))) [])))),
        .stmt [97] 4 (.word true [111] (some (.expr (.int 1), [])))] { finalPass := true, outputOpen := true }
    r.1 = .ok () ∧ r.2.log = [] ∧ r.2.out = [0, 0xEA, 4] := by
  decide +kernel

/-! ## C32: binding of arguments -/

/-- **C32**, as far as it holds.  A macro call whose arguments have values of 16 bits, and in which no argument mentions a
parameter that belongs to an earlier argument, starts the body in a state in which `\1 … \n` have the values that the
arguments had at the point of the call.  All symbols that are not among these parameters, the output, the location counter and the error
count are as at the call, and the old values are saved.  Missing: arguments that mention parameters bound before them
(`C32_swap_false`). -/
theorem C32_bind_partial {f : Nat} {s : St} {p body q : Ptr} {name : Str} {num : Nat} {ops : List Ptr} {args : List (Expr × Int)}
    (hL : Live s p ⟨.macroEx name body (some q), num, ops⟩) (hs : CNames s) (he : s.endExpansion = false)
    (hp : ∀ k, 1 ≤ k → k ≤ s.maxMacroParam → (paramOf s k).isSome = true)
    (hq : ListAt (look s) s.nodeBase s.nodes (argItems args.reverse) q) (hd : ∀ z ∈ args, z.1.depth + args.length < f)
    (hval : ∀ z ∈ args, Spec.itemValue (envOf s) s.pc z.1 = some z.2 ∧ 0 ≤ z.2 ∧ z.2 ≤ 65535)
    (hfree : ∀ j z, args[j]? = some z → ∀ n ∈ z.1.names, CStr n ∧ ∃ m, look s n = some m ∧
      ∀ i, 1 ≤ i → i ≤ j → look s (paramName i) ≠ some m) :
    ∃ s1 found saved,
      expandNode (f + 1) p s = (do
        let cnt ← entryCount name found
        modS fun s => { s with lastLabel := some (name ++ [58, 58] ++ hexStr 4 cnt) }
        let _ ← expandNode f body
        bumpMacro name found
        modS fun s' => { s' with lastLabel := s.lastLabel }
        popMacroParams
        M.pure 0) s1 ∧
      (∀ j z, args[j]? = some z → envOf s1 (paramName (j + 1)) = some z.2) ∧
      (∀ j, j < s.syms.length → (∀ i, 1 ≤ i → i ≤ args.length → look s (paramName i) ≠ some j) → s1.syms[j]? = s.syms[j]?) ∧
      (∀ n j, CStr n → look s n = some j → look s1 n = some j) ∧
      s1.paramStack = saved :: s.paramStack ∧ (∀ k, 1 ≤ k → k ≤ s.maxMacroParam → saved[k - 1]? = paramOf s k) ∧
      s1.pc = s.pc ∧ s1.out = s.out ∧ s1.log = s.log ∧ s1.errorCount = s.errorCount := by
  obtain ⟨s1, found, vs, d, hvs, b, r⟩ := call_bound (f := f) (name := name) (body := body) hs he hp hq hd (fun j z hz => by
    obtain ⟨h1, h2, h3⟩ := hval z (List.mem_of_getElem? hz)
    exact ⟨h1, h2, h3, hfree j z hz⟩)
  obtain ⟨ns, ys, c, k, m, e⟩ := b.frame.same
  refine ⟨s1, found, vs, ?_, ?_, ?_, b.frame.keep, by rw [e], ?_, by rw [e], by rw [e], by rw [e], by rw [e]⟩
  · rw [expandNode_run he hL]
    exact r
  · intro j z hz
    have hj := (List.getElem?_eq_some_iff.1 hz).1
    have := b.vals (args.length - 1 - j) z (by
      rw [List.getElem?_reverse (by omega), show args.length - 1 - (args.length - 1 - j) = j by omega]
      exact hz)
    rw [List.length_reverse, show args.length - (args.length - 1 - j) = j + 1 by omega] at this
    exact this
  · intro j hj hno
    refine b.rest j hj fun i h1 h2 => hno i h1 ?_
    rwa [List.length_reverse] at h2
  · intro k h1 hk
    have := (paramValues_get hvs).2 (k - 1) (by omega)
    rw [show 1 + (k - 1) = k by omega] at this
    exact this.symm

/-- The call `i \1+\2, \2` while the parameters are 5 and 6: the body sees 11 and 6. -/
example : ∃ s1, envOf s1 (paramName 1) = some 11 ∧ envOf s1 (paramName 2) = some 6 ∧
    ∃ found, expandNode 21 20 (macroCall [.expr (.bin .add (.sym (paramName 1)) (.sym (paramName 2))), .expr (.sym (paramName 2))]) = (do
        let cnt ← entryCount [105] found
        modS fun s => { s with lastLabel := some ([105] ++ [58, 58] ++ hexStr 4 cnt) }
        let _ ← expandNode 20 19
        bumpMacro [105] found
        modS fun s' => { s' with lastLabel := none }
        popMacroParams
        M.pure 0) s1 := by
  let s := macroCall [.expr (.bin .add (.sym (paramName 1)) (.sym (paramName 2))), .expr (.sym (paramName 2))]
  have hl : s.lastLabel = none := by decide +kernel
  have hc : s.currentScope = none := by decide +kernel
  have h1 : look s (paramName 1) = some 1 := by decide +kernel
  have h2 : look s (paramName 2) = some 2 := by decide +kernel
  obtain ⟨s1, found, saved, r, hv, _⟩ := C32_bind_partial (f := 20) (s := s) (p := 20) (body := 19) (q := 18) (name := [105]) (num := 0)
    (ops := []) (args := [(.bin .add (.sym (paramName 1)) (.sym (paramName 2)), 11), (.sym (paramName 2), 6)])
    ⟨by decide +kernel, by decide +kernel⟩
    ⟨by unfold CStr; decide +kernel, by rw [hl]; exact (fun l h => by cases h), by rw [hc]; exact (fun l h => by cases h)⟩
    (by decide +kernel)
    (fun k h h' => by
      have hm : s.maxMacroParam = 2 := by decide +kernel
      rw [hm] at h'
      obtain rfl | rfl : k = 1 ∨ k = 2 := by omega
      · decide +kernel
      · decide +kernel)
    ⟨by decide +kernel, 16, 17, by decide +kernel, ⟨by decide +kernel, 15, by decide +kernel, by decide +kernel, 13, 14, by decide +kernel,
        ⟨by decide +kernel, none, by decide +kernel, Or.inl rfl⟩, ⟨by decide +kernel, none, by decide +kernel, Or.inl rfl⟩⟩,
      ⟨by decide +kernel, none, by decide +kernel, Or.inl rfl⟩⟩
    (by decide) (by decide +kernel)
    (fun j z hz n hn => by
      match j, hz with
      | 0, hz =>
        cases hz
        simp only [Expr.names, List.cons_append, List.nil_append, List.mem_cons, List.not_mem_nil, or_false] at hn
        rcases hn with rfl | rfl
        · exact ⟨CStr.param 1, 1, h1, fun i a b => absurd a (by omega)⟩
        · exact ⟨CStr.param 2, 2, h2, fun i a b => absurd a (by omega)⟩
      | 1, hz =>
        cases hz
        simp only [Expr.names, List.mem_singleton] at hn
        subst hn
        refine ⟨CStr.param 2, 2, h2, fun i a b => ?_⟩
        obtain rfl : i = 1 := by omega
        rw [h1]
        intro h
        cases h
      | n + 2, hz => simp at hz)
  rw [hl] at r
  exact ⟨s1, hv 0 _ rfl, hv 1 _ rfl, found, r⟩

/-- **C32**, negation: `o 5,6` where `o` calls `i \2,\1`.  The values emitted by `i` are 6 and 6 instead of 6 and 5, since `\1` is overwritten
before the second argument is evaluated. -/
theorem C32_swap_false :
    let r := runFile (expandNode 30) (hasUninit 30)
      [.stmt [97] 1 (.org (.int 4096)),
        .stmt [97] 2 (.macroDef [105] (.data 1 (.expr (.sym (paramName 1))) [.expr (.sym (paramName 2))])),
        .stmt [97] 3 (.macroDef [111] (.word true [105] (some (.expr (.sym (paramName 2)), [.expr (.sym (paramName 1))])))),
        .stmt [97] 4 (.word true [111] (some (.expr (.int 5), [.expr (.int 6)])))] { finalPass := true, outputOpen := true }
    r.1 = .ok () ∧ r.2.log = [] ∧ r.2.out = [6, 6] := by
  decide +kernel

end Verif
