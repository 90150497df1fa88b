import Verif.Model.Parse

/-! # Running sequences of model functions -/

namespace Verif

theorem run_bind {α β : Type} (m : M α) (f : α → M β) (s : St) :
    (m >>= f) s = match m s with
      | (.ok a, s') => f a s'
      | (.exit c, s') => (.exit c, s')
      | (.ub, s') => (.ub, s')
      | (.timeout, s') => (.timeout, s') := rfl

theorem bind_ok {α β : Type} {m : M α} {f : α → M β} {s s' : St} {a : α} (h : m s = (.ok a, s')) :
    (m >>= f) s = f a s' := by rw [run_bind, h]

/-- When a sequence returns normally, so did its first part. -/
theorem bind_ok_inv {α β : Type} {m : M α} {f : α → M β} {s s' : St} {b : β}
    (h : (m >>= f) s = (.ok b, s')) : ∃ a s1, m s = (.ok a, s1) ∧ f a s1 = (.ok b, s') := by
  rw [run_bind] at h
  split at h
  · exact ⟨_, _, ‹_›, h⟩
  all_goals cases h

@[simp] theorem run_pure {α : Type} (a : α) (s : St) : M.pure a s = (.ok a, s) := rfl
@[simp] theorem run_getS (s : St) : getS s = (.ok s, s) := rfl
@[simp] theorem run_modS (f : St → St) (s : St) : modS f s = (.ok (), f s) := rfl
@[simp] theorem run_exitM {α : Type} (c : Int) (s : St) : (exitM c : M α) s = (.exit c, s) := rfl
@[simp] theorem run_ubM {α : Type} (s : St) : (ubM : M α) s = (.ub, s) := rfl
@[simp] theorem run_timeoutM {α : Type} (s : St) : (timeoutM : M α) s = (.timeout, s) := rfl
@[simp] theorem run_liftO_some {α : Type} (a : α) (s : St) : liftO (some a) s = (.ok a, s) := rfl
@[simp] theorem run_liftO_none {α : Type} (s : St) : (liftO none : M α) s = (.ub, s) := rfl

theorem getS_bind {β : Type} (f : St → M β) (s : St) : (getS >>= f) s = f s s := rfl
theorem modS_bind {β : Type} (g : St → St) (f : Unit → M β) (s : St) : (modS g >>= f) s = f () (g s) := rfl
theorem pure_bind' {α β : Type} (a : α) (f : α → M β) (s : St) : (M.pure a >>= f) s = f a s := rfl

theorem bind_assoc' {α β γ : Type} (m : M α) (f : α → M β) (g : β → M γ) :
    (m >>= f) >>= g = m >>= fun a => f a >>= g := by
  funext s
  simp only [run_bind]
  rcases m s with ⟨r, s'⟩
  cases r <;> rfl

end Verif
