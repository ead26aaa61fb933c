/-!
# Common outcome type

C++ code can finish normally, throw an exception that a caller may catch, terminate the
process, or run into undefined behaviour.  The model keeps these four outcomes apart; an
`ub` outcome is never turned into a normal result.
-/

namespace Uscada

/-- Outcome of a modelled C++ operation. -/
inductive Exec (α : Type) where
  /-- normal return -/
  | ok (a : α)
  /-- a C++ exception leaves the operation -/
  | throws
  /-- the process is terminated (`std::terminate`) -/
  | abort
  /-- undefined behaviour (out of bounds access, read of an uninitialised object, ...) -/
  | ub
deriving DecidableEq, Repr

namespace Exec

/-- Sequencing: the first abnormal outcome is the outcome of the whole sequence. -/
@[inline] def bind {α β : Type} : Exec α → (α → Exec β) → Exec β
  | ok a, f => f a
  | throws, _ => throws
  | abort, _ => abort
  | ub, _ => ub

instance : Monad Exec where
  pure := ok
  bind := bind

@[simp] theorem pure_eq {α : Type} (a : α) : (pure a : Exec α) = ok a := rfl
@[simp] theorem ok_bind {α β : Type} (a : α) (f : α → Exec β) : (ok a >>= f) = f a := rfl
@[simp] theorem throws_bind {α β : Type} (f : α → Exec β) : ((throws : Exec α) >>= f) = throws := rfl
@[simp] theorem abort_bind {α β : Type} (f : α → Exec β) : ((abort : Exec α) >>= f) = abort := rfl
@[simp] theorem ub_bind {α β : Type} (f : α → Exec β) : ((ub : Exec α) >>= f) = ub := rfl

/-- A bind ends normally exactly when both parts do. -/
theorem bind_eq_ok {α β : Type} {x : Exec α} {f : α → Exec β} {b : β} :
    (x >>= f) = ok b ↔ ∃ a, x = ok a ∧ f a = ok b := by
  cases x <;> simp

end Exec

end Uscada
