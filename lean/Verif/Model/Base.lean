/-!
# Outcomes of C++ functions

`raise::Error`, `raise::ErrorIf`, `raise::Fatal` (src/global/utils/error.h) throw an exception;
reads or writes outside an array, division by zero and casts of non-finite numbers are undefined
behaviour.  A modelled function returns one of the three outcomes below, so that an error or an
undefined step is never silently totalised.
-/

namespace Entity

/-- Result of a call: normal return, exception raised with `raise::…`
(src/global/utils/error.h), or undefined behaviour. -/
inductive Outcome (α : Type u) where
  | ok (a : α)
  | err
  | ub
  deriving Repr, DecidableEq

namespace Outcome

/-- Sequencing of statements: an exception or undefined behaviour ends the call. -/
def bind {α : Type u} {β : Type v} : Outcome α → (α → Outcome β) → Outcome β
  | ok a, f => f a
  | err, _ => err
  | ub, _ => ub

instance : Monad Outcome where
  pure := ok
  bind := bind

@[simp] theorem bind_ok {α β : Type u} (a : α) (f : α → Outcome β) : (ok a >>= f) = f a := rfl
@[simp] theorem bind_err {α β : Type u} (f : α → Outcome β) : (err >>= f) = err := rfl
@[simp] theorem bind_ub {α β : Type u} (f : α → Outcome β) : (ub >>= f) = ub := rfl
@[simp] theorem pure_eq {α : Type u} (a : α) : (pure a : Outcome α) = ok a := rfl

theorem bind_eq_ok {α β : Type u} {x : Outcome α} {f : α → Outcome β} {b : β} :
    (x >>= f) = ok b ↔ ∃ a, x = ok a ∧ f a = ok b := by
  cases x <;> simp

/-- `raise::ErrorIf(cond, …)` (src/global/utils/error.h). -/
def errorIf (c : Prop) [Decidable c] : Outcome Unit := if c then err else ok ()

end Outcome

end Entity
