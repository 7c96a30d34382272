import Verif.Model.OutputInput

/-!
# Documented meaning of the output parameters (input.example.toml:477-640)
-/

namespace Entity.OutIn

open Entity Entity.Schedule

/-- When output is written: at steps divisible by a number, or whenever some time has passed. -/
inductive Sched
  | every (n : Nat)
  | after (T : ℚ)
  deriving DecidableEq

/-- A positive time interval decides, otherwise the interval in steps (input.example.toml:487-495). -/
def schedOf (n : Nat) (T : ℚ) : Sched := if 0 < T then .after T else .every n

/-- The documented schedule of a kind of output: its own time interval if it is positive, else its own
interval in steps if it is not 0, else the common one (input.example.toml:521-531). -/
def documented (gi : Option Nat) (gt : Option ℚ) (c : CatInput) : Sched :=
  if 0 < c.time.getD (-1) then .after (c.time.getD (-1))
  else if c.interval.getD 0 ≠ 0 then .every (c.interval.getD 0)
  else schedOf (gi.getD 100) (gt.getD (-1))

/-- The answers of a schedule to a sequence of finished steps and times, `last` being the time of the
last output. -/
def answers : Sched → Option ℚ → List Query → List Bool
  | _, _, [] => []
  | .every n, l, q :: qs => decide (n ∣ q.step) :: answers (.every n) l qs
  | .after T, none, q :: qs => true :: answers (.after T) (some q.time) qs
  | .after T, some l, q :: qs =>
    if T ≤ q.time - l then true :: answers (.after T) (some q.time) qs
    else false :: answers (.after T) (some l) qs

/-- The factor of an axis asked for by the input. -/
def DwnInput.factor : DwnInput → Nat → Option Int
  | .other, _ => some 1
  | .num n, _ => some n
  | .list ns, i => ns[i]?

end Entity.OutIn
