import Verif.Model.Base
import Mathlib.Data.Rat.Floor

/-!
# The main loop (`Engine::run`, src/engines/engine.hpp:242-364)

The stages of an iteration are recorded as events with the arguments they get.  Whether the writers
write at a step is a parameter (their schedule is `Entity.Schedule`).  Times are rational numbers.
-/

namespace Entity.MainLoop

open Entity Entity.Outcome

/-- The members of `Engine` (engine.hpp:81-88) and the parameters of `run`. -/
structure Cfg where
  dt : ℚ
  maxSteps : Nat
  clearInterval : Nat
  diagInterval : Nat

/-- `static_cast<timestep_t>(runtime / dt)` (engine.hpp:112): conversion of a number outside the range
of a 32-bit unsigned integer is undefined. -/
def maxSteps (runtime dt : ℚ) : Outcome Nat :=
  if dt = 0 then .ub
  else if runtime / dt ≤ -1 ∨ 4294967296 ≤ runtime / dt then .ub
  else .ok ⌊runtime / dt⌋.toNat

/-- What the writers return at a step: whether they wrote. -/
structure Writers where
  output : Nat → Bool
  stats : Nat → Bool
  checkpoint : Nat → Bool

/-- Stages of an iteration. -/
inductive Event
  /-- `step_forward` and `CustomPostStep`, which see the members `step` and `time` -/
  | forward (step : Nat) (time : ℚ)
  | post (step : Nat) (time : ℚ)
  /-- `Write`, `WriteStats`, `WriteCheckpoint` with (step, step of the fields, time, time of the fields) -/
  | write (cur fin : Nat) (curT finT : ℚ)
  | stats (cur fin : Nat) (curT finT : ℚ)
  | checkpoint (cur fin : Nat) (curT finT : ℚ)
  /-- `printDiagnostics`: step, of how many, time, and the three flags -/
  | report (step total : Nat) (time : ℚ) (clear output checkpoint : Bool)
  deriving DecidableEq

/-- The members that change. -/
structure St where
  step : Nat
  time : ℚ
  deriving DecidableEq

/-- One iteration of the loop (engine.hpp:267-362).  `print_output` starts as `false` and is and-ed
with what the writers return (engine.hpp:287, 301-329). -/
def iter (c : Cfg) (w : Writers) (s : St) : St × List Event :=
  let clear := decide (0 < c.clearInterval) && decide (s.step % c.clearInterval = 0) && decide (0 < s.step)
  let time := s.time + c.dt
  let step := s.step + 1
  let out := (false && w.output step) && w.stats step
  let chk := w.checkpoint step
  (⟨step, time⟩,
    [.forward s.step s.time, .post s.step s.time,
     .write step (step - 1) time (time - c.dt), .stats step (step - 1) time (time - c.dt),
     .checkpoint step (step - 1) time (time - c.dt)] ++
    (if 0 < c.diagInterval ∧ step % c.diagInterval = 0 then
      [.report (step - 1) c.maxSteps (time - c.dt) clear out chk] else []))

/-- `while (step < max_steps)` (engine.hpp:266). -/
def loop (c : Cfg) (w : Writers) (s : St) : St × List Event :=
  if s.step < c.maxSteps then
    let (s', e) := iter c w s
    let (s'', es) := loop c w ⟨s.step + 1, s'.time⟩
    (s'', e ++ es)
  else (s, [])
termination_by c.maxSteps - s.step

end Entity.MainLoop
