import Verif.Model.Float
import Verif.Model.Base

/-!
# The clock of a run in floating-point numbers

`simtime_t` is `double` (src/global/global.h:382); the time step is a `real_t`, converted exactly.  This file
models with rounding what `Model/MainLoop.lean` and `Model/Tracker.lean` model in exact arithmetic: the number
of steps (src/engines/engine.hpp:112), the advance of the time (engine.hpp:284), the time of the finished step
(engine.hpp:305-339) and the schedule of outputs by simulation time (src/global/utils/tools.h:331-348).
-/

namespace Entity.Clock

open Entity Entity.Float

/-- `static_cast<timestep_t>(runtime / dt)` (engine.hpp:112).  Conversion of a number outside the range of a
32-bit unsigned integer is undefined. -/
def maxSteps (F : Fmt) (runtime dt : ℚ) : Outcome Nat :=
  if dt = 0 then .ub
  else if F.round (runtime / dt) ≤ -1 ∨ 4294967296 ≤ F.round (runtime / dt) then .ub
  else .ok ⌊F.round (runtime / dt)⌋.toNat

/-- `time` after `k` iterations of `time += dt` (engine.hpp:284), from `t0` (engine.hpp:115). -/
def time (F : Fmt) (t0 dt : ℚ) : Nat → ℚ
  | 0 => t0
  | k + 1 => F.round (time F t0 dt k + dt)

/-- The time `time - dt` given to the writers after the iteration `k` (engine.hpp:305, 308, 322, 329, 338). -/
def finished (F : Fmt) (t0 dt : ℚ) (k : Nat) : ℚ := F.round (time F t0 dt (k + 1) - dt)

/-- Condition of `Tracker::shouldWrite` for a schedule by simulation time (tools.h:338-339). -/
def due (F : Fmt) (interval last t : ℚ) : Bool :=
  decide (last < 0) || decide (interval ≤ F.round (t - last))

/-- The iterations `k, …, k + n - 1` after which a schedule by simulation time writes (tools.h:337-344, called
once in every iteration with the finished time, src/framework/domain/metadomain_io.cpp:370-387).
`last` is `m_last_output_time`, initially -1 (tools.h:294).  Simplification: no limit of wall time. -/
def writes (F : Fmt) (t0 dt interval : ℚ) : ℚ → Nat → Nat → List Nat
  | _, _, 0 => []
  | last, k, n + 1 =>
    if due F interval last (finished F t0 dt k) then
      k :: writes F t0 dt interval (finished F t0 dt k) (k + 1) n
    else writes F t0 dt interval last (k + 1) n

end Entity.Clock
