import Mathlib.Analysis.SpecialFunctions.Trigonometric.Basic
import Mathlib.Analysis.SpecialFunctions.Trigonometric.Deriv
import Verif.Model.Push

/-!
# Rates of change of coordinates
-/

namespace Entity.DepositVel

open Entity.Push
open Real

/-- The point with spherical coordinates radius, polar angle, azimuth. -/
noncomputable def point (r t p : ℝ) : V3 ℝ := ⟨r * sin t * cos p, r * sin t * sin p, r * cos t⟩

/-- At time zero the moving point `X` has the velocity `V`. -/
def MovesWith (X : ℝ → V3 ℝ) (V : V3 ℝ) : Prop :=
  HasDerivAt (fun s => (X s).x) V.x 0 ∧ HasDerivAt (fun s => (X s).y) V.y 0 ∧
  HasDerivAt (fun s => (X s).z) V.z 0

/-- Velocity of a particle of four-velocity `u` in special relativity. -/
noncomputable def velocity (u : V3 ℝ) : V3 ℝ :=
  ⟨u.x / √(1 + u.x ^ 2 + u.y ^ 2 + u.z ^ 2), u.y / √(1 + u.x ^ 2 + u.y ^ 2 + u.z ^ 2),
   u.z / √(1 + u.x ^ 2 + u.y ^ 2 + u.z ^ 2)⟩

/-- The polar angle kept away from the axis. -/
noncomputable def awayFromAxis (th : ℝ) : ℝ :=
  if th < 1 / 100000 then 1 / 100000 else if th < π - 1 / 100000 then th else π - 1 / 100000

end Entity.DepositVel
