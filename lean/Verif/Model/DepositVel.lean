import Verif.Model.GRPush
import Verif.Model.Deposit

/-!
# The velocity used by the current deposit
-/

namespace Entity.DepositVel

open Entity Entity.Push Entity.Metric Entity.GRPush Entity.Deposit
open Real

/-- The second coordinate at which the metric is evaluated in general relativity
(currents_deposit.hpp:139-151); `constant::SMALL_ANGLE_GR` is 1e-5 (numeric.h:103). -/
noncomputable def grAngle (g : Met) (x2 : ℝ) : Outcome ℝ :=
  if g.toPh2 x2 < 1 / 100000 then g.toCd2 (1 / 100000)
  else if g.toPh2 x2 ≥ π - 1 / 100000 then g.toCd2 (π - 1 / 100000)
  else .ok x2

/-- The velocity across the grid in general relativity (currents_deposit.hpp:120-123, 138-165); `x1`, `x2` the
code coordinates of the particle.  The test for NaN (lines 160-162) has no counterpart in exact numbers. -/
noncomputable def grVelocity (g : Met) (x1 x2 : ℝ) (u : V3 ℝ) : Outcome (V3 ℝ) := do
  let x2' ← grAngle g x2
  let vp ← g.transform x1 x2' .D .U u
  let inv := (g.deriv x1 x2').alpha / √(1 + u.x * vp.x + u.y * vp.y + u.z * vp.z)
  return ⟨vp.x * inv, vp.y * inv, vp.z * inv⟩

/-- `inv_energy` in special relativity (currents_deposit.hpp:137). -/
noncomputable def invEnergy (u : V3 ℝ) : ℝ := 1 / √(1 + u.normSq)

/-- The velocity in special relativity on a spherical grid (currents_deposit.hpp:120-123, 133-137, 160-165,
`transform_xyz<XYZ, U>` of spherical.h:379-388).  Where `sqrt_h_<3, 3>` is zero the quotient is infinite or
not a number and lines 160-162 replace it by zero. -/
noncomputable def sphVelocity (m : Sph) (x1 x2 phi : ℝ) (u : V3 ℝ) : Outcome (V3 ℝ) := do
  let t := xyzToTetrad (m.toPh2 x2) phi u
  let a ← m.transform x1 x2 0 .T .U t.x
  let b ← m.transform x1 x2 1 .T .U t.y
  let c ← m.transform x1 x2 2 .T .U t.z
  let c := if m.sqrtH_ x1 x2 2 = 0 then 0 else c
  return ⟨a * invEnergy u, b * invEnergy u, c * invEnergy u⟩

/-- The same on a quasi-spherical grid (`transform_xyz<XYZ, U>` of qspherical.h:415-424). -/
noncomputable def qsphVelocity (m : QSph) (x1 x2 phi : ℝ) (u : V3 ℝ) : Outcome (V3 ℝ) := do
  let t := xyzToTetrad (m.toPh2 x2) phi u
  let a ← m.transform x1 x2 0 .T .U t.x
  let b ← m.transform x1 x2 1 .T .U t.y
  let c ← m.transform x1 x2 2 .T .U t.z
  let c := if m.sqrtH_ x1 x2 2 = 0 then 0 else c
  return ⟨a * invEnergy u, b * invEnergy u, c * invEnergy u⟩

/-- The same on a Cartesian grid of `D` dimensions (`transform_xyz<XYZ, U>` of minkowski.h:301-325). -/
noncomputable def minkVelocity (m : Mink) (D : Nat) (u : V3 ℝ) : Outcome (V3 ℝ) := do
  let a ← m.transform D 0 .XYZ .U u.x
  let b ← m.transform D 1 .XYZ .U u.y
  let c ← m.transform D 2 .XYZ .U u.z
  return ⟨a * invEnergy u, b * invEnergy u, c * invEnergy u⟩

/-- The particle of the deposit in two dimensions: axes `a` and `b`, velocity `v`. -/
def prtl2 (a b : Ax ℝ) (weight : ℝ) (tag : Int) (v : V3 ℝ) : DPrtl ℝ :=
  { ax := [a, b], weight := weight, vp2 := v.y, vp3 := v.z, tag := tag }

end Entity.DepositVel
