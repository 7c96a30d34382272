import Verif.Model.MetricGR

/-!
# Bulk four-velocity written to the output (GR)

Models `computeEckartVelocityFluxComponent` (src/kernels/particle_moments.hpp:257-288) at a point,
`Normalize4VelocityByNorm_kernel` (particle_moments.hpp:483-636),
`Transform4VelocitySpatialToPhysical_kernel` (particle_moments.hpp:638-711) in one cell and the branch of
`Metadomain::Write` which calls them (src/framework/domain/metadomain_io.cpp:698-743).

Simplified: exact numbers, so that the test `isfinite` (particle_moments.hpp:558, 605) never fails.
-/

namespace Entity.Metric

open Entity Entity.Push
open Real

/-- `N_norm_sq` (particle_moments.hpp:568-569, 615-616). -/
noncomputable def normSq4 (g : Four) (n : V4) : ℝ :=
  let c := lower4 g n
  c.t * n.t + c.x * n.x + c.y * n.y + c.z * n.z

/-- `zamo_fallback_2d`, `zamo_fallback_3d` (particle_moments.hpp:513-542). -/
noncomputable def zamo (α β : ℝ) : V4 := ⟨1 / α, -β / α, 0, 0⟩

/-- `Normalize4VelocityByNorm_kernel::operator()` (particle_moments.hpp:544-636) with the metric, the
lapse and the shift at the centre of the cell; `eps` is the tolerance of `cmp::AlmostZero`
(src/global/utils/comparators.h:37-42). -/
noncomputable def normalize4 (eps : ℝ) (g : Four) (α β : ℝ) (n : V4) : V4 :=
  if |n.t| ≤ eps then zamo α β
  else if ¬ normSq4 g n < 0 then zamo α β
  else if |√(-normSq4 g n)| ≤ eps then zamo α β
  else ⟨n.t / √(-normSq4 g n), n.x / √(-normSq4 g n), n.y / √(-normSq4 g n), n.z / √(-normSq4 g n)⟩

/-- `Transform4VelocitySpatialToPhysical_kernel::operator()` (particle_moments.hpp:662-710); `tr` is
`metric.transform<Idx::U, Idx::PU>` at the centre of the cell. -/
def toPhys4 (tr : V3 ℝ → Outcome (V3 ℝ)) (v : V4) : Outcome V4 := do
  let w ← tr ⟨v.x, v.y, v.z⟩
  return ⟨v.t, w.x, w.y, w.z⟩

/-- The four numbers written for a cell (metadomain_io.cpp:716-743) with flux `n`. -/
noncomputable def bulk4 (eps : ℝ) (g : Four) (α β : ℝ) (tr : Idx → Idx → V3 ℝ → Outcome (V3 ℝ)) (n : V4) :
    Outcome V4 :=
  toPhys4 (tr .U .PU) (normalize4 eps g α β n)

/-- `computeEckartVelocityFluxComponent` for the four components, times the rest `c` of the coefficient
(weight, shape, volume, normalisation, particle_moments.hpp:310-330); `u` are the stored covariant
components. -/
noncomputable def flux4 (g : Four) (mass c : ℝ) (u : V3 ℝ) : V4 :=
  let v := raise4 g ⟨u0 g u (if mass = 0 then 0 else 1), u.x, u.y, u.z⟩
  let m := if mass = 0 then 1 else mass
  ⟨m * c, m * v.x / v.t * c, m * v.y / v.t * c, m * v.z / v.t * c⟩

end Entity.Metric
