import Verif.Model.Moments

/-!
# Bulk velocity written to the output (SR)

Models the branch of `Metadomain::Write` for the velocity (src/framework/domain/metadomain_io.cpp:570-632)
and `NormalizeVectorByRho_kernel` (src/kernels/particle_moments.hpp:410-483).
-/

namespace Entity.Moments

open Entity Entity.Push Entity.Deposit

variable {K : Type} [Field K] [LinearOrder K] [IsStrictOrderedRing K]

/-- The request for component `k` (0, 1, 2) of velocity times mass density, in component `k + 3` of the
buffer (metadomain_io.cpp:571-574, 590-601; components are numbered from one). -/
def velCfg (cfg : Cfg K) (k : Nat) : Cfg K := { cfg with kind := .V, comps := [k + 1], buffIdx := k + 3 }

/-- The request for the mass density, in component 0 (metadomain_io.cpp:615-622). -/
def rhoCfg (cfg : Cfg K) : Cfg K := { cfg with kind := .Rho, comps := [], buffIdx := 0 }

/-- What one rank computes before the exchange (metadomain_io.cpp:469, 576-622): the buffer is cleared,
then velocity and density are added.  The code exchanges the velocities before it computes the density;
these are different components.  Every launch has its own schedule. -/
def rankMoments (cfg : Cfg K) (env : Env K) (nAll : List Nat)
    (sched : Nat → Nat → List (Prtl K) → List (Prtl K)) (species : List (Species K))
    (specs : List Nat) : Outcome (Cur K) := do
  let J ← computeMoments (velCfg cfg 0) env nAll (sched 0) species specs (fun _ _ => 0)
  let J ← computeMoments (velCfg cfg 1) env nAll (sched 1) species specs J
  let J ← computeMoments (velCfg cfg 2) env nAll (sched 2) species specs J
  computeMoments (rhoCfg cfg) env nAll (sched 3) species specs J

/-- `SynchronizeFields` (metadomain_io.cpp:610-612, 623): a cell holds the sum of all copies of it, which
are given by the arrays of ranks and the indices in them (C15, C16). -/
def synced (parts : List (Cur K × List Int)) (c : Nat) : K := (parts.map fun a => a.1 c a.2).sum

/-- `NormalizeVectorByRho_kernel` in one cell (particle_moments.hpp:440-482); `eps` is the tolerance of
`cmp::AlmostZero` (comparators.h:37-42). -/
def normalize (eps : K) (parts : List (Cur K × List Int)) (k : Nat) : K :=
  if |synced parts 0| ≤ eps then synced parts (k + 3) else synced parts (k + 3) / synced parts 0

end Entity.Moments
