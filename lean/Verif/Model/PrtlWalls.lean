import Verif.Model.Walls
import Verif.Model.Step

/-!
# Particles in a box with walls (src/engines/srpic/srpic.hpp, src/kernels/pushers/sr.hpp)

An undivided Cartesian box, conducting walls for the fields (Model/Walls.lean), walls that absorb or
reflect particles (Model/Push.lean).  Built without MPI, no current filter, no injection, no emission.
-/

namespace Entity.PrtlWalls

open Entity Entity.Topology Entity.Kernel Entity.FieldSolver Entity.Ranks Entity.Push Entity.Deposit
open Entity.Tags Entity.Walls

variable {K : Type} [Field K] [LinearOrder K] [IsStrictOrderedRing K]

/-- What the momentum update leaves of the columns of the axes (sr.hpp:148-523): the momenta are
arbitrary. -/
def kicked (us : List K) (as : List (Ax K)) : List (Ax K) :=
  List.zipWith (fun u a => { a with u := u }) us as

/-- One thread of the pusher (sr.hpp:116-146, 526-571, 655-814): live particles are moved, by any
displacement below a cell along every axis, and meet the boundary conditions; dead ones are left
alone; any other tag is an error (sr.hpp:118-122).  The velocity the deposit reads along axes without a
grid is arbitrary. -/
def Pushed (sides : List (PBC × PBC × Int)) (p p' : DPrtl K) : Prop :=
  if p.tag = alive then
    ∃ (us ds : List K) (q : Particle K), us.length = p.ax.length ∧ ds.length = p.ax.length ∧
      (∀ d ∈ ds, |d| < 1) ∧
      boundaryConditions false sides ⟨List.zipWith pushAxis ds (kicked us p.ax), [], p.tag⟩ = .ok q ∧
      p'.ax = q.ax ∧ p'.tag = q.tag ∧ p'.weight = p.weight
  else p.tag = dead ∧ p' = p

/-- `ParticlePush` for one species (src/engines/srpic/particle_pusher.h:81-84): species without a
pusher are skipped. -/
def PushedSp (sides : List (PBC × PBC × Int)) (s s' : Sp K) : Prop :=
  s'.charge = s.charge ∧ s'.frozen = s.frozen ∧
    if s.frozen = true then s'.ps = s.ps else List.Forall₂ (Pushed sides) s.ps s'.ps

/-- What follows a step (`RemoveDead`,
src/framework/containers/particles_sort.cpp:104-140, C18): dead particles may be removed
and the others reordered. -/
def Tidied (s s' : Sp K) : Prop :=
  s'.charge = s.charge ∧ s'.frozen = s.frozen ∧
    (s'.ps.filter (fun p => p.tag ≠ dead)).Perm (s.ps.filter (fun p => p.tag ≠ dead))

/-- `step_forward` (srpic.hpp:65-188) with field solver and deposit enabled: `B` by half a step, push,
deposit, `B` by half a step, `E` by a step.  The box has no neighbours, so the synchronisation of the
current (srpic.hpp:115) changes nothing.  `sps1` are the particles between pusher and deposit. -/
def Step (m : Meta) (D : Nat) (P : StepPrm K) (sides : List (PBC × PBC × Int)) (sps sps1 sps' : List (Sp K))
    (M M' : MMem K) : Prop :=
  ∃ (M1 : MMem K) (v : Mem K),
    doesW m D P.ng (.faraday (1 / 2 * P.correction * P.dt) P.dx P.c) M M1 ∧
    List.Forall₂ (PushedSp sides) sps sps1 ∧
    DepositRank P.O P.ng P.dt (sizes m 0) sps1 (M1 0) v ∧
    List.Forall₂ Tidied sps1 sps' ∧
    RunsW m D P.ng
      [.faraday (1 / 2 * P.correction * P.dt) P.dx P.c,
       .electric (1 * P.correction * P.dt) P.dx
         (some (P.coeff, P.ppc0, fun c p => v ⟨1, c, p.map (· + (P.ng : Int))⟩))] M1 M'

/-- A simulation from the first step on (srpic.hpp:71-81).  `hist` lists the particles of every step
before and after the push; `M0` is the memory at the beginning of the first step. -/
inductive Sim (m : Meta) (D : Nat) (P : StepPrm K) (sides : List (PBC × PBC × Int)) (M0 : MMem K)
    (sps0 : List (Sp K)) : List (List (Sp K) × List (Sp K)) → MMem K → List (Sp K) → Prop
  | start : Sim m D P sides M0 sps0 [] M0 sps0
  | step {hist : List (List (Sp K) × List (Sp K))} {sps sps1 sps' : List (Sp K)} {M M' : MMem K} :
      Sim m D P sides M0 sps0 hist M sps → Step m D P sides sps sps1 sps' M M' →
      Sim m D P sides M0 sps0 (hist ++ [(sps, sps1)]) M' sps'

end Entity.PrtlWalls
