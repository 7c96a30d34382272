import Verif.Model.Step
import Verif.Model.Interp
import Verif.Model.PrtlComm

/-!
# A complete step of the special-relativistic engine: fields and particles of all ranks
(src/engines/srpic/srpic.hpp:63-188)

Model/Step.lean with the particles included: the pusher (src/kernels/pushers/sr.hpp,
src/engines/srpic/particle_pusher.h), the deposit (currents.h) of the particles it leaves, the exchange
of particles (metadomain_comm.cpp:564-653) and the clearing and sorting at the end of the step
(metadomain_sort.cpp:15-34).

Scope: Cartesian metric, periodic box, MPI build with one subdomain per rank, field solver and
deposit enabled, no injection, no emission, no custom particle update, exact numbers.  The change of
the momentum of a particle (Boris, Vay, guiding centre, external forces and fields, radiative drag:
sr.hpp:150-335, modelled one by one in Model/Push.lean) is an arbitrary function `kick` of the step
(time), the physical position, the interpolated fields and the momentum.
-/

namespace Entity.Full

open Entity Entity.Topology Entity.Kernel Entity.FieldSolver Entity.Push Entity.Prtl Entity.Ranks
open Entity.Deposit Entity.Interp Entity.Tags

/-- What a step uses of a species (src/framework/containers/species.h:25-120). -/
structure SpPrm (K : Type) where
  kind : Kind
  charge : K
  /-- `pusher() == ParticlePusher::NONE` -/
  frozen : Bool
  /-- Step number, position, electric and magnetic field at the particle (Cartesian components),
  momentum ↦ momentum after the push (sr.hpp:150-335).  For photons (sr.hpp:127-149) the function
  that returns the momentum. -/
  kick : Nat → List K → V3 K → V3 K → V3 K → V3 K
  /-- `dt_inv_energy` (sr.hpp:530-536) as a function of the momentum. -/
  dtE : V3 K → K
  /-- `inv_energy` of the deposit (currents_deposit.hpp:137). -/
  invE : V3 K → K

section
variable {K : Type}

/-- Number of a component in the array `em` (src/global/global.h, `enum em`). -/
def compNo : Comp → Nat
  | .ex1 => 0
  | .ex2 => 1
  | .ex3 => 2
  | .bx1 => 3
  | .bx2 => 4
  | .bx3 => 5

/-- Axis of a component. -/
def compAxis : Comp → Nat
  | .ex1 | .bx1 => 0
  | .ex2 | .bx2 => 1
  | .ex3 | .bx3 => 2

/-- The columns of the `D` axes of a particle (particles.h:60-110). -/
def axes (D : Nat) (q : Prtl K) : List (Ax K) :=
  [⟨q.i1, q.i1_prev, q.dx1, q.dx1_prev, q.ux1⟩, ⟨q.i2, q.i2_prev, q.dx2, q.dx2_prev, q.ux2⟩,
   ⟨q.i3, q.i3_prev, q.dx3, q.dx3_prev, q.ux3⟩].take D

/-- Assignment to these columns (sr.hpp:537-571, 662-790). -/
def setAxes : List (Ax K) → Prtl K → Prtl K
  | [a], q => { q with i1 := a.i, i1_prev := a.iPrev, dx1 := a.dx, dx1_prev := a.dxPrev, ux1 := a.u }
  | [a, b], q => { q with
      i1 := a.i, i1_prev := a.iPrev, dx1 := a.dx, dx1_prev := a.dxPrev, ux1 := a.u
      i2 := b.i, i2_prev := b.iPrev, dx2 := b.dx, dx2_prev := b.dxPrev, ux2 := b.u }
  | [a, b, c], q => { q with
      i1 := a.i, i1_prev := a.iPrev, dx1 := a.dx, dx1_prev := a.dxPrev, ux1 := a.u
      i2 := b.i, i2_prev := b.iPrev, dx2 := b.dx, dx2_prev := b.dxPrev, ux2 := b.u
      i3 := c.i, i3_prev := c.iPrev, dx3 := c.dx, dx3_prev := c.dxPrev, ux3 := c.u }
  | _, q => q

/-- Momentum. -/
def momentum (q : Prtl K) : V3 K := ⟨q.ux1, q.ux2, q.ux3⟩

/-- Global cell of the first cell of a subdomain (`l_offset_ncells`, metadomain.cpp:138). -/
def offsets (m : Meta) (r : Nat) : List Nat :=
  match m.doms[r]? with
  | some s => s.offsetNcells
  | none => []

/-- The boundary kind of particles for a face (metadomain.cpp:243-281 sets it exactly like the one of
the fields, `faceBC`).  Simplification: only the kinds that occur in a periodic box. -/
def prtlBC : Outcome BC → PBC
  | .ok .PERIODIC => .periodic
  | .ok .SYNC => .sync
  | _ => .invalid

/-- `mesh.prtl_bc()` and the sizes handed to the pusher (particle_pusher.h:97-106, 137-139). -/
def sidesOf (m : Meta) (r : Nat) : List (PBC × PBC × Int) :=
  (List.range m.counts.length).map fun (a : Nat) =>
    (prtlBC (dirBC m r (unitDir m.counts.length a (-1))),
     prtlBC (dirBC m r (unitDir m.counts.length a 1)), ((sizes m r).getD a 0 : Int))
end

variable {K : Type} [Field K] [LinearOrder K] [IsStrictOrderedRing K] [FloorRing K]

/-- `sqrt_h_<k, k>` in `transform<k, …>` (minkowski.h:264-299): components along axes without a grid
are not transformed. -/
def scale (D : Nat) (dx : K) (k : Nat) : K := if k < D then dx else 1

/-- Physical coordinates of the lower corner of a subdomain (metadomain.cpp:143-152;
minkowski.h:164-170): the global metric's `convert<Cd, Ph>` of the offset. -/
def lowCorner (m : Meta) (dx : K) (x0 : List K) (r : Nat) : List K :=
  List.zipWith (fun (o : Nat) x => (o : K) * dx + x) (offsets m r) x0

/-- One Cartesian field component at a particle (sr.hpp:170-194: interpolation, then
`transform_xyz<U, XYZ>`). -/
def fieldAt (P : StepPrm K) (D : Nat) (n : List Nat) (v : Mem K) (pos : List (Int × K)) (c : Comp) :
    Outcome K := do
  let x ← interpolate P.O P.ng (n.map (· + 2 * P.ng)) (fun c idx => v ⟨0, compNo c, idx⟩) c pos
  return x * scale D P.dx (compAxis c)

/-- `Pusher_kernel::operator()` for one particle (sr.hpp:117-335, 526-656): `n` are the sizes of the
subdomain, `low` its lower corner (minkowski.h:164-170 for the physical position), `v` the memory. -/
def pushOne (P : StepPrm K) (s : SpPrm K) (t : Nat) (low : List K) (sides : List (PBC × PBC × Int))
    (n : List Nat) (v : Mem K) (q : Prtl K) : Outcome (Prtl K) :=
  if q.tag ≠ alive then
    if q.tag ≠ dead then .err else .ok q
  else do
    let ax := axes s.kind.D q
    let pos := ax.map fun a => (a.i, a.dx)
    let e1 ← fieldAt P s.kind.D n v pos .ex1
    let e2 ← fieldAt P s.kind.D n v pos .ex2
    let e3 ← fieldAt P s.kind.D n v pos .ex3
    let b1 ← fieldAt P s.kind.D n v pos .bx1
    let b2 ← fieldAt P s.kind.D n v pos .bx2
    let b3 ← fieldAt P s.kind.D n v pos .bx3
    let x := List.zipWith (fun (a : Ax K) x => iDiToXi a.i a.dx * P.dx + x) ax low
    let u := s.kick t x ⟨e1, e2, e3⟩ ⟨b1, b2, b3⟩ (momentum q)
    let q := { q with ux1 := u.x, ux2 := u.y, ux3 := u.z }
    -- `uRest` (momentum along axes without a grid) is not touched by Cartesian boundaries
    let p ← boundaryConditions true sides
      ⟨(axes s.kind.D q).map fun a => pushAxis (a.u / P.dx * s.dtE u) a, [], q.tag⟩
    return setAxes p.ax { q with tag := p.tag }

/-- One index of the launch of the pusher. -/
def pushBody (P : StepPrm K) (s : SpPrm K) (t : Nat) (low : List K) (sides : List (PBC × PBC × Int))
    (n : List Nat) (v : Mem K) (arr : List (Prtl K)) (p : Nat) : Outcome (List (Prtl K)) :=
  match arr[p]? with
  | none => .ub
  | some q => do
    let q' ← pushOne P s t low sides n v q
    return arr.set p q'

/-- `ParticlePush` for one species on one rank (particle_pusher.h:82-86, 140-190): skipped for frozen or
empty species, otherwise every index once, in the order `σ`. -/
def pushStore (P : StepPrm K) (s : SpPrm K) (t : Nat) (low : List K) (sides : List (PBC × PBC × Int))
    (n : List Nat) (v : Mem K) (σ : List Nat) (st : Store K) : Outcome (Store K) :=
  if s.frozen ∨ st.npart = 0 then .ok st
  else do
    let arr ← σ.foldlM (pushBody P s t low sides n v) st.arr
    return { st with arr := arr }

/-- What the deposit reads of a particle (currents_deposit.hpp:109-166): the components of the
velocity along axes without a grid are used only. -/
def toD (P : StepPrm K) (s : SpPrm K) (q : Prtl K) : DPrtl K :=
  ⟨axes s.kind.D q, q.weight, q.ux2 / scale s.kind.D P.dx 1 * s.invE (momentum q),
   q.ux3 / scale s.kind.D P.dx 2 * s.invE (momentum q), q.tag⟩

/-- Fields of all ranks, particles of every species on every rank. -/
structure State (K : Type) where
  M : MMem K
  prtl : Nat → Nat → Store K

/-- The species a rank deposits (currents.h:63-88). -/
def depositors (P : StepPrm K) (sps : List (SpPrm K)) (st : Nat → Nat → Store K) (r : Nat) :
    List (Sp K) :=
  sps.mapIdx fun s sp =>
    ⟨sp.charge, sp.frozen, ((st s r).arr.take (st s r).npart).map (toD P sp)⟩

/-- The pusher on all ranks, every kernel in any order. -/
def PushAll (m : Meta) (P : StepPrm K) (sps : List (SpPrm K)) (x0 : List K) (t : Nat) (M : MMem K)
    (st st' : Nat → Nat → Store K) : Prop :=
  ∀ s sp, sps[s]? = some sp → ∀ r, r < m.doms.length → ∃ σ : List Nat,
    σ.Perm (List.range (st s r).npart) ∧
    pushStore P sp t (lowCorner m P.dx x0 r) (sidesOf m r) (sizes m r) (M r) σ (st s r) =
      .ok (st' s r)

/-- All schedules run every index once. -/
def AnyOrder (S : Scheds) : Prop :=
  (∀ n, (S.count n).Perm (List.range n)) ∧ (∀ n, (S.prep n).Perm (List.range n)) ∧
  (∀ d n, (S.pack d n).Perm (List.range n)) ∧ (∀ n, (S.extract n).Perm (List.range n))

/-- `CommunicateParticles` (metadomain_comm.cpp:564-653): all species, frozen ones too. -/
def ExchangeAll [Inhabited K] (m : Meta) (sps : List (SpPrm K)) (st st' : Nat → Nat → Store K) :
    Prop :=
  ∀ s sp, sps[s]? = some sp → ∃ (S : Nat → Scheds) (l : List (Store K)),
    (∀ r, r < m.doms.length → AnyOrder (S r)) ∧
    communicateParticles m sp.kind ((List.range m.doms.length).map (st s)) S = .ok l ∧
    ∀ r, r < m.doms.length → l[r]? = some (st' s r)

/-- `SortParticles` for one species on one rank (metadomain_sort.cpp:15-34).  Simplification: any
number of `RemoveDead` and `SortSpatially` (which of them are due in a step: C22). -/
inductive Tidy (k : Kind) (n : List Nat) : Store K → Store K → Prop
  | refl (a : Store K) : Tidy k n a a
  | clear {a b c : Store K} {σ₁ σ₂ σ₃ : Sched} : Tidy k n a b →
      (∀ n, (σ₁ n).Perm (List.range n)) → (∀ n, (σ₂ n).Perm (List.range n)) →
      (∀ n, (σ₃ n).Perm (List.range n)) → removeDead k b σ₁ σ₂ σ₃ = .ok c → Tidy k n a c
  | sort {a b c : Store K} {perm : List Nat} : Tidy k n a b →
      BinSortSpec ((b.arr.take b.npart).map (tileIndex k.D n 1)) perm →
      sortSpatially k.D n b perm = .ok c → Tidy k n a c

/-- `SortParticles` on all ranks. -/
def TidyAll (m : Meta) (sps : List (SpPrm K)) (st st' : Nat → Nat → Store K) : Prop :=
  ∀ s sp, sps[s]? = some sp → ∀ r, r < m.doms.length → Tidy sp.kind (sizes m r) (st s r) (st' s r)

/-- `step_forward` (srpic.hpp:80-188), step number `t`. -/
def FullStep [Inhabited K] (m : Meta) (D : Nat) (P : StepPrm K) (sps : List (SpPrm K)) (x0 : List K)
    (t : Nat) (A A' : State K) : Prop :=
  ∃ (M1 M2 M3 : MMem K) (st1 st2 : Nat → Nat → Store K),
    Does m D P.ng (.faraday (1 / 2 * P.correction * P.dt) P.dx P.c) A.M M1 ∧
    PushAll m P sps x0 t M1 A.prtl st1 ∧
    DepositPhase m P (depositors P sps st1) M1 M2 ∧
    ExchangeAll m sps st1 st2 ∧
    Does m D P.ng (.faraday (1 / 2 * P.correction * P.dt) P.dx P.c) M2 M3 ∧
    Does m D P.ng (.electric (1 * P.correction * P.dt) P.dx (some (P.coeff, P.ppc0))) M3 A'.M ∧
    TidyAll m sps st2 A'.prtl

/-- A simulation of `n` steps: on step 0 `E` and `B` are exchanged first (srpic.hpp:69-79). -/
inductive Run [Inhabited K] (m : Meta) (D : Nat) (P : StepPrm K) (sps : List (SpPrm K))
    (x0 : List K) : Nat → State K → State K → Prop
  | start {A : State K} {M0 : MMem K} : CommAll m P.ng (fun a c => selE a c || selB a c) A.M M0 →
      Run m D P sps x0 0 A ⟨M0, A.prtl⟩
  | step {n : Nat} {A B C : State K} : Run m D P sps x0 n A B →
      FullStep m D P sps x0 n B C → Run m D P sps x0 (n + 1) A C

end Entity.Full
