import Verif.Model.Inject
import Verif.Model.Moments
import Verif.Model.FieldBC
import Mathlib.Algebra.Order.Floor.Ring

/-!
# Atmosphere boundaries: gravity and replenishment of particles (SR)

Models `GetAtmosphereExtent` (src/engines/srpic/utils.h:47-104) along one axis, the choice of gravity in
`ParticlePush` (src/engines/srpic/particle_pusher.h:44-82) with `getExternalForce`
(src/kernels/pushers/sr.hpp:1426-1485), `AtmosphereDensityProfile`
(src/archetypes/particle_injector.h:141-187), `spatial_dist::Uniform`, `Replenish`, `ReplenishUniform`
(src/archetypes/spatial_dist.h:28-125) and `AtmosphereParticlesIn`, `ParticleInjector`
(src/engines/srpic/particles_bcs.h:33-173).

* Numbers are elements of an ordered field; `exp` and the metric are parameters.
* `0.9` and `0.5` are the exact numbers.
-/

namespace Entity.Atmosphere

open Entity Entity.Inject Entity.Push

variable {K : Type} [Field K] [LinearOrder K] [IsStrictOrderedRing K]

/-! ## Extent and gravity -/

/-- `xg_min`, `xg_max` of `GetAtmosphereExtent` (srpic/utils.h:52-98): `ph` takes code to physical
coordinates along the axis of the direction, `n` is the number of cells of the global grid along it.
In curvilinear coordinates only `-x1` is accepted.  `n - buffer_ncells` is an unsigned difference; the
model rejects grids with fewer cells than the buffer as undefined. -/
def atmExtent (cart : Bool) (axis : Nat) (plus : Bool) (ph : K → K) (n filters : Nat) : Outcome (K × K) :=
  if cart = false ∧ (axis ≠ 0 ∨ plus = true) then .err
  else if plus = true ∧ n < FieldBC.bufferCells filters then .ub
  else .ok (ph (FieldBC.atmCells n filters plus).1, ph (FieldBC.atmCells n filters plus).2)

/-- `x_surf` (particles_bcs.h:45, particle_pusher.h:77-81). -/
def surface (plus : Bool) (e : K × K) : K := if plus = true then e.1 else e.2

/-- `g`, with its sign (particle_pusher.h:59-76, grid.cpp:349): `temperature / height`. -/
def gravity (plus : Bool) (temp height : K) : K := if plus = true then temp / height else -(temp / height)

/-- The force along the axis of the atmosphere at physical coordinate `x` (sr.hpp:1443-1454; the same
expression for the other axes, 1456-1483); `eps` is the tolerance of `cmp::AlmostZero`. -/
def gravityAt (eps : K) (cart : Bool) (g xsurf ds x : K) : K :=
  if ¬ |g| ≤ eps ∧ ((ds < 0 ∨ x ≤ xsurf + ds) ∧ (ds > 0 ∨ x ≥ xsurf + ds)) then
    if cart = true then g else g * (xsurf / x) ^ 2
  else 0

/-! ## Target density -/

/-- `AtmosphereDensityProfile` (particle_injector.h:141-187). -/
def profile (exp : K → K) (cart plus : Bool) (nmax height xsurf ds x : K) : Outcome K :=
  if plus = true then
    if x < xsurf - ds ∨ x ≥ xsurf then .ok 0
    else if cart = true then .ok (nmax * exp (-(xsurf - x) / height))
    else .err
  else
    if x < xsurf ∨ x ≥ xsurf + ds then .ok 0
    else if cart = true then .ok (nmax * exp (-(x - xsurf) / height))
    else .ok (nmax * exp (-(xsurf / height) * (1 - xsurf / x)))

/-! ## Spatial distributions -/

/-- `Uniform` (spatial_dist.h:28-34). -/
def uniform (_ : List K) : K := 1

/-- The element of the density array that belongs to a place (spatial_dist.h:59-75):
`static_cast<ncells_t>(x_Cd) + N_GHOSTS`, a conversion that is undefined for coordinates below zero. -/
def cellIndex [FloorRing K] (NG : Nat) (xCd : List K) : Outcome (List Int) :=
  if xCd.any (fun y => decide (y ≤ -1)) = true then .ub
  else .ok (xCd.map fun y => max ⌊y⌋ 0 + (NG : Int))

/-- `Replenish::operator()` (spatial_dist.h:56-83). -/
def replenish [FloorRing K] (NG : Nat) (toCd : List K → List K) (dens : List Int → K)
    (target : List K → Outcome K) (maxd : K) (x : List K) : Outcome K := do
  let n ← cellIndex NG (toCd x)
  let t ← target x
  return if 9 / 10 * t > dens n then (t - dens n) / maxd else 0

/-- `ReplenishUniform::operator()` (spatial_dist.h:104-125). -/
def replenishUniform [FloorRing K] (NG : Nat) (toCd : List K → List K) (dens : List Int → K)
    (target : K) (x : List K) : Outcome K := do
  let n ← cellIndex NG (toCd x)
  return if 9 / 10 * target > dens n then (target - dens n) / target else 0

/-! ## Injection -/

/-- The arrays of a particle as the moments kernel reads them; `D` axes. -/
def forMoments (D : Nat) (q : Prtl.Prtl K) : Moments.Prtl K :=
  { tag := q.tag,
    pos := [(q.i1, q.dx1), (q.i2, q.dx2), (q.i3, q.dx3)].take D,
    u := ⟨q.ux1, q.ux2, q.ux3⟩,
    weight := q.weight }

/-- What the launch over one species adds to the buffer (particles_bcs.h:86-107); a species without
particles is skipped before the kernel checks its mass. -/
def addSpecies (cfg : Moments.Cfg K) (env : Moments.Env K) (nAll : List Nat)
    (sched : List (Moments.Prtl K) → List (Moments.Prtl K)) (mq : List (K × K)) (sps : List (Sp K))
    (J : Deposit.Cur K) (s : Nat) : Outcome (Deposit.Cur K) :=
  if s = 0 then .ub
  else match sps[s - 1]?, mq[s - 1]? with
    | some a, some q =>
      if a.st.npart = 0 then .ok J
      else do
        Moments.checks cfg q.1
        Moments.launch cfg env nAll q.1 q.2
          (sched ((a.st.arr.take a.st.npart).map (forMoments cfg.dim))) J
    | _, _ => .ub

/-- The request of `AtmosphereParticlesIn` (particles_bcs.h:93-104): mass density, component 0 of a buffer
of six, no smoothing, weights in curvilinear coordinates. -/
def request (cfg : Moments.Cfg K) : Moments.Cfg K :=
  { cfg with
    gr := false, nBuf := 6, kind := .Rho, comps := [], buffIdx := 0, useWeights := !cfg.cartesian,
    order := 0, smoothing := .spline }

/-- Parameters of an atmosphere (particles_bcs.h:45-59): `plus` and `axis` give the direction, `ppc0` is
`particles.ppc0`, `invV0` is `1 / scales.V0`, `prm` is `particles.use_weights`. -/
structure Atm (K : Type) where
  axis : Nat
  plus : Bool
  xsurf : K
  ds : K
  height : K
  nmax : K
  s1 : Nat
  s2 : Nat
  ppc0 : K
  invV0 : K
  prm : Bool

/-- The metric of the subdomain: code to physical coordinates and back. -/
structure Coords (K : Type) where
  toPh : List K → List K
  toCd : List K → List K

/-- Code coordinates of the centre of a cell (injectors.hpp:686-690, 733-739, 795-802). -/
def centre (c : Cell) : List K := c.map fun (i : Int) => (i : K) + 1 / 2

/-- The target density at a place (particles_bcs.h:117-122). -/
def targetAt (exp : K → K) (cart : Bool) (p : Atm K) (x : List K) : Outcome K :=
  profile exp cart p.plus p.nmax p.height p.xsurf p.ds (x.getD p.axis 0)

/-- `InjectNonUniform` with a spatial distribution that may fail: the numbers of particles per cell are
`number_density * ppc0 / 2` times the distribution at the centre of the cell (particle_injector.h:362-363,
injectors.hpp:613-623); the weights are `sqrt_det_h / V0` in curvilinear coordinates
(injectors.hpp:699-701, 742-745, 804-809). -/
def draws (curv : Bool) (co : Coords K) (sqrtDetH : List K → K) (p : Atm K) (sd : List K → Outcome K)
    (dr : NDraw K) (cells : List Cell) : Outcome (NDraw K) := do
  let _ ← cells.mapM fun c => sd (co.toPh (centre c))
  return { dr with
    ppc := fun c => match sd (co.toPh (centre c)) with
      | .ok v => p.nmax * p.ppc0 * (1 / 2) * v
      | _ => 0
    wei := fun c => if curv = true then sqrtDetH (centre c) * p.invV0 else 1 }

/-- The density of the two species in component 0 of the buffer (particles_bcs.h:61-110).  `recv` is what
`SynchronizeFields` adds to a cell: the contents of ghost cells of other subdomains (C15, C16).
`assumeEmpty` is the flag `Inj::AssumeEmpty`. -/
def buffer (cfg : Moments.Cfg K) (env : Moments.Env K) (p : Atm K) (assumeEmpty : Bool) (nAll : List Nat)
    (mq : List (K × K)) (recv : List Int → K)
    (sched : Nat → List (Moments.Prtl K) → List (Moments.Prtl K)) (sps : List (Sp K)) :
    Outcome (Deposit.Cur K) :=
  if assumeEmpty = true then .ok (fun _ _ => 0)
  else do
    let J ← addSpecies (request cfg) env nAll (sched 0) mq sps (fun _ _ => 0) p.s1
    let J ← addSpecies (request cfg) env nAll (sched 1) mq sps J p.s2
    return fun c n => J c n + recv n

/-- `AtmosphereParticlesIn` (particles_bcs.h:33-160) on one subdomain.  The reset of the sorted flag is not modelled. -/
def particlesIn [FloorRing K] (mpi : Bool) (l : Loc K) (exp : K → K) (cfg : Moments.Cfg K)
    (env : Moments.Env K) (co : Coords K) (p : Atm K) (assumeEmpty : Bool) (nAll : List Nat)
    (mq : List (K × K)) (recv : List Int → K)
    (sched : Nat → List (Moments.Prtl K) → List (Moments.Prtl K)) (cells : List Cell) (dr : NDraw K)
    (σ : List (Cell × Nat) → List (Cell × Nat)) (sps : List (Sp K)) : Outcome (List (Sp K)) := do
  let J ← buffer cfg env p assumeEmpty nAll mq recv sched sps
  let sd := replenish cfg.NG co.toCd (J 0) (targetAt exp cfg.cartesian p) p.nmax
  let dr ← draws l.curv co env.sqrtDetH p sd dr cells
  injectNonUniform mpi l p.prm l.curv cells p.s1 p.s2 dr σ sps

end Entity.Atmosphere
