import Verif.Model.Shapes
import Verif.Model.Deposit
import Verif.Model.Topology
import Verif.Model.Push

/-!
# Moments of the particle distribution written to the output

Models `ParticleMoments_kernel` (src/kernels/particle_moments.hpp:33-408) and `ComputeMoments`
(src/framework/domain/metadomain_io.cpp:122-173).

* Numbers are elements of an ordered field, square root and metric are parameters; rounding is not
  modelled, and a division by zero (NaN in the code) is excluded by hypotheses of the theorems.
* The scatter view adds the contributions in any order: a launch is a fold over a schedule.
* The buffer is an array of `N` components; an addition outside of the array is undefined.
-/

namespace Entity.Moments

open Entity Entity.Push Entity.Shapes Entity.Deposit Entity.Tags Entity.Topology

variable {K : Type} [Field K] [LinearOrder K] [IsStrictOrderedRing K]

/-- The moments the kernel accepts (particle_moments.hpp:48-50). -/
inductive Kind
  | Rho | Charge | N | Nppc | T | V
  deriving DecidableEq, Repr

/-- `OutputSmoothingType` (enums.h): the two methods and anything else. -/
inductive Smoothing
  | spline | const | other
  deriving DecidableEq, Repr

/-- The arrays of one particle read by the kernel: tag, index and offset along every axis of the grid,
`(ux1, ux2, ux3)`, weight. -/
structure Prtl (K : Type) where
  tag : Int
  pos : List (Int × K)
  u : V3 K
  weight : K

/-- What the kernel uses of the metric and of the mathematical library: `math::sqrt`, `sqrt_det_h`,
`transform_xyz<XYZ, T>` of the particle's momentum at its position, and for GR the contravariant
four-velocity (`u_0` followed by `transform_4d<D, U>`) and `transform<U, PU>` of its spatial part. -/
structure Env (K : Type) where
  sqrt : K → K
  sqrtDetH : List K → K
  tetrad : Prtl K → V3 K
  contra0 : Prtl K → K
  contra : Prtl K → V3 K
  toPU : Prtl K → V3 K → V3 K

/-- Template parameters and constructor arguments (particle_moments.hpp:44-82); `order` is the value
of the parameter `output.fields.smoothing.order` before its conversion to `uint8_t`. -/
structure Cfg (K : Type) where
  NG : Nat
  nBuf : Nat
  dim : Nat
  cartesian : Bool
  gr : Bool
  kind : Kind
  comps : List Nat
  buffIdx : Nat
  useWeights : Bool
  bcs : List (BC × BC)
  ni2 : Nat
  invN0 : K
  order : Nat
  smoothing : Smoothing

/-- The `uint8_t` smoothing order (particle_moments.hpp:80). -/
def Cfg.ord (cfg : Cfg K) : Nat := cfg.order % 256

/-- `ceil(order / 2)` (particle_moments.hpp:97). -/
def Cfg.window (cfg : Cfg K) : Nat := (cfg.ord + 1) / 2

/-- particle_moments.hpp:84. -/
def Cfg.c1 (cfg : Cfg K) : Nat := cfg.comps.headD 0

/-- particle_moments.hpp:85. -/
def Cfg.c2 (cfg : Cfg K) : Nat := if cfg.comps.length = 2 then cfg.comps.getD 1 0 else 0

/-- `is_axis_i2min`, `is_axis_i2max` (particle_moments.hpp:103-108). -/
def Cfg.axisMin (cfg : Cfg K) : Bool :=
  !cfg.cartesian && decide (2 ≤ cfg.dim) && decide ((cfg.bcs.getD 1 (.INVALID, .INVALID)).1 = .AXIS)

/-- particle_moments.hpp:103-108. -/
def Cfg.axisMax (cfg : Cfg K) : Bool :=
  !cfg.cartesian && decide (2 ≤ cfg.dim) && decide ((cfg.bcs.getD 1 (.INVALID, .INVALID)).2 = .AXIS)

/-- The checks of the constructor (particle_moments.hpp:99-106). -/
def checks (cfg : Cfg K) (mass : K) : Outcome Unit := do
  Outcome.errorIf (cfg.nBuf ≤ cfg.buffIdx)
  Outcome.errorIf (cfg.NG < cfg.window)
  Outcome.errorIf ((cfg.kind = .Rho ∨ cfg.kind = .Charge) ∧ mass = 0)
  Outcome.errorIf (cfg.cartesian = false ∧ 2 ≤ cfg.dim ∧ cfg.bcs.length < 2)

/-- `get_contrib` (particle_moments.hpp:33-42). -/
def contrib (kind : Kind) (mass charge : K) : K :=
  match kind with
  | .Rho => mass
  | .Charge => charge
  | _ => 1

/-- `shapeFunction` (particle_moments.hpp:111-148).  Which branch is taken depends on order and method
only, hence the function of the distance is returned. -/
def shapeFunction (cfg : Cfg K) : Outcome (K → K) :=
  match cfg.smoothing with
  | .spline =>
    if cfg.ord = 0 then .ok (fun _ => 1)
    else if cfg.ord ≤ 11 then .ok (shape cfg.ord)
    else .err
  | .const => .ok (fun _ => 1 / (2 * (cfg.window : K) + 1))
  | .other => .err

/-- `u_Phys[k]`; outside of the three elements undefined. -/
def elem3 (v : V3 K) (k : Nat) : Outcome K :=
  match k with
  | 0 => .ok v.x
  | 1 => .ok v.y
  | 2 => .ok v.z
  | _ => .ub

/-- The factor of one component (particle_moments.hpp:214-220). -/
def factor (u0 : K) (u : V3 K) (c : Nat) : Outcome K :=
  if 0 < c then elem3 u (c - 1) else .ok u0

/-- Energy of a particle from its momentum in an orthonormal basis (particle_moments.hpp:176-178,
249-253). -/
def energy (env : Env K) (mass : K) (u : V3 K) : K :=
  if mass = 0 then env.sqrt u.normSq else env.sqrt (1 + u.normSq)

/-- `u_Phys` in SR: the momentum itself in Cartesian coordinates, else its components in the
orthonormal basis (particle_moments.hpp:155-175, 228-248). -/
def physSR (cfg : Cfg K) (env : Env K) (p : Prtl K) : V3 K :=
  if cfg.cartesian then p.u else env.tetrad p

/-- `computeStressEnergyComponent` (particle_moments.hpp:150-222). -/
def stressEnergy (cfg : Cfg K) (env : Env K) (mass : K) (p : Prtl K) : Outcome K := do
  let u := if cfg.gr then env.toPU p (env.contra p) else physSR cfg env p
  let u0 := if cfg.gr then env.contra0 p else energy env mass u
  let f1 ← factor u0 u cfg.c1
  let f2 ← factor u0 u cfg.c2
  return (if mass = 0 then 1 else mass) / u0 * f1 * f2

/-- `computeBulk3VelocityTimesMass` (particle_moments.hpp:224-255); component `c1 - 1` of `u_Phys`
does not exist for `c1 = 0`. -/
def bulkVelocity (cfg : Cfg K) (env : Env K) (mass : K) (p : Prtl K) : Outcome K := do
  let u := physSR cfg env p
  let ui ← if cfg.c1 = 0 then .ub else elem3 u (cfg.c1 - 1)
  return (if mass = 0 then 1 else mass) * ui / energy env mass u

/-- `computeEckartVelocityFluxComponent` (particle_moments.hpp:257-288). -/
def eckartFlux (cfg : Cfg K) (env : Env K) (mass : K) (p : Prtl K) : Outcome K :=
  if cfg.c1 = 0 then .ok (if mass = 0 then 1 else mass)
  else do
    let ui ← elem3 (env.contra p) (cfg.c1 - 1)
    return (if mass = 0 then 1 else mass) * ui / env.contra0 p

/-- `coeff` (particle_moments.hpp:294-326). -/
def coeff (cfg : Cfg K) (env : Env K) (mass charge : K) (p : Prtl K) : Outcome K := do
  let c ← match cfg.kind with
    | .T => stressEnergy cfg env mass p
    | .V => if cfg.gr then eckartFlux cfg env mass p else bulkVelocity cfg env mass p
    | k => .ok (contrib k mass charge)
  if cfg.kind = .Nppc then return c
  else
    let c := c * (cfg.invN0 / env.sqrtDetH (p.pos.map (fun a => (a.1 : K) + 1/2)))
    return if cfg.useWeights then c * p.weight else c

/-- `-window, …, window`. -/
def offsets (w : Nat) : List Int := (List.range (2 * w + 1)).map (fun (k : Nat) => (k : Int) - (w : Int))

/-- `|dx - (di + 1/2)|`. -/
def dist (dx : K) (di : Int) : K := |dx - ((di : K) + 1/2)|

/-- Index along the second axis, reflected at the axis (particle_moments.hpp:346-365, 383-400). -/
def row (cfg : Cfg K) (j : Int) : Int :=
  if cfg.axisMin = true ∧ j < 0 then (cfg.NG : Int) - j
  else if cfg.axisMax = true ∧ (cfg.ni2 : Int) ≤ j then 2 * (cfg.ni2 : Int) - j + cfg.NG
  else j + cfg.NG

/-- particle_moments.hpp:328-334. -/
def deposit1 (cfg : Cfg K) (S : K → K) (c : K) (a1 : Int × K) : List (Upd K) :=
  (offsets cfg.window).map fun di1 =>
    ⟨cfg.buffIdx, [a1.1 + di1 + cfg.NG], c * S (dist a1.2 di1)⟩

/-- particle_moments.hpp:335-366. -/
def deposit2 (cfg : Cfg K) (S : K → K) (c : K) (a1 a2 : Int × K) : List (Upd K) :=
  (offsets cfg.window).flatMap fun di2 => (offsets cfg.window).map fun di1 =>
    ⟨cfg.buffIdx, [a1.1 + di1 + cfg.NG, row cfg (a2.1 + di2)],
      c * (S (dist a1.2 di1) * S (dist a2.2 di2))⟩

/-- particle_moments.hpp:367-405. -/
def deposit3 (cfg : Cfg K) (S : K → K) (c : K) (a1 a2 a3 : Int × K) : List (Upd K) :=
  (offsets cfg.window).flatMap fun di3 => (offsets cfg.window).flatMap fun di2 =>
    (offsets cfg.window).map fun di1 =>
      ⟨cfg.buffIdx, [a1.1 + di1 + cfg.NG, row cfg (a2.1 + di2), a3.1 + di3 + cfg.NG],
        c * (S (dist a1.2 di1) * S (dist a2.2 di2) * S (dist a3.2 di3))⟩

/-- The additions made for one particle (particle_moments.hpp:290-406). -/
def momentOne (cfg : Cfg K) (env : Env K) (mass charge : K) (p : Prtl K) : Outcome (List (Upd K)) :=
  if p.tag = dead then .ok []
  else do
    let c ← coeff cfg env mass charge p
    let S ← shapeFunction cfg
    match p.pos with
    | [a1] => return deposit1 cfg S c a1
    | [a1, a2] => return deposit2 cfg S c a1 a2
    | [a1, a2, a3] => return deposit3 cfg S c a1 a2 a3
    | _ => .err

/-- One launch over a schedule of particles. -/
def launch (cfg : Cfg K) (env : Env K) (nAll : List Nat) (mass charge : K) (ps : List (Prtl K))
    (J : Cur K) : Outcome (Cur K) :=
  ps.foldlM (fun J p => do applyAll nAll (← momentOne cfg env mass charge p) J) J

/-- A species: `index()`, `mass()`, `charge()` and its first `npart()` particles. -/
structure Species (K : Type) where
  index : Nat
  mass : K
  charge : K
  prtls : List (Prtl K)

/-- The species used (metadomain_io.cpp:130-138). -/
def selected (species : List (Species K)) (specs : List Nat) : List Nat :=
  if specs.isEmpty then (species.filter (fun s => decide (0 < s.mass))).map (·.index) else specs

/-- The loop over the species (metadomain_io.cpp:155-171); `sched` is the order in which the launch
treats the particles. -/
def speciesLoop (cfg : Cfg K) (env : Env K) (nAll : List Nat)
    (sched : Nat → List (Prtl K) → List (Prtl K)) (species : List (Species K)) :
    List Nat → Cur K → Outcome (Cur K)
  | [], J => .ok J
  | sp :: sps, J =>
    match species[sp - 1]? with
    | none => .ub
    | some s => do
      checks cfg s.mass
      let J ← launch cfg env nAll s.mass s.charge (sched sp s.prtls) J
      speciesLoop cfg env nAll sched species sps J

/-- `ComputeMoments` (metadomain_io.cpp:122-173). -/
def computeMoments (cfg : Cfg K) (env : Env K) (nAll : List Nat)
    (sched : Nat → List (Prtl K) → List (Prtl K)) (species : List (Species K)) (specs : List Nat)
    (J : Cur K) : Outcome (Cur K) := do
  let sel := selected species specs
  Outcome.errorIf (sel.any (fun sp => decide (species.length < sp) || decide (sp = 0)))
  speciesLoop cfg env nAll sched species sel J

end Entity.Moments
