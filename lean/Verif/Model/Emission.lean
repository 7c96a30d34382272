import Verif.Model.Inject

/-!
# Emission of photons during the push
(src/archetypes/emission/synchrotron.h, src/archetypes/emission/compton.h, src/kernels/pushers/sr.hpp:1501-1556,
src/framework/parameters/extra.cpp:39-116, src/kernels/pushers/context.h:40-58)

Arithmetic is exact, over the reals; a quotient by zero is zero here and not a number in the code: the
theorems show that no quotient by zero is used when a photon is emitted.
-/

namespace Entity.Emission

open Entity Entity.Push Entity.Inject

/-- The constants of an emission policy (synchrotron.h:68-84, compton.h:68-84). -/
structure Policy where
  mass : ℝ
  photonWeight : ℝ
  minEnergy : ℝ
  probability : ℝ
  energy : ℝ
  drag : Bool

/-- The parameters from which they are computed (extra.cpp:39-116). -/
structure Input where
  omegaB0 : ℝ
  dt : ℝ
  gammaQed : ℝ
  gammaRad : ℝ
  photonWeight : ℝ
  minEnergy : ℝ

/-- The constructor of both policies, with the nominal probability and energy (extra.cpp:69-76, 109-115,
synchrotron.h:68-84, compton.h:68-84). -/
noncomputable def mkPolicy (i : Input) (mass charge : ℝ) (drag : Bool) : Policy where
  mass := mass
  photonWeight := i.photonWeight
  minEnergy := i.minEnergy
  probability := |charge / mass| * (i.omegaB0 * (1 / 10) * i.dt * (i.gammaQed / i.gammaRad) ^ 2 / i.photonWeight)
  energy := mass * (1 / i.gammaQed ^ 2)
  drag := drag

/-- The coefficient of the continuous drag (context.h:40-58). -/
noncomputable def dragCoeff (i : Input) (mass : ℝ) : ℝ :=
  1 / 10 * i.dt * i.omegaB0 / (i.gammaRad * mass) ^ 2

/-- What `shouldEmit` returns: the pair of booleans, the recoil and the photon energy. -/
structure Response where
  emit : Bool
  drag : Bool
  du : V3 ℝ
  energy : ℝ

open Classical in
/-- `shouldEmit` of the Compton policy (compton.h:146-181); `r` is the random number. -/
noncomputable def compton (P : Policy) (r : ℝ) (u : V3 ℝ) : Response :=
  let uSqr := u.normSq
  let gSqr := 1 + uSqr
  let energy := gSqr * P.energy
  let du := -P.photonWeight * energy / (√uSqr * P.mass)
  let should : Bool := decide (r < P.probability * √(uSqr / gSqr)) &&
    decide (energy < P.mass * (√gSqr - 1) * (1 / 5))
  { emit := should && decide (P.minEnergy ≤ energy), drag := P.drag && should,
    du := u.smul du, energy := energy }

/-- `kappaR` (synchrotron.h:157-186). -/
noncomputable def kappa (u e b : V3 ℝ) : V3 ℝ :=
  let g := √(1 + u.normSq)
  let ebb : V3 ℝ := e + (u.cross b).smul (1 / g)
  ebb.cross b + e.smul (u.dot e / g)

/-- `chiR_sqr` (synchrotron.h:187-190). -/
noncomputable def chiSq (u e b : V3 ℝ) : ℝ :=
  let g := √(1 + u.normSq)
  let ebb : V3 ℝ := e + (u.cross b).smul (1 / g)
  ebb.normSq - (u.dot e / g) ^ 2

/-- `dir` (synchrotron.h:198-200). -/
noncomputable def dir (u e b : V3 ℝ) : V3 ℝ :=
  u.smul (√(1 + u.normSq) * chiSq u e b) - kappa u e b

/-- `probability` (synchrotron.h:192-196). -/
noncomputable def syncProbability (P : Policy) (u e b : V3 ℝ) : ℝ :=
  P.probability * (-(kappa u e b).dot u / ((1 + u.normSq) * √u.normSq) +
    √u.normSq / √(1 + u.normSq) * chiSq u e b)

open Classical in
/-- `shouldEmit` of the synchrotron policy (synchrotron.h:143-226). -/
noncomputable def synchrotron (P : Policy) (r : ℝ) (u e b : V3 ℝ) : Response :=
  let gSqr := 1 + u.normSq
  let energy := gSqr * P.energy
  let d := dir u e b
  let du := -P.photonWeight * energy / (√d.normSq * P.mass)
  let should : Bool := decide (r < syncProbability P u e b) &&
    decide (energy < P.mass * (√gSqr - 1) * (1 / 5))
  { emit := should && decide (P.minEnergy ≤ energy), drag := P.drag && should,
    du := d.smul du, energy := energy }

/-- The emitting particle: place, momentum, weight and azimuth. -/
structure Parent where
  xi : Nat → Int
  dxi : Nat → ℝ
  u : V3 ℝ
  weight : ℝ
  phi : ℝ

/-- `processEmission` (sr.hpp:1501-1556) with `emit` (synchrotron.h:228-283, compton.h:183-231): the new
momentum of the particle, and what is passed to `InjectParticle`, if anything. -/
noncomputable def processEmission (P : Policy) (resp : Response) (q : Parent) : V3 ℝ × Option (New ℝ) :=
  let u := if resp.drag then q.u + resp.du else q.u
  if resp.emit then
    let n := resp.du.smul (-1 / √resp.du.normSq)
    (u, some { xi := q.xi, dxi := q.dxi, u := n.smul resp.energy, weight := P.photonWeight * q.weight,
               phi := q.phi })
  else (u, none)

end Entity.Emission
