import Verif.Model.Maxwellian
import Mathlib.Analysis.SpecialFunctions.Pow.Real
import Mathlib.Analysis.SpecialFunctions.Trigonometric.Basic

/-!
# Energy distributions: the samplers and their loops
(src/archetypes/energy_dist.h:29-274)

A sampler reads numbers from the generator one after another and has no fixed bound on how many.  The
generator is a sequence of numbers in [0, 1), the value of `Random<real_t>`
(src/global/arch/kokkos_aliases.h:266-279); a sampler returns its result and the unread rest, or `none` if
it does not end.  Real numbers are exact; `ε` is the tolerance of `cmp::AlmostZero` (comparators.h:37-42).
-/

namespace Entity.EnergyDist

open Entity.Push Real

/-- Numbers the generator is going to return. -/
abbrev Stream := Nat → Set.Ico (0 : ℝ) 1

/-- `Random<real_t>(rand_gen)` (kokkos_aliases.h:266-279). -/
def draw (ω : Stream) : ℝ × Stream := (ω 0, fun n => ω (n + 1))

/-- `while (c) { s = body; }`: `none` if the loop or its body never ends. -/
def whileM {σ : Type} (c : σ → Bool) (body : σ → Option σ) (s : σ) : Option σ :=
  if c s then do
    let s' ← body s
    whileM c body s'
  else some s
partial_fixpoint

open Entity.Maxwell (almostZero)

/-- `x = d(); while (cmp::AlmostZero(x)) { x = d(); }` (energy_dist.h:86-89, 94-97, 102-105, 114-119,
121-124). -/
noncomputable def nonzero (ε : ℝ) (d : Stream → ℝ × Stream) (ω : Stream) : Option (ℝ × Stream) :=
  whileM (fun s => almostZero ε s.1) (fun s => some (d s.2)) (d ω)

/-- The product of three random numbers (energy_dist.h:114-115, 117-118). -/
def product3 (ω : Stream) : ℝ × Stream :=
  let a := draw ω
  let b := draw a.2
  let c := draw b.2
  (a.1 * b.1 * c.1, c.2)

/-- One component of the non-relativistic branch (energy_dist.h:86-92, 94-100, 102-108). -/
noncomputable def normal (ε T : ℝ) (ω : Stream) : Option (ℝ × Stream) := do
  let s ← nonzero ε draw ω
  let x1 := √(-2 * log s.1)
  let p := draw s.2
  let x2 := 2 * π * p.1
  return (x1 * cos x2 * √T, p.2)

/-- `randu`, `randeta`, and the generator. -/
abbrev SobolState := (ℝ × ℝ) × Stream

/-- Condition of the loop (energy_dist.h:113). -/
noncomputable def sobolCond (s : SobolState) : Bool := decide (s.1.2 ^ 2 ≤ s.1.1 ^ 2 + 1)

/-- Body of the loop (energy_dist.h:114-125). -/
noncomputable def sobolBody (ε T : ℝ) (s : SobolState) : Option SobolState := do
  let x1 ← nonzero ε product3 s.2
  let u := -T * log x1.1
  let x2 ← nonzero ε draw x1.2
  let eta := -T * log (x1.1 * x2.1)
  return ((u, eta), x2.2)

/-- The vector of length `u` in the direction given by two random numbers (energy_dist.h:66-69, 129-132). -/
noncomputable def direction (u x1 x2 : ℝ) : V3 ℝ :=
  let v2 := 2 * u * √(x1 * (1 - x1))
  ⟨u * (2 * x1 - 1), v2 * cos (2 * π * x2), v2 * sin (2 * π * x2)⟩

/-- `JuttnerSinge` (energy_dist.h:79-135). -/
noncomputable def juttnerSinge (ε T : ℝ) (ω : Stream) : Option (V3 ℝ × Stream) :=
  if T < 1 / 2 then do
    let a ← normal ε T ω
    let b ← normal ε T a.2
    let c ← normal ε T b.2
    return (⟨a.1, b.1, c.1⟩, c.2)
  else do
    let e := draw ω
    let s ← whileM sobolCond (sobolBody ε T) ((1, e.1), e.2)
    let x1 := draw s.2
    let x2 := draw x1.2
    return (direction s.1.1 x1.1 x2.1, x2.2)

/-- The isotropic part of `Maxwellian::operator()` and `SampleFromMaxwellian` (energy_dist.h:144-150,
223-229). -/
noncomputable def isotropic (ε T : ℝ) (ω : Stream) : Option (V3 ℝ × Stream) :=
  if almostZero ε T then some (⟨0, 0, 0⟩, ω) else juttnerSinge ε T ω

/-- `Maxwellian::operator()` on a Cartesian metric (energy_dist.h:222-274) for drift `d`. -/
noncomputable def maxwellian (ε T : ℝ) (d : V3 ℝ) (ω : Stream) : Option (V3 ℝ × Stream) := do
  let s ← isotropic ε T ω
  if (Maxwell.mk ε d).dir ≠ 0 then
    let ξ := draw s.2
    return (Maxwell.sample (Maxwell.mk ε d) ξ.1 s.1, ξ.2)
  else return s

/-- `SampleFromMaxwellian<true>` (energy_dist.h:137-174). -/
noncomputable def sampleFromMaxwellian (ε T U : ℝ) (k : Nat) (flipVel : Bool) (ω : Stream) :
    Option (V3 ℝ × Stream) := do
  let s ← isotropic ε T ω
  if almostZero ε U then return s
  else
    let ξ := draw s.2
    return (Maxwell.sampleFromMaxwellian ε U k flipVel ξ.1 s.1, ξ.2)

/-- `Powerlaw::operator()` (energy_dist.h:48-72). -/
noncomputable def powerlaw (gmin gmax ind : ℝ) (ω : Stream) : V3 ℝ × Stream :=
  let x1 := draw ω
  let gam := 1 + (if ind ≠ -1 then
    (gmin ^ (1 + ind) + (-gmin ^ (1 + ind) + gmax ^ (1 + ind)) * x1.1) ^ (1 / (1 + ind))
    else gmin ^ (1 - x1.1) * gmax ^ x1.1)
  let u := √(gam ^ 2 - 1)
  let x2 := draw x1.2
  let x3 := draw x2.2
  (direction u x2.1 x3.1, x3.2)

end Entity.EnergyDist
