import Verif.Model.EnergyDist
import Mathlib.Probability.ProductMeasure
import Mathlib.MeasureTheory.Measure.Lebesgue.Basic

/-!
# Specification of the energy distributions (C145, C146)
-/

namespace Entity.EnergyDist

open Entity.Push MeasureTheory
open scoped ENNReal

/-- An ideal generator: the numbers are independent and uniform in [0, 1). -/
noncomputable def P : Measure Stream := Measure.infinitePi fun _ => (volume : Measure ℝ).comap Subtype.val

/-- Probability that a sampler ends and returns a vector in `A`. -/
noncomputable def prob (f : Stream → Option (V3 ℝ × Stream)) (A : Set (ℝ × ℝ × ℝ)) : ℝ≥0∞ :=
  P {ω | ∃ v ω', f ω = some (v, ω') ∧ (v.x, v.y, v.z) ∈ A}

/-- The sampler ends with probability one, and its results have a probability density proportional to `h`. -/
def HasDensity (f : Stream → Option (V3 ℝ × Stream)) (h : ℝ × ℝ × ℝ → ℝ) : Prop :=
  (∫⁻ v, ENNReal.ofReal (h v)) ≠ 0 ∧ (∫⁻ v, ENNReal.ofReal (h v)) ≠ ∞ ∧
  ∀ A, MeasurableSet A → prob f A = (∫⁻ v in A, ENNReal.ofReal (h v)) / ∫⁻ v, ENNReal.ofReal (h v)

/-- Lorentz factor of a four-velocity. -/
noncomputable def gammaOf (v : ℝ × ℝ × ℝ) : ℝ := √(1 + (v.1 ^ 2 + v.2.1 ^ 2 + v.2.2 ^ 2))

/-- Density as a function of the Lorentz factor when numbers not above the tolerance `ε` are drawn again:
without tolerance, `exp (-γ/T)`. -/
noncomputable def juttner (ε T γ : ℝ) : ℝ :=
  if ε < Real.exp (-(√(γ ^ 2 - 1) / T)) then Real.exp (-(γ / T)) - ε * Real.exp (-(√(γ ^ 2 - 1) / T)) else 0

/-- Lorentz factor in the frame that moves with the four-velocity `d`. -/
noncomputable def gammaIn (d v : ℝ × ℝ × ℝ) : ℝ :=
  gammaOf d * gammaOf v - (d.1 * v.1 + d.2.1 * v.2.1 + d.2.2 * v.2.2)

end Entity.EnergyDist
