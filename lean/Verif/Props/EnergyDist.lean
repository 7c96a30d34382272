import Verif.Lemmas.EnergyThermal
import Verif.Lemmas.EnergyPower

/-!
# C145, C146: the samplers of energy distributions have the distributions they are named after

The probabilities are over an ideal generator: independent numbers, uniform in [0, 1).
-/

namespace Entity.EnergyDist

open Entity.Push MeasureTheory Set Real
open scoped ENNReal

/-! ## C145 -/

/-- **C145 (thermal, temperature at least 1/2).** With probability one the sampler ends, and the
four-velocities have density proportional to `exp (-γ/T)`, reduced where a random number would not exceed
the tolerance (`C145_tolerance`). -/
theorem C145_thermal_partial (ε T : ℝ) (hε : 0 ≤ ε) (h1 : ε ≤ 1 / 10) (hT : 1 / 2 ≤ T) :
    HasDensity (isotropic ε T) fun v => juttner ε T (gammaOf v) :=
  Samp.density (samp_hot hε h1 hT)

/-- **C145 (tolerance).** The density differs from `exp (-γ/T)` by less than the tolerance, and not at all
without one. -/
theorem C145_tolerance (ε T γ : ℝ) (hε : 0 ≤ ε) (hT : 0 < T) (hγ : 1 ≤ γ) :
    |juttner ε T γ - exp (-(γ / T))| ≤ ε ∧ juttner 0 T γ = exp (-(γ / T)) := by
  have hu : √(γ ^ 2 - 1) ≤ γ := sqrt_le_iff.2 ⟨by linarith, by linarith⟩
  have h1 : exp (-(√(γ ^ 2 - 1) / T)) ≤ 1 := by
    rw [exp_le_one_iff, neg_nonpos]; exact div_nonneg (sqrt_nonneg _) hT.le
  have h2 : exp (-(γ / T)) ≤ exp (-(√(γ ^ 2 - 1) / T)) := by
    rw [exp_le_exp, neg_le_neg_iff]; exact div_le_div_of_nonneg_right hu hT.le
  refine ⟨?_, by unfold juttner; rw [if_pos (exp_pos _)]; ring⟩
  unfold juttner
  split
  · have h3 : 0 ≤ ε * exp (-(√(γ ^ 2 - 1) / T)) := mul_nonneg hε (exp_pos _).le
    have h4 : ε * exp (-(√(γ ^ 2 - 1) / T)) ≤ ε := mul_le_of_le_one_right hε h1
    rw [sub_sub_cancel_left, abs_neg, abs_of_nonneg h3]; exact h4
  · rename_i h
    rw [not_lt] at h
    rw [zero_sub, abs_neg, abs_of_pos (exp_pos _)]
    linarith

/-- **C145 (drift).** With a drift of four-velocity `d`, the density is the same function of the Lorentz
factor in the frame that moves with `d`. -/
theorem C145_drift_partial (ε T : ℝ) (hε : 0 ≤ ε) (h1 : ε ≤ 1 / 10) (hT : 1 / 2 ≤ T) (d : V3 ℝ)
    (hx : d.x = 0 ∨ ε < |d.x|) (hy : d.y = 0 ∨ ε < |d.y|) (hz : d.z = 0 ∨ ε < |d.z|) :
    HasDensity (maxwellian ε T d) fun v => juttner ε T (gammaIn (d.x, d.y, d.z) v) :=
  Samp.density (samp_drift hε (ENNReal.measurable_ofReal.comp (measurable_juttner ε T)) (samp_hot hε h1 hT) d hx hy hz)

/-- **C145 (drift along an axis).** The same for `SampleFromMaxwellian`, where the option to flip the
velocity reverses the drift. -/
theorem C145_axis_partial (ε T : ℝ) (hε : 0 ≤ ε) (h1 : ε ≤ 1 / 10) (hT : 1 / 2 ≤ T) (U : ℝ) (k : Nat)
    (fl : Bool) (hU : U = 0 ∨ ε < |U|) :
    HasDensity (sampleFromMaxwellian ε T U k fl) fun v =>
      juttner ε T (gammaIn (if k = 0 then (if fl then -U else U, 0, 0) else
        if k = 1 then (0, if fl then -U else U, 0) else (0, 0, if fl then -U else U)) v) :=
  Samp.density (samp_axis hε (ENNReal.measurable_ofReal.comp (measurable_juttner ε T)) (samp_hot hε h1 hT) U k fl hU)

/-- **C145 (temperature below 1/2).** The density is proportional to `exp (-|u|²/2T)`, also in the frame
of a drift.  Not the density `exp (-γ/T)`: `C145_counterexample`. -/
theorem C145_cold_partial (T : ℝ) (hT : 0 < T) (h2 : T < 1 / 2) (d : V3 ℝ) (U : ℝ) (k : Nat) (fl : Bool) :
    HasDensity (isotropic 0 T) (fun v => exp (-((v.1 ^ 2 + v.2.1 ^ 2 + v.2.2 ^ 2) / (2 * T)))) ∧
    HasDensity (maxwellian 0 T d) (fun v => exp (-((gammaIn (d.x, d.y, d.z) v ^ 2 - 1) / (2 * T)))) ∧
    HasDensity (sampleFromMaxwellian 0 T U k fl) (fun v => exp (-((gammaIn (if k = 0 then (if fl then -U else U, 0, 0)
        else if k = 1 then (0, if fl then -U else U, 0) else (0, 0, if fl then -U else U)) v ^ 2 - 1) / (2 * T)))) := by
  have hs := samp_cold hT h2
  have hm : Measurable fun g : ℝ => ENNReal.ofReal (exp (-((g ^ 2 - 1) / (2 * T)))) := by fun_prop
  have hz : ∀ x : ℝ, x = 0 ∨ 0 < |x| := fun x => by
    by_cases h : x = 0
    · exact Or.inl h
    · exact Or.inr (abs_pos.2 h)
  refine ⟨?_, Samp.density (samp_drift le_rfl hm hs d (hz _) (hz _) (hz _)), Samp.density (samp_axis le_rfl hm hs U k fl (hz U))⟩
  have e : ∀ v : ℝ × ℝ × ℝ, v.1 ^ 2 + v.2.1 ^ 2 + v.2.2 ^ 2 = gammaOf v ^ 2 - 1 := fun v => by
    rw [gammaOf, sq_sqrt (by positivity)]; ring
  simp only [e]
  exact Samp.density hs

/-- **C145 fails below temperature 1/2.** No such temperature gives the density `exp (-γ/T)`. -/
theorem C145_counterexample (T : ℝ) (hT : 0 < T) (h2 : T < 1 / 2) :
    ¬ HasDensity (isotropic 0 T) fun v => exp (-(gammaOf v / T)) := by
  intro h
  have hc := (C145_cold_partial T hT h2 ⟨0, 0, 0⟩ 0 0 false).1
  have hg : Continuous gammaOf := by unfold gammaOf; fun_prop
  obtain ⟨k, hk⟩ := density_unique hc h (by fun_prop) (by fun_prop) (fun _ => (exp_pos _).le) (fun _ => (exp_pos _).le)
  have g1 : gammaOf (0, 0, 0) = 1 := by simp [gammaOf]
  have g2 : gammaOf (√3, 0, 0) = 2 := by
    have : √(4 : ℝ) = 2 := by rw [show (4 : ℝ) = 2 ^ 2 by norm_num]; exact sqrt_sq (by norm_num)
    simp only [gammaOf]
    rw [sq_sqrt (by norm_num)]; norm_num [this]
  have e1 := hk (0, 0, 0)
  have e2 := hk (√3, 0, 0)
  rw [g1] at e1
  rw [g2] at e2
  simp only [ne_eq, OfNat.ofNat_ne_zero, not_false_eq_true, zero_pow, add_zero, zero_div, neg_zero, exp_zero] at e1
  simp only [sq_sqrt (show (0 : ℝ) ≤ 3 by norm_num), ne_eq, OfNat.ofNat_ne_zero, not_false_eq_true, zero_pow,
    add_zero] at e2
  have hk1 : k = exp (1 / T) := by
    rw [exp_neg] at e1
    field_simp at e1
    exact e1.symm
  rw [hk1, ← exp_add] at e2
  have := exp_injective e2
  field_simp at this
  linarith

/-- The hypotheses are met by a drift in a general direction, and by the tolerance of single precision. -/
example : HasDensity (maxwellian (1 / 10 ^ 7) 2 ⟨3, -1, 0⟩) fun v => juttner (1 / 10 ^ 7) 2 (gammaIn (3, -1, 0) v) :=
  C145_drift_partial _ _ (by norm_num) (by norm_num) (by norm_num) _ (by norm_num [abs_of_pos]) (by norm_num) (by norm_num)

/-- Without a tolerance: the distribution of Jüttner. -/
example : HasDensity (isotropic 0 1) fun v => exp (-(gammaOf v / 1)) := by
  have h := C145_thermal_partial 0 1 le_rfl (by norm_num) (by norm_num)
  have e : ∀ v, juttner 0 1 (gammaOf v) = exp (-(gammaOf v / 1)) := fun v =>
    (C145_tolerance 0 1 (gammaOf v) le_rfl one_pos (by
      rw [gammaOf]; exact one_le_sqrt.2 (by nlinarith [sq_nonneg v.1, sq_nonneg v.2.1, sq_nonneg v.2.2]))).2
  simpa only [e] using h

/-! ## C146 -/

/-- **C146 (directions and energies).** With probability one the sampler of the power law ends; the
directions are uniform, and the kinetic energies `γ - 1` have density proportional to their power between
the limits: in the space of four-velocities, that divided by `γ √(γ² - 1)`. -/
theorem C146_density (gmin gmax ind : ℝ) (h0 : 0 < gmin) (h1 : gmin < gmax) :
    HasDensity (fun ω => some (powerlaw gmin gmax ind ω)) fun v =>
      if gmin < gammaOf v - 1 ∧ gammaOf v - 1 < gmax then
        (gammaOf v - 1) ^ ind / (gammaOf v * √(gammaOf v ^ 2 - 1)) else 0 := by
  have hs := samp_powerlaw (p := ind) h0 h1
  have e : ∀ v, pwgt gmin gmax ind (len v) = ENNReal.ofReal (if gmin < gammaOf v - 1 ∧ gammaOf v - 1 < gmax then
      (gammaOf v - 1) ^ ind / (gammaOf v * √(gammaOf v ^ 2 - 1)) else 0) := by
    intro v
    have h : len v ^ 2 = v.1 ^ 2 + (v.2.1 ^ 2 + v.2.2 ^ 2) := sq_sqrt (by positivity)
    have hg : √(1 + len v ^ 2) = gammaOf v := by rw [h]; unfold gammaOf; congr 1; ring
    have hl : √(gammaOf v ^ 2 - 1) = len v := by
      rw [gammaOf, sq_sqrt (by positivity)]; unfold len; congr 1; ring
    unfold pwgt
    rw [hg, hl]
    split <;> simp
  simp only [e] at hs
  exact Samp.density hs

/-- **C146 (energies).** The probability of a kinetic energy in `B` is the integral of the power over the
part of `B` between the limits, divided by that over all. -/
theorem C146_energy (gmin gmax ind : ℝ) (h0 : 0 < gmin) (h1 : gmin < gmax) (B : Set ℝ) (hB : MeasurableSet B) :
    prob (fun ω => some (powerlaw gmin gmax ind ω)) {v | gammaOf v - 1 ∈ B} =
      (∫⁻ E in Ioo gmin gmax ∩ B, ENNReal.ofReal (E ^ ind)) / ∫⁻ E in Ioo gmin gmax, ENNReal.ofReal (E ^ ind) := by
  have hk : Measurable (kin gmin gmax ind) := by unfold kin; split <;> fun_prop
  have hset : {ω | ∃ v ω', some (powerlaw gmin gmax ind ω) = some (v, ω') ∧ (v.x, v.y, v.z) ∈ {v | gammaOf v - 1 ∈ B}} =
      {ω | kin gmin gmax ind (draw ω).1 ∈ B} := by
    ext ω
    have hx : ∀ ω : Stream, 0 ≤ (draw ω).1 ∧ (draw ω).1 < 1 := fun ω => ⟨(ω 0).2.1, (ω 0).2.2⟩
    have hE : 0 ≤ kin gmin gmax ind (draw ω).1 := by
      have hgm : 0 < gmax := h0.trans h1
      unfold kin
      split
      · refine rpow_nonneg ?_ _
        have a1 : 0 ≤ gmin ^ (1 + ind) := rpow_nonneg h0.le _
        have a2 : 0 ≤ gmax ^ (1 + ind) := rpow_nonneg hgm.le _
        nlinarith [hx ω, mul_nonneg a1 (sub_nonneg.2 (hx ω).2.le), mul_nonneg a2 (hx ω).1]
      · positivity
    have hg : gammaOf ((powerlaw gmin gmax ind ω).1.x, (powerlaw gmin gmax ind ω).1.y, (powerlaw gmin gmax ind ω).1.z) - 1 =
        kin gmin gmax ind (draw ω).1 := by
      set u := √((1 + kin gmin gmax ind (draw ω).1) ^ 2 - 1) with hu
      have hu2 : u ^ 2 = (1 + kin gmin gmax ind (draw ω).1) ^ 2 - 1 := sq_sqrt (by nlinarith)
      set x2 := (draw (draw ω).2).1 with hx2
      set x3 := (draw (draw (draw ω).2).2).1 with hx3
      have hq : √(x2 * (1 - x2)) ^ 2 = x2 * (1 - x2) := sq_sqrt (mul_nonneg (hx _).1 (sub_nonneg.2 (hx _).2.le))
      have hv : (powerlaw gmin gmax ind ω).1 = direction u x2 x3 := rfl
      have hn : 1 + ((direction u x2 x3).x ^ 2 + (direction u x2 x3).y ^ 2 + (direction u x2 x3).z ^ 2) =
          (1 + kin gmin gmax ind (draw ω).1) ^ 2 := by
        simp only [direction]
        have hcs := sin_sq_add_cos_sq (2 * π * x3)
        linear_combination hu2 + 4 * u ^ 2 * hq + (2 * u * √(x2 * (1 - x2))) ^ 2 * hcs
      rw [hv, gammaOf, hn, sqrt_sq (by linarith)]
      ring
    simp only [mem_setOf_eq, Option.some.injEq]
    constructor
    · rintro ⟨v, ω', he, hv⟩
      rw [← hg, he]; exact hv
    · intro h
      rw [← hg] at h
      exact ⟨(powerlaw gmin gmax ind ω).1, (powerlaw gmin gmax ind ω).2, rfl, h⟩
  have hint : ∀ B, MeasurableSet B → P {ω | kin gmin gmax ind (draw ω).1 ∈ B} =
      ENNReal.ofReal (knorm gmin gmax ind) * ∫⁻ E in Ioo gmin gmax ∩ B, ENNReal.ofReal (E ^ ind) := by
    intro B hB
    have hF : Measurable fun r : ℝ × Stream => (B.indicator (fun _ => (1 : ℝ≥0∞)) (kin gmin gmax ind r.1)) :=
      (measurable_const.indicator hB).comp (hk.comp measurable_fst)
    have hl := law_draw.int _ hF
    simp only [ev] at hl
    have hms : MeasurableSet {ω : Stream | kin gmin gmax ind (draw ω).1 ∈ B} :=
      hB.preimage (hk.comp (measurable_fst.comp measurable_draw))
    rw [← lintegral_indicator_one hms]
    have e : ∀ ω, {ω : Stream | kin gmin gmax ind (draw ω).1 ∈ B}.indicator (1 : Stream → ℝ≥0∞) ω =
        B.indicator (fun _ => (1 : ℝ≥0∞)) (kin gmin gmax ind (draw ω).1) := fun ω => by
      by_cases h : kin gmin gmax ind (draw ω).1 ∈ B <;> simp [indicator, h]
    simp only [e]
    rw [hl]
    have hP : P univ = 1 := by
      have : IsProbabilityMeasure P := inferInstance
      exact this.measure_univ
    simp only [lintegral_const, hP, mul_one]
    rw [kin_int h0 h1 (fun E => B.indicator (fun _ => (1 : ℝ≥0∞)) E), inter_comm, ← Measure.restrict_restrict hB,
      ← lintegral_indicator hB]
    congr 1
    refine lintegral_congr fun E => ?_
    by_cases h : E ∈ B <;> simp [h]
  have hpos := knorm_pos (p := ind) h0 h1
  have huniv := hint univ .univ
  have hP : P {ω | kin gmin gmax ind (draw ω).1 ∈ univ} = 1 := by
    have : IsProbabilityMeasure P := inferInstance
    simp [this.measure_univ]
  rw [hP, inter_univ] at huniv
  unfold prob
  rw [hset, hint B hB, ENNReal.eq_inv_of_mul_eq_one_left huniv.symm, ENNReal.div_eq_inv_mul]

/-- **C146: the limits are not those of the Lorentz factor.** With the limits and index of the unit test
(10, 1000, -2.5), which requires Lorentz factors between the limits, a Lorentz factor above 1000 has positive
probability and one below 11 has probability zero. -/
theorem C146_counterexample :
    prob (fun ω => some (powerlaw 10 1000 (-5 / 2) ω)) {v | gammaOf v > 1000} ≠ 0 ∧
    prob (fun ω => some (powerlaw 10 1000 (-5 / 2) ω)) {v | gammaOf v < 11} = 0 := by
  have e1 : {v : ℝ × ℝ × ℝ | gammaOf v > 1000} = {v | gammaOf v - 1 ∈ Ioi (999 : ℝ)} := by
    ext v; simp only [mem_setOf_eq, mem_Ioi]; constructor <;> intro h <;> linarith
  have e2 : {v : ℝ × ℝ × ℝ | gammaOf v < 11} = {v | gammaOf v - 1 ∈ Iio (10 : ℝ)} := by
    ext v; simp only [mem_setOf_eq, mem_Iio]; constructor <;> intro h <;> linarith
  rw [e1, e2, C146_energy 10 1000 (-5 / 2) (by norm_num) (by norm_num) _ measurableSet_Ioi,
    C146_energy 10 1000 (-5 / 2) (by norm_num) (by norm_num) _ measurableSet_Iio]
  have hfin : ∫⁻ E in Ioo (10 : ℝ) 1000, ENNReal.ofReal (E ^ (-5 / 2 : ℝ)) ≠ ∞ := by
    refine ne_top_of_le_ne_top ?_ (setLIntegral_mono (g := fun _ => ENNReal.ofReal 1) measurable_const fun E hE => ?_)
    · simp
    · exact ENNReal.ofReal_le_ofReal (rpow_le_one_of_one_le_of_nonpos (by linarith [hE.1]) (by norm_num))
  constructor
  · refine (ENNReal.div_pos ?_ hfin).ne'
    intro h
    rw [lintegral_eq_zero_iff (by fun_prop)] at h
    have hs : MeasurableSet (Ioo (10 : ℝ) 1000 ∩ Ioi 999) := measurableSet_Ioo.inter measurableSet_Ioi
    have h3 : volume (Ioo (999 : ℝ) 1000) = 0 := by
      refine measure_mono_null (fun E hE => ?_) ((ae_restrict_iff' hs).1 h)
      simp only [mem_compl_iff, mem_setOf_eq, Pi.zero_apply, ENNReal.ofReal_eq_zero, not_le]
      push Not
      exact ⟨⟨⟨by linarith [hE.1], hE.2⟩, hE.1⟩, rpow_pos_of_pos (by linarith [hE.1]) _⟩
    rw [Real.volume_Ioo] at h3
    norm_num at h3
  · have : Ioo (10 : ℝ) 1000 ∩ Iio 10 = ∅ := by
      ext E; simp only [mem_inter_iff, mem_Ioo, mem_Iio, mem_empty_iff_false, iff_false]
      rintro ⟨⟨a, -⟩, b⟩; linarith
    rw [this]; simp

/-- The index -1, where the other formula is used, with energies in a decade. -/
example : prob (fun ω => some (powerlaw 1 100 (-1) ω)) {v | gammaOf v - 1 ∈ Ioo (1 : ℝ) 10} =
    (∫⁻ E in Ioo (1 : ℝ) 100 ∩ Ioo 1 10, ENNReal.ofReal (E ^ (-1 : ℝ))) / ∫⁻ E in Ioo (1 : ℝ) 100, ENNReal.ofReal (E ^ (-1 : ℝ)) :=
  C146_energy 1 100 (-1) one_pos (by norm_num) _ measurableSet_Ioo

end Entity.EnergyDist
