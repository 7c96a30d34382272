import Verif.Lemmas.EnergySobol
import Mathlib.Analysis.SpecialFunctions.Gaussian.GaussianIntegral

/-!
# The non-relativistic branch: normally distributed components
-/

namespace Entity.EnergyDist

open Entity.Push MeasureTheory Set Real
open scoped ENNReal

/-- The Gaussian. -/
noncomputable def gss (T z : ℝ) : ℝ≥0∞ := ENNReal.ofReal (exp (-(z ^ 2 / (2 * T))))

theorem measurable_gss (T : ℝ) : Measurable (gss T) := by unfold gss; fun_prop

theorem gss_ne_top {T : ℝ} (hT : 0 < T) : ∫⁻ z, gss T z ≠ ∞ := by
  have h : Integrable fun z : ℝ => exp (-(1 / (2 * T)) * z ^ 2) := integrable_exp_neg_mul_sq (by positivity)
  have h2 : ∀ z, gss T z = ENNReal.ofReal (exp (-(1 / (2 * T)) * z ^ 2)) := fun z => by
    rw [gss]; congr 2; ring
  simp only [h2]
  rw [← ofReal_integral_eq_lintegral_ofReal h (Filter.Eventually.of_forall fun z => (exp_pos _).le)]
  exact ENNReal.ofReal_ne_top

theorem gss_ne_zero (T : ℝ) : ∫⁻ z, gss T z ≠ 0 := by
  intro h
  rw [lintegral_eq_zero_iff (measurable_gss T)] at h
  obtain ⟨z, hz⟩ := h.exists
  simp only [gss, Pi.zero_apply, ENNReal.ofReal_eq_zero] at hz
  exact absurd (exp_pos _) (not_lt.2 hz)

/-- The square root of an exponentially distributed number is the radius of a plane Gaussian. -/
theorem rayleigh_int (H : ℝ → ℝ≥0∞) :
    ∫⁻ s in Ioi 0, ENNReal.ofReal (exp (-s)) * H √(2 * s) =
      ∫⁻ r in Ioi 0, ENNReal.ofReal r * (ENNReal.ofReal (exp (-(r ^ 2 / 2))) * H r) := by
  have himg : (fun r : ℝ => r ^ 2 / 2) '' Ioi 0 = Ioi 0 := by
    ext s
    simp only [mem_image, mem_Ioi]
    constructor
    · rintro ⟨r, hr, rfl⟩; positivity
    · intro h
      exact ⟨√(2 * s), by positivity, by rw [sq_sqrt (by positivity)]; ring⟩
  conv_lhs => rw [← himg]
  rw [lintegral_image_eq_lintegral_abs_deriv_mul (f' := fun r => r) measurableSet_Ioi
    (fun r _ => by
      have := ((hasDerivAt_pow 2 r).div_const 2).hasDerivWithinAt (s := Ioi 0)
      simpa using this)
    (fun a ha b hb h => by
      have ha : 0 < a := ha
      have hb : 0 < b := hb
      have h : a ^ 2 / 2 = b ^ 2 / 2 := h
      exact (sq_eq_sq₀ ha.le hb.le).1 (by linarith))]
  refine setLIntegral_congr_fun measurableSet_Ioi fun r hr => ?_
  have hr : 0 < r := hr
  have e : √(2 * (r ^ 2 / 2)) = r := by rw [show 2 * (r ^ 2 / 2) = r ^ 2 by ring, sqrt_sq hr.le]
  simp only [e, abs_of_pos hr]

/-- One component. -/
theorem samp_normal {T : ℝ} (hT : 0 < T) : Samp (normal 0 T) (volume.withDensity (gss T)) := by
  have h1 := samp_nonzero (ε := 0) samp_draw (U01_big zero_lt_one)
  have hφ : Measurable fun p : ℝ × ℝ => √(-2 * log p.1) * cos (2 * π * p.2) * √T := by fun_prop
  have h2 := (h1.pair samp_draw).map hφ
  set C := ∫⁻ z, gss 1 z with hC
  have hC0 : C ≠ 0 := gss_ne_zero 1
  have hC1 : C ≠ ∞ := gss_ne_top one_pos
  have hTs : 0 < √T := sqrt_pos.2 hT
  refine (h2.congr fun ω => ?_).scale (k := (ENNReal.ofReal (2 * π))⁻¹ * C * ENNReal.ofReal (1 / √T)) ?_ ?_ ?_
  · simp only [normal]
    cases h : nonzero 0 draw ω <;> simp
  · refine mul_ne_zero (mul_ne_zero (ENNReal.inv_ne_zero.2 ENNReal.ofReal_ne_top) hC0) ?_
    rw [Ne, ENNReal.ofReal_eq_zero, not_le]; positivity
  · exact ENNReal.mul_ne_top (ENNReal.mul_ne_top (ENNReal.inv_ne_top.2 (by simp [pi_pos])) hC1) ENNReal.ofReal_ne_top
  · refine Measure.ext_of_lintegral _ fun G hG => ?_
    have hGφ : Measurable fun p : ℝ × ℝ => G (√(-2 * log p.1) * cos (2 * π * p.2) * √T) := hG.comp hφ
    have hbig : U01.restrict (big 0) = U01 := by
      refine Measure.restrict_eq_self_of_ae_mem ?_
      rw [U01, ← restrict_Ioo_eq_restrict_Ico]
      exact (ae_restrict_mem measurableSet_Ioo).mono fun x hx => mem_big.2 (by rw [abs_of_pos hx.1]; exact hx.1)
    rw [lintegral_map hG hφ, lintegral_prod _ hGφ.aemeasurable, hbig, exp_int]
    have e1 : ∀ s : ℝ, -2 * log (exp (-s)) = 2 * s := fun s => by rw [log_exp]; ring
    simp only [e1]
    rw [rayleigh_int (fun r => ∫⁻ y, G (r * cos (2 * π * y) * √T) ∂U01)]
    have e2 : ∀ r : ℝ, ENNReal.ofReal (exp (-(r ^ 2 / 2))) * ∫⁻ y, G (r * cos (2 * π * y) * √T) ∂U01 =
        ∫⁻ y, (fun p : ℝ × ℝ => gss 1 p.1 * G (p.1 * √T) * gss 1 p.2) (r * cos (2 * π * y), r * sin (2 * π * y)) ∂U01 := by
      intro r
      have hmy : Measurable fun y : ℝ => G (r * cos (2 * π * y) * √T) := hG.comp (by fun_prop)
      rw [← lintegral_const_mul _ hmy]
      refine lintegral_congr fun y => ?_
      have : exp (-(r ^ 2 / 2)) = exp (-((r * cos (2 * π * y)) ^ 2 / (2 * 1))) * exp (-((r * sin (2 * π * y)) ^ 2 / (2 * 1))) := by
        rw [← exp_add]
        congr 1
        have := sin_sq_add_cos_sq (2 * π * y)
        linear_combination r ^ 2 / 2 * this
      rw [this, ENNReal.ofReal_mul (exp_pos _).le]
      simp only [gss]
      ring
    simp only [e2]
    have hm1 : Measurable fun a : ℝ => gss 1 a * G (a * √T) := (measurable_gss 1).mul (hG.comp (by fun_prop))
    have hm2 : Measurable fun p : ℝ × ℝ => gss 1 p.1 * G (p.1 * √T) * gss 1 p.2 :=
      (hm1.comp measurable_fst).mul ((measurable_gss 1).comp measurable_snd)
    rw [polar_int _ hm2]
    have e3 : ∫⁻ p : ℝ × ℝ, gss 1 p.1 * G (p.1 * √T) * gss 1 p.2 = (∫⁻ a, gss 1 a * G (a * √T)) * C := by
      rw [show (volume : Measure (ℝ × ℝ)) = volume.prod volume from rfl, lintegral_prod _ hm2.aemeasurable]
      have : ∀ a : ℝ, ∫⁻ b, gss 1 a * G (a * √T) * gss 1 b = gss 1 a * G (a * √T) * C := fun a =>
        lintegral_const_mul _ (measurable_gss 1)
      simp only [this]
      exact lintegral_mul_const _ hm1
    have himg : (fun z : ℝ => z / √T) '' univ = univ := by
      rw [image_univ, range_eq_univ]
      exact fun a => ⟨a * √T, by field_simp⟩
    have e4 : ∫⁻ a, gss 1 a * G (a * √T) = ENNReal.ofReal (1 / √T) * ∫⁻ z, gss T z * G z := by
      have hmz : Measurable fun z : ℝ => gss T z * G z := (measurable_gss T).mul hG
      rw [← lintegral_const_mul _ hmz, ← setLIntegral_univ, ← himg, lintegral_image_eq_lintegral_abs_deriv_mul (f' := fun _ => 1 / √T) .univ
        (fun z _ => by simpa using ((hasDerivAt_id z).div_const √T).hasDerivWithinAt (s := univ))
        (fun a _ b _ h => by
          have h : a / √T = b / √T := h
          field_simp at h; exact h), setLIntegral_univ]
      refine lintegral_congr fun z => ?_
      have e5 : z / √T * √T = z := by field_simp
      have e6 : gss 1 (z / √T) = gss T z := by
        unfold gss
        rw [div_pow, sq_sqrt hT.le]
        congr 3
        field_simp
      simp only [e5, e6, abs_of_pos (one_div_pos.2 hTs)]
    rw [e3, e4, lintegral_smul_measure, lintegral_withDensity_eq_lintegral_mul volume (measurable_gss T) hG, smul_eq_mul]
    simp only [Pi.mul_apply]
    ring

/-- The non-relativistic branch. -/
theorem samp_gauss {T : ℝ} (hT : 0 < T) (h2 : T < 1 / 2) :
    Samp (fun ω => (juttnerSinge 0 T ω).bind fun r => some ((r.1.x, r.1.y, r.1.z), r.2))
      (volume.withDensity fun v : ℝ × ℝ × ℝ => ENNReal.ofReal (exp (-((v.1 ^ 2 + (v.2.1 ^ 2 + v.2.2 ^ 2)) / (2 * T))))) := by
  have hn := samp_normal hT
  have := hn.finite
  have h3 := ((hn.pair hn).pair hn).map (φ := MeasurableEquiv.prodAssoc) MeasurableEquiv.prodAssoc.measurable
  have hm2 : Measurable fun z : ℝ × ℝ => gss T z.1 * gss T z.2 :=
    ((measurable_gss T).comp measurable_fst).mul ((measurable_gss T).comp measurable_snd)
  rw [Measure.prodAssoc_prod, prod_withDensity (measurable_gss T) (measurable_gss T),
    prod_withDensity (measurable_gss T) hm2] at h3
  refine (h3.congr fun ω => ?_).scale (k := 1) one_ne_zero ENNReal.one_ne_top ?_
  · simp only [juttnerSinge, h2, if_true]
    cases ha : normal 0 T ω with
    | none => rfl
    | some a =>
      simp only [Option.bind_some, Option.bind_eq_bind]
      cases hb : normal 0 T a.2 with
      | none => rfl
      | some b =>
        simp only [Option.bind_some]
        cases hc : normal 0 T b.2 with
        | none => rfl
        | some c => rfl
  · rw [one_smul]
    refine congrArg (Measure.withDensity volume) (funext fun v => ?_)
    simp only [Pi.mul_apply, Function.comp, gss]
    rw [← ENNReal.ofReal_mul (exp_pos _).le, ← ENNReal.ofReal_mul (exp_pos _).le, ← exp_add, ← exp_add]
    congr 2
    ring

end Entity.EnergyDist
