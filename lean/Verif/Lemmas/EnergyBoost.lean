import Verif.Lemmas.EnergyLaw

/-!
# The boost of a distribution
-/

namespace Entity.EnergyDist

open Entity.Push MeasureTheory Set Real
open scoped ENNReal

/-- A choice made by a uniform random number. -/
theorem choice_int (t : ℝ) (h1 : t < 1) (A B : ℝ≥0∞) :
    ∫⁻ ξ, (if ξ < t then A else B) ∂U01 = ENNReal.ofReal t * A + ENNReal.ofReal (min 1 (1 - t)) * B := by
  have hs : MeasurableSet {ξ : ℝ | ξ < t} := measurableSet_Iio
  have e : ∀ ξ, (if ξ < t then A else B) = ({ξ : ℝ | ξ < t}).indicator (fun _ => A) ξ +
      ({ξ : ℝ | ξ < t}ᶜ).indicator (fun _ => B) ξ := by
    intro ξ
    by_cases h : ξ < t <;> simp [h, indicator]
  simp only [e]
  rw [lintegral_add_left (measurable_const.indicator hs), lintegral_indicator_const hs,
    lintegral_indicator_const hs.compl, mul_comm A, mul_comm B]
  congr 2
  · unfold U01
    rw [Measure.restrict_apply hs]
    have : {ξ : ℝ | ξ < t} ∩ Ico 0 1 = Ico 0 t := by
      ext ξ; simp only [mem_inter_iff, mem_setOf_eq, mem_Ico]; constructor
      · rintro ⟨a, b, -⟩; exact ⟨b, a⟩
      · rintro ⟨a, b⟩; exact ⟨b, a, by linarith⟩
    rw [this, Real.volume_Ico, sub_zero]
  · unfold U01
    rw [Measure.restrict_apply hs.compl]
    have : {ξ : ℝ | ξ < t}ᶜ ∩ Ico 0 1 = Ico (max 0 t) 1 := by
      ext ξ; simp only [mem_inter_iff, mem_compl_iff, mem_setOf_eq, mem_Ico, not_lt, sup_le_iff]; tauto
    rw [this, Real.volume_Ico]
    congr 1
    rcases le_total 0 t with h | h
    · rw [max_eq_right h, min_eq_right (by linarith)]
    · rw [max_eq_left h, min_eq_left (by linarith), sub_zero]

section
variable (s U : ℝ)

/-- Lorentz factor for the component `x` along the boost. -/
noncomputable def gam (x : ℝ) : ℝ := √(1 + (x ^ 2 + s))

/-- The boosted component. -/
noncomputable def bst (x : ℝ) : ℝ := √(1 + U ^ 2) * (x + U / √(1 + U ^ 2) * gam s x)

variable {s U}

theorem gam_sq (hs : 0 ≤ s) (x : ℝ) : gam s x ^ 2 = 1 + (x ^ 2 + s) := Real.sq_sqrt (by positivity)

theorem gam_pos (hs : 0 ≤ s) (x : ℝ) : 0 < gam s x := Real.sqrt_pos.2 (by positivity)

theorem abs_lt_gam (hs : 0 ≤ s) (x : ℝ) : |x| < gam s x :=
  abs_lt_of_sq_lt_sq (by rw [gam_sq hs]; linarith) (gam_pos hs x).le

theorem bst_eq (x : ℝ) : bst s U x = √(1 + U ^ 2) * x + U * gam s x := by
  have h : 0 < √(1 + U ^ 2) := Real.sqrt_pos.2 (by positivity)
  unfold bst
  field_simp

theorem gam_bst (hs : 0 ≤ s) (x : ℝ) : gam s (bst s U x) = √(1 + U ^ 2) * gam s x + U * x := by
  have hG : √(1 + U ^ 2) ^ 2 = 1 + U ^ 2 := Real.sq_sqrt (by positivity)
  have hg := gam_sq hs x
  have hpos : 0 ≤ √(1 + U ^ 2) * gam s x + U * x := by
    have h1 : |U| ≤ √(1 + U ^ 2) := by rw [← Real.sqrt_sq_eq_abs]; exact Real.sqrt_le_sqrt (by linarith)
    have h2 : |U * x| ≤ √(1 + U ^ 2) * gam s x := by
      rw [abs_mul]
      exact mul_le_mul h1 (abs_lt_gam hs x).le (abs_nonneg _) (Real.sqrt_nonneg _)
    have := (abs_le.1 h2).1
    linarith
  have : 1 + (bst s U x ^ 2 + s) = (√(1 + U ^ 2) * gam s x + U * x) ^ 2 := by
    rw [bst_eq]
    linear_combination (x ^ 2 - gam s x ^ 2) * hG - hg
  conv_lhs => unfold gam
  rw [this, Real.sqrt_sq hpos]

/-- The energy in the frame before the boost. -/
theorem rest_energy (hs : 0 ≤ s) (x : ℝ) :
    √(1 + U ^ 2) * gam s (bst s U x) - U * bst s U x = gam s x := by
  have hG : √(1 + U ^ 2) ^ 2 = 1 + U ^ 2 := Real.sq_sqrt (by positivity)
  rw [gam_bst hs, bst_eq]
  linear_combination gam s x * hG

theorem bst_bst (hs : 0 ≤ s) (x : ℝ) : bst s (-U) (bst s U x) = x := by
  have hG : √(1 + U ^ 2) ^ 2 = 1 + U ^ 2 := Real.sq_sqrt (by positivity)
  rw [bst_eq (U := -U), gam_bst hs, neg_sq, bst_eq]
  linear_combination x * hG

theorem bst_deriv (hs : 0 ≤ s) (x : ℝ) :
    HasDerivAt (bst s U) (√(1 + U ^ 2) * (1 + U / √(1 + U ^ 2) * (x / gam s x))) x := by
  have h1 : HasDerivAt (fun x : ℝ => 1 + (x ^ 2 + s)) (2 * x) x := by
    simpa using ((hasDerivAt_pow 2 x).add_const s).const_add 1
  have h2 := h1.sqrt (by positivity)
  have e : 2 * x / (2 * √(1 + (x ^ 2 + s))) = x / gam s x := by
    rw [mul_div_mul_left _ _ (by norm_num)]; rfl
  rw [e] at h2
  exact (((hasDerivAt_id x).add (h2.const_mul _)).const_mul _)

theorem bst_image (hs : 0 ≤ s) : bst s U '' univ = univ := by
  rw [image_univ, range_eq_univ]
  intro y
  refine ⟨bst s (-U) y, ?_⟩
  have := bst_bst (s := s) (U := -U) hs y
  rwa [neg_neg] at this

theorem bst_inj (hs : 0 ≤ s) : InjOn (bst s U) univ := by
  intro x _ y _ h
  rw [← bst_bst (U := U) hs x, h, bst_bst hs]

theorem beta_lt : |U / √(1 + U ^ 2)| < 1 := by
  have hp : 0 < √(1 + U ^ 2) := Real.sqrt_pos.2 (by positivity)
  rw [abs_div, abs_of_pos hp, div_lt_one hp, ← Real.sqrt_sq_eq_abs]
  exact Real.sqrt_lt_sqrt (by positivity) (by linarith)

theorem tilt_lt (hs : 0 ≤ s) (x : ℝ) : |U / √(1 + U ^ 2) * (x / gam s x)| < 1 := by
  have h2 : |x / gam s x| ≤ 1 := by
    rw [abs_div, abs_of_pos (gam_pos hs x), div_le_one (gam_pos hs x)]
    exact (abs_lt_gam hs x).le
  rw [abs_mul]
  exact lt_of_le_of_lt (mul_le_of_le_one_right (abs_nonneg _) h2) beta_lt

/-- Flipping and boosting one component of a distribution that is symmetric in it. -/
theorem boost_int1 (hs : 0 ≤ s) (j g : ℝ → ℝ≥0∞) (hj : Measurable j) (hg : Measurable g) :
    ∫⁻ x, j (gam s x) * ∫⁻ ξ, g (√(1 + U ^ 2) * ((if -(U / √(1 + U ^ 2)) * x > gam s x * ξ then -x else x) +
      U / √(1 + U ^ 2) * gam s x)) ∂U01 =
    (ENNReal.ofReal √(1 + U ^ 2))⁻¹ * ∫⁻ x, j (√(1 + U ^ 2) * gam s x - U * x) * g x := by
  set β := U / √(1 + U ^ 2) with hβ
  have hGp : 0 < √(1 + U ^ 2) := Real.sqrt_pos.2 (by positivity)
  have hgm : Measurable (gam s) := by unfold gam; fun_prop
  have hbm : Measurable (bst s U) := by unfold bst; fun_prop
  have hgneg : ∀ x, gam s (-x) = gam s x := fun x => by unfold gam; rw [neg_sq]
  have hbneg : ∀ x, √(1 + U ^ 2) * (-x + β * gam s x) = bst s U (-x) := fun x => by
    unfold bst; rw [hgneg]
  have ht : ∀ x, -(β * (x / gam s x)) < 1 := fun x => by
    have := (abs_lt.1 (tilt_lt (U := U) hs x)).1
    linarith
  have h1 : ∀ x, ∫⁻ ξ, g (√(1 + U ^ 2) * ((if -β * x > gam s x * ξ then -x else x) + β * gam s x)) ∂U01 =
      ENNReal.ofReal (-(β * (x / gam s x))) * g (bst s U (-x)) +
        ENNReal.ofReal (min 1 (1 - -(β * (x / gam s x)))) * g (bst s U x) := by
    intro x
    rw [← choice_int _ (ht x)]
    refine lintegral_congr fun ξ => ?_
    have hiff : (-β * x > gam s x * ξ) ↔ ξ < -(β * (x / gam s x)) := by
      have : -(β * (x / gam s x)) = (-β * x) / gam s x := by ring
      rw [this, lt_div_iff₀ (gam_pos hs x), gt_iff_lt, mul_comm]
    by_cases h : ξ < -(β * (x / gam s x))
    · simp only [hiff, h, if_true, hbneg]
    · simp only [hiff, h, if_false]
      rfl
  simp only [h1]
  simp only [mul_add]
  have m1 : Measurable fun x => j (gam s x) * (ENNReal.ofReal (-(β * (x / gam s x))) * g (bst s U (-x))) := by
    refine (hj.comp hgm).mul (Measurable.mul ?_ (hg.comp (hbm.comp measurable_neg)))
    exact ENNReal.measurable_ofReal.comp ((measurable_const.mul (measurable_id.div hgm)).neg)
  rw [lintegral_add_left m1]
  have h2 : ∫⁻ x, j (gam s x) * (ENNReal.ofReal (-(β * (x / gam s x))) * g (bst s U (-x))) =
      ∫⁻ x, j (gam s x) * (ENNReal.ofReal (β * (x / gam s x)) * g (bst s U x)) := by
    rw [← lintegral_neg_eq_self (μ := volume)
      (fun x => j (gam s x) * (ENNReal.ofReal (β * (x / gam s x)) * g (bst s U x)))]
    refine lintegral_congr fun x => ?_
    simp only [hgneg, neg_div, mul_neg]
  have m2 : Measurable fun x => j (gam s x) * (ENNReal.ofReal (β * (x / gam s x)) * g (bst s U x)) := by
    refine (hj.comp hgm).mul (Measurable.mul ?_ (hg.comp hbm))
    exact ENNReal.measurable_ofReal.comp (measurable_const.mul (measurable_id.div hgm))
  rw [h2, ← lintegral_add_left m2]
  have h3 : ∀ x, j (gam s x) * (ENNReal.ofReal (β * (x / gam s x)) * g (bst s U x)) +
      j (gam s x) * (ENNReal.ofReal (min 1 (1 - -(β * (x / gam s x)))) * g (bst s U x)) =
      ENNReal.ofReal (1 + β * (x / gam s x)) * (j (gam s x) * g (bst s U x)) := by
    intro x
    have hlt := abs_lt.1 (tilt_lt (U := U) hs x)
    have : ENNReal.ofReal (β * (x / gam s x)) + ENNReal.ofReal (min 1 (1 - -(β * (x / gam s x)))) =
        ENNReal.ofReal (1 + β * (x / gam s x)) := by
      rw [sub_neg_eq_add]
      rcases le_total 0 (β * (x / gam s x)) with h | h
      · rw [min_eq_left (by linarith), ← ENNReal.ofReal_add h zero_le_one, add_comm]
      · rw [min_eq_right (by linarith), ENNReal.ofReal_of_nonpos h, zero_add]
    rw [← this]
    ring
  simp only [h3]
  have h4 : ∫⁻ x, j (√(1 + U ^ 2) * gam s x - U * x) * g x =
      ENNReal.ofReal √(1 + U ^ 2) * ∫⁻ x, ENNReal.ofReal (1 + β * (x / gam s x)) * (j (gam s x) * g (bst s U x)) := by
    rw [← setLIntegral_univ, ← bst_image (s := s) (U := U) hs, lintegral_image_eq_lintegral_abs_deriv_mul .univ
      (fun x _ => (bst_deriv hs x).hasDerivWithinAt) (bst_inj hs), setLIntegral_univ,
      ← lintegral_const_mul' _ _ ENNReal.ofReal_ne_top]
    refine lintegral_congr fun x => ?_
    have hlt := abs_lt.1 (tilt_lt (U := U) hs x)
    rw [rest_energy hs, abs_of_pos (mul_pos hGp (by linarith)), ENNReal.ofReal_mul hGp.le, mul_assoc]
  rw [h4, ← mul_assoc, ENNReal.inv_mul_cancel (by simpa using hGp) ENNReal.ofReal_ne_top, one_mul]

end

/-- Flip and boost along the first axis, with the components as a tuple. -/
noncomputable def boostT (U ξ : ℝ) (v : ℝ × ℝ × ℝ) : ℝ × ℝ × ℝ :=
  (√(1 + U ^ 2) * ((if -(U / √(1 + U ^ 2)) * v.1 > gam (v.2.1 ^ 2 + v.2.2 ^ 2) v.1 * ξ then -v.1 else v.1) +
    U / √(1 + U ^ 2) * gam (v.2.1 ^ 2 + v.2.2 ^ 2) v.1), v.2)

/-- Lorentz factor. -/
noncomputable def lor (v : ℝ × ℝ × ℝ) : ℝ := gam (v.2.1 ^ 2 + v.2.2 ^ 2) v.1

theorem measurable_lor : Measurable lor := by unfold lor gam; fun_prop

theorem measurable_boostT (U : ℝ) : Measurable fun p : (ℝ × ℝ × ℝ) × ℝ => boostT U p.2 p.1 := by
  unfold boostT gam
  refine Measurable.prodMk (measurable_const.mul (Measurable.add (Measurable.ite ?_ ?_ ?_) ?_)) ?_ <;> try fun_prop
  exact measurableSet_lt (by fun_prop) (by fun_prop)

/-- Flipping and boosting a distribution that is a function of the energy gives the same function of the
energy in the moving frame. -/
theorem boost_int (U : ℝ) (j : ℝ → ℝ≥0∞) (hj : Measurable j) (F : ℝ × ℝ × ℝ → ℝ≥0∞) (hF : Measurable F) :
    ∫⁻ v, j (lor v) * ∫⁻ ξ, F (boostT U ξ v) ∂U01 =
      (ENNReal.ofReal √(1 + U ^ 2))⁻¹ * ∫⁻ v, j (√(1 + U ^ 2) * lor v - U * v.1) * F v := by
  have hm1 : Measurable fun v : ℝ × ℝ × ℝ => j (lor v) * ∫⁻ ξ, F (boostT U ξ v) ∂U01 :=
    (hj.comp measurable_lor).mul (hF.comp (measurable_boostT U)).lintegral_prod_right'
  have hm2 : Measurable fun v : ℝ × ℝ × ℝ => j (√(1 + U ^ 2) * lor v - U * v.1) * F v := by
    refine (hj.comp ?_).mul hF
    exact (measurable_const.mul measurable_lor).sub (measurable_const.mul measurable_fst)
  rw [Measure.volume_eq_prod, lintegral_prod_symm _ hm1.aemeasurable, lintegral_prod_symm _ hm2.aemeasurable,
    ← lintegral_const_mul']
  · refine lintegral_congr fun p => ?_
    exact boost_int1 (s := p.1 ^ 2 + p.2 ^ 2) (U := U) (by positivity) j (fun x => F (x, p)) hj (hF.comp (by fun_prop))
  · have hGp : 0 < √(1 + U ^ 2) := Real.sqrt_pos.2 (by positivity)
    exact ENNReal.inv_ne_top.2 (by simpa using hGp)

end Entity.EnergyDist
