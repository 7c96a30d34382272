import Verif.Lemmas.EnergySobol
import Mathlib.Analysis.SpecialFunctions.Pow.Deriv
import Mathlib.Analysis.SpecialFunctions.Pow.Integral

/-!
# Power laws
-/

namespace Entity.EnergyDist

open Entity.Push MeasureTheory Set Real
open scoped ENNReal

/-- The kinetic energy of a random number (energy_dist.h:54-62). -/
noncomputable def kin (a b p x : ℝ) : ℝ :=
  if p ≠ -1 then (a ^ (1 + p) + (-a ^ (1 + p) + b ^ (1 + p)) * x) ^ (1 / (1 + p)) else a ^ (1 - x) * b ^ x

/-- Its inverse. -/
noncomputable def ink (a b p E : ℝ) : ℝ :=
  if p ≠ -1 then (E ^ (1 + p) - a ^ (1 + p)) / (b ^ (1 + p) - a ^ (1 + p)) else log (E / a) / log (b / a)

/-- The constant of the distribution. -/
noncomputable def knorm (a b p : ℝ) : ℝ :=
  if p ≠ -1 then (1 + p) / (b ^ (1 + p) - a ^ (1 + p)) else 1 / log (b / a)

variable {a b p : ℝ}

theorem pow_diff (ha : 0 < a) (hab : a < b) (hp : p ≠ -1) : 0 < (1 + p) / (b ^ (1 + p) - a ^ (1 + p)) := by
  rcases lt_or_gt_of_ne (show 1 + p ≠ 0 from fun h => hp (by linarith)) with h | h
  · have := rpow_lt_rpow_of_neg ha hab h
    exact div_pos_of_neg_of_neg h (by linarith)
  · have := rpow_lt_rpow ha.le hab h
    exact div_pos h (by linarith)

theorem knorm_pos (ha : 0 < a) (hab : a < b) : 0 < knorm a b p := by
  unfold knorm
  split
  · rename_i hp; exact pow_diff ha hab hp
  · have : 0 < log (b / a) := log_pos ((one_lt_div ha).2 hab)
    positivity

theorem ink_deriv (ha : 0 < a) (hab : a < b) {E : ℝ} (hE : 0 < E) :
    HasDerivAt (ink a b p) (knorm a b p * E ^ p) E := by
  unfold ink knorm
  split
  · have h := ((hasDerivAt_rpow_const (p := 1 + p) (Or.inl hE.ne')).sub_const (a ^ (1 + p))).div_const
      (b ^ (1 + p) - a ^ (1 + p))
    refine h.congr_deriv ?_
    rw [show 1 + p - 1 = p by ring]; ring
  · rename_i hp
    rw [not_not] at hp
    have h1 : HasDerivAt (fun E : ℝ => E / a) (1 / a) E := (hasDerivAt_id E).div_const a
    have h := (h1.log (by positivity)).div_const (log (b / a))
    refine h.congr_deriv ?_
    rw [hp, rpow_neg_one]
    field_simp

theorem kin_ink (ha : 0 < a) (hab : a < b) {E : ℝ} (hE : 0 < E) : kin a b p (ink a b p E) = E := by
  have hb : 0 < b := ha.trans hab
  unfold kin ink
  split
  · rename_i hp
    have h0 : 1 + p ≠ 0 := fun h => hp (by linarith)
    have hd : b ^ (1 + p) - a ^ (1 + p) ≠ 0 := by
      have := pow_diff ha hab hp
      intro h; rw [h] at this; simp at this
    have e : a ^ (1 + p) + (-a ^ (1 + p) + b ^ (1 + p)) * ((E ^ (1 + p) - a ^ (1 + p)) / (b ^ (1 + p) - a ^ (1 + p))) =
        E ^ (1 + p) := by
      rw [neg_add_eq_sub]; field_simp; ring
    rw [e, ← rpow_mul hE.le, mul_one_div_cancel h0, rpow_one]
  · have hl : 0 < log (b / a) := log_pos ((one_lt_div ha).2 hab)
    set x := log (E / a) / log (b / a) with hx
    have e : a ^ (1 - x) * b ^ x = a * (b / a) ^ x := by
      rw [rpow_sub ha, rpow_one, div_rpow hb.le ha.le]; ring
    rw [e, rpow_def_of_pos (by positivity), hx, mul_div_cancel₀ _ hl.ne', exp_log (by positivity)]
    field_simp

theorem ink_mono (ha : 0 < a) (hab : a < b) : StrictMonoOn (ink a b p) (Ioi 0) := by
  refine strictMonoOn_of_deriv_pos (convex_Ioi 0) (fun E hE => (ink_deriv ha hab hE).continuousAt.continuousWithinAt) ?_
  intro E hE
  rw [interior_Ioi] at hE
  have hE : 0 < E := hE
  rw [(ink_deriv ha hab hE).deriv]
  have := knorm_pos (p := p) ha hab
  positivity

theorem ink_a (ha : 0 < a) : ink a b p a = 0 := by
  unfold ink; split <;> simp [ha.ne']

theorem ink_b (ha : 0 < a) (hab : a < b) : ink a b p b = 1 := by
  unfold ink; split
  · rename_i hp
    have := pow_diff ha hab hp
    refine div_self ?_
    intro h; rw [h] at this; simp at this
  · exact div_self (log_pos ((one_lt_div ha).2 hab)).ne'

theorem ink_image (ha : 0 < a) (hab : a < b) : ink a b p '' Ioo a b = Ioo 0 1 := by
  have hb : 0 < b := ha.trans hab
  have hm := ink_mono (p := p) ha hab
  ext x
  constructor
  · rintro ⟨E, hE, rfl⟩
    have hE0 : 0 < E := ha.trans hE.1
    rw [← ink_a (b := b) (p := p) ha, ← ink_b (p := p) ha hab]
    exact ⟨hm ha hE0 hE.1, hm hE0 hb hE.2⟩
  · intro hx
    have hc : ContinuousOn (ink a b p) (Icc a b) := fun E hE =>
      (ink_deriv ha hab (lt_of_lt_of_le ha hE.1)).continuousAt.continuousWithinAt
    have := intermediate_value_Ioo hab.le hc
    rw [ink_a ha, ink_b ha hab] at this
    exact this hx

/-- The kinetic energy is distributed as its power. -/
theorem kin_int (ha : 0 < a) (hab : a < b) (G : ℝ → ℝ≥0∞) :
    ∫⁻ x, G (kin a b p x) ∂U01 =
      ENNReal.ofReal (knorm a b p) * ∫⁻ E in Ioo a b, ENNReal.ofReal (E ^ p) * G E := by
  rw [lintegral_U01, ← ink_image (p := p) ha hab, lintegral_image_eq_lintegral_abs_deriv_mul measurableSet_Ioo
    (fun E hE => (ink_deriv ha hab (ha.trans hE.1)).hasDerivWithinAt)
    (fun x hx y hy h => (ink_mono (p := p) ha hab).injOn (ha.trans hx.1) (ha.trans hy.1) h),
    ← lintegral_const_mul' _ _ ENNReal.ofReal_ne_top]
  refine setLIntegral_congr_fun measurableSet_Ioo fun E hE => ?_
  have hE0 : 0 < E := ha.trans hE.1
  have := knorm_pos (p := p) ha hab
  simp only [kin_ink ha hab hE0]
  rw [abs_of_pos (by positivity), ENNReal.ofReal_mul this.le, mul_assoc]

/-- Weight of a radius. -/
noncomputable def pwgt (a b p u : ℝ) : ℝ≥0∞ :=
  if a < √(1 + u ^ 2) - 1 ∧ √(1 + u ^ 2) - 1 < b then
    ENNReal.ofReal ((√(1 + u ^ 2) - 1) ^ p / (√(1 + u ^ 2) * u)) else 0

theorem measurableSet_band (a b : ℝ) : MeasurableSet {u : ℝ | a < √(1 + u ^ 2) - 1 ∧ √(1 + u ^ 2) - 1 < b} := by
  have h1 : MeasurableSet {u : ℝ | a < √(1 + u ^ 2) - 1} := measurableSet_lt measurable_const (by fun_prop)
  have h2 : MeasurableSet {u : ℝ | √(1 + u ^ 2) - 1 < b} := measurableSet_lt (by fun_prop) measurable_const
  exact h1.inter h2

theorem measurable_pwgt : Measurable (pwgt a b p) := by
  unfold pwgt
  exact Measurable.ite (measurableSet_band a b) (by fun_prop) measurable_const

theorem pow_int (ha : 0 < a) (G : ℝ → ℝ≥0∞) :
    ∫⁻ E in Ioo a b, ENNReal.ofReal (E ^ p) * G √((1 + E) ^ 2 - 1) =
      ∫⁻ u in Ioi 0, ENNReal.ofReal (u ^ 2) * pwgt a b p u * G u := by
  have hroot : ∀ u : ℝ, 0 < 1 + u ^ 2 := fun u => by positivity
  set S := {u : ℝ | 0 < u ∧ a < √(1 + u ^ 2) - 1 ∧ √(1 + u ^ 2) - 1 < b} with hS
  have hSm : MeasurableSet S := measurableSet_Ioi.inter (measurableSet_band a b)
  have himg : (fun u : ℝ => √(1 + u ^ 2) - 1) '' S = Ioo a b := by
    ext E
    constructor
    · rintro ⟨u, hu, rfl⟩; exact hu.2
    · intro hE
      have hE0 : 0 < E := ha.trans hE.1
      have h1 : 0 < (1 + E) ^ 2 - 1 := by nlinarith
      have h2 : √(1 + √((1 + E) ^ 2 - 1) ^ 2) - 1 = E := by
        rw [sq_sqrt h1.le, show 1 + ((1 + E) ^ 2 - 1) = (1 + E) ^ 2 by ring, sqrt_sq (by linarith)]; ring
      exact ⟨√((1 + E) ^ 2 - 1), ⟨sqrt_pos.2 h1, by rw [h2]; exact hE.1, by rw [h2]; exact hE.2⟩, h2⟩
  rw [← himg, lintegral_image_eq_lintegral_abs_deriv_mul (f' := fun u => u / √(1 + u ^ 2)) hSm
    (fun u _ => by
      have h1 : HasDerivAt (fun u : ℝ => 1 + u ^ 2) (2 * u) u := by simpa using (hasDerivAt_pow 2 u).const_add 1
      have h2 := (h1.sqrt (hroot u).ne').sub_const 1
      refine (h2.congr_deriv ?_).hasDerivWithinAt
      rw [mul_div_mul_left _ _ (by norm_num)])
    (fun x hx y hy h => by
      have h : √(1 + x ^ 2) - 1 = √(1 + y ^ 2) - 1 := h
      have h2 : √(1 + x ^ 2) = √(1 + y ^ 2) := by linarith
      rw [sqrt_inj (hroot x).le (hroot y).le] at h2
      exact (sq_eq_sq₀ hx.1.le hy.1.le).1 (by linarith)),
    ← lintegral_indicator hSm, ← lintegral_indicator measurableSet_Ioi]
  refine lintegral_congr fun u => ?_
  by_cases hu : 0 < u
  · rw [indicator_of_mem (show u ∈ Ioi (0 : ℝ) from hu)]
    by_cases hs : a < √(1 + u ^ 2) - 1 ∧ √(1 + u ^ 2) - 1 < b
    · rw [indicator_of_mem (show u ∈ S from ⟨hu, hs⟩), pwgt, if_pos hs]
      have hg : 0 < √(1 + u ^ 2) := sqrt_pos.2 (hroot u)
      have hE : 0 ≤ √(1 + u ^ 2) - 1 := (ha.trans hs.1).le
      have e : √((1 + (√(1 + u ^ 2) - 1)) ^ 2 - 1) = u := by
        rw [add_sub_cancel, sq_sqrt (hroot u).le, add_sub_cancel_left, sqrt_sq hu.le]
      rw [e, ← mul_assoc, ← ENNReal.ofReal_mul (abs_nonneg _), ← ENNReal.ofReal_mul (by positivity),
        abs_of_pos (by positivity)]
      congr 2
      field_simp
    · rw [indicator_of_notMem (show u ∉ S from fun h => hs h.2), pwgt, if_neg hs]
      simp
  · rw [indicator_of_notMem (show u ∉ Ioi (0 : ℝ) from hu), indicator_of_notMem (show u ∉ S from fun h => hu h.1)]

/-- The power-law sampler. -/
theorem samp_powerlaw (ha : 0 < a) (hab : a < b) :
    Samp (fun ω => (some (powerlaw a b p ω)).bind fun r => some ((r.1.x, r.1.y, r.1.z), r.2))
      (volume.withDensity fun v => pwgt a b p (len v)) := by
  have hk : Measurable (kin a b p) := by
    unfold kin
    split <;> fun_prop
  have hm : Measurable fun x => √((1 + kin a b p x) ^ 2 - 1) := by fun_prop
  refine (samp_direction (samp_draw.map hm) (k := ENNReal.ofReal (knorm a b p)) ?_ ENNReal.ofReal_ne_top
    measurable_pwgt fun G hG => ?_).congr fun ω => rfl
  · rw [Ne, ENNReal.ofReal_eq_zero, not_le]; exact knorm_pos ha hab
  · rw [lintegral_map hG hm, kin_int ha hab (fun E => G √((1 + E) ^ 2 - 1)), pow_int ha]

end Entity.EnergyDist
