import Verif.Lemmas.Sampler
import Mathlib.Analysis.SpecialFunctions.PolarCoord
import Mathlib.MeasureTheory.Function.JacobianOneDim
import Mathlib.MeasureTheory.Measure.Haar.Unique

/-!
# Integrals behind the energy distributions
-/

namespace Entity.EnergyDist

open Entity.Push MeasureTheory Set Real
open scoped ENNReal

theorem lintegral_U01 (f : ℝ → ℝ≥0∞) : ∫⁻ x, f x ∂U01 = ∫⁻ x in Ioo 0 1, f x := by
  unfold U01
  rw [restrict_Ioo_eq_restrict_Ico]

/-- A uniform angle and the radius give area. -/
theorem polar_int (G : ℝ × ℝ → ℝ≥0∞) (hG : Measurable G) :
    ∫⁻ ρ in Ioi 0, ENNReal.ofReal ρ * ∫⁻ y, G (ρ * cos (2 * π * y), ρ * sin (2 * π * y)) ∂U01 =
      (ENNReal.ofReal (2 * π))⁻¹ * ∫⁻ p, G p := by
  have hπ : ENNReal.ofReal (2 * π) ≠ 0 := by simp [pi_pos]
  have hang : ∀ ρ : ℝ, ∫⁻ φ in Ioo (-π) π, G (-(ρ * cos φ), -(ρ * sin φ)) =
      ENNReal.ofReal (2 * π) * ∫⁻ y, G (ρ * cos (2 * π * y), ρ * sin (2 * π * y)) ∂U01 := by
    intro ρ
    have himg : (fun y : ℝ => 2 * π * y - π) '' Ioo 0 1 = Ioo (-π) π := by
      ext φ
      simp only [mem_image, mem_Ioo]
      constructor
      · rintro ⟨y, ⟨h1, h2⟩, rfl⟩
        constructor <;> nlinarith [pi_pos]
      · rintro ⟨h1, h2⟩
        refine ⟨(φ + π) / (2 * π), ⟨by have := pi_pos; apply div_pos <;> linarith, ?_⟩, ?_⟩
        · rw [div_lt_one (by have := pi_pos; linarith)]; linarith
        · field_simp; ring
    rw [← himg, lintegral_image_eq_lintegral_abs_deriv_mul (f' := fun _ => 2 * π) measurableSet_Ioo
      (fun x _ => by
        have := ((hasDerivAt_id x).const_mul (2 * π)).sub_const π
        simpa using this.hasDerivWithinAt)
      (fun a _ b _ h => by
        have := pi_pos
        have h' : 2 * π * a = 2 * π * b := by simpa using h
        exact mul_left_cancel₀ (by positivity) h'), lintegral_U01, abs_of_pos (by have := pi_pos; linarith),
      lintegral_const_mul']
    · congr 1
      refine lintegral_congr fun y => ?_
      rw [cos_sub_pi, sin_sub_pi]
      simp
    · exact ENNReal.ofReal_ne_top
  have hneg : ∫⁻ p, G p = ∫⁻ p : ℝ × ℝ, G (-p) := (lintegral_neg_eq_self (μ := volume) G).symm
  rw [hneg, ← lintegral_comp_polarCoord_symm, polarCoord_target]
  have hG' : Measurable fun p : ℝ × ℝ => ENNReal.ofReal p.1 • G (-polarCoord.symm p) := by
    simp only [polarCoord_symm_apply]
    fun_prop
  rw [Measure.volume_eq_prod, setLIntegral_prod _ hG'.aemeasurable, ← lintegral_const_mul']
  · refine setLIntegral_congr_fun measurableSet_Ioi fun ρ _ => ?_
    simp only [polarCoord_symm_apply, smul_eq_mul, Prod.neg_mk]
    rw [lintegral_const_mul' _ _ ENNReal.ofReal_ne_top, hang, mul_left_comm, ← mul_assoc (ENNReal.ofReal (2 * π))⁻¹,
      ENNReal.inv_mul_cancel hπ ENNReal.ofReal_ne_top, one_mul]
  · exact ENNReal.inv_ne_top.2 hπ

/-- `direction` with the components as a tuple. -/
noncomputable def dirT (u x y : ℝ) : ℝ × ℝ × ℝ :=
  (u * (2 * x - 1), 2 * u * √(x * (1 - x)) * cos (2 * π * y), 2 * u * √(x * (1 - x)) * sin (2 * π * y))

/-- Length of a vector. -/
noncomputable def len (v : ℝ × ℝ × ℝ) : ℝ := √(v.1 ^ 2 + (v.2.1 ^ 2 + v.2.2 ^ 2))

theorem measurable_len : Measurable len := by unfold len; fun_prop

/-- The uniform distribution of the component along an axis. -/
theorem cosine_int {u : ℝ} (hu : 0 < u) (M : ℝ → ℝ → ℝ≥0∞) :
    ∫⁻ x, M (u * (2 * x - 1)) (2 * u * √(x * (1 - x))) ∂U01 =
      (ENNReal.ofReal (2 * u))⁻¹ * ∫⁻ a in Ioo (-u) u, M a √(u ^ 2 - a ^ 2) := by
  have himg : (fun x : ℝ => u * (2 * x - 1)) '' Ioo 0 1 = Ioo (-u) u := by
    ext a
    simp only [mem_image, mem_Ioo]
    constructor
    · rintro ⟨x, ⟨h1, h2⟩, rfl⟩
      constructor <;> nlinarith
    · rintro ⟨h1, h2⟩
      refine ⟨(a / u + 1) / 2, ⟨?_, ?_⟩, by field_simp; ring⟩
      · have : -1 < a / u := by rw [lt_div_iff₀ hu]; linarith
        linarith
      · have : a / u < 1 := by rw [div_lt_one hu]; linarith
        linarith
  rw [← himg, lintegral_image_eq_lintegral_abs_deriv_mul (f' := fun _ => 2 * u) measurableSet_Ioo
    (fun x _ => by
      have := (((hasDerivAt_id x).const_mul 2).sub_const 1).const_mul u
      have e : u * (2 * 1) = 2 * u := by ring
      rw [e] at this
      exact this.hasDerivWithinAt)
    (fun a _ b _ h => by
      have h' : 2 * a - 1 = 2 * b - 1 := mul_left_cancel₀ hu.ne' h
      linarith), abs_of_pos (by linarith), lintegral_const_mul' _ _ ENNReal.ofReal_ne_top, ← mul_assoc,
    ENNReal.inv_mul_cancel (by simp [hu]) ENNReal.ofReal_ne_top, one_mul, lintegral_U01]
  refine setLIntegral_congr_fun measurableSet_Ioo fun x hx => ?_
  congr 1
  have : u ^ 2 - (u * (2 * x - 1)) ^ 2 = (2 * u) ^ 2 * (x * (1 - x)) := by ring
  rw [this, Real.sqrt_mul (x := (2 * u) ^ 2) (by positivity), Real.sqrt_sq (by linarith)]

/-- From the distance to a point of the axis to the distance to the axis. -/
theorem radius_int (a : ℝ) (g : ℝ → ℝ → ℝ≥0∞) :
    ∫⁻ u in Ioi |a|, ENNReal.ofReal u * g u √(u ^ 2 - a ^ 2) =
      ∫⁻ ρ in Ioi 0, ENNReal.ofReal ρ * g √(a ^ 2 + ρ ^ 2) ρ := by
  have himg : (fun ρ : ℝ => √(a ^ 2 + ρ ^ 2)) '' Ioi 0 = Ioi |a| := by
    ext u
    simp only [mem_image, mem_Ioi]
    constructor
    · rintro ⟨ρ, h, rfl⟩
      rw [← Real.sqrt_sq_eq_abs]
      exact Real.sqrt_lt_sqrt (by positivity) (by nlinarith)
    · intro h
      have hu : 0 < u := lt_of_le_of_lt (abs_nonneg a) h
      have h2 : a ^ 2 < u ^ 2 := by rw [← sq_abs a]; exact pow_lt_pow_left₀ h (abs_nonneg a) (by norm_num)
      refine ⟨√(u ^ 2 - a ^ 2), Real.sqrt_pos.2 (by linarith), ?_⟩
      rw [Real.sq_sqrt (by linarith), add_sub_cancel, Real.sqrt_sq hu.le]
  rw [← himg, lintegral_image_eq_lintegral_abs_deriv_mul (f' := fun ρ => ρ / √(a ^ 2 + ρ ^ 2)) measurableSet_Ioi
    (fun ρ hρ => by
      have hρ : 0 < ρ := hρ
      have h1 : HasDerivAt (fun ρ : ℝ => a ^ 2 + ρ ^ 2) (2 * ρ) ρ := by
        simpa using ((hasDerivAt_pow 2 ρ).const_add (a ^ 2))
      have h2 := h1.sqrt (by positivity)
      have e : 2 * ρ / (2 * √(a ^ 2 + ρ ^ 2)) = ρ / √(a ^ 2 + ρ ^ 2) := by
        rw [mul_div_mul_left _ _ (by norm_num)]
      rw [e] at h2
      exact h2.hasDerivWithinAt)
    (fun x hx y hy h => by
      have hx : 0 < x := hx
      have hy : 0 < y := hy
      have h' : a ^ 2 + x ^ 2 = a ^ 2 + y ^ 2 := (Real.sqrt_inj (by positivity) (by positivity)).1 h
      have : x ^ 2 = y ^ 2 := by linarith
      exact (pow_left_inj₀ hx.le hy.le (by norm_num)).1 this)]
  refine setLIntegral_congr_fun measurableSet_Ioi fun ρ hρ => ?_
  have hρ : 0 < ρ := hρ
  have hs : 0 < √(a ^ 2 + ρ ^ 2) := Real.sqrt_pos.2 (by positivity)
  rw [← mul_assoc, ← ENNReal.ofReal_mul (abs_nonneg _), abs_of_pos (by positivity), div_mul_cancel₀ _ hs.ne',
    Real.sq_sqrt (by positivity), add_sub_cancel_left, Real.sqrt_sq hρ.le]

/-- A radius with density `u ^ 2 w u` in a uniform direction has density `w` of the length in space. -/
theorem dir_int (w : ℝ → ℝ≥0∞) (hw : Measurable w) (F : ℝ × ℝ × ℝ → ℝ≥0∞) (hF : Measurable F) :
    ∫⁻ u in Ioi 0, ENNReal.ofReal (u ^ 2) * w u * ∫⁻ x, ∫⁻ y, F (dirT u x y) ∂U01 ∂U01 =
      (ENNReal.ofReal (4 * π))⁻¹ * ∫⁻ v, w (len v) * F v := by
  set M : ℝ → ℝ → ℝ≥0∞ := fun a ρ => ∫⁻ y, F (a, ρ * cos (2 * π * y), ρ * sin (2 * π * y)) ∂U01 with hM
  have hMm : Measurable (Function.uncurry M) := by
    have : Measurable fun q : (ℝ × ℝ) × ℝ => F (q.1.1, q.1.2 * cos (2 * π * q.2), q.1.2 * sin (2 * π * q.2)) :=
      hF.comp (by fun_prop)
    exact this.lintegral_prod_right'
  have h1 : ∀ u ∈ Ioi (0 : ℝ), ENNReal.ofReal (u ^ 2) * w u * ∫⁻ x, ∫⁻ y, F (dirT u x y) ∂U01 ∂U01 =
      2⁻¹ * ∫⁻ a, (Ioo (-u) u).indicator (fun a => ENNReal.ofReal u * (w u * M a √(u ^ 2 - a ^ 2))) a := by
    intro u hu
    have hu : 0 < u := hu
    have := cosine_int hu M
    simp only [hM] at this
    simp only [dirT]
    rw [this, lintegral_indicator measurableSet_Ioo]
    have hw' : ∀ a, ENNReal.ofReal u * (w u * M a √(u ^ 2 - a ^ 2)) = ENNReal.ofReal u * w u * M a √(u ^ 2 - a ^ 2) :=
      fun a => by ring
    simp only [hw']
    rw [lintegral_const_mul]
    · have e : ENNReal.ofReal (u ^ 2) = ENNReal.ofReal u * ENNReal.ofReal u := by
        rw [← ENNReal.ofReal_mul hu.le]; congr 1; ring
      have e2 : (ENNReal.ofReal (2 * u))⁻¹ = 2⁻¹ * (ENNReal.ofReal u)⁻¹ := by
        rw [ENNReal.ofReal_mul (by norm_num), ENNReal.mul_inv (by simp) (by simp)]
        simp
      have e3 : ENNReal.ofReal u * (ENNReal.ofReal u)⁻¹ = 1 :=
        ENNReal.mul_inv_cancel (by simp [hu]) ENNReal.ofReal_ne_top
      rw [e, e2]
      calc _ = 2⁻¹ * ((ENNReal.ofReal u * (ENNReal.ofReal u)⁻¹) * (ENNReal.ofReal u * w u *
            ∫⁻ a in Ioo (-u) u, M a √(u ^ 2 - a ^ 2))) := by ring
        _ = _ := by rw [e3, one_mul]
    · exact hMm.comp (f := fun a : ℝ => (a, √(u ^ 2 - a ^ 2))) (by fun_prop)
  rw [setLIntegral_congr_fun measurableSet_Ioi h1, lintegral_const_mul' _ _ (by simp)]
  have hK : Measurable fun q : ℝ × ℝ => ({q : ℝ × ℝ | 0 < q.1 ∧ |q.2| < q.1}).indicator
      (fun q => ENNReal.ofReal q.1 * (w q.1 * M q.2 √(q.1 ^ 2 - q.2 ^ 2))) q := by
    refine Measurable.indicator ?_ ?_
    · refine (ENNReal.measurable_ofReal.comp measurable_fst).mul ((hw.comp measurable_fst).mul ?_)
      exact hMm.comp (f := fun q : ℝ × ℝ => (q.2, √(q.1 ^ 2 - q.2 ^ 2))) (by fun_prop)
    · exact (measurableSet_lt measurable_const measurable_fst).inter
        (measurableSet_lt (continuous_abs.measurable.comp measurable_snd) measurable_fst)
  have h2 : ∫⁻ u in Ioi 0, ∫⁻ a, (Ioo (-u) u).indicator (fun a => ENNReal.ofReal u * (w u * M a √(u ^ 2 - a ^ 2))) a =
      ∫⁻ u, ∫⁻ a, ({q : ℝ × ℝ | 0 < q.1 ∧ |q.2| < q.1}).indicator
        (fun q => ENNReal.ofReal q.1 * (w q.1 * M q.2 √(q.1 ^ 2 - q.2 ^ 2))) (u, a) := by
    rw [← lintegral_indicator measurableSet_Ioi]
    refine lintegral_congr fun u => ?_
    by_cases hu : 0 < u
    · rw [indicator_of_mem (show u ∈ Ioi (0 : ℝ) from hu)]
      refine lintegral_congr fun a => ?_
      by_cases ha : |a| < u
      · rw [indicator_of_mem (show a ∈ Ioo (-u) u from abs_lt.1 ha),
          indicator_of_mem (show (u, a) ∈ {q : ℝ × ℝ | 0 < q.1 ∧ |q.2| < q.1} from ⟨hu, ha⟩)]
      · rw [indicator_of_notMem (show a ∉ Ioo (-u) u from fun h => ha (abs_lt.2 h)),
          indicator_of_notMem (show (u, a) ∉ {q : ℝ × ℝ | 0 < q.1 ∧ |q.2| < q.1} from fun h => ha h.2)]
    · rw [indicator_of_notMem (show u ∉ Ioi (0 : ℝ) from hu)]
      symm
      refine (lintegral_congr fun a => ?_).trans lintegral_zero
      rw [indicator_of_notMem (show (u, a) ∉ {q : ℝ × ℝ | 0 < q.1 ∧ |q.2| < q.1} from fun h => hu h.1)]
  rw [h2, lintegral_lintegral_swap hK.aemeasurable]
  have h3 : ∀ a : ℝ, ∫⁻ u, ({q : ℝ × ℝ | 0 < q.1 ∧ |q.2| < q.1}).indicator
        (fun q => ENNReal.ofReal q.1 * (w q.1 * M q.2 √(q.1 ^ 2 - q.2 ^ 2))) (u, a) =
      (ENNReal.ofReal (2 * π))⁻¹ * ∫⁻ p, w (len (a, p)) * F (a, p) := by
    intro a
    have : ∀ u, ({q : ℝ × ℝ | 0 < q.1 ∧ |q.2| < q.1}).indicator
        (fun q => ENNReal.ofReal q.1 * (w q.1 * M q.2 √(q.1 ^ 2 - q.2 ^ 2))) (u, a) =
        (Ioi |a|).indicator (fun u => ENNReal.ofReal u * (w u * M a √(u ^ 2 - a ^ 2))) u := by
      intro u
      by_cases ha : |a| < u
      · rw [indicator_of_mem (show u ∈ Ioi |a| from ha), indicator_of_mem
          (show (u, a) ∈ {q : ℝ × ℝ | 0 < q.1 ∧ |q.2| < q.1} from ⟨lt_of_le_of_lt (abs_nonneg a) ha, ha⟩)]
      · rw [indicator_of_notMem (show u ∉ Ioi |a| from ha),
          indicator_of_notMem (show (u, a) ∉ {q : ℝ × ℝ | 0 < q.1 ∧ |q.2| < q.1} from fun h => ha h.2)]
    simp only [this]
    rw [lintegral_indicator measurableSet_Ioi, radius_int a (fun u ρ => w u * M a ρ),
      ← polar_int (fun p => w (len (a, p)) * F (a, p))
        ((hw.comp (measurable_len.comp (by fun_prop))).mul (hF.comp (by fun_prop)))]
    refine setLIntegral_congr_fun measurableSet_Ioi fun ρ _ => ?_
    simp only [len]
    have e : ∀ y, (ρ * cos (2 * π * y)) ^ 2 + (ρ * sin (2 * π * y)) ^ 2 = ρ ^ 2 := fun y => by
      rw [mul_pow, mul_pow, ← mul_add, cos_sq_add_sin_sq, mul_one]
    simp only [e]
    rw [lintegral_const_mul]
    exact hF.comp (by fun_prop)
  simp only [h3]
  rw [lintegral_const_mul, ← mul_assoc]
  · congr 1
    · rw [← ENNReal.mul_inv (by simp) (by simp), ← ENNReal.ofReal_ofNat, ← ENNReal.ofReal_mul (by norm_num)]
      congr 2
      ring
    · exact (lintegral_prod (μ := (volume : Measure ℝ)) (ν := (volume : Measure (ℝ × ℝ)))
        (fun v => w (len v) * F v) ((hw.comp measurable_len).mul hF).aemeasurable).symm
  · exact (((hw.comp measurable_len).mul hF)).lintegral_prod_right'

end Entity.EnergyDist
