import Verif.Lemmas.EnergyLaw
import Mathlib.MeasureTheory.Integral.IntervalIntegral.FundThmCalculus
import Mathlib.Analysis.SpecialFunctions.Integrals.Basic

/-!
# Exponentials, and the accepted radii
-/

namespace Entity.EnergyDist

open Entity.Push MeasureTheory Set Real
open scoped ENNReal

/-- The logarithm of a uniform number is exponentially distributed. -/
theorem exp_int (G : ℝ → ℝ≥0∞) :
    ∫⁻ x, G x ∂U01 = ∫⁻ s in Ioi 0, ENNReal.ofReal (exp (-s)) * G (exp (-s)) := by
  have himg : (fun s : ℝ => exp (-s)) '' Ioi 0 = Ioo 0 1 := by
    ext x
    simp only [mem_image, mem_Ioi, mem_Ioo]
    constructor
    · rintro ⟨s, hs, rfl⟩
      exact ⟨exp_pos _, by rw [exp_lt_one_iff]; linarith⟩
    · rintro ⟨h0, h1⟩
      exact ⟨-log x, by have := log_neg h0 h1; linarith, by rw [neg_neg, exp_log h0]⟩
  rw [lintegral_U01, ← himg, lintegral_image_eq_lintegral_abs_deriv_mul (f' := fun s => -exp (-s)) measurableSet_Ioi
    (fun s _ => by
      have h1 : HasDerivAt (fun s : ℝ => -s) (-1) s := (hasDerivAt_id s).neg
      have := h1.exp
      simpa using this.hasDerivWithinAt)
    (fun a _ b _ h => by have := exp_injective h; linarith)]
  refine setLIntegral_congr_fun measurableSet_Ioi fun s _ => ?_
  simp only [abs_neg, abs_of_pos (exp_pos _)]

/-- The sum of two lengths. -/
theorem conv_int (k h : ℝ → ℝ≥0∞) (hk : Measurable k) (hh : Measurable h) :
    ∫⁻ a in Ioi 0, ∫⁻ b in Ioi 0, k a * h (a + b) = ∫⁻ s in Ioi 0, (∫⁻ a in Ioo 0 s, k a) * h s := by
  have h1 : ∀ a ∈ Ioi (0 : ℝ), ∫⁻ b in Ioi 0, k a * h (a + b) =
      ∫⁻ s, ({q : ℝ × ℝ | 0 < q.1 ∧ q.1 < q.2}).indicator (fun q => k q.1 * h q.2) (a, s) := by
    intro a ha
    have ha : 0 < a := ha
    have e : ∀ s, ({q : ℝ × ℝ | 0 < q.1 ∧ q.1 < q.2}).indicator (fun q => k q.1 * h q.2) (a, s) =
        (Ioi a).indicator (fun s => k a * h s) s := by
      intro s
      by_cases hs : a < s
      · rw [indicator_of_mem (show s ∈ Ioi a from hs),
          indicator_of_mem (show (a, s) ∈ {q : ℝ × ℝ | 0 < q.1 ∧ q.1 < q.2} from ⟨ha, hs⟩)]
      · rw [indicator_of_notMem (show s ∉ Ioi a from hs),
          indicator_of_notMem (show (a, s) ∉ {q : ℝ × ℝ | 0 < q.1 ∧ q.1 < q.2} from fun h => hs h.2)]
    simp only [e]
    rw [lintegral_indicator measurableSet_Ioi, ← lintegral_indicator measurableSet_Ioi,
      ← lintegral_indicator measurableSet_Ioi,
      ← lintegral_add_left_eq_self (μ := volume) ((Ioi a).indicator fun s => k a * h s) a]
    refine lintegral_congr fun b => ?_
    by_cases hb : 0 < b
    · rw [indicator_of_mem (show b ∈ Ioi (0 : ℝ) from hb),
        indicator_of_mem (show a + b ∈ Ioi a from by simpa using hb)]
    · rw [indicator_of_notMem (show b ∉ Ioi (0 : ℝ) from hb),
        indicator_of_notMem (show a + b ∉ Ioi a from by simpa using hb)]
  have hK : Measurable fun q : ℝ × ℝ => ({q : ℝ × ℝ | 0 < q.1 ∧ q.1 < q.2}).indicator (fun q => k q.1 * h q.2) q :=
    ((hk.comp measurable_fst).mul (hh.comp measurable_snd)).indicator
      ((measurableSet_lt measurable_const measurable_fst).inter (measurableSet_lt measurable_fst measurable_snd))
  have h2 : ∫⁻ a in Ioi 0, ∫⁻ b in Ioi 0, k a * h (a + b) =
      ∫⁻ a, ∫⁻ s, ({q : ℝ × ℝ | 0 < q.1 ∧ q.1 < q.2}).indicator (fun q => k q.1 * h q.2) (a, s) := by
    rw [setLIntegral_congr_fun measurableSet_Ioi h1, ← lintegral_indicator measurableSet_Ioi]
    refine lintegral_congr fun a => ?_
    by_cases ha : 0 < a
    · rw [indicator_of_mem (show a ∈ Ioi (0 : ℝ) from ha)]
    · rw [indicator_of_notMem (show a ∉ Ioi (0 : ℝ) from ha)]
      symm
      refine (lintegral_congr fun s => ?_).trans lintegral_zero
      rw [indicator_of_notMem (show (a, s) ∉ {q : ℝ × ℝ | 0 < q.1 ∧ q.1 < q.2} from fun h => ha h.1)]
  rw [h2, lintegral_lintegral_swap hK.aemeasurable, ← lintegral_indicator measurableSet_Ioi]
  refine lintegral_congr fun s => ?_
  have e : ∀ a, ({q : ℝ × ℝ | 0 < q.1 ∧ q.1 < q.2}).indicator (fun q => k q.1 * h q.2) (a, s) =
      (Ioo 0 s).indicator (fun a => k a * h s) a := by
    intro a
    by_cases ha : 0 < a ∧ a < s
    · rw [indicator_of_mem (show a ∈ Ioo 0 s from ha),
        indicator_of_mem (show (a, s) ∈ {q : ℝ × ℝ | 0 < q.1 ∧ q.1 < q.2} from ha)]
    · rw [indicator_of_notMem (show a ∉ Ioo 0 s from ha),
        indicator_of_notMem (show (a, s) ∉ {q : ℝ × ℝ | 0 < q.1 ∧ q.1 < q.2} from ha)]
  simp only [e]
  rw [lintegral_indicator measurableSet_Ioo, lintegral_mul_const _ hk]
  by_cases hs : 0 < s
  · rw [indicator_of_mem (show s ∈ Ioi (0 : ℝ) from hs)]
  · rw [indicator_of_notMem (show s ∉ Ioi (0 : ℝ) from hs), Ioo_eq_empty hs]
    simp

theorem id_int {s : ℝ} (hs : 0 < s) : ∫⁻ t in Ioo 0 s, ENNReal.ofReal t = ENNReal.ofReal (s ^ 2 / 2) := by
  rw [restrict_Ioo_eq_restrict_Ioc, ← ofReal_integral_eq_lintegral_ofReal]
  · rw [← intervalIntegral.integral_of_le hs.le, integral_id]
    congr 1; ring
  · exact (continuous_id.integrableOn_Icc (a := 0) (b := s)).mono_set Ioc_subset_Icc_self
  · exact (ae_restrict_mem measurableSet_Ioc).mono fun t ht => ht.1.le

/-- The logarithm of the product of three uniform numbers. -/
theorem gamma_int (G : ℝ → ℝ≥0∞) (hG : Measurable G) :
    ∫⁻ x, ∫⁻ y, ∫⁻ z, G (x * y * z) ∂U01 ∂U01 ∂U01 =
      ∫⁻ s in Ioi 0, ENNReal.ofReal (s ^ 2 / 2) * (ENNReal.ofReal (exp (-s)) * G (exp (-s))) := by
  set h : ℝ → ℝ≥0∞ := fun s => ENNReal.ofReal (exp (-s)) * G (exp (-s)) with hh
  have hm : Measurable h := by
    have : Measurable fun s : ℝ => exp (-s) := by fun_prop
    exact (ENNReal.measurable_ofReal.comp this).mul (hG.comp this)
  have he : Measurable fun s : ℝ => ENNReal.ofReal (exp (-s)) := by fun_prop
  have e1 : ∀ a b c : ℝ, ENNReal.ofReal (exp (-a)) * (ENNReal.ofReal (exp (-b)) * (ENNReal.ofReal (exp (-c)) *
      G (exp (-a) * exp (-b) * exp (-c)))) = 1 * h (a + (b + c)) := by
    intro a b c
    have : -(a + (b + c)) = -a + -b + -c := by ring
    simp only [hh, one_mul, this, exp_add]
    rw [ENNReal.ofReal_mul (by positivity), ENNReal.ofReal_mul (by positivity)]
    ring
  have e2 : ∀ a b : ℝ, ENNReal.ofReal (exp (-a)) * (ENNReal.ofReal (exp (-b)) * ∫⁻ c in Ioi 0, ENNReal.ofReal (exp (-c)) *
      G (exp (-a) * exp (-b) * exp (-c))) = ∫⁻ c in Ioi 0, 1 * h (a + (b + c)) := by
    intro a b
    have : Measurable fun c : ℝ => ENNReal.ofReal (exp (-c)) * G (exp (-a) * exp (-b) * exp (-c)) :=
      he.mul (hG.comp (by fun_prop))
    rw [← lintegral_const_mul _ this, ← lintegral_const_mul _ (this.const_mul _)]
    exact lintegral_congr fun c => e1 a b c
  have e3 : ∀ a : ℝ, ENNReal.ofReal (exp (-a)) * ∫⁻ b in Ioi 0, ENNReal.ofReal (exp (-b)) *
      ∫⁻ c in Ioi 0, ENNReal.ofReal (exp (-c)) * G (exp (-a) * exp (-b) * exp (-c)) =
      ∫⁻ b in Ioi 0, ∫⁻ c in Ioi 0, 1 * h (a + (b + c)) := by
    intro a
    have hm2 : Measurable fun q : ℝ × ℝ => ENNReal.ofReal (exp (-q.2)) * G (exp (-a) * exp (-q.1) * exp (-q.2)) :=
      (he.comp measurable_snd).mul (hG.comp (by fun_prop))
    have hm3 : Measurable fun b : ℝ => ENNReal.ofReal (exp (-b)) *
        ∫⁻ c in Ioi 0, ENNReal.ofReal (exp (-c)) * G (exp (-a) * exp (-b) * exp (-c)) :=
      he.mul hm2.lintegral_prod_right'
    rw [← lintegral_const_mul _ hm3]
    exact lintegral_congr fun b => e2 a b
  simp only [exp_int, e3]
  have e4 : ∀ a : ℝ, ∫⁻ b in Ioi 0, ∫⁻ c in Ioi 0, 1 * h (a + (b + c)) = ∫⁻ s in Ioi 0, ENNReal.ofReal s * h (s + a) := by
    intro a
    rw [conv_int (fun _ => 1) (fun s => h (a + s)) measurable_const (hm.comp (by fun_prop))]
    refine setLIntegral_congr_fun measurableSet_Ioi fun s _ => ?_
    simp [add_comm]
  simp only [e4]
  rw [lintegral_lintegral_swap, conv_int _ h ENNReal.measurable_ofReal hm]
  · exact setLIntegral_congr_fun measurableSet_Ioi fun s hs => by simp only [id_int hs, hh]
  · exact Measurable.aemeasurable
      ((ENNReal.measurable_ofReal.comp measurable_snd).mul (hm.comp (measurable_snd.add measurable_fst)))

end Entity.EnergyDist
