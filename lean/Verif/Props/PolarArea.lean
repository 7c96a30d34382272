import Mathlib.Analysis.SpecialFunctions.Integrals.Basic
import Mathlib.Analysis.SpecialFunctions.Trigonometric.Bounds
import Mathlib.Analysis.Calculus.Deriv.MeanValue
import Verif.Lemmas.MetricDeriv

/-!
# C89: area of the half cell next to the axis
-/

namespace Entity.Metric

open Real

/-! ## Specification -/

/-- Area of the cap of half-angle `b` around the axis where the area element is `w * sin θ`. -/
noncomputable def capArea (w b : ℝ) : ℝ := ∫ t in (0)..b, w * sin t

/-- `x` agrees with `y` up to a relative error of 10⁻¹⁴. -/
def Agrees (x y : ℝ) : Prop := |x - y| ≤ 1 / 10 ^ 14 * |y|

/-! ## Helpers -/

theorem capArea_eq (w b : ℝ) : capArea w b = w * (1 - cos b) := by
  simp [capArea, integral_sin]

theorem nonneg_of_deriv_nonneg {f f' : ℝ → ℝ} (h0 : f 0 = 0) (hd : ∀ x, HasDerivAt f (f' x) x)
    (hn : ∀ x, 0 ≤ x → 0 ≤ f' x) {x : ℝ} (hx : 0 ≤ x) : 0 ≤ f x := by
  have := monotoneOn_of_hasDerivWithinAt_nonneg (convex_Ici (0 : ℝ)) (f := f) (f' := f')
    (fun y _ => (hd y).continuousAt.continuousWithinAt) (fun y _ => (hd y).hasDerivWithinAt)
    (fun y hy => hn y (by rw [interior_Ici] at hy; exact le_of_lt hy))
  have := this (Set.mem_Ici.2 le_rfl) (Set.mem_Ici.2 hx) hx
  rwa [h0] at this

theorem pow_d (c : ℝ) (n : ℕ) (x : ℝ) : HasDerivAt (fun x : ℝ => c * x ^ n) (c * (n * x ^ (n - 1))) x :=
  ((hasDerivAt_id x).pow n |>.const_mul c).congr_deriv (by simp)

theorem cos_le4 {x : ℝ} (hx : 0 ≤ x) : cos x ≤ 1 - x ^ 2 / 2 + x ^ 4 / 24 := by
  have := nonneg_of_deriv_nonneg (f := fun x => 1 - (1 / 2) * x ^ 2 + (1 / 24) * x ^ 4 - cos x)
    (f' := fun x => sin x - (x - x ^ 3 / 6)) (by simp) (fun y => by
      refine HasDerivAt.congr_deriv
        (((pow_d (1 / 2) 2 y).const_sub 1).add (pow_d (1 / 24) 4 y) |>.sub (hasDerivAt_cos y)) ?_
      simp; ring) (fun y hy => by
      have := abs_sub_sin_le y
      rw [abs_of_nonneg hy] at this
      have := (abs_le.1 this).2
      linarith) hx
  beta_reduce at this
  linarith

theorem sin_le5 {x : ℝ} (hx : 0 ≤ x) : sin x ≤ x - x ^ 3 / 6 + x ^ 5 / 120 := by
  have := nonneg_of_deriv_nonneg
    (f := fun x => 1 * x ^ 1 - (1 / 6) * x ^ 3 + (1 / 120) * x ^ 5 - sin x)
    (f' := fun x => 1 - x ^ 2 / 2 + x ^ 4 / 24 - cos x) (by simp) (fun y => by
      refine HasDerivAt.congr_deriv
        (((pow_d 1 1 y).sub (pow_d (1 / 6) 3 y)).add (pow_d (1 / 120) 5 y) |>.sub (hasDerivAt_sin y)) ?_
      simp; ring) (fun y hy => by have := cos_le4 hy; linarith) hx
  beta_reduce at this
  linarith

theorem cos_ge6 {x : ℝ} (hx : 0 ≤ x) : 1 - x ^ 2 / 2 + x ^ 4 / 24 - x ^ 6 / 720 ≤ cos x := by
  have := nonneg_of_deriv_nonneg
    (f := fun x => cos x - 1 + (1 / 2) * x ^ 2 - (1 / 24) * x ^ 4 + (1 / 720) * x ^ 6)
    (f' := fun x => x - x ^ 3 / 6 + x ^ 5 / 120 - sin x) (by simp) (fun y => by
      refine HasDerivAt.congr_deriv
        (((((hasDerivAt_cos y).sub_const 1).add (pow_d (1 / 2) 2 y)).sub (pow_d (1 / 24) 4 y)).add
          (pow_d (1 / 720) 6 y)) ?_
      simp; ring) (fun y hy => by have := sin_le5 hy; linarith) hx
  beta_reduce at this
  linarith

/-- The small-angle formula for the full cell angle `d`. -/
theorem small_agrees {w d : ℝ} (h0 : 0 ≤ d) (hd : 1 / 2 * d < 1 / 1000) :
    Agrees (w * (48 - d ^ 2) * d ^ 2 / 384) (w * (1 - cos (1 / 2 * d))) := by
  set x := 1 / 2 * d with hx
  have hx0 : 0 ≤ x := by positivity
  have e : w * (48 - d ^ 2) * d ^ 2 / 384 = w * (x ^ 2 / 2 - x ^ 4 / 24) := by
    have : d = 2 * x := by rw [hx]; ring
    rw [this]; ring
  have l := cos_ge6 hx0
  have u := cos_le4 hx0
  rw [e, Agrees, ← mul_sub, abs_mul, abs_mul]
  clear_value x
  have x2 : 0 ≤ x ^ 2 := by positivity
  have x4 : x ^ 4 ≤ 1 / 10 ^ 12 := by
    have : x ^ 4 ≤ (1 / 1000) ^ 4 := by gcongr
    norm_num at this ⊢
    exact this
  have x22 : x ^ 2 ≤ 1 / 10 ^ 6 := by
    have : x ^ 2 ≤ (1 / 1000) ^ 2 := by gcongr
    norm_num at this ⊢
    exact this
  have x6 : x ^ 6 = x ^ 4 * x ^ 2 := by ring
  have x44 : x ^ 4 = x ^ 2 * x ^ 2 := by ring
  have h6 : x ^ 4 * x ^ 2 ≤ 1 / 10 ^ 12 * x ^ 2 := mul_le_mul_of_nonneg_right x4 x2
  have h4 : x ^ 2 * x ^ 2 ≤ 1 / 10 ^ 6 * x ^ 2 := mul_le_mul_of_nonneg_right x22 x2
  have a1 : |x ^ 2 / 2 - x ^ 4 / 24 - (1 - cos x)| ≤ 1 / (720 * 10 ^ 12) * x ^ 2 := by
    rw [abs_le]
    constructor
    · rw [x6] at l
      norm_num at l h6 ⊢
      linarith
    · norm_num at u ⊢
      nlinarith
  have a2 : 49 / 100 * x ^ 2 ≤ |1 - cos x| := by
    refine le_trans ?_ (le_abs_self _)
    rw [x44] at u
    norm_num at h4 ⊢
    linarith
  have hw := abs_nonneg w
  calc |w| * |x ^ 2 / 2 - x ^ 4 / 24 - (1 - cos x)| ≤ |w| * (1 / (720 * 10 ^ 12) * x ^ 2) := by gcongr
    _ ≤ |w| * (1 / 10 ^ 14 * (49 / 100 * x ^ 2)) := by
        refine mul_le_mul_of_nonneg_left ?_ hw
        norm_num
        linarith
    _ ≤ |w| * (1 / 10 ^ 14 * |1 - cos x|) := by gcongr
    _ = 1 / 10 ^ 14 * (|w| * |1 - cos x|) := by ring

theorem agrees_refl (x : ℝ) : Agrees x x := by
  unfold Agrees; rw [sub_self, abs_zero]; positivity

/-! ## Theorems -/

/-- **C89 (spherical, Kerr-Schild).** On a grid that starts on the axis, `polar_area` is the area of the
cap reaching to the middle of the first cell, with the area element `sqrt_det_h_tilde` has on the axis,
up to a relative error of 10⁻¹⁴, whichever formula is chosen. -/
theorem C89_uniform (e1 e2 : Ext) (h2 : e2.lo = 0) (h3 : 0 < e2.hi) (hn : 0 < e2.n) (ε a : ℝ) (x1 : ℝ) :
    (let m := Sph.make e1 e2
     Agrees (m.polarArea x1) (capArea (m.sqrtDetHTilde x1 / m.dt) (m.toPh2 (1 / 2)))) ∧
    (let m := KS.make ε a e1 e2
     Agrees (m.polarArea x1) (capArea (m.sqrtDetHTilde x1 0 / m.dt) (m.toPh2 (1 / 2)))) ∧
    (let m := KS0.make e1 e2
     Agrees (m.polarArea x1) (capArea (m.sqrtDetHTilde x1 / m.dt) (m.toPh2 (1 / 2)))) := by
  have hp : 0 < (e2.hi - e2.lo) / e2.n := by rw [h2, sub_zero]; positivity
  refine ⟨?_, ?_, ?_⟩ <;> intro m <;> rw [capArea_eq]
  · have hdt : 0 < m.dt := hp
    have e : m.sqrtDetHTilde x1 / m.dt = m.dr * (x1 * m.dr + m.rmin) ^ 2 := by
      simp only [Sph.sqrtDetHTilde]; field_simp
    have e' : m.toPh2 (1 / 2) = 1 / 2 * m.dt := by
      simp only [Sph.toPh2, show m.tmin = 0 from h2, add_zero]
    rw [e, e', Sph.polarArea]
    split_ifs with hs
    · exact small_agrees hdt.le hs
    · exact agrees_refl _
  · have hdt : 0 < m.dt := hp
    have hS : Sigma m.a (x1 * m.dr + m.rmin) (0 * m.dt + m.tmin) = (x1 * m.dr + m.rmin) ^ 2 + m.a ^ 2 := by
      simp [Sigma, show m.tmin = 0 from h2]
    have e : m.sqrtDetHTilde x1 0 / m.dt = m.dr * ((x1 * m.dr + m.rmin) ^ 2 + m.a ^ 2) *
        √(1 + 2 * (x1 * m.dr + m.rmin) / ((x1 * m.dr + m.rmin) ^ 2 + m.a ^ 2)) := by
      simp only [KS.sqrtDetHTilde, zed, hS]; field_simp
    have e' : m.toPh2 (1 / 2) = 1 / 2 * m.dt := by
      simp only [KS.toPh2, show m.tmin = 0 from h2, add_zero]
    rw [e, e', KS.polarArea]
    split_ifs with hs
    · exact small_agrees hdt.le hs
    · exact agrees_refl _
  · have hdt : 0 < m.dt := hp
    have e : m.sqrtDetHTilde x1 / m.dt = m.dr * (x1 * m.dr + m.rmin) ^ 2 := by
      simp only [KS0.sqrtDetHTilde]; field_simp
    have e' : m.toPh2 (1 / 2) = 1 / 2 * m.dt := by
      simp only [KS0.toPh2, show m.tmin = 0 from h2, add_zero]
    rw [e, e', KS0.polarArea]
    exact agrees_refl _

/-- Area the stretched metrics ought to give. -/
theorem q_tilde (m : QSph) (x1 : ℝ) (ht : m.deta ≠ 0)
    (hj : dthetaDeta m.ε m.h (0 * m.deta + m.etaMin) ≠ 0) :
    m.sqrtDetHTilde x1 0 / (m.deta * dthetaDeta m.ε m.h (0 * m.deta + m.etaMin)) =
      m.dchi * exp (x1 * m.dchi + m.chiMin) * (m.r0 + exp (x1 * m.dchi + m.chiMin)) ^ 2 := by
  simp only [QSph.sqrtDetHTilde]
  generalize dthetaDeta m.ε m.h (0 * m.deta + m.etaMin) = j at *
  field_simp

theorem qks_tilde (m : QKS) (x1 : ℝ) (ht : m.deta ≠ 0) (h0 : m.etaMin = 0)
    (hj : dthetaDeta m.ε m.h (0 * m.deta + m.etaMin) ≠ 0) :
    m.sqrtDetHTilde x1 0 / (m.deta * dthetaDeta m.ε m.h (0 * m.deta + m.etaMin)) =
      m.dchi * exp (x1 * m.dchi + m.chiMin) *
        ((m.r0 + exp (x1 * m.dchi + m.chiMin)) ^ 2 + m.a ^ 2) *
        √(1 + 2 * (m.r0 + exp (x1 * m.dchi + m.chiMin)) /
          ((m.r0 + exp (x1 * m.dchi + m.chiMin)) ^ 2 + m.a ^ 2)) := by
  have ha : m.ang 0 = 0 := by
    simp [QKS.ang, h0, eta2theta]
  have hS : Sigma m.a (m.r0 + exp (x1 * m.dchi + m.chiMin)) (m.ang 0) =
      (m.r0 + exp (x1 * m.dchi + m.chiMin)) ^ 2 + m.a ^ 2 := by
    simp [Sigma, ha]
  simp only [QKS.sqrtDetHTilde, zed, hS]; field_simp

/-- **C89 (quasi-spherical metrics, partial).** The same where the half cell is not below the small
angle. -/
theorem C89_stretched_partial (q : QSph) (k : QKS) (x1 : ℝ) :
    (q.etaMin = 0 → q.deta ≠ 0 → dthetaDeta q.ε q.h (0 * q.deta + q.etaMin) ≠ 0 → ¬ q.small →
      q.polarArea x1 = capArea (q.sqrtDetHTilde x1 0 /
        (q.deta * dthetaDeta q.ε q.h (0 * q.deta + q.etaMin))) (q.toPh2 (1 / 2))) ∧
    (k.etaMin = 0 → k.deta ≠ 0 → dthetaDeta k.ε k.h (0 * k.deta + k.etaMin) ≠ 0 → ¬ k.small →
      k.polarArea x1 = capArea (k.sqrtDetHTilde x1 0 /
        (k.deta * dthetaDeta k.ε k.h (0 * k.deta + k.etaMin))) (k.toPh2 (1 / 2))) := by
  refine ⟨fun h0 ht hj hs => ?_, fun h0 ht hj hs => ?_⟩
  · rw [capArea_eq, q_tilde q x1 ht hj, QSph.polarArea, QSph.toPh2, h0, add_zero]
    dsimp only
    rw [if_neg hs]
  · rw [capArea_eq, qks_tilde k x1 ht h0 hj, QKS.polarArea, QSph.toPh2, h0, add_zero]
    dsimp only
    rw [if_neg hs]

theorem quarter {w d : ℝ} (hw : 0 < w) (h0 : 0 < d) (hd : d < 1 / 1000) :
    w * (48 - d ^ 2) * d ^ 2 / 384 < 26 / 100 * (w * (1 - cos d)) := by
  have u := cos_le4 h0.le
  have d2 : d ^ 2 < 1 / 10 ^ 6 := by
    have : d ^ 2 < (1 / 1000) ^ 2 := by gcongr
    norm_num at this ⊢
    exact this
  have h2 : 0 < d ^ 2 := by positivity
  have d4 : d ^ 4 = d ^ 2 * d ^ 2 := by ring
  have : (48 - d ^ 2) * d ^ 2 / 384 < 26 / 100 * (1 - cos d) := by
    rw [d4] at u
    norm_num at d2
    nlinarith
  nlinarith [mul_lt_mul_of_pos_left this hw]

/-- **C89 (counterexample).** Whenever the half cell is below the small angle, the quasi-spherical
metrics give little more than a quarter of the area: the formula for the full cell is evaluated at half
its angle. -/
theorem C89_stretched_counterexample (q : QSph) (k : QKS) (x1 : ℝ) :
    (q.etaMin = 0 → 0 < q.deta → 0 < q.dchi → q.r0 + exp (x1 * q.dchi + q.chiMin) ≠ 0 →
      dthetaDeta q.ε q.h (0 * q.deta + q.etaMin) ≠ 0 → q.small → 0 < q.toPh2 (1 / 2) →
      q.toPh2 (1 / 2) < 1 / 1000 →
      q.polarArea x1 < 26 / 100 * capArea (q.sqrtDetHTilde x1 0 /
        (q.deta * dthetaDeta q.ε q.h (0 * q.deta + q.etaMin))) (q.toPh2 (1 / 2))) ∧
    (k.etaMin = 0 → 0 < k.deta → 0 < k.dchi → 0 < k.r0 + exp (x1 * k.dchi + k.chiMin) →
      dthetaDeta k.ε k.h (0 * k.deta + k.etaMin) ≠ 0 → k.small → 0 < k.toPh2 (1 / 2) →
      k.toPh2 (1 / 2) < 1 / 1000 →
      k.polarArea x1 < 26 / 100 * capArea (k.sqrtDetHTilde x1 0 /
        (k.deta * dthetaDeta k.ε k.h (0 * k.deta + k.etaMin))) (k.toPh2 (1 / 2))) := by
  refine ⟨fun h0 ht hd hr hj hs hp hl => ?_, fun h0 ht hd hr hj hs hp hl => ?_⟩
  · have he := exp_pos (x1 * q.dchi + q.chiMin)
    rw [capArea_eq, q_tilde q x1 ht.ne' hj, QSph.polarArea]
    rw [QSph.toPh2, h0, add_zero] at *
    dsimp only
    rw [if_pos hs]
    exact quarter (by positivity) hp hl
  · have he := exp_pos (x1 * k.dchi + k.chiMin)
    rw [capArea_eq, qks_tilde k x1 ht.ne' h0 hj, QKS.polarArea]
    rw [QSph.toPh2, h0, add_zero] at *
    dsimp only
    rw [if_pos hs]
    refine quarter ?_ hp hl
    have : 0 < 1 + 2 * (k.r0 + exp (x1 * k.dchi + k.chiMin)) /
      ((k.r0 + exp (x1 * k.dchi + k.chiMin)) ^ 2 + k.a ^ 2) := by positivity
    have := Real.sqrt_pos.2 this
    positivity

/-! ## Examples -/

/-- A quasi-spherical grid without stretching, of 4096 cells from pole to pole, satisfies the hypotheses
of the counterexample. -/
example : ∃ q, QSph.make (1 / 10 ^ 6) 0 0 ⟨1, exp 1, 64⟩ ⟨0, π, 4096⟩ = some q ∧ q.etaMin = 0 ∧
    0 < q.deta ∧ 0 < q.dchi ∧ q.small ∧ 0 < q.toPh2 (1 / 2) ∧ q.toPh2 (1 / 2) < 1 / 1000 ∧
    dthetaDeta q.ε q.h (0 * q.deta + q.etaMin) = 1 := by
  have h0 : |(0 : ℝ)| ≤ 1 / 10 ^ 6 := by rw [abs_zero]; positivity
  have hpi := pi_le_four
  have hpi' := pi_pos
  refine ⟨⟨1 / 10 ^ 6, 0, 0, 0, 0, 1 / 64, π / 4096,
    eta2theta (1 / 10 ^ 6) 0 (1 / 2 * (π / 4096)) < 1 / 1000⟩, ?_, rfl, by positivity, by norm_num, ?_, ?_,
    ?_, ?_⟩
  · have h1 : ¬ exp 1 ≤ 0 := not_le.2 (exp_pos 1)
    simp [QSph.make, log?, theta2eta, h1, show ¬ (1 : ℝ) ≤ 0 by norm_num]
  · simp only [eta2theta, if_pos h0]; linarith
  · simp only [QSph.toPh2, eta2theta, if_pos h0]; positivity
  · simp only [QSph.toPh2, eta2theta, if_pos h0]; linarith
  · simp [dthetaDeta]

end Entity.Metric
