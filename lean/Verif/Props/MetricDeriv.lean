import Verif.Lemmas.MetricDeriv

/-!
# C88: derivatives of the general-relativistic metrics
-/

namespace Entity.Metric

open Real

/-! ## Specification -/

/-- A number is zero or larger than the tolerance below which it would be replaced by zero. -/
def Resolved (ε x : ℝ) : Prop := x = 0 ∨ ε < |x|

theorem Resolved.clip {ε x : ℝ} (h : Resolved ε x) : clip ε x = x := by
  unfold Metric.clip
  rcases h with h | h
  · subst h; split_ifs <;> rfl
  · rw [if_neg (not_le.2 h)]

/-! ## Kerr-Schild -/

/-- **C88 (Kerr-Schild).** Off the axis, the functions the metric offers as derivatives of lapse, shift
and inverse spatial metric along the two code coordinates are their derivatives, provided the angular
derivatives of Σ and A are not below the tolerance without being zero. -/
theorem C88_kerr_schild (m : KS) (x1 x2 : ℝ) (hr : 0 < m.toPh1 x1) (hs : sin (m.toPh2 x2) ≠ 0)
    (hd : m.dr ≠ 0) (ht : m.dt ≠ 0)
    (h1 : Resolved m.ε (-2 * m.a ^ 2 * sin (m.toPh2 x2) * cos (m.toPh2 x2) * m.dt))
    (h2 : Resolved m.ε
      (-2 * m.a ^ 2 * sin (m.toPh2 x2) * cos (m.toPh2 x2) * Delta m.a (m.toPh1 x1) * m.dt)) :
    let d := m.deriv x1 x2
    Derivs m.alpha d.drAlpha d.dtAlpha x1 x2 ∧ Derivs m.beta1 d.drBeta1 d.dtBeta1 x1 x2 ∧
    Derivs (fun x y => (m.spatial x y).u11) d.drH11 d.dtH11 x1 x2 ∧
    Derivs (fun x y => (m.spatial x y).u22) d.drH22 d.dtH22 x1 x2 ∧
    Derivs (fun x y => (m.spatial x y).u33) d.drH33 d.dtH33 x1 x2 ∧
    Derivs (fun x y => (m.spatial x y).u13) d.drH13 d.dtH13 x1 x2 := by
  have c1 : m.dtSigma (x2 * m.dt + m.tmin) =
      -2 * m.a ^ 2 * sin (x2 * m.dt + m.tmin) * cos (x2 * m.dt + m.tmin) * m.dt := h1.clip
  have c2 : m.dtA (x1 * m.dr + m.rmin) (x2 * m.dt + m.tmin) =
      -2 * m.a ^ 2 * sin (x2 * m.dt + m.tmin) * cos (x2 * m.dt + m.tmin) *
        Delta m.a (x1 * m.dr + m.rmin) * m.dt := h2.clip
  have hr' : 0 < x1 * m.dr + m.rmin := hr
  have hs' : sin (x2 * m.dt + m.tmin) ≠ 0 := hs
  have lr := lin_deriv m.dr m.rmin x1
  have lt := lin_deriv m.dt m.tmin x2
  have hS := sigma_pos (a := m.a) (θ := x2 * m.dt + m.tmin) hr'
  have hz : 0 < zed m.a (x1 * m.dr + m.rmin) (x2 * m.dt + m.tmin) := zed_pos hr'
  have hz1 : 1 + zed m.a (x1 * m.dr + m.rmin) (x2 * m.dt + m.tmin) ≠ 0 := by positivity
  have zr := zed_dr (a := m.a) (T := x2 * m.dt + m.tmin) lr hr'
  have zt := zed_dt (a := m.a) (R := x1 * m.dr + m.rmin) lt hr'
  intro d
  simp only [d, KS.deriv, c1, c2]
  refine ⟨⟨?_, ?_⟩, ⟨?_, ?_⟩, ⟨?_, ?_⟩, ⟨?_, ?_⟩, ⟨?_, ?_⟩, ⟨?_, ?_⟩⟩
  · refine HasDerivAt.congr_deriv (lapse_d zr hz) ?_
    simp only [KS.alpha]
    ring
  · refine HasDerivAt.congr_deriv (lapse_d zt hz) ?_
    simp only [KS.alpha]
    ring
  · refine congrD ((ratio_d zr hz).const_mul (1 / m.dr))
      (fun y => by simp only [KS.beta1]; ring) ?_
    rw [sigma_add hr']
    field_simp
  · refine congrD ((ratio_d zt hz).const_mul (1 / m.dr))
      (fun y => by simp only [KS.beta1]; ring) ?_
    field_simp
  · have := (core_dr (a := m.a) (T := x2 * m.dt + m.tmin) lr hr').mul_const ((1 / m.dr) ^ 2)
    exact this.congr_of_eventuallyEq (.of_forall fun x => by simp only [KS.spatial]; ring)
  · have := (core_dt (a := m.a) (R := x1 * m.dr + m.rmin) lt hr').mul_const ((1 / m.dr) ^ 2)
    exact this.congr_of_eventuallyEq (.of_forall fun x => by simp only [KS.spatial]; ring)
  · refine HasDerivAt.congr_deriv (inv_dr (a := m.a) (T := x2 * m.dt + m.tmin) lr hr' _) ?_
    ring
  · refine HasDerivAt.congr_deriv (inv_dt (a := m.a) (R := x1 * m.dr + m.rmin) lt hr' _) ?_
    ring
  · have := (inv_dr (a := m.a) (T := x2 * m.dt + m.tmin) lr hr' 1).mul_const
      (1 / sin (x2 * m.dt + m.tmin) ^ 2)
    refine HasDerivAt.congr_deriv (this.congr_of_eventuallyEq
      (.of_forall fun x => by simp only [KS.spatial]; field_simp)) ?_
    field_simp
  · refine HasDerivAt.congr_deriv (phi_dt (a := m.a) (R := x1 * m.dr + m.rmin) lt hr' hs') ?_
    field_simp
    ring
  · refine HasDerivAt.congr_deriv (inv_dr (a := m.a) (T := x2 * m.dt + m.tmin) lr hr' _) ?_
    ring
  · refine HasDerivAt.congr_deriv (inv_dt (a := m.a) (R := x1 * m.dr + m.rmin) lt hr' _) ?_
    ring

/-! ## Kerr-Schild without mass -/

/-- **C88 (Kerr-Schild without mass).** The same, without restriction by the tolerance. -/
theorem C88_kerr_schild_0 (m : KS0) (x1 x2 : ℝ) (hr : 0 < m.toPh1 x1) (hs : sin (m.toPh2 x2) ≠ 0) :
    let d := m.deriv x1 x2
    Derivs (fun x y => (m.deriv x y).alpha) d.drAlpha d.dtAlpha x1 x2 ∧
    Derivs (fun x y => (m.deriv x y).beta1) d.drBeta1 d.dtBeta1 x1 x2 ∧
    Derivs (fun x y => (m.spatial x y).u11) d.drH11 d.dtH11 x1 x2 ∧
    Derivs (fun x y => (m.spatial x y).u22) d.drH22 d.dtH22 x1 x2 ∧
    Derivs (fun x y => (m.spatial x y).u33) d.drH33 d.dtH33 x1 x2 ∧
    Derivs (fun x y => (m.spatial x y).u13) d.drH13 d.dtH13 x1 x2 := by
  have hr' : 0 < x1 * m.dr + m.rmin := hr
  have hs' : sin (x2 * m.dt + m.tmin) ≠ 0 := hs
  have lr := lin_deriv m.dr m.rmin x1
  have lt := lin_deriv m.dt m.tmin x2
  intro d
  simp only [d, KS0.deriv, KS0.spatial]
  refine ⟨⟨?_, ?_⟩, ⟨?_, ?_⟩, ⟨?_, ?_⟩, ⟨?_, ?_⟩, ⟨?_, ?_⟩, ⟨?_, ?_⟩⟩
  · exact hasDerivAt_const _ _
  · exact hasDerivAt_const _ _
  · exact hasDerivAt_const _ _
  · exact hasDerivAt_const _ _
  · exact hasDerivAt_const _ _
  · exact hasDerivAt_const _ _
  · refine congrD (((hasDerivAt_const x1 (1 / m.dt)).div lr hr'.ne').pow 2) (fun y => rfl) ?_
    simp
    field_simp
  · exact hasDerivAt_const _ _
  · refine congrD ((hasDerivAt_const x1 (1 : ℝ)).div
      ((lr.mul_const (sin (x2 * m.dt + m.tmin))).pow 2)
      (pow_ne_zero 2 (mul_ne_zero hr'.ne' hs'))) (fun y => rfl) ?_
    simp
    field_simp
  · refine congrD ((hasDerivAt_const x2 (1 : ℝ)).div
      ((lt.sin.const_mul (x1 * m.dr + m.rmin)).pow 2)
      (pow_ne_zero 2 (mul_ne_zero hr'.ne' hs'))) (fun y => rfl) ?_
    simp
    field_simp
  · exact hasDerivAt_const _ _
  · exact hasDerivAt_const _ _

/-! ## Quasi-spherical Kerr-Schild -/

theorem dxDt_eq (m : QKS) (η : ℝ) : m.dxDt η = m.deta * dthetaDeta m.ε m.h η := by
  have := pi_ne_zero
  unfold QKS.dxDt dthetaDeta
  split_ifs
  · ring
  · field_simp
    ring

theorem rad_d (m : QKS) (x : ℝ) :
    HasDerivAt m.rad (m.dchi * exp (x * m.dchi + m.chiMin)) x :=
  congrD (((lin_deriv m.dchi m.chiMin x).exp).const_add m.r0) (fun _ => rfl) (by ring)

theorem ang_d (m : QKS) (x : ℝ) :
    HasDerivAt m.ang (m.dxDt (x * m.deta + m.etaMin)) x :=
  congrD ((eta2theta_d m.ε m.h (x * m.deta + m.etaMin)).comp x (lin_deriv m.deta m.etaMin x))
    (fun _ => rfl) (by rw [dxDt_eq]; ring)

/-- **C88 (quasi-spherical Kerr-Schild, partial).** The same for all components but the second diagonal
one, provided the stretching parameter is zero or above the tolerance as well. The second diagonal
component is right where the angle is not stretched. -/
theorem C88_qkerr_schild_partial (m : QKS) (x1 x2 : ℝ) (hr : 0 < m.toPh1 x1)
    (hs : sin (m.toPh2 x2) ≠ 0) (hd : m.dchi ≠ 0) (ht : m.deta ≠ 0) (h0 : Resolved m.ε m.h)
    (h1 : Resolved m.ε (-2 * m.a ^ 2 * sin (m.toPh2 x2) * cos (m.toPh2 x2) *
      (m.deta * dthetaDeta m.ε m.h (x2 * m.deta + m.etaMin))))
    (h2 : Resolved m.ε (-2 * m.a ^ 2 * sin (m.toPh2 x2) * cos (m.toPh2 x2) *
      Delta m.a (m.toPh1 x1) * (m.deta * dthetaDeta m.ε m.h (x2 * m.deta + m.etaMin)))) :
    let d := m.deriv x1 x2
    Derivs m.alpha d.drAlpha d.dtAlpha x1 x2 ∧ Derivs m.beta1 d.drBeta1 d.dtBeta1 x1 x2 ∧
    Derivs (fun x y => (m.spatial x y).u11) d.drH11 d.dtH11 x1 x2 ∧
    (|m.h| ≤ m.ε → Derivs (fun x y => (m.spatial x y).u22) d.drH22 d.dtH22 x1 x2) ∧
    Derivs (fun x y => (m.spatial x y).u33) d.drH33 d.dtH33 x1 x2 ∧
    Derivs (fun x y => (m.spatial x y).u13) d.drH13 d.dtH13 x1 x2 := by
  have ej := dxDt_eq m (x2 * m.deta + m.etaMin)
  rw [← ej] at h1 h2
  have c1 : m.dtSigma (x2 * m.deta + m.etaMin) =
      -2 * m.a ^ 2 * sin (m.ang x2) * cos (m.ang x2) * m.dxDt (x2 * m.deta + m.etaMin) := h1.clip
  have c2 : m.dtA (m.rad x1) (x2 * m.deta + m.etaMin) =
      -2 * m.a ^ 2 * sin (m.ang x2) * cos (m.ang x2) * Delta m.a (m.rad x1) *
        m.dxDt (x2 * m.deta + m.etaMin) := h2.clip
  have c3 : m.deta * (1 + 2 * m.h * (1 / π ^ 2) * (2 * 3 * (x2 * m.deta + m.etaMin) ^ 2 -
      2 * 3 * π * (x2 * m.deta + m.etaMin) + π ^ 2)) = m.dxDt (x2 * m.deta + m.etaMin) := by
    unfold QKS.dxDt
    rcases h0 with h0 | h0
    · rw [h0]; split_ifs <;> ring
    · rw [if_neg (not_le.2 h0)]
  have hr' : 0 < m.rad x1 := hr
  have hs' : sin (m.ang x2) ≠ 0 := hs
  have lr := rad_d m x1
  have lt := ang_d m x2
  have hS := sigma_pos (a := m.a) (θ := m.ang x2) hr'
  have hz : 0 < zed m.a (m.rad x1) (m.ang x2) := zed_pos hr'
  have hz1 : 1 + zed m.a (m.rad x1) (m.ang x2) ≠ 0 := by positivity
  have zr := zed_dr (a := m.a) (T := m.ang x2) lr hr'
  have zt := zed_dt (a := m.a) (R := m.rad x1) lt hr'
  have ex : HasDerivAt (fun x => exp (-(x * m.dchi + m.chiMin)))
      (exp (-(x1 * m.dchi + m.chiMin)) * -m.dchi) x1 := (lin_deriv m.dchi m.chiMin x1).neg.exp
  have ex2 : HasDerivAt (fun x => exp (-2 * (x * m.dchi + m.chiMin)))
      (exp (-2 * (x1 * m.dchi + m.chiMin)) * (-2 * m.dchi)) x1 :=
    ((lin_deriv m.dchi m.chiMin x1).const_mul (-2)).exp
  intro d
  simp only [d, QKS.deriv, c1, c2, c3]
  set J := m.dxDt (x2 * m.deta + m.etaMin)
  refine ⟨⟨?_, ?_⟩, ⟨?_, ?_⟩, ⟨?_, ?_⟩, fun hh => ⟨?_, ?_⟩, ⟨?_, ?_⟩, ⟨?_, ?_⟩⟩
  · refine HasDerivAt.congr_deriv (lapse_d zr hz) ?_
    simp only [QKS.alpha]
    ring
  · refine HasDerivAt.congr_deriv (lapse_d zt hz) ?_
    simp only [QKS.alpha]
    ring
  · refine congrD ((ex.mul_const (1 / m.dchi)).mul (ratio_d zr hz))
      (fun y => by simp only [QKS.beta1, Pi.mul_apply]; ring) ?_
    rw [sigma_add hr']
    field_simp
    ring
  · refine congrD ((ratio_d zt hz).const_mul (exp (-(x1 * m.dchi + m.chiMin)) * (1 / m.dchi)))
      (fun y => by simp only [QKS.beta1]; ring) ?_
    field_simp
  · refine congrD ((ex2.mul_const (1 / m.dchi ^ 2)).mul
      (core_dr (a := m.a) (T := m.ang x2) lr hr'))
      (fun y => by simp only [QKS.spatial, Pi.mul_apply]; ring) ?_
    ring
  · refine congrD ((core_dt (a := m.a) (R := m.rad x1) lt hr').const_mul
      (exp (-2 * (x1 * m.dchi + m.chiMin)) / m.dchi ^ 2))
      (fun y => by simp only [QKS.spatial]; ring) ?_
    ring
  · refine congrD (inv_dr (a := m.a) (T := m.ang x2) lr hr' (1 / m.deta ^ 2))
      (fun y => by simp only [QKS.spatial, dthetaDeta, if_pos hh]; field_simp) ?_
    ring
  · refine congrD (inv_dt (a := m.a) (R := m.rad x1) lt hr' (1 / m.deta ^ 2))
      (fun y => by simp only [QKS.spatial, dthetaDeta, if_pos hh]; field_simp) ?_
    ring
  · refine congrD ((inv_dr (a := m.a) (T := m.ang x2) lr hr' 1).mul_const (1 / sin (m.ang x2) ^ 2))
      (fun y => by simp only [QKS.spatial]; field_simp) ?_
    field_simp
  · refine congrD (phi_dt (a := m.a) (R := m.rad x1) lt hr' hs') (fun y => rfl) ?_
    ring
  · refine congrD ((ex.mul_const (1 / m.dchi)).mul (inv_dr (a := m.a) (T := m.ang x2) lr hr' m.a))
      (fun y => by simp only [QKS.spatial, Pi.mul_apply]; ring) ?_
    ring
  · refine congrD ((inv_dt (a := m.a) (R := m.rad x1) lt hr' m.a).const_mul
      (exp (-(x1 * m.dchi + m.chiMin)) * (1 / m.dchi)))
      (fun y => by simp only [QKS.spatial]; ring) ?_
    ring

/-- **C88 (counterexample).** Wherever the angle is stretched (the factor dθ/dη is neither 1 nor -1) the
radial derivative of the second diagonal component is wrong: it lacks the factor 1 / (dθ/dη)². -/
theorem C88_qkerr_schild_counterexample (m : QKS) (x1 x2 : ℝ) (hr : 0 < m.toPh1 x1)
    (hd : m.dchi ≠ 0) (ht : m.deta ≠ 0)
    (hj0 : dthetaDeta m.ε m.h (x2 * m.deta + m.etaMin) ≠ 0)
    (hj : dthetaDeta m.ε m.h (x2 * m.deta + m.etaMin) ^ 2 ≠ 1) :
    ¬ Derivs (fun x y => (m.spatial x y).u22) (m.deriv x1 x2).drH22 (m.deriv x1 x2).dtH22 x1 x2 := by
  rintro ⟨h, -⟩
  have hr' : 0 < m.rad x1 := hr
  have lr := rad_d m x1
  have hS := sigma_pos (a := m.a) (θ := m.ang x2) hr'
  have he := exp_pos (x1 * m.dchi + m.chiMin)
  set j := dthetaDeta m.ε m.h (x2 * m.deta + m.etaMin) with hjd
  have h' : HasDerivAt (fun x => (m.spatial x x2).u22) ((m.deriv x1 x2).drH22 / j ^ 2) x1 := by
    refine congrD (inv_dr (a := m.a) (T := m.ang x2) lr hr' (1 / (j ^ 2 * m.deta ^ 2)))
      (fun y => by simp only [QKS.spatial, ← hjd]; field_simp) ?_
    simp only [QKS.deriv]
    field_simp
  have e := h.unique h'
  have hne : (m.deriv x1 x2).drH22 ≠ 0 := by
    simp only [QKS.deriv]
    refine div_ne_zero (div_ne_zero (neg_ne_zero.2 ?_) (by positivity)) (by positivity)
    exact mul_ne_zero (mul_ne_zero two_ne_zero hr'.ne') (mul_ne_zero hd he.ne')
  rw [eq_div_iff (by positivity)] at e
  exact hj (mul_left_cancel₀ hne (by linarith))

/-! ## Examples -/

/-- The hypotheses of the Kerr-Schild case hold for a rotating black hole off the equator. -/
example : let m : KS := ⟨1 / 10 ^ 6, 1 / 2, 2, 1, 0, π / 4, False⟩
    0 < m.toPh1 1 ∧ sin (m.toPh2 1) ≠ 0 ∧
    Resolved m.ε (-2 * m.a ^ 2 * sin (m.toPh2 1) * cos (m.toPh2 1) * m.dt) := by
  have hpi := two_le_pi
  have e : (1 : ℝ) * (π / 4) + 0 = π / 4 := by ring
  simp only [KS.toPh1, KS.toPh2, e, sin_pi_div_four, cos_pi_div_four]
  refine ⟨by norm_num, by positivity, .inr ?_⟩
  have : -2 * (1 / 2 : ℝ) ^ 2 * (√2 / 2) * (√2 / 2) * (π / 4) = -(π / 16) := by
    have := Real.sq_sqrt (show (0 : ℝ) ≤ 2 by norm_num)
    linear_combination (-(π / 32)) * this
  rw [this, abs_neg, abs_of_pos (by positivity)]
  norm_num
  linarith

/-- The hypotheses of the counterexample hold at the equator of a grid with stretching 0.4. -/
example : let m : QKS := ⟨⟨1 / 10 ^ 6, 0, 4 / 10, 0, 0, 1, π / 4, False⟩, 1 / 2⟩
    0 < m.toPh1 1 ∧ dthetaDeta m.ε m.h (2 * m.deta + m.etaMin) = 6 / 10 := by
  have hpi := pi_ne_zero
  refine ⟨by simp only [QSph.toPh1]; positivity, ?_⟩
  simp only [dthetaDeta]
  rw [if_neg (by rw [abs_of_pos] <;> norm_num)]
  field_simp
  ring

end Entity.Metric
