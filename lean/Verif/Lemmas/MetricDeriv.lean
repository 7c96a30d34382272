import Mathlib.Analysis.Calculus.Deriv.Inv
import Mathlib.Analysis.Calculus.Deriv.Pow
import Verif.Lemmas.MetricGR

/-! Derivatives of the functions of the spin. -/

namespace Entity.Metric

open Real

theorem congrD {f g : ℝ → ℝ} {f' g' x : ℝ} (h : HasDerivAt g g' x) (hf : ∀ y, f y = g y)
    (hd : f' = g') : HasDerivAt f f' x := by
  rw [show f = g from funext hf, hd]; exact h

theorem sigma_add {a r θ : ℝ} (hr : 0 < r) :
    Sigma a r θ + 2 * r = Sigma a r θ * (1 + zed a r θ) := by
  have := sigma_pos (a := a) (θ := θ) hr
  unfold zed; field_simp

section
variable {a : ℝ} {r θ : ℝ → ℝ} {r' θ' x : ℝ} {R T : ℝ}

theorem sigma_dr (hr : HasDerivAt r r' x) :
    HasDerivAt (fun x => Sigma a (r x) T) (2 * r x * r') x := by
  unfold Sigma
  refine HasDerivAt.congr_deriv ((hr.pow 2).add_const (a ^ 2 * cos T ^ 2)) ?_
  simp

theorem sigma_dt (ht : HasDerivAt θ θ' x) :
    HasDerivAt (fun x => Sigma a R (θ x)) (-2 * a ^ 2 * sin (θ x) * cos (θ x) * θ') x := by
  unfold Sigma
  refine HasDerivAt.congr_deriv (((ht.cos.pow 2).const_mul (a ^ 2)).const_add (R ^ 2)) ?_
  simp; ring

theorem bigA_dr (hr : HasDerivAt r r' x) : HasDerivAt (fun x => bigA a (r x) T)
    (4 * r x * r' * (r x ^ 2 + a ^ 2) - a ^ 2 * sin T ^ 2 * (2 * r' * (r x - 1))) x := by
  unfold bigA Delta
  have h1 := ((hr.pow 2).add_const (a ^ 2)).pow 2
  have h2 := ((((hr.pow 2).sub (hr.const_mul 2)).add_const (a ^ 2)).const_mul (a ^ 2)).mul_const
    (sin T ^ 2)
  refine HasDerivAt.congr_deriv (h1.sub h2) ?_
  simp; ring

theorem bigA_dt (ht : HasDerivAt θ θ' x) : HasDerivAt (fun x => bigA a R (θ x))
    (-2 * a ^ 2 * sin (θ x) * cos (θ x) * Delta a R * θ') x := by
  unfold bigA
  refine HasDerivAt.congr_deriv (((ht.sin.pow 2).const_mul (a ^ 2 * Delta a R)).const_sub ((R ^ 2 + a ^ 2) ^ 2)) ?_
  simp; ring

theorem zed_dr (hr : HasDerivAt r r' x) (hp : 0 < r x) : HasDerivAt (fun x => zed a (r x) T)
    (2 * (r' * Sigma a (r x) T - r x * (2 * r x * r')) / Sigma a (r x) T ^ 2) x := by
  have h := (hr.const_mul 2).div (sigma_dr (a := a) (T := T) hr) (sigma_pos hp).ne'
  unfold zed
  refine HasDerivAt.congr_deriv (h) ?_
  ring

theorem zed_dt (ht : HasDerivAt θ θ' x) (hp : 0 < R) : HasDerivAt (fun x => zed a R (θ x))
    (-2 * R * (-2 * a ^ 2 * sin (θ x) * cos (θ x) * θ') / Sigma a R (θ x) ^ 2) x := by
  have h := (hasDerivAt_const x (2 * R)).div (sigma_dt (a := a) (R := R) ht) (sigma_pos hp).ne'
  unfold zed
  refine HasDerivAt.congr_deriv (h) ?_
  ring

/-- Lapse as a function of `z`. -/
theorem lapse_d {z : ℝ → ℝ} {z' : ℝ} (hz : HasDerivAt z z' x) (hp : 0 < z x) :
    HasDerivAt (fun x => 1 / √(1 + z x)) (-z' / 2 * (1 / √(1 + z x)) ^ 3) x := by
  have h1 : 1 + z x ≠ 0 := by positivity
  have hs : √(1 + z x) ≠ 0 := (Real.sqrt_pos.2 (by positivity)).ne'
  have h := (hasDerivAt_const x (1 : ℝ)).div ((hz.const_add 1).sqrt h1) hs
  refine HasDerivAt.congr_deriv (h) ?_
  have := Real.sq_sqrt (show 0 ≤ 1 + z x by positivity)
  field_simp
  ring

theorem ratio_d {z : ℝ → ℝ} {z' : ℝ} (hz : HasDerivAt z z' x) (hp : 0 < z x) :
    HasDerivAt (fun x => z x / (1 + z x)) (z' / (1 + z x) ^ 2) x := by
  have h1 : 1 + z x ≠ 0 := by positivity
  refine HasDerivAt.congr_deriv (hz.div (hz.const_add 1) h1) ?_
  ring

theorem core_dr (hr : HasDerivAt r r' x) (hp : 0 < r x) :
    HasDerivAt (fun x => bigA a (r x) T / (Sigma a (r x) T * (Sigma a (r x) T + 2 * r x)))
      ((Sigma a (r x) T * (Sigma a (r x) T + 2 * r x) * (4 * r x * r' * (r x ^ 2 + a ^ 2) -
        a ^ 2 * sin T ^ 2 * (2 * r' * (r x - 1))) - 2 * bigA a (r x) T * (r x * (2 * r x * r') +
        Sigma a (r x) T * (2 * r x * r' + r'))) /
        (Sigma a (r x) T * (Sigma a (r x) T + 2 * r x)) ^ 2) x := by
  have hS := sigma_pos (a := a) (θ := T) hp
  have h1 := sigma_dr (a := a) (T := T) hr
  have hne : Sigma a (r x) T * (Sigma a (r x) T + 2 * r x) ≠ 0 := by positivity
  refine HasDerivAt.congr_deriv ((bigA_dr (a := a) (T := T) hr).div (h1.mul (h1.add (hr.const_mul 2))) hne) ?_
  ring

theorem core_dt (ht : HasDerivAt θ θ' x) (hp : 0 < R) :
    HasDerivAt (fun x => bigA a R (θ x) / (Sigma a R (θ x) * (Sigma a R (θ x) + 2 * R)))
      ((Sigma a R (θ x) * (Sigma a R (θ x) + 2 * R) *
        (-2 * a ^ 2 * sin (θ x) * cos (θ x) * Delta a R * θ') -
        2 * bigA a R (θ x) * (-2 * a ^ 2 * sin (θ x) * cos (θ x) * θ') * (R + Sigma a R (θ x))) /
        (Sigma a R (θ x) * (Sigma a R (θ x) + 2 * R)) ^ 2) x := by
  have hS := sigma_pos (a := a) (θ := θ x) hp
  have h1 := sigma_dt (a := a) (R := R) ht
  have hne : Sigma a R (θ x) * (Sigma a R (θ x) + 2 * R) ≠ 0 := by positivity
  refine HasDerivAt.congr_deriv ((bigA_dt (a := a) (R := R) ht).div (h1.mul (h1.add_const (2 * R))) hne) ?_
  ring

theorem inv_dr (hr : HasDerivAt r r' x) (hp : 0 < r x) (c : ℝ) :
    HasDerivAt (fun x => c / Sigma a (r x) T) (-c * (2 * r x * r') / Sigma a (r x) T ^ 2) x := by
  refine HasDerivAt.congr_deriv ((hasDerivAt_const x c).div (sigma_dr (a := a) (T := T) hr) (sigma_pos hp).ne') ?_
  ring

theorem inv_dt (ht : HasDerivAt θ θ' x) (hp : 0 < R) (c : ℝ) :
    HasDerivAt (fun x => c / Sigma a R (θ x))
      (-c * (-2 * a ^ 2 * sin (θ x) * cos (θ x) * θ') / Sigma a R (θ x) ^ 2) x := by
  refine HasDerivAt.congr_deriv ((hasDerivAt_const x c).div (sigma_dt (a := a) (R := R) ht) (sigma_pos hp).ne') ?_
  ring

theorem phi_dt (ht : HasDerivAt θ θ' x) (hp : 0 < R) (hs : sin (θ x) ≠ 0) :
    HasDerivAt (fun x => 1 / (Sigma a R (θ x) * sin (θ x) ^ 2))
      (-(-2 * a ^ 2 * sin (θ x) * cos (θ x) * θ' + 2 * cos (θ x) / sin (θ x) * Sigma a R (θ x) * θ') /
        (Sigma a R (θ x) * sin (θ x)) ^ 2) x := by
  have hS := sigma_pos (a := a) (θ := θ x) hp
  have hne : Sigma a R (θ x) * sin (θ x) ^ 2 ≠ 0 := by positivity
  refine HasDerivAt.congr_deriv ((hasDerivAt_const x (1 : ℝ)).div
    ((sigma_dt (a := a) (R := R) ht).mul (ht.sin.pow 2)) hne) ?_
  simp
  field_simp

theorem lin_deriv (d c x : ℝ) : HasDerivAt (fun x => x * d + c) d x := by
  simpa using ((hasDerivAt_id x).mul_const d).add_const c

end

/-- Derivative of the stretched angle. -/
theorem eta2theta_d (ε h η : ℝ) : HasDerivAt (eta2theta ε h) (dthetaDeta ε h η) η := by
  by_cases hh : |h| ≤ ε
  · have : eta2theta ε h = fun η => η := by funext η; simp [eta2theta, hh]
    rw [this, dthetaDeta, if_pos hh]
    exact hasDerivAt_id η
  · have : eta2theta ε h =
        fun η => η + 2 * h * η * (π - 2 * η) * (π - η) * (1 / π ^ 2) := by
      funext η; simp [eta2theta, hh]
    rw [this, dthetaDeta, if_neg hh]
    have h0 := hasDerivAt_id η
    have h1 := h0.const_mul (2 * h)
    have h2 := (h0.const_mul 2).const_sub π
    have h3 := h0.const_sub π
    refine HasDerivAt.congr_deriv (h0.add ((((h1.mul h2).mul h3)).mul_const (1 / π ^ 2))) ?_
    have := pi_ne_zero
    simp
    field_simp
    ring

end Entity.Metric
