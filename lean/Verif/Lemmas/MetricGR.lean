import Mathlib.Analysis.SpecialFunctions.Trigonometric.Deriv
import Mathlib.Analysis.SpecialFunctions.ExpDeriv
import Mathlib.Analysis.SpecialFunctions.Sqrt
import Mathlib.Tactic.LinearCombination
import Mathlib.Tactic.FieldSimp
import Mathlib.Tactic.Linarith
import Mathlib.Tactic.Positivity
import Mathlib.Tactic.FinCases
import Verif.Spec.Metric

/-! Kerr-Schild components for a general radial and angular Jacobian. -/

namespace Entity.Metric

open Real

/-- Components at radius `r` and angle `θ` with Jacobians `jr`, `jt`. -/
noncomputable def genSpatial (a r θ jr jt : ℝ) : Spatial where
  l11 := jr ^ 2 * (1 + zed a r θ)
  l22 := jt ^ 2 * Sigma a r θ
  l33 := bigA a r θ * sin θ ^ 2 / Sigma a r θ
  l13 := -jr * a * (1 + zed a r θ) * sin θ ^ 2
  u11 := bigA a r θ / (Sigma a r θ * (Sigma a r θ + 2 * r)) / jr ^ 2
  u22 := 1 / (Sigma a r θ * jt ^ 2)
  u33 := 1 / (Sigma a r θ * sin θ ^ 2)
  u13 := a / Sigma a r θ / jr

noncomputable def genFour (a r θ jr jt : ℝ) : Four where
  l00 := -(1 - zed a r θ)
  l01 := jr * zed a r θ
  l03 := -a * zed a r θ * sin θ ^ 2
  l11 := (genSpatial a r θ jr jt).l11
  l22 := (genSpatial a r θ jr jt).l22
  l33 := (genSpatial a r θ jr jt).l33
  l13 := (genSpatial a r θ jr jt).l13
  u00 := -(1 + zed a r θ)
  u01 := zed a r θ / jr
  u11 := Delta a r / Sigma a r θ / jr ^ 2
  u22 := (genSpatial a r θ jr jt).u22
  u33 := (genSpatial a r θ jr jt).u33
  u13 := (genSpatial a r θ jr jt).u13

theorem ks_spatial (m : KS) (x1 x2 : ℝ) : m.spatial x1 x2 =
    genSpatial m.a (x1 * m.dr + m.rmin) (x2 * m.dt + m.tmin) m.dr m.dt := by
  unfold KS.spatial genSpatial
  congr 1 <;> field_simp

theorem ks_four (m : KS) (x1 x2 : ℝ) : m.four x1 x2 =
    genFour m.a (x1 * m.dr + m.rmin) (x2 * m.dt + m.tmin) m.dr m.dt := by
  unfold KS.four genFour
  rw [ks_spatial]
  congr 1 <;> field_simp

theorem qks_spatial (m : QKS) (x1 x2 : ℝ) : m.spatial x1 x2 =
    genSpatial m.a (m.rad x1) (m.ang x2) (m.dchi * exp (x1 * m.dchi + m.chiMin))
      (m.deta * dthetaDeta m.ε m.h (x2 * m.deta + m.etaMin)) := by
  have e1 : exp (2 * (x1 * m.dchi + m.chiMin)) = exp (x1 * m.dchi + m.chiMin) ^ 2 := by
    rw [← Real.exp_nat_mul]; norm_num
  have e2 : exp (-2 * (x1 * m.dchi + m.chiMin)) = (exp (x1 * m.dchi + m.chiMin) ^ 2)⁻¹ := by
    rw [← e1, ← Real.exp_neg]; congr 1; ring
  have e3 := Real.exp_neg (x1 * m.dchi + m.chiMin)
  unfold QKS.spatial genSpatial
  congr 1
  · rw [e1]; ring
  · ring
  · ring
  · rw [e2]; field_simp
  · field_simp
  · rw [e3]; field_simp

theorem qks_four (m : QKS) (x1 x2 : ℝ) : m.four x1 x2 =
    genFour m.a (m.rad x1) (m.ang x2) (m.dchi * exp (x1 * m.dchi + m.chiMin))
      (m.deta * dthetaDeta m.ε m.h (x2 * m.deta + m.etaMin)) := by
  have e1 : exp (2 * (x1 * m.dchi + m.chiMin)) = exp (x1 * m.dchi + m.chiMin) ^ 2 := by
    rw [← Real.exp_nat_mul]; norm_num
  have e2 : exp (-2 * (x1 * m.dchi + m.chiMin)) = (exp (x1 * m.dchi + m.chiMin) ^ 2)⁻¹ := by
    rw [← e1, ← Real.exp_neg]; congr 1; ring
  have e3 := Real.exp_neg (x1 * m.dchi + m.chiMin)
  unfold QKS.four genFour
  rw [qks_spatial]
  congr 1
  · rw [e1]; unfold genSpatial; ring
  · rw [e3]; field_simp
  · rw [e2]; field_simp

section
variable {a r θ jr jt : ℝ}

theorem sigma_pos (hr : 0 < r) : 0 < Sigma a r θ := by unfold Sigma; positivity

theorem cos_sq_eq (θ : ℝ) : cos θ ^ 2 = 1 - sin θ ^ 2 := by
  have := sin_sq_add_cos_sq θ; linarith

theorem bigA_eq : bigA a r θ = Sigma a r θ * (r ^ 2 + a ^ 2) + 2 * r * a ^ 2 * sin θ ^ 2 := by
  unfold bigA Delta Sigma; rw [cos_sq_eq]; ring

theorem bigA_pos (hr : 0 < r) : 0 < bigA a r θ := by
  rw [bigA_eq]; have := sigma_pos (a := a) (θ := θ) hr; positivity

theorem zed_pos (hr : 0 < r) : 0 < zed a r θ := by
  unfold zed; have := sigma_pos (a := a) (θ := θ) hr; positivity

/-- Entries of the product of the two spatial matrices. -/
theorem gen_inverse (hr : 0 < r) (hs : sin θ ≠ 0) (hj : jr ≠ 0) (ht : jt ≠ 0) :
    let h := genSpatial a r θ jr jt
    h.l11 * h.u11 + h.l13 * h.u13 = 1 ∧ h.l11 * h.u13 + h.l13 * h.u33 = 0 ∧
    h.l13 * h.u11 + h.l33 * h.u13 = 0 ∧ h.l13 * h.u13 + h.l33 * h.u33 = 1 ∧ h.l22 * h.u22 = 1 := by
  have hS := (sigma_pos (a := a) (θ := θ) hr).ne'
  have hS2 : Sigma a r θ + 2 * r ≠ 0 := by
    have := sigma_pos (a := a) (θ := θ) hr; positivity
  have hSe : Sigma a r θ = r ^ 2 + a ^ 2 * (1 - sin θ ^ 2) := by unfold Sigma; rw [cos_sq_eq]
  simp only [genSpatial, bigA_eq, zed]
  refine ⟨?_, ?_, ?_, ?_, ?_⟩
  · field_simp
    rw [hSe]; ring
  · field_simp; ring
  · field_simp
    rw [hSe]; ring
  · field_simp
    rw [hSe]; ring
  · field_simp

theorem gen_det (hr : 0 < r) : (genSpatial a r θ jr jt).lower.det =
    (jr * jt * Sigma a r θ * sin θ * √(1 + zed a r θ)) ^ 2 := by
  have hS := (sigma_pos (a := a) (θ := θ) hr).ne'
  have hz := zed_pos (a := a) (θ := θ) hr
  have hSe : Sigma a r θ = r ^ 2 + a ^ 2 * (1 - sin θ ^ 2) := by unfold Sigma; rw [cos_sq_eq]
  rw [mul_pow, Real.sq_sqrt (by linarith)]
  simp only [Spatial.lower, Matrix.det_fin_three, Matrix.of_apply, Matrix.cons_val',
    Matrix.cons_val_zero, Matrix.cons_val_one, Matrix.cons_val, genSpatial, bigA_eq, zed]
  field_simp
  rw [hSe]; ring

end

end Entity.Metric
