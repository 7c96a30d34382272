import Verif.Model.DepositVel
import Verif.Spec.DepositVel
import Verif.Lemmas.PrtlPhys
import Verif.Props.GRPush

/-!
# The velocity used by the current deposit
-/

namespace Entity.DepositVel

open Entity Entity.Push Entity.Metric Entity.GRPush Entity.Deposit
open Real Filter

theorem awayFromAxis_range (th : ℝ) :
    1 / 100000 ≤ awayFromAxis th ∧ awayFromAxis th ≤ π - 1 / 100000 := by
  have h3 := two_le_pi
  unfold awayFromAxis
  split_ifs with h1 h2 <;> constructor <;> linarith

theorem awayFromAxis_sin (th : ℝ) : 0 < sin (awayFromAxis th) := by
  obtain ⟨h1, h2⟩ := awayFromAxis_range th
  exact sin_pos_of_pos_of_lt_pi (by linarith) (by linarith)

/-- General relativity, at the point where the code evaluates the metric. -/
theorem grVelocity_geo {g : Met} {al be : Metric.Field} {h : ℝ → ℝ → Spatial} {four : ℝ → ℝ → Four}
    {x1 x2 y : ℝ} (G : Geo g al be h four x1 y) (u : V3 ℝ)
    (hy : grAngle g x2 = .ok y) :
    ∃ v, grVelocity g x1 x2 u = .ok v ∧
      HasDerivAt (fun s => energy four true x1 y ⟨u.x, s, u.z⟩) v.y u.y ∧
      HasDerivAt (fun s => energy four true x1 y ⟨u.x, u.y, s⟩) v.z u.z ∧
      HasDerivAt (fun s => energy four true x1 y ⟨s, u.y, u.z⟩) (v.x - be x1 y) u.x := by
  obtain ⟨d1, d2, d3⟩ := ham_du (al x1 y) (be x1 y) (h x1 y) (shellNorm true) u
    (G.quad_pos (Or.inl rfl)) G.pos
  have e := Geo.gamma_eq u true (h x1 y)
  simp only [gamma, if_true] at e
  refine ⟨_, by
    unfold grVelocity
    simp only [hy, Outcome.bind_ok, G.raise, Outcome.pure_eq, e, G.alpha]
    rfl, ?_, ?_, ?_⟩
  · refine (d2.congr_of_eventuallyEq
      (Eventually.of_forall fun s => energy_ham G.adm G.pos true _)).congr_deriv ?_
    simp only []
    rw [div_div_eq_mul_div, mul_div_assoc]
  · refine (d3.congr_of_eventuallyEq
      (Eventually.of_forall fun s => energy_ham G.adm G.pos true _)).congr_deriv ?_
    simp only []
    rw [div_div_eq_mul_div, mul_div_assoc]
  · refine (d1.congr_of_eventuallyEq
      (Eventually.of_forall fun s => energy_ham G.adm G.pos true _)).congr_deriv ?_
    simp only []
    rw [div_div_eq_mul_div, mul_div_assoc]

/-- Linear metrics: the angle the code evaluates the metric at. -/
theorem clamp_lin {dt tmin x2 : ℝ} (h : dt ≠ 0) :
    ∃ y, (if x2 * dt + tmin < 1 / 100000 then (Outcome.ok ((1 / 100000 - tmin) * (1 / dt)) : Outcome ℝ)
      else if x2 * dt + tmin ≥ π - 1 / 100000 then .ok ((π - 1 / 100000 - tmin) * (1 / dt)) else .ok x2) = .ok y ∧
      y * dt + tmin = awayFromAxis (x2 * dt + tmin) := by
  unfold awayFromAxis
  split_ifs with h1 h2 h3 h3
  · exact ⟨_, rfl, by field_simp; ring⟩
  · exact absurd h3 (not_lt.mpr h2)
  · exact ⟨_, rfl, by field_simp; ring⟩
  · exact ⟨_, rfl, rfl⟩
  · exact absurd (not_lt.mp h3) (not_le.mpr (not_le.mp h2))

/-- Chain rule for a point in spherical coordinates whose rates are those of the tetrad components `T` of a
Cartesian vector `V`. -/
theorem moves_sph {r t : ℝ → ℝ} {r0 t0 p0 r' t' p' : ℝ} {V : V3 ℝ} (hr : HasDerivAt r r' 0)
    (ht : HasDerivAt t t' 0) (e1 : r 0 = r0) (e2 : t 0 = t0)
    (h1 : r' = (xyzToTetrad t0 p0 V).x) (h2 : r0 * t' = (xyzToTetrad t0 p0 V).y)
    (h3 : r0 * sin t0 * p' = (xyzToTetrad t0 p0 V).z) :
    MovesWith (fun s => point (r s) (t s) (p0 + s * p')) V := by
  subst e1 e2
  have hp : HasDerivAt (fun s : ℝ => p0 + s * p') p' 0 := by
    simpa using ((hasDerivAt_id (0 : ℝ)).mul_const p').const_add p0
  have hst := ht.sin
  have hct := ht.cos
  have hsp := hp.sin
  have hcp := hp.cos
  have ct := cos_sq_add_sin_sq (t 0)
  have cp := cos_sq_add_sin_sq p0
  simp only [zero_mul, add_zero] at hsp hcp
  simp only [xyzToTetrad] at h1 h2 h3
  subst h1
  refine ⟨((hr.mul hst).mul hcp).congr_deriv ?_, ((hr.mul hst).mul hsp).congr_deriv ?_,
    (hr.mul hct).congr_deriv ?_⟩
  · simp only [zero_mul, add_zero, Pi.mul_apply]
    linear_combination (cos (t 0) * cos p0) * h2 - sin p0 * h3 +
      (V.x * cos p0 ^ 2 + V.y * sin p0 * cos p0) * ct + V.x * cp
  · simp only [zero_mul, add_zero, Pi.mul_apply]
    linear_combination (cos (t 0) * sin p0) * h2 + cos p0 * h3 +
      (V.x * cos p0 * sin p0 + V.y * sin p0 ^ 2) * ct + V.y * cp
  · linear_combination (-sin (t 0)) * h2 + V.z * ct

theorem tetrad_smul (t p c : ℝ) (u : V3 ℝ) : xyzToTetrad t p (u.smul c) = (xyzToTetrad t p u).smul c := by
  simp only [xyzToTetrad, V3.smul, V3.mk.injEq]
  refine ⟨?_, ?_, ?_⟩ <;> ring

theorem velocity_smul (u : V3 ℝ) : velocity u = u.smul (invEnergy u) := by
  simp only [velocity, V3.smul, invEnergy, V3.normSq, V3.mk.injEq, ← add_assoc]
  refine ⟨?_, ?_, ?_⟩ <;> ring

theorem along {f : ℝ → ℝ} {f' x v : ℝ} (h : HasDerivAt f f' x) :
    HasDerivAt (fun s : ℝ => f (x + s * v)) (f' * v) 0 := by
  have h1 : HasDerivAt (fun s : ℝ => x + s * v) v 0 := by
    simpa using ((hasDerivAt_id (0 : ℝ)).mul_const v).const_add x
  exact HasDerivAt.comp (0 : ℝ) (h₂ := f) (h := fun s : ℝ => x + s * v) (by simpa using h) h1

end Entity.DepositVel
