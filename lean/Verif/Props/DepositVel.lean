import Verif.Lemmas.DepositVel
import Verif.Props.DepositTotal

/-!
# C162: the current across the grid is charge times coordinate velocity

Specification (Spec/DepositVel.lean): in special relativity, a point whose coordinates change at the rates
given by the deposit has the Cartesian velocity `u / γ`; in general relativity the rates are the
derivatives of the energy of the particle (Props/GRGeodesic.lean) with respect to its momentum, Hamilton's
equations.
-/

namespace Entity.DepositVel

open Entity Entity.Push Entity.Metric Entity.GRPush Entity.Deposit
open Real

/-- **C162 (spherical).** Off the axis, the velocity the deposit computes is the rate of change of the
coordinates of the particle: a point moving at these rates has the velocity of the particle. -/
theorem C162_spherical (m : Sph) (x1 x2 phi : ℝ) (u : V3 ℝ) (hr : m.toPh1 x1 ≠ 0)
    (hs : sin (m.toPh2 x2) ≠ 0) (hd : m.dr ≠ 0) (ht : m.dt ≠ 0) :
    ∃ v, sphVelocity m x1 x2 phi u = .ok v ∧
      MovesWith (fun s => point (m.toPh1 (x1 + s * v.x)) (m.toPh2 (x2 + s * v.y)) (phi + s * v.z))
        (velocity u) := by
  have h2 : m.sqrtH_ x1 x2 2 ≠ 0 := mul_ne_zero hr hs
  refine ⟨_, by
    unfold sphVelocity
    simp [Sph.transform, diagTransform, Outcome.bind_ok, h2]
    rfl, ?_⟩
  refine moves_sph (r0 := m.toPh1 x1) (t0 := m.toPh2 x2) (along (lin_deriv m.dr m.rmin x1))
    (along (lin_deriv m.dt m.tmin x2)) (by simp) (by simp) ?_ ?_ ?_ <;>
  rw [velocity_smul, tetrad_smul] <;> simp only [V3.smul, Sph.sqrtH_]
  · field_simp
  · unfold Sph.toPh1 at hr ⊢
    field_simp
  · unfold Sph.toPh1 Sph.toPh2 at *
    field_simp

/-- **C162 (quasi-spherical).** As `C162_spherical`. -/
theorem C162_qspherical (m : QSph) (x1 x2 phi : ℝ) (u : V3 ℝ) (hr : m.toPh1 x1 ≠ 0)
    (hs : sin (m.toPh2 x2) ≠ 0) (hd : m.dchi ≠ 0) (ht : m.deta ≠ 0)
    (hj : dthetaDeta m.ε m.h (x2 * m.deta + m.etaMin) ≠ 0) :
    ∃ v, qsphVelocity m x1 x2 phi u = .ok v ∧
      MovesWith (fun s => point (m.toPh1 (x1 + s * v.x)) (m.toPh2 (x2 + s * v.y)) (phi + s * v.z))
        (velocity u) := by
  have h2 : m.sqrtH_ x1 x2 2 ≠ 0 := mul_ne_zero hr hs
  have he := (exp_pos (x1 * m.dchi + m.chiMin)).ne'
  refine ⟨_, by
    unfold qsphVelocity
    simp [QSph.transform, diagTransform, Outcome.bind_ok, h2]
    rfl, ?_⟩
  refine moves_sph (r0 := m.toPh1 x1) (t0 := m.toPh2 x2) (along (PrtlPhys.qtoPh1_d m x1))
    (along (PrtlPhys.qtoPh2_d m x2)) (by simp) (by simp) ?_ ?_ ?_ <;>
  rw [velocity_smul, tetrad_smul] <;> simp only [V3.smul, QSph.sqrtH_]
  · field_simp
  · unfold QSph.toPh1 at hr ⊢
    field_simp
  · unfold QSph.toPh1 QSph.toPh2 at *
    field_simp

/-- **C162 (axis).** On the axis of a spherical or quasi-spherical grid the azimuthal velocity is zero. -/
theorem C162_axis (m : Sph) (q : QSph) (x1 x2 phi : ℝ) (u v : V3 ℝ) :
    (sin (m.toPh2 x2) = 0 → sphVelocity m x1 x2 phi u = .ok v → v.z = 0) ∧
    (sin (q.toPh2 x2) = 0 → qsphVelocity q x1 x2 phi u = .ok v → v.z = 0) := by
  constructor
  · intro hs h
    have h2 : m.sqrtH_ x1 x2 2 = 0 := mul_eq_zero_of_right _ hs
    unfold sphVelocity at h
    simp [Sph.transform, diagTransform, Outcome.bind_ok, h2] at h
    rw [← h]
  · intro hs h
    have h2 : q.sqrtH_ x1 x2 2 = 0 := mul_eq_zero_of_right _ hs
    unfold qsphVelocity at h
    simp [QSph.transform, diagTransform, Outcome.bind_ok, h2] at h
    rw [← h]

/-- **C162 (Cartesian).** Along the axes of the grid the position changes at the velocity of the particle;
across the grid the component of the velocity is that of the particle. -/
theorem C162_minkowski (m : Mink) (hd : m.dx ≠ 0) (D : Nat) (u : V3 ℝ) :
    ∃ v, minkVelocity m D u = .ok v ∧
      (∀ x, 0 < D → HasDerivAt (fun s => m.toPh 0 (x + s * v.x)) (velocity u).x 0) ∧
      (∀ x, 1 < D → HasDerivAt (fun s => m.toPh 1 (x + s * v.y)) (velocity u).y 0) ∧
      (∀ x, 2 < D → HasDerivAt (fun s => m.toPh 2 (x + s * v.z)) (velocity u).z 0) ∧
      (D ≤ 1 → v.y = (velocity u).y) ∧ (D ≤ 2 → v.z = (velocity u).z) := by
  have ok : ∀ (i : Fin 3) (w : ℝ), m.transform D i .XYZ .U w = .ok (if D ≤ i.val then w else w / m.dx) := by
    intro i w
    by_cases h : D ≤ i.val <;> simp [Mink.transform, h, Mink.sqrtH_]
  have d : ∀ (i : Fin 3) (x v : ℝ), HasDerivAt (fun s => m.toPh i (x + s * v)) (m.dx * v) 0 := by
    intro i x v
    exact along (lin_deriv m.dx (m.xmin i) x)
  refine ⟨_, by
    unfold minkVelocity
    simp only [ok, Outcome.bind_ok, Outcome.pure_eq]
    rfl, ?_, ?_, ?_, ?_, ?_⟩
  · intro x h
    have k : ¬ D ≤ ((0 : Fin 3) : Nat) := by change ¬ D ≤ 0; omega
    refine (d 0 x _).congr_deriv ?_
    simp only [velocity_smul, if_neg k, V3.smul]; field_simp
  · intro x h
    have k : ¬ D ≤ ((1 : Fin 3) : Nat) := by change ¬ D ≤ 1; omega
    refine (d 1 x _).congr_deriv ?_
    simp only [velocity_smul, if_neg k, V3.smul]; field_simp
  · intro x h
    have k : ¬ D ≤ ((2 : Fin 3) : Nat) := by change ¬ D ≤ 2; omega
    refine (d 2 x _).congr_deriv ?_
    simp only [velocity_smul, if_neg k, V3.smul]; field_simp
  · intro h
    have k : D ≤ ((1 : Fin 3) : Nat) := h
    simp only [velocity_smul, if_pos k, V3.smul]; ring
  · intro h
    have k : D ≤ ((2 : Fin 3) : Nat) := h
    simp only [velocity_smul, if_pos k, V3.smul]; ring

/-- **C162 (Kerr-Schild metrics).** For every particle, on the axis too, the deposit evaluates the metric at
the radius of the particle and at its polar angle kept `1e-5` away from the axis.  The azimuthal and polar velocities it
computes there are the derivatives of the energy with respect to the momenta, Hamilton's equations; the
radial one, which the deposit does not use, lacks the shift. -/
theorem C162_kerr_schild (x1 x2 : ℝ) (u : V3 ℝ) :
    (∀ m : KS, 0 < m.toPh1 x1 → m.dr ≠ 0 → m.dt ≠ 0 →
      ∃ y v, m.toPh2 y = awayFromAxis (m.toPh2 x2) ∧ grVelocity (ofKS m) x1 x2 u = .ok v ∧
        HasDerivAt (fun s => energy m.four true x1 y ⟨u.x, s, u.z⟩) v.y u.y ∧
        HasDerivAt (fun s => energy m.four true x1 y ⟨u.x, u.y, s⟩) v.z u.z ∧
        HasDerivAt (fun s => energy m.four true x1 y ⟨s, u.y, u.z⟩) (v.x - m.beta1 x1 y) u.x) ∧
    (∀ m : KS0, 0 < m.toPh1 x1 → m.dr ≠ 0 → m.dt ≠ 0 →
      ∃ y v, m.toPh2 y = awayFromAxis (m.toPh2 x2) ∧ grVelocity (ofKS0 m) x1 x2 u = .ok v ∧
        HasDerivAt (fun s => energy m.four true x1 y ⟨u.x, s, u.z⟩) v.y u.y ∧
        HasDerivAt (fun s => energy m.four true x1 y ⟨u.x, u.y, s⟩) v.z u.z) := by
  constructor
  · intro m hr hd ht
    obtain ⟨y, hy, ey⟩ := clamp_lin (x2 := x2) (tmin := m.tmin) ht
    have e : m.toPh2 y = awayFromAxis (m.toPh2 x2) := ey
    have hs : sin (m.toPh2 y) ≠ 0 := by rw [e]; exact (awayFromAxis_sin _).ne'
    obtain ⟨v, h1, h2, h3, h4⟩ := grVelocity_geo (geo_ks m hr hs hd ht) (x2 := x2) u hy
    exact ⟨y, v, e, h1, h2, h3, h4⟩
  · intro m hr hd ht
    obtain ⟨y, hy, ey⟩ := clamp_lin (x2 := x2) (tmin := m.tmin) ht
    have e : m.toPh2 y = awayFromAxis (m.toPh2 x2) := ey
    have hs : sin (m.toPh2 y) ≠ 0 := by rw [e]; exact (awayFromAxis_sin _).ne'
    obtain ⟨v, h1, h2, h3, -⟩ := grVelocity_geo (geo_ks0 m hr hs hd ht) (x2 := x2) u hy
    exact ⟨y, v, e, h1, h2, h3⟩

/-- **C162 (quasi-Kerr-Schild).** The same, for particles more than `1e-5` away from the axis. -/
theorem C162_qkerr_schild_partial (x1 x2 : ℝ) (u : V3 ℝ) (m : QKS) (hr : 0 < m.toPh1 x1)
    (h0 : 1 / 100000 ≤ m.toPh2 x2) (h1 : m.toPh2 x2 < π - 1 / 100000) (hd : m.dchi ≠ 0) (ht : m.deta ≠ 0)
    (hj : dthetaDeta m.ε m.h (x2 * m.deta + m.etaMin) ≠ 0) :
    ∃ v, grVelocity (ofQKS m) x1 x2 u = .ok v ∧
      HasDerivAt (fun s => energy m.four true x1 x2 ⟨u.x, s, u.z⟩) v.y u.y ∧
      HasDerivAt (fun s => energy m.four true x1 x2 ⟨u.x, u.y, s⟩) v.z u.z := by
  have hs : sin (m.toPh2 x2) ≠ 0 := (sin_pos_of_pos_of_lt_pi (by linarith) (by linarith)).ne'
  have hy : grAngle (ofQKS m) x2 = .ok x2 := by
    unfold grAngle
    change (if m.toPh2 x2 < 1 / 100000 then _ else if m.toPh2 x2 ≥ π - 1 / 100000 then _ else _) = _
    rw [if_neg (not_lt.mpr h0), if_neg (not_le.mpr h1)]
  obtain ⟨v, e1, e2, e3, -⟩ := grVelocity_geo (geo_qks m hr hs hd ht hj) (x2 := x2) u hy
  exact ⟨v, e1, e2, e3⟩

/-- **C162 (current).** In two dimensions everything the particles add to the component of the current across
the grid sums up to the charge times the velocity computed for each of them. -/
theorem C162_current (O : Nat) (h2 : O ≤ 11) (NG : Int) (charge dt : ℝ)
    (ps : List ((Ax ℝ × Ax ℝ) × ℝ × V3 ℝ))
    (hf : ∀ p ∈ ps, FitAx p.1.1 ∧ FitAx p.1.2) (us : List (Upd ℝ))
    (hu : depositAll O NG charge dt
      (ps.map fun p => prtl2 p.1.1 p.1.2 p.2.1 Tags.alive p.2.2) = .ok us) :
    compSum us 2 = (ps.map fun p => p.2.1 * charge * p.2.2.z).sum := by
  rw [C73_total_current O h2 NG charge dt 2 (by norm_num) _ ?_ us hu, List.map_map]
  · congr 1
  · intro q hq
    obtain ⟨p, hp, rfl⟩ := List.mem_map.1 hq
    refine Or.inr fun a ha => ?_
    simp only [prtl2, List.mem_cons, List.not_mem_nil, or_false] at ha
    rcases ha with rfl | rfl
    · exact (hf p hp).1
    · exact (hf p hp).2

/-- **C162 (speed).** The velocity is below that of light. -/
theorem C162_speed (u : V3 ℝ) : (velocity u).x ^ 2 + (velocity u).y ^ 2 + (velocity u).z ^ 2 < 1 := by
  have h : 0 < 1 + u.x ^ 2 + u.y ^ 2 + u.z ^ 2 := by positivity
  simp only [velocity, div_pow, sq_sqrt h.le, ← add_div]
  rw [div_lt_one h]
  linarith

/-- The hypotheses of `C162_kerr_schild` on a grid of 64 cells from pole to pole with inner radius 1. -/
example (m : KS) (h1 : m.rmin = 1) (h2 : m.dr = 1 / 10) (h3 : m.dt = π / 64) :
    0 < m.toPh1 5 ∧ m.dr ≠ 0 ∧ m.dt ≠ 0 := by
  have := pi_pos
  refine ⟨?_, ?_, ?_⟩
  · change (0 : ℝ) < 5 * m.dr + m.rmin
    rw [h1, h2]; norm_num
  · rw [h2]; norm_num
  · rw [h3]; positivity

/-- A particle on a spherical grid at radius 2 in the equatorial plane with four-velocity `(0, 3/4, 0)`:
angular velocity 3/10. -/
example : sphVelocity ⟨1, 1, 0, π / 2, False⟩ 1 1 0 ⟨0, 3 / 4, 0⟩ = .ok ⟨0, 0, 3 / 10⟩ := by
  have e : √(1 + (3 / 4 : ℝ) ^ 2) = 5 / 4 := by
    rw [show (1 + (3 / 4 : ℝ) ^ 2) = (5 / 4) ^ 2 by norm_num]
    exact sqrt_sq (by norm_num)
  simp [sphVelocity, Sph.transform, diagTransform, Outcome.bind_ok, Sph.sqrtH_, xyzToTetrad, Sph.toPh2,
    invEnergy, V3.normSq, -div_pow, e]
  norm_num

end Entity.DepositVel
