import Verif.Lemmas.GRPush
import Verif.Props.MetricDeriv

/-!
# Geodesic motion in the general-relativistic pusher (C101)

The energy of a particle is minus the time component of its covariant four-velocity, the function `u0`
of the metric; C90 shows that it is the one number that puts the four-velocity on the mass shell
pointing to the future.  Geodesics are the solutions of Hamilton's equations
`du_i/dt = -∂E/∂x^i`, `dx^i/dt = ∂E/∂u_i`.
-/

namespace Entity.GRPush

open Entity Entity.Push Entity.Metric
open Real Filter Topology

/-! ## Specification -/

/-- Energy of a particle at a point: `g` the space-time metric there. -/
noncomputable def energy (g : ℝ → ℝ → Four) (massive : Bool) (x1 x2 : ℝ) (u : V3 ℝ) : ℝ :=
  -u0 (g x1 x2) u (if massive then 1 else 0)

/-- Mean of two velocities. -/
noncomputable def mean (v w : V3 ℝ) : V3 ℝ := ⟨(v.x + w.x) / 2, (v.y + w.y) / 2, (v.z + w.z) / 2⟩

/-- `w'` is `v - dt ∂E/∂x`, the derivative of the energy taken at the mean of `v` and `w`; the energy
does not depend on the azimuth.  For `w' = w` this is the implicit midpoint rule. -/
def MomentumStep (E : ℝ → ℝ → V3 ℝ → ℝ) (dt x1 x2 : ℝ) (v w w' : V3 ℝ) : Prop :=
  ∃ e1 e2, HasDerivAt (fun x => E x x2 (mean v w)) e1 x1 ∧
    HasDerivAt (fun y => E x1 y (mean v w)) e2 x2 ∧
    w' = ⟨v.x - dt * e1, v.y - dt * e2, v.z⟩

/-- `y'` is `x + dt ∂E/∂u`, the derivative of the energy taken at the mean of the positions `x` and
`y`. -/
def CoordinateStep (E : ℝ → ℝ → V3 ℝ → ℝ) (dt x1 x2 : ℝ) (v : V3 ℝ) (y y' : ℝ × ℝ) : Prop :=
  ∃ e1 e2, HasDerivAt (fun s => E ((x1 + y.1) / 2) ((x2 + y.2) / 2) ⟨s, v.y, v.z⟩) e1 v.x ∧
    HasDerivAt (fun s => E ((x1 + y.1) / 2) ((x2 + y.2) / 2) ⟨v.x, s, v.z⟩) e2 v.y ∧
    y' = (x1 + dt * e1, x2 + dt * e2)

/-! ## Any metric -/

section
variable {g : Met} {al be : Metric.Field} {h : ℝ → ℝ → Spatial} {four : ℝ → ℝ → Four} {x1 x2 : ℝ}

theorem energy_ham (A : Adm (four x1 x2) (al x1 x2) (be x1 x2) (h x1 x2)) (hp : 0 < al x1 x2)
    (massive : Bool) (u : V3 ℝ) :
    energy four massive x1 x2 u = ham (al x1 x2) (be x1 x2) (h x1 x2) (shellNorm massive) u := by
  rw [energy, show (if massive then (1 : ℝ) else 0) = shellNorm massive from rfl,
    u0_adm A hp, neg_neg]

theorem momentum_step (G : Geo g al be h four x1 x2) (H : HasDerivs al be h (g.deriv x1 x2) x1 x2)
    (nr : ∀ᶠ x in 𝓝 x1, 0 < al x x2 ∧ Adm (four x x2) (al x x2) (be x x2) (h x x2))
    (nt : ∀ᶠ y in 𝓝 x2, 0 < al x1 y ∧ Adm (four x1 y) (al x1 y) (be x1 y) (h x1 y))
    (massive : Bool) (dt : ℝ) (v : V3 ℝ) (n : Nat) :
    ∃ w w', momentumPush g massive dt x1 x2 v n = .ok w ∧
      momentumPush g massive dt x1 x2 v (n + 1) = .ok w' ∧
      (massive = true ∨ mean v w ≠ ⟨0, 0, 0⟩ →
        MomentumStep (energy four massive) dt x1 x2 v w w') := by
  obtain ⟨w, h1, hz⟩ := G.momentumPush massive dt v n
  have hm : (⟨1 / 2 * (v.x + w.x), 1 / 2 * (v.y + w.y), v.z⟩ : V3 ℝ) = mean v w := by
    simp only [mean, hz]; ext <;> simp <;> ring
  refine ⟨w, _, h1, by rw [GRPush.momentumPush, h1, Outcome.bind_ok, G.momentumPass], fun hu => ?_⟩
  have hQ := G.quad_pos hu
  obtain ⟨d1, d2⟩ := ham_dr H hQ G.pos
  rw [hm, hz]
  refine ⟨_, _, d1.congr_of_eventuallyEq ?_, d2.congr_of_eventuallyEq ?_, ?_⟩
  · filter_upwards [nr] with x hx
    exact energy_ham hx.2 hx.1 massive _
  · filter_upwards [nt] with y hy
    exact energy_ham hy.2 hy.1 massive _
  · ext <;> simp

theorem coordinate_pass {m1 m2 : ℝ} (massive : Bool) (dt : ℝ) (v : V3 ℝ)
    (y : ℝ × ℝ) (e1 : m1 = (x1 + y.1) / 2) (e2 : m2 = (x2 + y.2) / 2)
    (G : Geo g al be h four m1 m2) (c1 : smallAngle ≤ g.toPh2 m2) (c2 : g.toPh2 m2 < π - smallAngle)
    (hv : massive = true ∨ v ≠ ⟨0, 0, 0⟩) :
    ∃ y', coordinatePass g massive dt x1 x2 v y = .ok y' ∧
      CoordinateStep (energy four massive) dt x1 x2 v y y' := by
  have hQ := G.quad_pos hv
  have m1' : 1 / 2 * (x1 + y.1) = m1 := by rw [e1]; ring
  have m2' : 1 / 2 * (x2 + y.2) = m2 := by rw [e2]; ring
  have hc : clampAngle g m2 = .ok m2 := by
    unfold clampAngle; rw [if_neg (not_lt.2 c1), if_neg (not_le.2 c2)]
  obtain ⟨d1, d2, -⟩ := ham_du (al m1 m2) (be m1 m2) (h m1 m2) (shellNorm massive) v hQ G.pos
  have hp : coordinatePass g massive dt x1 x2 v y = .ok
      (x1 + dt * ((v.x * (h m1 m2).u11 + v.z * (h m1 m2).u13) /
          (√(shellNorm massive + quad (h m1 m2) v) / al m1 m2) - be m1 m2),
       x2 + dt * (v.y * (h m1 m2).u22 / (√(shellNorm massive + quad (h m1 m2) v) / al m1 m2))) := by
    unfold coordinatePass
    simp only [m1', m2', hc, Outcome.bind_ok, G.raise, Outcome.pure_eq, Geo.gamma_eq, G.alpha, G.beta]
  refine ⟨_, hp, _, _, ?_, ?_, rfl⟩
  · rw [← e1, ← e2]
    exact d1.congr_of_eventuallyEq (Eventually.of_forall fun s => energy_ham G.adm G.pos massive _)
  · rw [← e1, ← e2]
    exact d2.congr_of_eventuallyEq (Eventually.of_forall fun s => energy_ham G.adm G.pos massive _)

end

/-! ## The metrics of the code -/

theorem gen_adm_upper {a r θ jr jt : ℝ} (hr : 0 < r) (hj : jr ≠ 0) :
    Adm (genFour a r θ jr jt) (1 / √(1 + zed a r θ)) (zed a r θ / jr / (1 + zed a r θ))
      (genSpatial a r θ jr jt) := by
  have hz := zed_pos (a := a) (θ := θ) hr
  have hS := sigma_pos (a := a) (θ := θ) hr
  have hz1 : 1 + zed a r θ ≠ 0 := by positivity
  have hsq : (1 / √(1 + zed a r θ)) ^ 2 = 1 / (1 + zed a r θ) := by
    rw [div_pow, Real.sq_sqrt (by linarith), one_pow]
  refine ⟨?_, ?_, ?_, rfl, rfl, rfl⟩
  · rw [hsq]; simp [genFour]
  · rw [hsq]; simp only [genFour]; field_simp
  · rw [hsq]
    have hS2 : Sigma a r θ + 2 * r ≠ 0 := by positivity
    have e : Delta a r * (Sigma a r θ + 2 * r) = bigA a r θ - 4 * r ^ 2 := by
      rw [bigA_eq]
      have hSe : Sigma a r θ = r ^ 2 + a ^ 2 * (1 - sin θ ^ 2) := by unfold Metric.Sigma; rw [cos_sq_eq]
      rw [hSe]; unfold Delta; ring
    have e' : Delta a r = (bigA a r θ - 4 * r ^ 2) / (Sigma a r θ + 2 * r) := by
      rw [eq_div_iff hS2, e]
    simp only [genFour, genSpatial]
    rw [e']
    have hz' : 1 + zed a r θ = (Sigma a r θ + 2 * r) / Sigma a r θ := by unfold zed; field_simp
    rw [hz']
    unfold zed
    field_simp
    ring

theorem lapse_pos {a r θ : ℝ} (hr : 0 < r) : 0 < 1 / √(1 + zed a r θ) := by
  have := zed_pos (a := a) (θ := θ) hr
  positivity

theorem ks_adm (m : KS) {x1 : ℝ} (x2 : ℝ) (hr : 0 < m.toPh1 x1) (hd : m.dr ≠ 0) :
    0 < m.alpha x1 x2 ∧ Adm (m.four x1 x2) (m.alpha x1 x2) (m.beta1 x1 x2) (m.spatial x1 x2) := by
  refine ⟨lapse_pos hr, ?_⟩
  have := gen_adm_upper (a := m.a) (θ := x2 * m.dt + m.tmin) (jt := m.dt) hr hd
  have hb : m.beta1 x1 x2 = zed m.a (m.toPh1 x1) (x2 * m.dt + m.tmin) / m.dr /
      (1 + zed m.a (m.toPh1 x1) (x2 * m.dt + m.tmin)) := by
    simp only [KS.beta1, KS.toPh1]; ring
  rw [ks_four, ks_spatial, hb]
  exact this

theorem geo_ks (m : KS) {x1 x2 : ℝ} (hr : 0 < m.toPh1 x1) (hs : sin (m.toPh2 x2) ≠ 0) (hd : m.dr ≠ 0)
    (ht : m.dt ≠ 0) : Geo (ofKS m) m.alpha m.beta1 m.spatial m.four x1 x2 where
  pos := (ks_adm m x2 hr hd).1
  alpha := rfl
  beta := rfl
  raise v := by simp [ofKS, KS.transform, grTransform]
  rules := C87_kerr_schild m x1 x2 hr hs hd ht
  adm := (ks_adm m x2 hr hd).2

theorem qks_adm (m : QKS) {x1 : ℝ} (x2 : ℝ) (hr : 0 < m.toPh1 x1) (hd : m.dchi ≠ 0) :
    0 < m.alpha x1 x2 ∧ Adm (m.four x1 x2) (m.alpha x1 x2) (m.beta1 x1 x2) (m.spatial x1 x2) := by
  have hr' : 0 < m.rad x1 := hr
  refine ⟨lapse_pos hr', ?_⟩
  have he := exp_pos (x1 * m.dchi + m.chiMin)
  have := gen_adm_upper (a := m.a) (θ := m.ang x2)
    (jt := m.deta * dthetaDeta m.ε m.h (x2 * m.deta + m.etaMin)) hr'
    (show m.dchi * exp (x1 * m.dchi + m.chiMin) ≠ 0 by positivity)
  have hb : m.beta1 x1 x2 = zed m.a (m.rad x1) (m.ang x2) /
      (m.dchi * exp (x1 * m.dchi + m.chiMin)) / (1 + zed m.a (m.rad x1) (m.ang x2)) := by
    simp only [QKS.beta1]
    rw [Real.exp_neg]
    field_simp
  rw [qks_four, qks_spatial, hb]
  exact this

theorem geo_qks (m : QKS) {x1 x2 : ℝ} (hr : 0 < m.toPh1 x1) (hs : sin (m.toPh2 x2) ≠ 0)
    (hd : m.dchi ≠ 0) (ht : m.deta ≠ 0) (hj : dthetaDeta m.ε m.h (x2 * m.deta + m.etaMin) ≠ 0) :
    Geo (ofQKS m) m.alpha m.beta1 m.spatial m.four x1 x2 where
  pos := (qks_adm m x2 hr hd).1
  alpha := rfl
  beta := rfl
  raise v := by simp [ofQKS, QKS.transform, grTransform]
  rules := C87_qkerr_schild m x1 x2 hr hs hd ht hj
  adm := (qks_adm m x2 hr hd).2

theorem ks0_adm (m : KS0) (x1 x2 : ℝ) :
    0 < (m.deriv x1 x2).alpha ∧ Adm (m.four x1 x2) (m.deriv x1 x2).alpha (m.deriv x1 x2).beta1
      (m.spatial x1 x2) := by
  refine ⟨by simp [KS0.deriv], ?_⟩
  constructor <;> simp [KS0.deriv, KS0.four, KS0.spatial]

theorem geo_ks0 (m : KS0) {x1 x2 : ℝ} (hr : 0 < m.toPh1 x1) (hs : sin (m.toPh2 x2) ≠ 0) (hd : m.dr ≠ 0)
    (ht : m.dt ≠ 0) : Geo (ofKS0 m) (fun x y => (m.deriv x y).alpha) (fun x y => (m.deriv x y).beta1)
      m.spatial m.four x1 x2 where
  pos := (ks0_adm m x1 x2).1
  alpha := rfl
  beta := rfl
  raise v := by simp [ofKS0, KS0.transform, gr0Transform, KS0.spatial]
  rules := C87_kerr_schild_0 m x1 x2 hr hs hd ht
  adm := (ks0_adm m x1 x2).2

theorem near_pos {f : ℝ → ℝ} (hf : Continuous f) {x : ℝ} (h : 0 < f x) : ∀ᶠ y in 𝓝 x, 0 < f y :=
  hf.continuousAt.eventually (lt_mem_nhds h)

theorem sin_pos_of_angle {θ : ℝ} (h1 : smallAngle ≤ θ) (h2 : θ < π - smallAngle) : sin θ ≠ 0 := by
  have hs : 0 < smallAngle := by unfold smallAngle; norm_num
  exact (sin_pos_of_pos_of_lt_pi (by linarith) (by linarith)).ne'

/-- **C101 (Kerr-Schild, velocity).** Whatever the number of passes `n + 1`, the velocity after the
geodesic part of the push is `v - dt ∂E/∂x` at the position of the particle, with the derivative taken
at the mean of the old velocity and the result of `n` passes; in particular a converged iteration
solves the implicit midpoint rule for Hamilton's equations.  The position must be off the axis, the
angular derivatives of Σ and A not below the tolerance without being zero, and a massless particle must
not have zero velocity. -/
theorem C101_velocity_kerr_schild (m : KS) (massive : Bool) (dt x1 x2 : ℝ) (v : V3 ℝ) (n : Nat)
    (hr : 0 < m.toPh1 x1) (hs : sin (m.toPh2 x2) ≠ 0) (hd : m.dr ≠ 0) (ht : m.dt ≠ 0)
    (h1 : Resolved m.ε (-2 * m.a ^ 2 * sin (m.toPh2 x2) * cos (m.toPh2 x2) * m.dt))
    (h2 : Resolved m.ε
      (-2 * m.a ^ 2 * sin (m.toPh2 x2) * cos (m.toPh2 x2) * Delta m.a (m.toPh1 x1) * m.dt)) :
    ∃ w w', momentumPush (ofKS m) massive dt x1 x2 v n = .ok w ∧
      momentumPush (ofKS m) massive dt x1 x2 v (n + 1) = .ok w' ∧
      (massive = true ∨ mean v w ≠ ⟨0, 0, 0⟩ →
        MomentumStep (energy m.four massive) dt x1 x2 v w w') := by
  obtain ⟨a1, a2, a3, a4, a5, a6⟩ := C88_kerr_schild m x1 x2 hr hs hd ht h1 h2
  refine momentum_step (geo_ks m hr hs hd ht) ⟨rfl, a1, a2, a3, a4, a5, a6⟩ ?_ ?_ massive dt v n
  · filter_upwards [near_pos (f := m.toPh1) (by unfold KS.toPh1; fun_prop) hr] with x hx
    exact ks_adm m x2 hx hd
  · exact Eventually.of_forall fun y => ks_adm m y hr hd

/-- **C101 (Kerr-Schild without mass, velocity).** The same in flat space, without tolerance. -/
theorem C101_velocity_kerr_schild_0 (m : KS0) (massive : Bool) (dt x1 x2 : ℝ) (v : V3 ℝ) (n : Nat)
    (hr : 0 < m.toPh1 x1) (hs : sin (m.toPh2 x2) ≠ 0) (hd : m.dr ≠ 0) (ht : m.dt ≠ 0) :
    ∃ w w', momentumPush (ofKS0 m) massive dt x1 x2 v n = .ok w ∧
      momentumPush (ofKS0 m) massive dt x1 x2 v (n + 1) = .ok w' ∧
      (massive = true ∨ mean v w ≠ ⟨0, 0, 0⟩ →
        MomentumStep (energy m.four massive) dt x1 x2 v w w') := by
  obtain ⟨a1, a2, a3, a4, a5, a6⟩ := C88_kerr_schild_0 m x1 x2 hr hs
  exact momentum_step (geo_ks0 m hr hs hd ht) ⟨rfl, a1, a2, a3, a4, a5, a6⟩
    (Eventually.of_forall fun x => ks0_adm m x x2) (Eventually.of_forall fun y => ks0_adm m x1 y)
    massive dt v n

/-- **C101 (quasi-spherical Kerr-Schild, velocity, partial).** The same on grids that are not stretched
in the angle. -/
theorem C101_velocity_qkerr_schild_partial (m : QKS) (massive : Bool) (dt x1 x2 : ℝ) (v : V3 ℝ) (n : Nat)
    (hr : 0 < m.toPh1 x1) (hs : sin (m.toPh2 x2) ≠ 0) (hd : m.dchi ≠ 0) (ht : m.deta ≠ 0)
    (hε : 0 ≤ m.ε) (h0 : m.h = 0)
    (h1 : Resolved m.ε (-2 * m.a ^ 2 * sin (m.toPh2 x2) * cos (m.toPh2 x2) *
      (m.deta * dthetaDeta m.ε m.h (x2 * m.deta + m.etaMin))))
    (h2 : Resolved m.ε (-2 * m.a ^ 2 * sin (m.toPh2 x2) * cos (m.toPh2 x2) *
      Delta m.a (m.toPh1 x1) * (m.deta * dthetaDeta m.ε m.h (x2 * m.deta + m.etaMin)))) :
    ∃ w w', momentumPush (ofQKS m) massive dt x1 x2 v n = .ok w ∧
      momentumPush (ofQKS m) massive dt x1 x2 v (n + 1) = .ok w' ∧
      (massive = true ∨ mean v w ≠ ⟨0, 0, 0⟩ →
        MomentumStep (energy m.four massive) dt x1 x2 v w w') := by
  have hh : |m.h| ≤ m.ε := by rw [h0, abs_zero]; exact hε
  have hj : dthetaDeta m.ε m.h (x2 * m.deta + m.etaMin) ≠ 0 := by
    unfold dthetaDeta; rw [if_pos hh]; norm_num
  obtain ⟨a1, a2, a3, a4, a5, a6⟩ := C88_qkerr_schild_partial m x1 x2 hr hs hd ht (.inl h0) h1 h2
  refine momentum_step (geo_qks m hr hs hd ht hj) ⟨rfl, a1, a2, a3, a4 hh, a5, a6⟩ ?_ ?_ massive dt v n
  · filter_upwards [near_pos (f := m.toPh1) (by unfold QSph.toPh1; fun_prop) hr] with x hx
    exact qks_adm m x2 hx hd
  · exact Eventually.of_forall fun y => qks_adm m y hr hd

/-- **C101 (position, all metrics).** Whatever the number of passes `n + 1`, the coordinates after the
push are `x + dt ∂E/∂u` with the derivative taken at the mean of the old coordinates and the result of
`n` passes, as long as that mean is further than the small angle from the axis. -/
theorem C101_position (massive : Bool) (dt x1 x2 : ℝ) (v : V3 ℝ) (n : Nat) (y : ℝ × ℝ)
    (hv : massive = true ∨ v ≠ ⟨0, 0, 0⟩) :
    (∀ m : KS, coordinatePush (ofKS m) massive dt x1 x2 v n = .ok y → m.dr ≠ 0 → m.dt ≠ 0 →
      0 < m.toPh1 ((x1 + y.1) / 2) → smallAngle ≤ m.toPh2 ((x2 + y.2) / 2) →
      m.toPh2 ((x2 + y.2) / 2) < π - smallAngle →
      ∃ y', coordinatePush (ofKS m) massive dt x1 x2 v (n + 1) = .ok y' ∧
        CoordinateStep (energy m.four massive) dt x1 x2 v y y') ∧
    (∀ m : KS0, coordinatePush (ofKS0 m) massive dt x1 x2 v n = .ok y → m.dr ≠ 0 → m.dt ≠ 0 →
      0 < m.toPh1 ((x1 + y.1) / 2) → smallAngle ≤ m.toPh2 ((x2 + y.2) / 2) →
      m.toPh2 ((x2 + y.2) / 2) < π - smallAngle →
      ∃ y', coordinatePush (ofKS0 m) massive dt x1 x2 v (n + 1) = .ok y' ∧
        CoordinateStep (energy m.four massive) dt x1 x2 v y y') ∧
    (∀ m : QKS, coordinatePush (ofQKS m) massive dt x1 x2 v n = .ok y → m.dchi ≠ 0 → m.deta ≠ 0 →
      dthetaDeta m.ε m.h ((x2 + y.2) / 2 * m.deta + m.etaMin) ≠ 0 →
      0 < m.toPh1 ((x1 + y.1) / 2) → smallAngle ≤ m.toPh2 ((x2 + y.2) / 2) →
      m.toPh2 ((x2 + y.2) / 2) < π - smallAngle →
      ∃ y', coordinatePush (ofQKS m) massive dt x1 x2 v (n + 1) = .ok y' ∧
        CoordinateStep (energy m.four massive) dt x1 x2 v y y') := by
  refine ⟨fun m e hd ht hr c1 c2 => ?_, fun m e hd ht hr c1 c2 => ?_, fun m e hd ht hj hr c1 c2 => ?_⟩
  · rw [coordinatePush, e, Outcome.bind_ok]
    exact coordinate_pass massive dt v y rfl rfl (geo_ks m hr (sin_pos_of_angle c1 c2) hd ht) c1 c2 hv
  · rw [coordinatePush, e, Outcome.bind_ok]
    exact coordinate_pass massive dt v y rfl rfl (geo_ks0 m hr (sin_pos_of_angle c1 c2) hd ht) c1 c2 hv
  · rw [coordinatePush, e, Outcome.bind_ok]
    exact coordinate_pass massive dt v y rfl rfl (geo_qks m hr (sin_pos_of_angle c1 c2) hd ht hj)
      c1 c2 hv

/-- **C101 (counterexample).** Wherever the angle is stretched (dθ/dη is neither 1 nor -1) the claim fails
in the quasi-spherical Kerr-Schild metric for every time step: a particle moving in the angle gets a
wrong radial velocity, because the radial derivative of the second diagonal component is wrong
(C88). -/
theorem C101_qkerr_schild_counterexample (m : QKS) (dt x1 x2 : ℝ) (hdt : dt ≠ 0)
    (hr : 0 < m.toPh1 x1) (hs : sin (m.toPh2 x2) ≠ 0) (hd : m.dchi ≠ 0) (ht : m.deta ≠ 0)
    (hj0 : dthetaDeta m.ε m.h (x2 * m.deta + m.etaMin) ≠ 0)
    (hj : dthetaDeta m.ε m.h (x2 * m.deta + m.etaMin) ^ 2 ≠ 1)
    (h0 : Resolved m.ε m.h)
    (h1 : Resolved m.ε (-2 * m.a ^ 2 * sin (m.toPh2 x2) * cos (m.toPh2 x2) *
      (m.deta * dthetaDeta m.ε m.h (x2 * m.deta + m.etaMin))))
    (h2 : Resolved m.ε (-2 * m.a ^ 2 * sin (m.toPh2 x2) * cos (m.toPh2 x2) *
      Delta m.a (m.toPh1 x1) * (m.deta * dthetaDeta m.ε m.h (x2 * m.deta + m.etaMin)))) :
    ∃ w, momentumPush (ofQKS m) true dt x1 x2 ⟨0, 1, 0⟩ 1 = .ok w ∧
      ¬ MomentumStep (energy m.four true) dt x1 x2 ⟨0, 1, 0⟩ ⟨0, 1, 0⟩ w := by
  have G := geo_qks m hr hs hd ht hj0
  obtain ⟨a1, a2, a3, -, a5, a6⟩ := C88_qkerr_schild_partial m x1 x2 hr hs hd ht h0 h1 h2
  have hr' : 0 < m.rad x1 := hr
  have hS := sigma_pos (a := m.a) (θ := m.ang x2) hr'
  have he := exp_pos (x1 * m.dchi + m.chiMin)
  set j := dthetaDeta m.ε m.h (x2 * m.deta + m.etaMin) with hjd
  have a4 : HasDerivAt (fun x => (m.spatial x x2).u22) ((m.deriv x1 x2).drH22 / j ^ 2) x1 := by
    refine congrD (inv_dr (a := m.a) (T := m.ang x2) (rad_d m x1) hr' (1 / (j ^ 2 * m.deta ^ 2)))
      (fun y => by simp only [QKS.spatial, ← hjd]; field_simp) ?_
    simp only [QKS.deriv]
    field_simp
  have hne : (m.deriv x1 x2).drH22 ≠ 0 := by
    simp only [QKS.deriv]
    refine div_ne_zero (div_ne_zero (neg_ne_zero.2 ?_) (by positivity)) (by positivity)
    exact mul_ne_zero (mul_ne_zero two_ne_zero hr'.ne') (mul_ne_zero hd he.ne')
  refine ⟨_, by rw [momentumPush, momentumPush, Outcome.bind_ok, G.momentumPass], ?_⟩
  have hmean : mean ⟨0, 1, 0⟩ ⟨0, 1, 0⟩ = ⟨0, 1, 0⟩ := by ext <;> simp [mean]
  rintro ⟨e1, e2, d1, -, ew⟩
  rw [hmean] at d1
  have hQ := G.quad_pos (massive := true) (u := ⟨0, 1, 0⟩) (.inl rfl)
  have t1 := ham_deriv a1.dr a2.dr a3.dr a4 a5.dr a6.dr hQ G.pos
  have hE : (fun x => energy m.four true x x2 ⟨0, 1, 0⟩) =ᶠ[𝓝 x1] fun x =>
      ham (m.alpha x x2) (m.beta1 x x2) (m.spatial x x2) (shellNorm true) ⟨0, 1, 0⟩ := by
    filter_upwards [near_pos (f := m.toPh1) (by unfold QSph.toPh1; fun_prop) hr] with x hx
    exact energy_ham (qks_adm m x2 hx hd).2 (qks_adm m x2 hx hd).1 true _
  have hu := (d1.congr_of_eventuallyEq hE.symm).unique t1
  have hx := congrArg V3.x ew
  simp only [ofQKS] at hx
  rw [show (⟨1 / 2 * (0 + 0), 1 / 2 * (1 + 1), 0⟩ : V3 ℝ) = ⟨0, 1, 0⟩ by ext <;> norm_num] at hx
  have hQ' : 0 < √(shellNorm true + quad (m.spatial x1 x2) ⟨0, 1, 0⟩) := Real.sqrt_pos.2 hQ
  have hal : 0 < m.alpha x1 x2 := G.pos
  have hA : (m.deriv x1 x2).alpha = m.alpha x1 x2 := rfl
  have e : rateR (m.deriv x1 x2)
      (√(shellNorm true + quad (m.spatial x1 x2) ⟨0, 1, 0⟩) / (m.deriv x1 x2).alpha) ⟨0, 1, 0⟩ = -e1 := by
    have : dt * rateR (m.deriv x1 x2)
      (√(shellNorm true + quad (m.spatial x1 x2) ⟨0, 1, 0⟩) / (m.deriv x1 x2).alpha) ⟨0, 1, 0⟩ =
        dt * -e1 := by linarith
    exact mul_left_cancel₀ hdt this
  rw [hu] at e
  simp only [rateR, hA] at e
  have hq : shellNorm true + ((m.spatial x1 x2).u11 * (0 : ℝ) ^ 2 + (m.spatial x1 x2).u22 * 1 ^ 2 +
      (m.spatial x1 x2).u33 * 0 ^ 2 + 2 * (m.spatial x1 x2).u13 * 0 * 0) =
      shellNorm true + quad (m.spatial x1 x2) ⟨0, 1, 0⟩ := rfl
  rw [hq] at e
  set Q := √(shellNorm true + quad (m.spatial x1 x2) ⟨0, 1, 0⟩) with hQd
  have e3 : (m.deriv x1 x2).drH22 = (m.deriv x1 x2).drH22 / j ^ 2 := by
    have hc : (1 : ℝ) / 2 / (Q / m.alpha x1 x2) ≠ 0 := by positivity
    refine mul_left_cancel₀ hc ?_
    linear_combination -e
  rw [eq_div_iff (by positivity)] at e3
  exact hj (mul_left_cancel₀ hne (by linarith))

/-! ## Example -/

/-- A photon moving in the azimuth in flat space: the hypotheses of the flat case hold, the mean velocity
is not zero and the radial velocity changes. -/
example : let m : KS0 := ⟨1, 1, 0, π / 4⟩
    0 < m.toPh1 1 ∧ sin (m.toPh2 2) ≠ 0 ∧ m.dr ≠ 0 ∧ m.dt ≠ 0 ∧
    momentumPush (ofKS0 m) false 1 1 2 ⟨0, 0, 2⟩ 1 = .ok ⟨1 / 2, 0, 2⟩ := by
  intro m
  have e : (2 : ℝ) * (π / 4) + 0 = π / 2 := by ring
  have hr : 0 < m.toPh1 1 := by simp only [m, KS0.toPh1]; norm_num
  have hs : sin (m.toPh2 2) ≠ 0 := by simp only [m, KS0.toPh2, e, sin_pi_div_two]; norm_num
  have hd : m.dr ≠ 0 := by simp [m]
  have ht : m.dt ≠ 0 := by simp [m, pi_ne_zero]
  refine ⟨hr, hs, hd, ht, ?_⟩
  have G := geo_ks0 m hr hs hd ht
  rw [momentumPush, momentumPush, Outcome.bind_ok, G.momentumPass]
  have hq : shellNorm false + quad (m.spatial 1 2) ⟨1 / 2 * (0 + 0), 1 / 2 * (0 + 0), 2⟩ = 1 ^ 2 := by
    simp only [m, shellNorm, quad, KS0.spatial, e, sin_pi_div_two]; norm_num
  rw [hq, Real.sqrt_sq (by norm_num)]
  congr 1
  ext <;> simp only [rateR, rateT, ofKS0, KS0.deriv, m, e, sin_pi_div_two, cos_pi_div_two] <;> norm_num

end Entity.GRPush
