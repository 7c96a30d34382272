import Verif.Props.GRGeodesic

/-!
# C171: particles near the axis of a black hole

C101 holds away from the axis.  Here the restriction is removed for the metrics with equidistant angles.
-/

namespace Entity.GRPush

open Entity Entity.Push Entity.Metric
open Real Filter Topology

/-- Closest angle that is not within `s` of the axis. -/
noncomputable def offAxis (s θ : ℝ) : ℝ := max s (min (π - s) θ)

/-- `y'` is `x + dt ∂E/∂u`, the derivative of the energy taken at the point `(m1, m2)`. -/
def StepWith (E : ℝ → ℝ → V3 ℝ → ℝ) (m1 m2 dt x1 x2 : ℝ) (v : V3 ℝ) (y' : ℝ × ℝ) : Prop :=
  ∃ e1 e2, HasDerivAt (fun s => E m1 m2 ⟨s, v.y, v.z⟩) e1 v.x ∧
    HasDerivAt (fun s => E m1 m2 ⟨v.x, s, v.z⟩) e2 v.y ∧ y' = (x1 + dt * e1, x2 + dt * e2)

theorem smallAngle_pos : 0 < smallAngle ∧ smallAngle < π - smallAngle := by
  have := Real.two_le_pi
  unfold smallAngle
  constructor <;> norm_num
  linarith

theorem clampAngle_eq {g : Met} (hi : ∀ θ, ∃ z, g.toCd2 θ = .ok z ∧ g.toPh2 z = θ) (x2 : ℝ) :
    ∃ z, clampAngle g x2 = .ok z ∧ g.toPh2 z = offAxis (1 / 100000) (g.toPh2 x2) := by
  have hs := smallAngle_pos
  have e : (1 / 100000 : ℝ) = smallAngle := rfl
  unfold clampAngle offAxis
  rw [e]
  split_ifs with h1 h2
  · obtain ⟨z, hz, hp⟩ := hi smallAngle
    refine ⟨z, hz, ?_⟩
    rw [hp, min_eq_right (by linarith), max_eq_left h1.le]
  · obtain ⟨z, hz, hp⟩ := hi (π - smallAngle)
    refine ⟨z, hz, ?_⟩
    rw [hp, min_eq_left h2, max_eq_right hs.2.le]
  · exact ⟨x2, rfl, by rw [min_eq_right (by linarith), max_eq_right (by linarith)]⟩

theorem sin_offAxis (θ : ℝ) : sin (offAxis (1 / 100000) θ) ≠ 0 := by
  have hs := smallAngle_pos
  have e : (1 / 100000 : ℝ) = smallAngle := rfl
  have l : 0 < offAxis (1 / 100000) θ := by
    rw [e]; exact lt_of_lt_of_le hs.1 (le_max_left _ _)
  have u : offAxis (1 / 100000) θ < π := by
    rw [e]
    refine max_lt (by linarith) (lt_of_le_of_lt (min_le_left _ _) (by linarith))
  exact (sin_pos_of_pos_of_lt_pi l u).ne'

theorem pass_with {g : Met} {al be : Metric.Field} {h : ℝ → ℝ → Spatial} {four : ℝ → ℝ → Four}
    {x1 x2 m1 m2 : ℝ} (massive : Bool) (dt : ℝ) (v : V3 ℝ) (y : ℝ × ℝ) (e1 : m1 = (x1 + y.1) / 2)
    (hc : clampAngle g ((x2 + y.2) / 2) = .ok m2) (G : Geo g al be h four m1 m2)
    (hv : massive = true ∨ v ≠ ⟨0, 0, 0⟩) :
    ∃ y', coordinatePass g massive dt x1 x2 v y = .ok y' ∧
      StepWith (energy four massive) m1 m2 dt x1 x2 v y' := by
  have hQ := G.quad_pos hv
  have m1' : 1 / 2 * (x1 + y.1) = m1 := by rw [e1]; ring
  have m2' : 1 / 2 * (x2 + y.2) = (x2 + y.2) / 2 := by ring
  obtain ⟨d1, d2, -⟩ := ham_du (al m1 m2) (be m1 m2) (h m1 m2) (shellNorm massive) v hQ G.pos
  have hp : coordinatePass g massive dt x1 x2 v y = .ok
      (x1 + dt * ((v.x * (h m1 m2).u11 + v.z * (h m1 m2).u13) /
          (√(shellNorm massive + quad (h m1 m2) v) / al m1 m2) - be m1 m2),
       x2 + dt * (v.y * (h m1 m2).u22 / (√(shellNorm massive + quad (h m1 m2) v) / al m1 m2))) := by
    unfold coordinatePass
    simp only [m1', m2', hc, Outcome.bind_ok, G.raise, Outcome.pure_eq, Geo.gamma_eq, G.alpha, G.beta]
  refine ⟨_, hp, _, _, ?_, ?_, rfl⟩
  · exact d1.congr_of_eventuallyEq (Eventually.of_forall fun s => energy_ham G.adm G.pos massive _)
  · exact d2.congr_of_eventuallyEq (Eventually.of_forall fun s => energy_ham G.adm G.pos massive _)

/-- **C171 (Kerr-Schild).**  Wherever a particle is — on the axis, or beyond it in the middle of a step —, a pass
of the coordinate push succeeds and gives `x + dt ∂E/∂u`, with the derivative taken at the mean radius and at the
angle closest to the mean angle that is not within 10⁻⁵ of the axis. -/
theorem C171_kerr_schild (m : KS) (massive : Bool) (dt x1 x2 : ℝ) (v : V3 ℝ) (n : Nat) (y : ℝ × ℝ)
    (hv : massive = true ∨ v ≠ ⟨0, 0, 0⟩) (hd : m.dr ≠ 0) (ht : m.dt ≠ 0)
    (e : coordinatePush (ofKS m) massive dt x1 x2 v n = .ok y) (hr : 0 < m.toPh1 ((x1 + y.1) / 2)) :
    ∃ m2 y', m.toPh2 m2 = offAxis (1 / 100000) (m.toPh2 ((x2 + y.2) / 2)) ∧
      coordinatePush (ofKS m) massive dt x1 x2 v (n + 1) = .ok y' ∧
      StepWith (energy m.four massive) ((x1 + y.1) / 2) m2 dt x1 x2 v y' := by
  obtain ⟨m2, hc, hp⟩ := clampAngle_eq (g := ofKS m)
    (fun θ => ⟨_, rfl, by simp only [ofKS, KS.toCd2, KS.toPh2]; field_simp; ring⟩) ((x2 + y.2) / 2)
  have hs : sin (m.toPh2 m2) ≠ 0 := by
    rw [show m.toPh2 m2 = _ from hp]; exact sin_offAxis _
  obtain ⟨y', h1, h2⟩ := pass_with massive dt v y rfl hc (geo_ks m hr hs hd ht) hv
  exact ⟨m2, y', hp, by rw [coordinatePush, e, Outcome.bind_ok, h1], h2⟩

/-- **C171 (flat space-time in Kerr-Schild form).** -/
theorem C171_kerr_schild_0 (m : KS0) (massive : Bool) (dt x1 x2 : ℝ) (v : V3 ℝ) (n : Nat) (y : ℝ × ℝ)
    (hv : massive = true ∨ v ≠ ⟨0, 0, 0⟩) (hd : m.dr ≠ 0) (ht : m.dt ≠ 0)
    (e : coordinatePush (ofKS0 m) massive dt x1 x2 v n = .ok y) (hr : 0 < m.toPh1 ((x1 + y.1) / 2)) :
    ∃ m2 y', m.toPh2 m2 = offAxis (1 / 100000) (m.toPh2 ((x2 + y.2) / 2)) ∧
      coordinatePush (ofKS0 m) massive dt x1 x2 v (n + 1) = .ok y' ∧
      StepWith (energy m.four massive) ((x1 + y.1) / 2) m2 dt x1 x2 v y' := by
  obtain ⟨m2, hc, hp⟩ := clampAngle_eq (g := ofKS0 m)
    (fun θ => ⟨_, rfl, by simp only [ofKS0, KS0.toCd2, KS0.toPh2]; field_simp; ring⟩) ((x2 + y.2) / 2)
  have hs : sin (m.toPh2 m2) ≠ 0 := by
    rw [show m.toPh2 m2 = _ from hp]; exact sin_offAxis _
  obtain ⟨y', h1, h2⟩ := pass_with massive dt v y rfl hc (geo_ks0 m hr hs hd ht) hv
  exact ⟨m2, y', hp, by rw [coordinatePush, e, Outcome.bind_ok, h1], h2⟩

/-- A particle on the axis of a black hole, in the first pass: the hypotheses hold, and the angle used is the
small one. -/
example (m : KS) (hd : m.dr ≠ 0) (ht : m.dt ≠ 0) (h0 : m.tmin = 0) (x1 : ℝ) (hr : 0 < m.toPh1 x1) :
    ∃ m2 y', m.toPh2 m2 = 1 / 100000 ∧
      coordinatePush (ofKS m) true (1 / 10) x1 0 ⟨0, 0, 1⟩ 1 = .ok y' ∧
      StepWith (energy m.four true) x1 m2 (1 / 10) x1 0 ⟨0, 0, 1⟩ y' := by
  have e1 : (x1 + x1) / 2 = x1 := by ring
  obtain ⟨m2, y', h1, h2, h3⟩ := C171_kerr_schild m true (1 / 10) x1 0 ⟨0, 0, 1⟩ 0 (x1, 0) (.inl rfl) hd ht
    rfl (by simpa only [e1] using hr)
  refine ⟨m2, y', ?_, h2, by simpa only [e1] using h3⟩
  rw [h1]
  have hs := smallAngle_pos
  have e : (1 / 100000 : ℝ) = smallAngle := rfl
  simp only [KS.toPh2, h0, offAxis]
  rw [e, min_eq_right (by norm_num; linarith), max_eq_left (by norm_num; linarith)]

end Entity.GRPush
