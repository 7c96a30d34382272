import Verif.Props.GRGeodesic
import Verif.Props.Push
import Verif.Props.Interp

/-!
# The general-relativistic pusher (C102 ... C107)
-/

namespace Entity.GRPush

open Entity Entity.Push Entity.Metric
open Real Filter Topology

/-! ## C102: angular momentum -/

theorem momentumPass_z {g : Met} {massive : Bool} {dt x1 x2 : ℝ} {v w w' : V3 ℝ}
    (h : momentumPass g massive dt x1 x2 v w = .ok w') : w'.z = w.z := by
  unfold momentumPass at h
  obtain ⟨c, -, h⟩ := Outcome.bind_eq_ok.1 h
  simp only [Outcome.pure_eq, Outcome.ok.injEq] at h
  rw [← h]

theorem momentumPush_z {g : Met} {massive : Bool} {dt x1 x2 : ℝ} {v w : V3 ℝ} {n : Nat}
    (h : momentumPush g massive dt x1 x2 v n = .ok w) : w.z = v.z := by
  induction n generalizing w with
  | zero =>
    simp only [momentumPush, Outcome.ok.injEq] at h
    rw [h]
  | succ n ih =>
    obtain ⟨w0, h0, h⟩ := Outcome.bind_eq_ok.1 h
    rw [momentumPass_z h, ih h0]

theorem boundary_z (k : Ctx) (p : GPrtl) : (boundary k p).u.z = p.u.z := by
  simp only [boundary]
  split_ifs <;> rfl

theorem finish_u {g : Met} {massive : Bool} {k : Ctx} {p p' : GPrtl} {x1 x2 : ℝ} {v : V3 ℝ}
    (h : finish g massive k p x1 x2 v = .ok p') : p'.u.z = v.z ∧ p'.phi = p.phi := by
  unfold finish at h
  obtain ⟨y, -, h⟩ := Outcome.bind_eq_ok.1 h
  obtain ⟨_, -, h⟩ := Outcome.bind_eq_ok.1 h
  simp only [Outcome.pure_eq, Outcome.ok.injEq] at h
  rw [← h]
  refine ⟨boundary_z _ _, ?_⟩
  simp only [boundary]
  split_ifs <;> rfl

/-- **C102 (photons).** A push never changes the covariant azimuthal velocity of a photon, in any metric
of the code, at any place, for any time step and number of passes. -/
theorem C102_photons (g : Met) (k : Ctx) (p p' : GPrtl) (h : pushMassless g k p = .ok p') :
    p'.u.z = p.u.z := by
  unfold pushMassless at h
  split_ifs at h
  · cases h; rfl
  · obtain ⟨v, h1, h⟩ := Outcome.bind_eq_ok.1 h
    rw [(finish_u h).1, momentumPush_z h1]

theorem transform_zero {tr : Idx → Idx → V3 ℝ → Outcome (V3 ℝ)} (R : VectorRules tr V3.dot .Sph) :
    tr .U .T ⟨0, 0, 0⟩ = .ok ⟨0, 0, 0⟩ := by
  have p := R.path .U .T .U (by simp) (by simp) (by simp) (by simp) (by simp) ⟨0, 0, 0⟩
  rw [if_pos rfl] at p
  cases ht : tr .U .T ⟨0, 0, 0⟩ with
  | ok t =>
    rw [ht, Outcome.bind_ok] at p
    obtain ⟨u, d, -, -, h1, h2, h3, -⟩ := R.contract t t
    rw [p] at h1
    cases h1
    have hz : t.dot t = 0 := by rw [← h3]; simp [V3.dot]
    have : t = ⟨0, 0, 0⟩ := by
      by_contra hne
      exact (dot_self_pos hne).ne' hz
    rw [this]
  | err => rw [ht] at p; exact absurd p (by simp)
  | ub => rw [ht] at p; exact absurd p (by simp)

theorem emHalfPush_zero {g : Met} {x1 x2 : ℝ} (R : VectorRules (g.transform x1 x2) V3.dot .Sph)
    (c : ℝ) (v : V3 ℝ) : emHalfPush g c x1 x2 v ⟨0, 0, 0⟩ ⟨0, 0, 0⟩ = .ok v := by
  obtain ⟨t, _, h1, h2, -, -⟩ := tetrad_of R v
  unfold emHalfPush
  rw [h1, Outcome.bind_ok, C26_boris_impulse]
  simpa using h2

/-- **C102 (massive particles).** Neither does a push of a massive particle where the fields vanish, off
the axis (where the vector rules of C87 hold). -/
theorem C102_massive (g : Met) (k : Ctx) (p p' : GPrtl)
    (R : VectorRules (g.transform (p.i1 + p.dx1) (p.i2 + p.dx2)) V3.dot .Sph)
    (h : pushMassive g k ⟨0, 0, 0⟩ ⟨0, 0, 0⟩ p = .ok p') : p'.u.z = p.u.z := by
  have R' : VectorRules (g.transform (iDiToXi p.i1 p.dx1) (iDiToXi p.i2 p.dx2)) V3.dot .Sph := R
  unfold pushMassive at h
  split_ifs at h
  · cases h; rfl
  · obtain ⟨t2, -, h⟩ := Outcome.bind_eq_ok.1 h
    rw [transform_zero R', Outcome.bind_ok, Outcome.bind_ok, emHalfPush_zero R', Outcome.bind_ok] at h
    obtain ⟨v, h1, h⟩ := Outcome.bind_eq_ok.1 h
    rw [emHalfPush_zero R', Outcome.bind_ok] at h
    rw [(finish_u h).1, momentumPush_z h1]

/-! ## C103: electromagnetic force -/

/-- **C103.** Off the axis the electromagnetic half push acts on the tetrad components `t` of the velocity
as the electromagnetic force over half a step, lengthened by the lapse: with `κ = (q/m) ω_B0 α dt/4`
(half of the half step) the kicks `κ D` before and after enclose the time-centred rotation
`t⁺ - t⁻ = κ (t⁺ + t⁻)/γ⁻ × B` that keeps the Lorentz factor. -/
theorem C103_force (g : Met) (k : Ctx) (x1 x2 : ℝ) (R : VectorRules (g.transform x1 x2) V3.dot .Sph)
    (v d b : V3 ℝ) :
    ∃ v' t t', emHalfPush g k.dtHalf x1 x2 v d b = .ok v' ∧
      g.transform x1 x2 .D .T v = .ok t ∧ g.transform x1 x2 .D .T v' = .ok t' ∧
      let κ := k.charge / k.mass * k.omegaB0 * (g.deriv x1 x2).alpha * k.dt / 4
      let tm := t + d.smul κ
      let tp := t' - d.smul κ
      tp - tm = ((tp + tm).smul (1 / √(gammaSq tm))).cross (b.smul κ) ∧ gammaSq tp = gammaSq tm := by
  obtain ⟨t, _, h1, h2, -, -⟩ := tetrad_of R v
  set κ := k.charge / k.mass * k.omegaB0 * (g.deriv x1 x2).alpha * k.dt / 4 with hκ
  have hc : k.dtHalf * (1 / 2) * (g.deriv x1 x2).alpha = κ := by
    rw [hκ]; unfold Ctx.dtHalf; ring
  set t' := boris κ d b t with ht'
  obtain ⟨-, d', -, -, -, h3, -⟩ := R.contract t' t'
  have p := R.path .T .D .T (by simp) (by simp) (by simp) (by simp) (by simp) t'
  rw [if_pos rfl, h3, Outcome.bind_ok] at p
  refine ⟨d', t, t', ?_, h1, p, ?_⟩
  · unfold emHalfPush
    rw [h1, Outcome.bind_ok, hc]
    exact h3
  · exact C72_boris_lorentz κ d b t

/-- **C103 (no work by the magnetic field).** Without electric field the squared velocity with respect to
the spatial metric, and hence the energy measured by the local observer, is unchanged. -/
theorem C103_magnetic (g : Met) (c x1 x2 : ℝ) (R : VectorRules (g.transform x1 x2) V3.dot .Sph)
    (v b : V3 ℝ) :
    ∃ v' a a', emHalfPush g c x1 x2 v ⟨0, 0, 0⟩ b = .ok v' ∧ g.transform x1 x2 .D .U v = .ok a ∧
      g.transform x1 x2 .D .U v' = .ok a' ∧ a'.dot v' = a.dot v := by
  obtain ⟨t, a, h1, h2, h3, h4⟩ := tetrad_of R v
  set t' := boris (c * (1 / 2) * (g.deriv x1 x2).alpha) ⟨0, 0, 0⟩ b t with ht'
  obtain ⟨-, v', -, -, -, h5, -⟩ := R.contract t' t'
  have p := R.path .T .D .T (by simp) (by simp) (by simp) (by simp) (by simp) t'
  rw [if_pos rfl, h5, Outcome.bind_ok] at p
  obtain ⟨s, a', k1, -, k3, k4⟩ := tetrad_of R v'
  rw [p] at k1
  cases k1
  refine ⟨v', a, a', ?_, h3, k3, ?_⟩
  · unfold emHalfPush
    rw [h1, Outcome.bind_ok]
    exact h5
  · have := C26_boris_energy (c * (1 / 2) * (g.deriv x1 x2).alpha) b t
    rw [← ht'] at this
    rw [k4, h4]
    simp only [gammaSq] at this
    simp only [V3.dot]
    linarith

/-- **C103 (electric field alone).** Without magnetic field the tetrad components change by
`(q/m) ω_B0 α D dt/2`. -/
theorem C103_electric (g : Met) (k : Ctx) (x1 x2 : ℝ)
    (R : VectorRules (g.transform x1 x2) V3.dot .Sph) (v d : V3 ℝ) :
    ∃ v' t t', emHalfPush g k.dtHalf x1 x2 v d ⟨0, 0, 0⟩ = .ok v' ∧
      g.transform x1 x2 .D .T v = .ok t ∧ g.transform x1 x2 .D .T v' = .ok t' ∧
      t' = t + d.smul (k.charge / k.mass * k.omegaB0 * (g.deriv x1 x2).alpha * (k.dt / 2)) := by
  obtain ⟨v', t, t', h1, h2, h3, h4, -⟩ := C103_force g k x1 x2 R v d ⟨0, 0, 0⟩
  refine ⟨v', t, t', h1, h2, h3, ?_⟩
  have hx := congrArg V3.x h4
  have hy := congrArg V3.y h4
  have hz := congrArg V3.z h4
  simp only [V3.sub_x, V3.sub_y, V3.sub_z, V3.add_x, V3.add_y, V3.add_z, V3.smul, V3.cross, mul_zero,
    sub_zero] at hx hy hz
  ext
  · simp only [V3.add_x, V3.smul]; linarith
  · simp only [V3.add_y, V3.smul]; linarith
  · simp only [V3.add_z, V3.smul]; linarith

/-! ## C104: the azimuth -/

/-- **C104 (counterexample, all particles).** No push changes the azimuth of any particle. -/
theorem C104_counterexample (g : Met) (k : Ctx) (d b : V3 ℝ) (p p' : GPrtl)
    (h : pushMassless g k p = .ok p' ∨ pushMassive g k d b p = .ok p') : p'.phi = p.phi := by
  rcases h with h | h
  · unfold pushMassless at h
    split_ifs at h
    · cases h; rfl
    · obtain ⟨v, h1, h⟩ := Outcome.bind_eq_ok.1 h
      exact (finish_u h).2
  · unfold pushMassive at h
    split_ifs at h
    · cases h; rfl
    · obtain ⟨t2, -, h⟩ := Outcome.bind_eq_ok.1 h
      obtain ⟨_, -, h⟩ := Outcome.bind_eq_ok.1 h
      obtain ⟨_, -, h⟩ := Outcome.bind_eq_ok.1 h
      obtain ⟨_, -, h⟩ := Outcome.bind_eq_ok.1 h
      obtain ⟨_, -, h⟩ := Outcome.bind_eq_ok.1 h
      obtain ⟨_, -, h⟩ := Outcome.bind_eq_ok.1 h
      exact (finish_u h).2

/-- A value reduced to the interval from zero to a full turn by at most one turn. -/
def Reduced (phi s : ℝ) : Prop :=
  (s = phi ∨ s = phi - 2 * π ∨ s = phi + 2 * π) ∧ (-(2 * π) ≤ phi → phi < 4 * π → 0 ≤ s ∧ s < 2 * π)

theorem updatePhi_geo {g : Met} {al be : Metric.Field} {h : ℝ → ℝ → Spatial} {four : ℝ → ℝ → Four}
    {x1 x2 : ℝ} (G : Geo g al be h four x1 x2) (massive : Bool) (dt : ℝ) (v : V3 ℝ) (phi : ℝ)
    (hv : massive = true ∨ v ≠ ⟨0, 0, 0⟩) :
    ∃ e s, HasDerivAt (fun t => energy four massive x1 x2 ⟨v.x, v.y, t⟩) e v.z ∧
      updatePhi g massive dt x1 x2 v phi = .ok s ∧ Reduced (phi + dt * e) s := by
  obtain ⟨-, -, d3⟩ := ham_du (al x1 x2) (be x1 x2) (h x1 x2) (shellNorm massive) v
    (G.quad_pos hv) G.pos
  refine ⟨_, _, d3.congr_of_eventuallyEq
    (Eventually.of_forall fun s => energy_ham G.adm G.pos massive _), by
      unfold updatePhi
      rw [G.raise, Outcome.bind_ok, Geo.gamma_eq, G.alpha]
      rfl, ?_⟩
  rw [mul_div_assoc]
  have hpi := pi_pos
  split_ifs with h1 h2
  · exact ⟨.inr (.inl rfl), fun _ _ => ⟨by linarith, by linarith⟩⟩
  · exact ⟨.inr (.inr rfl), fun _ _ => ⟨by linarith, by linarith⟩⟩
  · exact ⟨.inl rfl, fun _ _ => ⟨by linarith, by linarith⟩⟩

/-- **C104 (partial).** The value the pusher computes for the azimuth and then drops is the right one:
`φ + dt ∂E/∂u_φ`, reduced to one turn.  What is missing is that the particle receives it. -/
theorem C104_computed_partial (massive : Bool) (dt x1 x2 : ℝ) (v : V3 ℝ) (phi : ℝ)
    (hv : massive = true ∨ v ≠ ⟨0, 0, 0⟩) :
    (∀ m : KS, 0 < m.toPh1 x1 → sin (m.toPh2 x2) ≠ 0 → m.dr ≠ 0 → m.dt ≠ 0 →
      ∃ e s, HasDerivAt (fun t => energy m.four massive x1 x2 ⟨v.x, v.y, t⟩) e v.z ∧
        updatePhi (ofKS m) massive dt x1 x2 v phi = .ok s ∧ Reduced (phi + dt * e) s) ∧
    (∀ m : KS0, 0 < m.toPh1 x1 → sin (m.toPh2 x2) ≠ 0 → m.dr ≠ 0 → m.dt ≠ 0 →
      ∃ e s, HasDerivAt (fun t => energy m.four massive x1 x2 ⟨v.x, v.y, t⟩) e v.z ∧
        updatePhi (ofKS0 m) massive dt x1 x2 v phi = .ok s ∧ Reduced (phi + dt * e) s) ∧
    (∀ m : QKS, 0 < m.toPh1 x1 → sin (m.toPh2 x2) ≠ 0 → m.dchi ≠ 0 → m.deta ≠ 0 →
      dthetaDeta m.ε m.h (x2 * m.deta + m.etaMin) ≠ 0 →
      ∃ e s, HasDerivAt (fun t => energy m.four massive x1 x2 ⟨v.x, v.y, t⟩) e v.z ∧
        updatePhi (ofQKS m) massive dt x1 x2 v phi = .ok s ∧ Reduced (phi + dt * e) s) :=
  ⟨fun m hr hs hd ht => updatePhi_geo (geo_ks m hr hs hd ht) massive dt v phi hv,
   fun m hr hs hd ht => updatePhi_geo (geo_ks0 m hr hs hd ht) massive dt v phi hv,
   fun m hr hs hd ht hj => updatePhi_geo (geo_qks m hr hs hd ht hj) massive dt v phi hv⟩

/-! ## C105: reversibility -/

theorem cross_fixed {δ b : V3 ℝ} {s : ℝ} (h : δ = (δ.smul s).cross b) : δ = ⟨0, 0, 0⟩ := by
  by_contra hne
  have hp := dot_self_pos hne
  have : δ.dot δ = 0 := by
    have hx := congrArg V3.x h
    have hy := congrArg V3.y h
    have hz := congrArg V3.z h
    simp only [V3.cross, V3.smul] at hx hy hz
    simp only [V3.dot]
    linear_combination δ.x * hx + δ.y * hy + δ.z * hz
  linarith

theorem smul_neg_eq (c : ℝ) (e : V3 ℝ) : e.smul (-c) = ⟨-(c * e.x), -(c * e.y), -(c * e.z)⟩ := by
  ext <;> simp [V3.smul]

theorem boris_reverse (c : ℝ) (e b u : V3 ℝ) : boris (-c) e b (boris c e b u) = u := by
  obtain ⟨h1, h2⟩ := C72_boris_lorentz c e b u
  obtain ⟨k1, k2⟩ := C72_boris_lorentz (-c) e b (boris c e b u)
  set um := u + e.smul c with hum
  set up := boris c e b u - e.smul c with hup
  have hmid : boris c e b u + e.smul (-c) = up := by
    rw [hup]; ext <;> simp [V3.smul] <;> ring
  rw [hmid, h2] at k1
  set X := boris (-c) e b (boris c e b u) - e.smul (-c) with hX
  set s := 1 / √(gammaSq um)
  -- both `um` and `X` solve the same linear equation
  have hδ : X - um = ((X - um).smul s).cross (b.smul (-c)) := by
    have h1x := congrArg V3.x h1
    have h1y := congrArg V3.y h1
    have h1z := congrArg V3.z h1
    have k1x := congrArg V3.x k1
    have k1y := congrArg V3.y k1
    have k1z := congrArg V3.z k1
    simp only [V3.sub_x, V3.sub_y, V3.sub_z, V3.add_x, V3.add_y, V3.add_z, V3.smul, V3.cross]
      at h1x h1y h1z k1x k1y k1z
    ext <;> simp only [V3.sub_x, V3.sub_y, V3.sub_z, V3.smul, V3.cross]
    · linear_combination k1x + h1x
    · linear_combination k1y + h1y
    · linear_combination k1z + h1z
  have h0 := cross_fixed hδ
  have hx := congrArg V3.x h0
  have hy := congrArg V3.y h0
  have hz := congrArg V3.z h0
  simp only [V3.sub_x, V3.sub_y, V3.sub_z, hX, hum, V3.add_x, V3.add_y, V3.add_z, V3.smul] at hx hy hz
  ext <;> linarith

/-- **C105 (electromagnetic half push).** Pushing with the opposite time step undoes the push. -/
theorem C105_force_reversible (g : Met) (c x1 x2 : ℝ) (R : VectorRules (g.transform x1 x2) V3.dot .Sph)
    (v v' d b : V3 ℝ) (h : emHalfPush g c x1 x2 v d b = .ok v') :
    emHalfPush g (-c) x1 x2 v' d b = .ok v := by
  obtain ⟨t, _, h1, h2, -, -⟩ := tetrad_of R v
  unfold emHalfPush at h ⊢
  rw [h1, Outcome.bind_ok] at h
  set t' := boris (c * (1 / 2) * (g.deriv x1 x2).alpha) d b t with ht'
  have p := R.path .T .D .T (by simp) (by simp) (by simp) (by simp) (by simp) t'
  rw [if_pos rfl, h, Outcome.bind_ok] at p
  rw [p, Outcome.bind_ok, ht', show -c * (1 / 2) * (g.deriv x1 x2).alpha =
    -(c * (1 / 2) * (g.deriv x1 x2).alpha) by ring, boris_reverse]
  exact h2

/-- **C105 (geodesic parts).** Where the iterations have converged, pushing velocity or position with the
opposite time step undoes the push: the start is a converged state of the backward iteration. -/
theorem C105_geodesic_reversible (g : Met) (massive : Bool) (dt x1 x2 : ℝ) (v w : V3 ℝ) (y : ℝ × ℝ)
    (hz : w.z = v.z) :
    (momentumPass g massive dt x1 x2 v w = .ok w → momentumPass g massive (-dt) x1 x2 w v = .ok v) ∧
    (coordinatePass g massive dt x1 x2 v y = .ok y →
      coordinatePass g massive (-dt) y.1 y.2 v (x1, x2) = .ok (x1, x2)) := by
  refine ⟨fun h => ?_, fun h => ?_⟩
  · unfold momentumPass at h ⊢
    obtain ⟨c, h1, h⟩ := Outcome.bind_eq_ok.1 h
    simp only [add_comm w.x, add_comm w.y, hz]
    rw [h1, Outcome.bind_ok]
    simp only [Outcome.pure_eq, Outcome.ok.injEq] at h ⊢
    have hx := congrArg V3.x h
    have hy := congrArg V3.y h
    simp only at hx hy
    ext
    · simp only; linarith
    · simp only; linarith
    · rfl
  · unfold coordinatePass at h ⊢
    obtain ⟨m2, h1, h⟩ := Outcome.bind_eq_ok.1 h
    obtain ⟨c, h2, h⟩ := Outcome.bind_eq_ok.1 h
    simp only [add_comm y.1, add_comm y.2]
    rw [h1, Outcome.bind_ok, h2, Outcome.bind_ok]
    simp only [Outcome.pure_eq, Outcome.ok.injEq] at h ⊢
    have hx := congrArg Prod.fst h
    have hy := congrArg Prod.snd h
    simp only at hx hy
    ext
    · simp only; linarith
    · simp only; linarith

/-! ## C106: cell, offset, walls -/

/-- The direction in which a position leaves a grid of `n` cells. -/
def outOf (i n : Int) : Int := if i < 0 then -1 else if i ≥ n then 1 else 0

theorem sendTag2_dir {i n j m : Int} (hn : 0 < n) (hm : 0 < m) :
    if outOf i n ≠ 0 ∨ outOf j m ≠ 0 then
      Tags.tag2dir 2 (Tags.sendTag2 Tags.alive (i < 0) (i ≥ n) (j < 0) (j ≥ m)) =
        .ok [outOf i n, outOf j m]
    else Tags.sendTag2 Tags.alive (i < 0) (i ≥ n) (j < 0) (j ≥ m) = Tags.alive := by
  unfold outOf
  by_cases h1 : i < 0 <;> by_cases h2 : i ≥ n <;> by_cases h3 : j < 0 <;> by_cases h4 : j ≥ m <;>
    first
      | omega
      | (simp only [h1, h2, h3, h4, decide_true, decide_false]; decide +kernel)

theorem sendTag2_dead (a b c d : Bool) : Tags.sendTag2 Tags.dead a b c d = Tags.dead := by
  simp [Tags.sendTag2, Tags.dead]

/-- **C106.** After the push of a live particle to the coordinates `y`, less than one cell outside the
subdomain: the old cell and offset are kept as the previous ones; cell and offset of the first axis
represent `y₁`; on the second axis they represent `y₂`, or its mirror image in the axis if the particle
crossed it, in which case (and only then) the second component of the velocity is reversed; a particle
beyond an absorbing radius or horizon is dead; any other particle is alive if it is inside and otherwise
(in MPI builds) tagged with the direction in which it leaves. -/
theorem C106_bookkeeping (g : Met) (massive : Bool) (k : Ctx) (p p' : GPrtl) (x1 x2 : ℝ) (v : V3 ℝ)
    (y : ℝ × ℝ) (ht : p.tag = Tags.alive) (hy : coordinatePush g massive k.dt x1 x2 v k.niter = .ok y)
    (h : finish g massive k (record p) x1 x2 v = .ok p') (hn1 : 0 < k.n1) (hn : 0 < k.n2)
    (b1 : -1 ≤ y.1) (b2 : -1 ≤ y.2) (b3 : y.2 < k.n2 + 1) :
    (p'.i1Prev = p.i1 ∧ p'.dx1Prev = p.dx1 ∧ p'.i2Prev = p.i2 ∧ p'.dx2Prev = p.dx2) ∧
    (p'.i1 + p'.dx1 = y.1 ∧ 0 ≤ p'.dx1 ∧ p'.dx1 < 1) ∧
    (0 ≤ p'.dx2 ∧ p'.dx2 ≤ 1) ∧
    (if y.2 < 0 ∧ k.axis2Lo = true then p'.i2 + p'.dx2 = -y.2 ∧ p'.i2 = 0 ∧ p'.u = ⟨v.x, -v.y, v.z⟩
      else if k.n2 ≤ y.2 ∧ k.axis2Hi = true then
        p'.i2 + p'.dx2 = 2 * k.n2 - y.2 ∧ p'.i2 = k.n2 - 1 ∧ p'.u = ⟨v.x, -v.y, v.z⟩
      else p'.i2 + p'.dx2 = y.2 ∧ p'.dx2 < 1 ∧ p'.u = v) ∧
    (if (y.1 < 0 ∧ k.absorb1Lo = true) ∨ (k.n1 ≤ y.1 ∧ k.absorb1Hi = true) then p'.tag = Tags.dead
      else if k.mpi = true ∧ (outOf p'.i1 k.n1 ≠ 0 ∨ outOf p'.i2 k.n2 ≠ 0) then
        Tags.tag2dir 2 p'.tag = .ok [outOf p'.i1 k.n1, outOf p'.i2 k.n2]
      else p'.tag = Tags.alive) := by
  obtain ⟨y1, y2⟩ := y
  simp only at b1 b2 b3
  unfold finish at h
  rw [hy, Outcome.bind_ok] at h
  obtain ⟨_, -, h⟩ := Outcome.bind_eq_ok.1 h
  simp only [Outcome.pure_eq, Outcome.ok.injEq] at h
  obtain ⟨l1, u1, o1, o1', e1⟩ := C28_conversion y1 b1
  obtain ⟨l2, u2, o2, o2', e2⟩ := C28_conversion y2 b2
  generalize (fromXiToIDi y1).1 = i1, (fromXiToIDi y1).2 = dx1 at *
  generalize (fromXiToIDi y2).1 = i2, (fromXiToIDi y2).2 = dx2 at *
  simp only [iDiToXi] at e1 e2
  simp only at hy ⊢
  have c1 : i1 < 0 ↔ y1 < 0 := ⟨fun h => by
    have : (i1 : ℝ) ≤ -1 := by exact_mod_cast Int.le_sub_one_of_lt h
    linarith, fun h => by
    have : (i1 : ℝ) < 0 := by linarith
    exact_mod_cast this⟩
  have c2 : i1 ≥ k.n1 ↔ (k.n1 : ℝ) ≤ y1 := ⟨fun h => by
    have : (k.n1 : ℝ) ≤ i1 := by exact_mod_cast h
    linarith, fun h => by
    have : (k.n1 : ℝ) < i1 + 1 := by linarith
    have : k.n1 < i1 + 1 := by exact_mod_cast this
    omega⟩
  have c3 : i2 < 0 ↔ y2 < 0 := ⟨fun h => by
    have : (i2 : ℝ) ≤ -1 := by exact_mod_cast Int.le_sub_one_of_lt h
    linarith, fun h => by
    have : (i2 : ℝ) < 0 := by linarith
    exact_mod_cast this⟩
  have c4 : i2 ≥ k.n2 ↔ (k.n2 : ℝ) ≤ y2 := ⟨fun h => by
    have : (k.n2 : ℝ) ≤ i2 := by exact_mod_cast h
    linarith, fun h => by
    have : (k.n2 : ℝ) < i2 + 1 := by linarith
    have : k.n2 < i2 + 1 := by exact_mod_cast this
    omega⟩
  have lo : y2 < 0 → i2 = -1 := fun h => by
    have h3 : i2 < 0 := c3.2 h
    have : (-1 : ℝ) < i2 + 1 := by linarith
    have : -1 < i2 + 1 := by exact_mod_cast this
    omega
  have hi : (k.n2 : ℝ) ≤ y2 → i2 = k.n2 := fun h => by
    have h4 := c4.2 h
    have : (i2 : ℝ) < k.n2 + 1 := by linarith
    have : i2 < k.n2 + 1 := by exact_mod_cast this
    omega
  simp only [← c1, ← c2, ← c3, ← c4]
  rw [← c3] at lo
  rw [← c4] at hi
  subst h
  have htag : ∀ (q : GPrtl), q.tag = (if (i1 < 0 ∧ k.absorb1Lo = true) ∨
      (i1 ≥ k.n1 ∧ k.absorb1Hi = true) then Tags.dead else Tags.alive) → 
      (if (i1 < 0 ∧ k.absorb1Lo = true) ∨ (i1 ≥ k.n1 ∧ k.absorb1Hi = true) then
        (if k.mpi = true then Tags.sendTag2 q.tag (q.i1 < 0) (q.i1 ≥ k.n1) (q.i2 < 0) (q.i2 ≥ k.n2)
          else q.tag) = Tags.dead
      else if k.mpi = true ∧ (outOf q.i1 k.n1 ≠ 0 ∨ outOf q.i2 k.n2 ≠ 0) then
        Tags.tag2dir 2 (if k.mpi = true then
          Tags.sendTag2 q.tag (q.i1 < 0) (q.i1 ≥ k.n1) (q.i2 < 0) (q.i2 ≥ k.n2) else q.tag) =
          .ok [outOf q.i1 k.n1, outOf q.i2 k.n2]
      else (if k.mpi = true then
          Tags.sendTag2 q.tag (q.i1 < 0) (q.i1 ≥ k.n1) (q.i2 < 0) (q.i2 ≥ k.n2) else q.tag) =
            Tags.alive) := by
    intro q hq
    by_cases hd : (i1 < 0 ∧ k.absorb1Lo = true) ∨ (i1 ≥ k.n1 ∧ k.absorb1Hi = true)
    · rw [if_pos hd] at hq ⊢
      rw [hq, sendTag2_dead, ite_self]
    · rw [if_neg hd] at hq ⊢
      rw [hq]
      have hs := sendTag2_dir (i := q.i1) (j := q.i2) hn1 hn
      by_cases hm : k.mpi = true
      · simpa only [hm, true_and, if_true] using hs
      · simp only [hm, false_and, if_false]
        rfl
  by_cases h3 : i2 < 0 ∧ k.axis2Lo = true
  · have hb : boundary k { record p with i1 := i1, dx1 := dx1, i2 := i2, dx2 := dx2, u := v } =
        (let q : GPrtl := { record p with i1 := i1, dx1 := dx1, i2 := 0, dx2 := 1 - dx2, u := ⟨v.x, -v.y, v.z⟩, tag := if (i1 < 0 ∧ k.absorb1Lo = true) ∨ (i1 ≥ k.n1 ∧ k.absorb1Hi = true) then Tags.dead else Tags.alive }
         { q with tag := if k.mpi = true then Tags.sendTag2 q.tag (q.i1 < 0) (q.i1 ≥ k.n1) (q.i2 < 0) (q.i2 ≥ k.n2) else q.tag }) := by
      simp only [boundary, record, ht, h3.1, h3.2, if_true]
      split_ifs <;> rfl
    rw [hb, if_pos h3]
    have hl : (i2 : ℝ) = -1 := by exact_mod_cast lo h3.1
    refine ⟨⟨rfl, rfl, rfl, rfl⟩, ⟨e1, o1, o1'⟩, ⟨by simp only; linarith, by simp only; linarith⟩,
      ⟨?_, rfl, rfl⟩, htag _ rfl⟩
    simp only [Int.cast_zero]
    linarith
  by_cases h4 : i2 ≥ k.n2 ∧ k.axis2Hi = true
  · have hb : boundary k { record p with i1 := i1, dx1 := dx1, i2 := i2, dx2 := dx2, u := v } =
        (let q : GPrtl := { record p with i1 := i1, dx1 := dx1, i2 := k.n2 - 1, dx2 := 1 - dx2, u := ⟨v.x, -v.y, v.z⟩, tag := if (i1 < 0 ∧ k.absorb1Lo = true) ∨ (i1 ≥ k.n1 ∧ k.absorb1Hi = true) then Tags.dead else Tags.alive }
         { q with tag := if k.mpi = true then Tags.sendTag2 q.tag (q.i1 < 0) (q.i1 ≥ k.n1) (q.i2 < 0) (q.i2 ≥ k.n2) else q.tag }) := by
      have : ¬ i2 < 0 := by omega
      simp only [boundary, record, ht, h4.1, h4.2, this, if_true, if_false]
      split_ifs <;> rfl
    rw [hb, if_neg h3, if_pos h4]
    have hl : (i2 : ℝ) = k.n2 := by exact_mod_cast hi h4.1
    refine ⟨⟨rfl, rfl, rfl, rfl⟩, ⟨e1, o1, o1'⟩, ⟨by simp only; linarith, by simp only; linarith⟩,
      ⟨?_, rfl, rfl⟩, htag _ rfl⟩
    push_cast
    linarith
  · have hb : boundary k { record p with i1 := i1, dx1 := dx1, i2 := i2, dx2 := dx2, u := v } =
        (let q : GPrtl := { record p with i1 := i1, dx1 := dx1, i2 := i2, dx2 := dx2, u := v, tag := if (i1 < 0 ∧ k.absorb1Lo = true) ∨ (i1 ≥ k.n1 ∧ k.absorb1Hi = true) then Tags.dead else Tags.alive }
         { q with tag := if k.mpi = true then Tags.sendTag2 q.tag (q.i1 < 0) (q.i1 ≥ k.n1) (q.i2 < 0) (q.i2 ≥ k.n2) else q.tag }) := by
      by_cases h5 : i2 < 0
      · have h6 : ¬ k.axis2Lo = true := fun h => h3 ⟨h5, h⟩
        simp only [boundary, record, ht, h5, h6, if_true, if_false, Bool.false_eq_true]
        split_ifs <;> simp_all
      · by_cases h7 : i2 ≥ k.n2
        · have h6 : ¬ k.axis2Hi = true := fun h => h4 ⟨h7, h⟩
          simp only [boundary, record, ht, h5, h6, h7, if_true, if_false, Bool.false_eq_true]
          split_ifs <;> rfl
        · simp only [boundary, record, ht, h5, h7, if_false]
          split_ifs <;> rfl
    rw [hb, if_neg h3, if_neg h4]
    exact ⟨⟨rfl, rfl, rfl, rfl⟩, ⟨e1, o1, o1'⟩, ⟨o2, o2'.le⟩, ⟨e2, o2', rfl⟩, htag _ rfl⟩

/-- **C106 (which particles).** A dead particle is left alone, a particle with any tag other than alive or
dead is an error, and every other push is of the form C106 speaks about, starting at the position the
particle holds. -/
theorem C106_operators (g : Met) (k : Ctx) (d b : V3 ℝ) (p : GPrtl) :
    (p.tag = Tags.dead → pushMassless g k p = .ok p ∧ pushMassive g k d b p = .ok p) ∧
    (p.tag ≠ Tags.dead → p.tag ≠ Tags.alive → pushMassless g k p = .err ∧ pushMassive g k d b p = .err) ∧
    (p.tag = Tags.alive → ∀ p',
      (pushMassless g k p = .ok p' →
        ∃ v, finish g false k (record p) (p.i1 + p.dx1) (p.i2 + p.dx2) v = .ok p') ∧
      (pushMassive g k d b p = .ok p' →
        ∃ v, finish g true k (record p) (p.i1 + p.dx1) (p.i2 + p.dx2) v = .ok p')) := by
  refine ⟨fun h => ?_, fun h h' => ?_, fun h p' => ⟨fun hp => ?_, fun hp => ?_⟩⟩
  · have h' : p.tag ≠ Tags.alive := by rw [h]; decide
    simp [pushMassless, pushMassive, h, show Tags.dead ≠ Tags.alive by decide]
  · simp [pushMassless, pushMassive, h, h']
  · unfold pushMassless at hp
    rw [if_neg (by simpa using h)] at hp
    obtain ⟨v, -, hp⟩ := Outcome.bind_eq_ok.1 hp
    exact ⟨v, hp⟩
  · unfold pushMassive at hp
    rw [if_neg (by simpa using h)] at hp
    obtain ⟨_, -, hp⟩ := Outcome.bind_eq_ok.1 hp
    obtain ⟨_, -, hp⟩ := Outcome.bind_eq_ok.1 hp
    obtain ⟨_, -, hp⟩ := Outcome.bind_eq_ok.1 hp
    obtain ⟨_, -, hp⟩ := Outcome.bind_eq_ok.1 hp
    obtain ⟨_, -, hp⟩ := Outcome.bind_eq_ok.1 hp
    obtain ⟨v, -, hp⟩ := Outcome.bind_eq_ok.1 hp
    exact ⟨v, hp⟩

/-! ## C107: one species -/

theorem run_iff (f : GPrtl → Outcome GPrtl) (l : List Nat) (hl : l.Nodup) (q q' : Nat → GPrtl) :
    l.foldlM (fun (q : Nat → GPrtl) (j : Nat) => do
        let r ← f (q j)
        pure (Function.update q j r)) q = .ok q' ↔
      (∀ j ∈ l, f (q j) = .ok (q' j)) ∧ ∀ j, j ∉ l → q' j = q j := by
  induction l generalizing q with
  | nil =>
    simp only [List.foldlM_nil, Outcome.pure_eq, Outcome.ok.injEq, List.not_mem_nil, false_implies,
      implies_true, true_and, not_false_eq_true, true_implies]
    exact ⟨fun h j => by rw [h], fun h => (funext h).symm⟩
  | cons a l ih =>
    rw [List.nodup_cons] at hl
    rw [List.foldlM_cons, Outcome.bind_eq_ok]
    constructor
    · rintro ⟨m, hm, h⟩
      obtain ⟨r, hr, hm⟩ := Outcome.bind_eq_ok.1 hm
      simp only [Outcome.pure_eq, Outcome.ok.injEq] at hm
      subst hm
      obtain ⟨h1, h2⟩ := (ih hl.2 _).1 h
      refine ⟨fun j hj => ?_, fun j hj => ?_⟩
      · rcases List.mem_cons.1 hj with rfl | hj
        · rw [h2 j hl.1, Function.update_self, hr]
        · have hne : j ≠ a := fun e => hl.1 (e ▸ hj)
          rw [← h1 j hj, Function.update_of_ne hne]
      · rw [List.mem_cons, not_or] at hj
        rw [h2 j hj.2, Function.update_of_ne hj.1]
    · rintro ⟨h1, h2⟩
      refine ⟨Function.update q a (q' a), ?_, (ih hl.2 _).2 ⟨fun j hj => ?_, fun j hj => ?_⟩⟩
      · rw [h1 a List.mem_cons_self, Outcome.bind_ok]
        rfl
      · have hne : j ≠ a := fun e => hl.1 (e ▸ hj)
        rw [Function.update_of_ne hne, h1 j (List.mem_cons_of_mem _ hj)]
      · by_cases hja : j = a
        · subst hja; rw [Function.update_self]
        · rw [Function.update_of_ne hja, h2 j (by simp [hja, hj])]

/-- The push of one particle of a species: the photon operator, or the interpolation of the fields at the
particle followed by the operator of massive particles. -/
noncomputable def pushOne (g : Met) (k : Ctx) (O : Nat) (NG : Int) (nAll : List Nat)
    (DB DB0 : Interp.Comp → List Int → ℝ) (photon : Bool) (p : GPrtl) : Outcome GPrtl :=
  if photon then pushMassless g k p
  else if p.tag = Tags.dead then .ok p
  else if p.tag = Tags.alive then do
    let f ← interpolateFields O NG nAll DB DB0 p
    pushMassive g k f.1 f.2 p
  else .err

/-- **C107 (species).** In whatever order the threads run, the push of a species succeeds exactly if the
push of each of its particles on its own does, and gives each particle the result of its own push; array
elements beyond the particles of the species are not touched.  In particular the result does not depend on
the order. -/
theorem C107_species (g : Met) (k : Ctx) (O : Nat) (NG : Int) (nAll : List Nat)
    (DB DB0 : Interp.Comp → List Int → ℝ) (photon : Bool) (npart : Nat) (sched : List Nat)
    (hs : sched.Perm (List.range npart)) (ps ps' : Nat → GPrtl) :
    pushSpecies g k O NG nAll DB DB0 (if photon then .photon else .boris) npart sched ps = .ok ps' ↔
      (∀ j < npart, pushOne g k O NG nAll DB DB0 photon (ps j) = .ok (ps' j)) ∧
        ∀ j, npart ≤ j → ps' j = ps j := by
  have hnd : sched.Nodup := hs.nodup_iff.2 List.nodup_range
  have hmem : ∀ j, j ∈ sched ↔ j < npart := fun j => by rw [hs.mem_iff, List.mem_range]
  have hout : ∀ j, j ∉ sched ↔ npart ≤ j := fun j => by rw [hmem, not_lt]
  unfold pushSpecies
  by_cases hn : npart = 0
  · subst hn
    simp only [true_or, if_true, Outcome.ok.injEq, Nat.not_lt_zero, false_implies, implies_true,
      Nat.zero_le, true_implies, true_and]
    exact ⟨fun h j => by rw [h], fun h => (funext h).symm⟩
  · cases photon
    · rw [if_neg (by simp [hn])]
      simp only [Bool.false_eq_true, if_false]
      refine (run_iff (fun p => if p.tag ≠ Tags.alive then if p.tag ≠ Tags.dead then .err else .ok p
        else do
          let f ← interpolateFields O NG nAll DB DB0 p
          pushMassive g k f.1 f.2 p) _ hnd _ _).trans ?_
      simp only [hout]
      refine and_congr_left fun _ => forall_congr' fun j => ?_
      rw [hmem]
      refine forall_congr' fun _ => ?_
      unfold pushOne
      simp only [Bool.false_eq_true, if_false]
      by_cases hd : (ps j).tag = Tags.dead
      · simp [hd, show Tags.dead ≠ Tags.alive by decide]
      · by_cases ha : (ps j).tag = Tags.alive
        · simp [ha, show Tags.alive ≠ Tags.dead by decide]
        · simp [hd, ha]
    · rw [if_neg (by simp [hn])]
      simp only [if_true]
      rw [run_iff _ _ hnd]
      simp only [hout]
      refine and_congr_left fun _ => forall_congr' fun j => ?_
      rw [hmem]
      refine forall_congr' fun _ => ?_
      unfold pushOne
      simp only [if_true]

/-- **C107 (other pushers).** A species without pusher or without particles is left alone; a pusher the
engine does not know is an error as soon as the species has a particle, and only then. -/
theorem C107_dispatch (g : Met) (k : Ctx) (O : Nat) (NG : Int) (nAll : List Nat)
    (DB DB0 : Interp.Comp → List Int → ℝ) (pusher : Pusher) (npart : Nat) (sched : List Nat)
    (ps : Nat → GPrtl) :
    (npart = 0 → pushSpecies g k O NG nAll DB DB0 pusher npart sched ps = .ok ps) ∧
    pushSpecies g k O NG nAll DB DB0 .none npart sched ps = .ok ps ∧
    (0 < npart → pushSpecies g k O NG nAll DB DB0 .other npart sched ps = .err) := by
  refine ⟨fun h => by simp [pushSpecies, h], by simp [pushSpecies], fun h => ?_⟩
  simp [pushSpecies, h.ne']

/-- **C106 (walls).** With the flags the engine derives from the boundary conditions of the subdomain: the
lower (upper) radial edge swallows a particle exactly if its condition is "absorb" or "horizon"; at any
other kind of edge the particle stays alive (and, with MPI, is marked for the neighbour).  The polar axis is
the condition "axis" of the second direction, and nothing else is. -/
theorem C106_walls (g : Met) (massive : Bool) (k : Ctx) (p p' : GPrtl) (x1 x2 : ℝ) (v : V3 ℝ)
    (y : ℝ × ℝ) (b1 b2 : PBC × PBC) (rest : List (PBC × PBC))
    (hf : flags (b1 :: b2 :: rest) = .ok (k.absorb1Lo, k.absorb1Hi, k.axis2Lo, k.axis2Hi))
    (ht : p.tag = Tags.alive) (hy : coordinatePush g massive k.dt x1 x2 v k.niter = .ok y)
    (h : finish g massive k (record p) x1 x2 v = .ok p') (hn1 : 0 < k.n1) (hn : 0 < k.n2)
    (c1 : -1 ≤ y.1) (c2 : -1 ≤ y.2) (c3 : y.2 < k.n2 + 1) :
    (y.1 < 0 → (p'.tag = Tags.dead ↔ b1.1 = .absorb ∨ b1.1 = .horizon)) ∧
    (k.n1 ≤ y.1 → (p'.tag = Tags.dead ↔ b1.2 = .absorb ∨ b1.2 = .horizon)) ∧
    (0 ≤ y.1 → y.1 < k.n1 → p'.tag ≠ Tags.dead) ∧
    (y.2 < 0 → b2.1 = .axis → p'.i2 + p'.dx2 = -y.2 ∧ p'.u = ⟨v.x, -v.y, v.z⟩) ∧
    (k.n2 ≤ y.2 → b2.2 = .axis → p'.i2 + p'.dx2 = 2 * k.n2 - y.2 ∧ p'.u = ⟨v.x, -v.y, v.z⟩) := by
  simp only [flags, Outcome.ok.injEq, Prod.mk.injEq] at hf
  obtain ⟨f1, f2, f3, f4⟩ := hf
  obtain ⟨-, -, -, hax, htag⟩ := C106_bookkeeping g massive k p p' x1 x2 v y ht hy h hn1 hn c1 c2 c3
  have hn1' : (0 : ℝ) < k.n1 := by exact_mod_cast hn1
  have hn2' : (0 : ℝ) < k.n2 := by exact_mod_cast hn
  have hlive : ¬ ((y.1 < 0 ∧ k.absorb1Lo = true) ∨ (k.n1 ≤ y.1 ∧ k.absorb1Hi = true)) → p'.tag ≠ Tags.dead := by
    intro hno
    rw [if_neg hno] at htag
    split at htag
    · intro e
      rw [e] at htag
      revert htag
      simp [Tags.tag2dir, Tags.dead]
    · rw [htag]; decide
  have i1 : k.absorb1Lo = true ↔ b1.1 = .absorb ∨ b1.1 = .horizon := by rw [← f1]; simp
  have i2 : k.absorb1Hi = true ↔ b1.2 = .absorb ∨ b1.2 = .horizon := by rw [← f2]; simp
  have i3 : k.axis2Lo = true ↔ b2.1 = .axis := by rw [← f3]; simp
  have i4 : k.axis2Hi = true ↔ b2.2 = .axis := by rw [← f4]; simp
  refine ⟨fun hlo => ⟨fun hd => ?_, fun hb => ?_⟩, fun hhi => ⟨fun hd => ?_, fun hb => ?_⟩, fun h0 h1 => ?_,
    fun h2 hb => ?_, fun h2 hb => ?_⟩
  · by_contra hb
    exact hlive (by rintro (⟨-, q⟩ | ⟨q, -⟩); exacts [hb (i1.1 q), by linarith]) hd
  · rwa [if_pos (.inl ⟨hlo, i1.2 hb⟩)] at htag
  · by_contra hb
    exact hlive (by rintro (⟨q, -⟩ | ⟨-, q⟩); exacts [by linarith, hb (i2.1 q)]) hd
  · rwa [if_pos (.inr ⟨hhi, i2.2 hb⟩)] at htag
  · exact hlive (by rintro (⟨q, -⟩ | ⟨q, -⟩) <;> linarith)
  · rw [if_pos ⟨h2, i3.2 hb⟩] at hax
    exact ⟨hax.1, hax.2.2⟩
  · rw [if_neg (fun q => by linarith [q.1]), if_pos ⟨h2, i4.2 hb⟩] at hax
    exact ⟨hax.1, hax.2.2⟩

/-- **C107 (fields).** The fields a massive particle in the grid is pushed with: `D` comes from the array of
the current step and `B` from the array of the magnetic field brought to the same time.  If the three
electric components of the first and the three magnetic components of the second are affine functions of
the position (each at its own place on the staggered grid), the particle gets their exact values at its own
position. -/
theorem C107_fields (O : Nat) (hO : O ≤ 11) (n1 n2 : Nat) (p : GPrtl)
    (h1 : Interp.InBox n1 (p.i1, p.dx1)) (h2 : Interp.InBox n2 (p.i2, p.dx2))
    (DB DB0 : Interp.Comp → List Int → ℝ) (c d : Interp.Comp → ℝ) (gc gd : Interp.Comp → ℝ × ℝ)
    (hE : ∀ q ∈ [Interp.Comp.ex1, .ex2, .ex3], ∀ idx, idx.length = 2 →
      DB q idx = Interp.affine (c q) [(gc q).1, (gc q).2] (Interp.posOf (Deposit.nGhosts O) q idx))
    (hB : ∀ q ∈ [Interp.Comp.bx1, .bx2, .bx3], ∀ idx, idx.length = 2 →
      DB0 q idx = Interp.affine (d q) [(gd q).1, (gd q).2] (Interp.posOf (Deposit.nGhosts O) q idx)) :
    let at_ := fun (f : Interp.Comp → ℝ) (g : Interp.Comp → ℝ × ℝ) q =>
      f q + (g q).1 * (p.i1 + p.dx1) + (g q).2 * (p.i2 + p.dx2)
    interpolateFields O (Deposit.nGhosts O) [n1 + 2 * Deposit.nGhosts O, n2 + 2 * Deposit.nGhosts O] DB DB0 p =
      .ok (⟨at_ c gc .ex1, at_ c gc .ex2, at_ c gc .ex3⟩, ⟨at_ d gd .bx1, at_ d gd .bx2, at_ d gd .bx3⟩) := by
  intro at_
  have key : ∀ (F : Interp.Comp → List Int → ℝ) (f : Interp.Comp → ℝ) (g : Interp.Comp → ℝ × ℝ) q,
      (∀ idx, idx.length = 2 →
        F q idx = Interp.affine (f q) [(g q).1, (g q).2] (Interp.posOf (Deposit.nGhosts O) q idx)) →
      Interp.interpolate O (Deposit.nGhosts O) [n1 + 2 * Deposit.nGhosts O, n2 + 2 * Deposit.nGhosts O] F q
        [(p.i1, p.dx1), (p.i2, p.dx2)] = .ok (at_ f g q) := by
    intro F f g q hF
    refine (Interp.C74_linear_fields O hO [n1, n2] (by simp) [(p.i1, p.dx1), (p.i2, p.dx2)]
      (.cons h1 (.cons h2 .nil)) F q (f q) [(g q).1, (g q).2] rfl hF).trans ?_
    simp only [Interp.affine, List.map_cons, List.map_nil, List.zipWith_cons_cons, List.zipWith_nil_left,
      List.sum_cons, List.sum_nil, at_]
    congr 1
    ring
  unfold interpolateFields
  simp only [key DB c gc _ (hE .ex1 (by simp)), key DB c gc _ (hE .ex2 (by simp)),
    key DB c gc _ (hE .ex3 (by simp)), key DB0 d gd _ (hB .bx1 (by simp)), key DB0 d gd _ (hB .bx2 (by simp)),
    key DB0 d gd _ (hB .bx3 (by simp)), Outcome.bind_ok, Outcome.pure_eq]

/-! ## Instances -/

/-- Flat space, cells of size one in radius and π/4 in angle. -/
noncomputable def flat : KS0 := ⟨1, 1, 0, π / 4⟩

theorem flat_geo {x1 : ℝ} (h : 0 ≤ x1) :
    Geo (ofKS0 flat) (fun x y => (flat.deriv x y).alpha) (fun x y => (flat.deriv x y).beta1)
      flat.spatial flat.four x1 2 := by
  have e : (2 : ℝ) * (π / 4) + 0 = π / 2 := by ring
  refine geo_ks0 flat ?_ ?_ ?_ ?_
  · simp only [flat, KS0.toPh1]; linarith
  · simp only [flat, KS0.toPh2, e, sin_pi_div_two]; norm_num
  · simp [flat]
  · simp [flat, pi_ne_zero]

/-- The hypothesis of C102, C103 and C105 holds in the equatorial plane of flat space, and a push there
changes the velocity: an electric field along the radius gives `(q/m) ω_B0 dt/2`. -/
example : VectorRules ((ofKS0 flat).transform 1 2) V3.dot .Sph ∧
    ∃ v', emHalfPush (ofKS0 flat) 1 1 2 ⟨0, 0, 0⟩ ⟨3, 0, 0⟩ ⟨0, 0, 0⟩ = .ok v' ∧ v' = ⟨3, 0, 0⟩ := by
  have e : (2 : ℝ) * (π / 4) + 0 = π / 2 := by ring
  have G := flat_geo (x1 := 1) (by norm_num)
  refine ⟨G.rules, _, ?_, rfl⟩
  unfold emHalfPush
  simp only [ofKS0, KS0.transform, gr0Transform, Outcome.bind_ok, C26_boris_impulse, flat, KS0.deriv, e,
    sin_pi_div_two]
  simp [KS0.spatial, V3.smul]


/-- A photon leaving an absorbing outer radius: the hypotheses of C106 hold and the result is a dead
particle one cell outside. -/
example : let k : Ctx := ⟨0, 0, 1, 1, 1, 4, 4, true, true, true, true, false⟩
    let p : GPrtl := ⟨3, 2, 0, 0, 1 / 2, 0, 0, 0, ⟨2, 0, 0⟩, 0, Tags.alive⟩
    ∃ y p', coordinatePush (ofKS0 flat) false k.dt (7 / 2) 2 ⟨2, 0, 0⟩ k.niter = .ok y ∧ y = (9 / 2, 2) ∧
      finish (ofKS0 flat) false k (record p) (7 / 2) 2 ⟨2, 0, 0⟩ = .ok p' ∧ p'.tag = Tags.dead := by
  intro k p
  have e : (2 : ℝ) * (π / 4) + 0 = π / 2 := by ring
  have G := flat_geo (x1 := 7 / 2) (by norm_num)
  have hpi := Real.two_le_pi
  have hc : clampAngle (ofKS0 flat) 2 = .ok 2 := by
    have e2 : (ofKS0 flat).toPh2 2 = π / 2 := by simp only [ofKS0, KS0.toPh2, flat]; ring
    unfold clampAngle smallAngle
    rw [e2, if_neg (by linarith), if_neg (by linarith)]
  have hy : coordinatePush (ofKS0 flat) false k.dt (7 / 2) 2 ⟨2, 0, 0⟩ k.niter = .ok (9 / 2, 2) := by
    simp only [k, coordinatePush, Outcome.bind_ok]
    unfold coordinatePass
    have e1 : (1 : ℝ) / 2 * (7 / 2 + 7 / 2) = 7 / 2 := by norm_num
    have e2 : (1 : ℝ) / 2 * (2 + 2) = 2 := by norm_num
    have hq : √((4 : ℝ)) = 2 := by
      rw [show (4 : ℝ) = 2 ^ 2 by norm_num, Real.sqrt_sq (by norm_num)]
    simp only [e1, e2, hc, Outcome.bind_ok, G.raise, Outcome.pure_eq, G.alpha, G.beta, gamma]
    simp only [KS0.spatial, flat, KS0.deriv]
    norm_num [hq]
  have hf : fromXiToIDi (9 / 2 : ℝ) = (4, 1 / 2) := by
    have : ⌊(9 / 2 : ℝ)⌋ = 4 := by rw [Int.floor_eq_iff]; norm_num
    simp only [fromXiToIDi, fromXiToI, castInt]
    norm_num [this]
  have hph : ∃ s, updatePhi (ofKS0 flat) false k.dt ((7 / 2 + 9 / 2) * (1 / 2)) ((2 + 2) * (1 / 2))
      ⟨2, 0, 0⟩ (record p).phi = .ok s := by
    have e3 : ((2 : ℝ) + 2) * (1 / 2) = 2 := by norm_num
    rw [e3]
    obtain ⟨_, s, -, h, -⟩ := updatePhi_geo (flat_geo (x1 := (7 / 2 + 9 / 2) * (1 / 2)) (by norm_num))
      false k.dt ⟨2, 0, 0⟩ (record p).phi (.inr (by simp))
    exact ⟨s, h⟩
  obtain ⟨s, hph⟩ := hph
  refine ⟨_, boundary k { record p with
    i1 := 4, dx1 := 1 / 2, i2 := (fromXiToIDi (2 : ℝ)).1, dx2 := (fromXiToIDi (2 : ℝ)).2, u := ⟨2, 0, 0⟩ },
    hy, rfl, ?_, ?_⟩
  · unfold finish
    rw [hy, Outcome.bind_ok]
    simp only
    rw [hph, Outcome.bind_ok, hf]
    rfl
  · simp [boundary, k]
    split_ifs <;> rfl

end Entity.GRPush
