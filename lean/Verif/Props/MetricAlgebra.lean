import Verif.Lemmas.MetricVec

/-!
# C86, C87, C90: components of the metrics, vector transformations, energy of a particle
-/

namespace Entity.Metric

open Entity.Push (V3)
open Real Matrix

/-! ## Helpers -/

theorem spatial_inverse {h : Spatial} (e11 : h.l11 * h.u11 + h.l13 * h.u13 = 1)
    (e13 : h.l11 * h.u13 + h.l13 * h.u33 = 0) (e31 : h.l13 * h.u11 + h.l33 * h.u13 = 0)
    (e33 : h.l13 * h.u13 + h.l33 * h.u33 = 1) (e22 : h.l22 * h.u22 = 1) :
    h.lower * h.upper = 1 := by
  ext i j
  fin_cases i <;> fin_cases j <;>
    simp [Spatial.lower, Spatial.upper, Matrix.mul_apply, Fin.sum_univ_three, *]

theorem gen_four_inverse {a r θ jr jt : ℝ} (hr : 0 < r) (hs : sin θ ≠ 0) (hj : jr ≠ 0) (ht : jt ≠ 0) :
    (genFour a r θ jr jt).lower * (genFour a r θ jr jt).upper = 1 := by
  have hS := (sigma_pos (a := a) (θ := θ) hr).ne'
  have hSe : Sigma a r θ = r ^ 2 + a ^ 2 * (1 - sin θ ^ 2) := by unfold Sigma; rw [cos_sq_eq]
  ext i j
  fin_cases i <;> fin_cases j <;>
    simp [Four.lower, Four.upper, Matrix.mul_apply, Fin.sum_univ_four, genFour, genSpatial, zed,
      bigA_eq, Delta] <;> field_simp <;> (try rw [hSe]) <;> ring

theorem gen_adm {a r θ jr jt : ℝ} (hr : 0 < r) (hj : jr ≠ 0) :
    (genFour a r θ jr jt).lower = admLower (1 / √(1 + zed a r θ))
      (zed a r θ / jr / (1 + zed a r θ)) (genSpatial a r θ jr jt) := by
  have hz := zed_pos (a := a) (θ := θ) hr
  have hz1 : 1 + zed a r θ ≠ 0 := by positivity
  have hsq : (1 / √(1 + zed a r θ)) ^ 2 = 1 / (1 + zed a r θ) := by
    rw [div_pow, Real.sq_sqrt (by linarith), one_pow]
  ext i j
  fin_cases i <;> fin_cases j <;>
    simp [Four.lower, admLower, genFour, genSpatial] <;>
    simp only [one_div, inv_pow] at hsq <;> (try rw [hsq]) <;> field_simp <;> ring

/-! ## C86 -/

/-- **C86 (Kerr-Schild).** Off the axis and outside the origin: components with upper indices are the
inverse of those with lower indices, in space and in space-time; the space-time metric is the one of the
lapse, the shift and the spatial metric; `sqrt_det_h` is the positive root of the determinant and
`sqrt_det_h_tilde` is `sqrt_det_h` without its factor sin θ. -/
theorem C86_kerr_schild (m : KS) (x1 x2 : ℝ) (hr : 0 < m.toPh1 x1) (hs : 0 < sin (m.toPh2 x2))
    (hd : 0 < m.dr) (ht : 0 < m.dt) :
    (m.spatial x1 x2).lower * (m.spatial x1 x2).upper = 1 ∧
    (m.four x1 x2).lower * (m.four x1 x2).upper = 1 ∧
    (m.four x1 x2).lower = admLower (m.alpha x1 x2) (m.beta1 x1 x2) (m.spatial x1 x2) ∧
    (m.spatial x1 x2).lower.det = m.sqrtDetH x1 x2 ^ 2 ∧ 0 < m.sqrtDetH x1 x2 ∧
    m.sqrtDetH x1 x2 = m.sqrtDetHTilde x1 x2 * sin (m.toPh2 x2) := by
  have hr' : 0 < x1 * m.dr + m.rmin := hr
  have hs' : 0 < sin (x2 * m.dt + m.tmin) := hs
  obtain ⟨h1, h2, h3, h4, h5⟩ := gen_inverse (a := m.a) hr' hs'.ne' hd.ne' ht.ne'
  have hS := sigma_pos (a := m.a) (θ := x2 * m.dt + m.tmin) hr'
  have hz := zed_pos (a := m.a) (θ := x2 * m.dt + m.tmin) hr'
  rw [ks_spatial, ks_four]
  refine ⟨spatial_inverse h1 h2 h3 h4 h5, gen_four_inverse hr' hs'.ne' hd.ne' ht.ne', ?_, ?_, ?_, ?_⟩
  · rw [gen_adm hr' hd.ne']
    simp only [KS.alpha, KS.beta1]
    congr 1
    field_simp
  · rw [gen_det hr']; rfl
  · unfold KS.sqrtDetH
    positivity
  · simp only [KS.sqrtDetH, KS.sqrtDetHTilde, KS.toPh2]; ring

@[inherit_doc C86_kerr_schild]
theorem C86_qkerr_schild (m : QKS) (x1 x2 : ℝ) (hr : 0 < m.toPh1 x1) (hs : 0 < sin (m.toPh2 x2))
    (hd : 0 < m.dchi) (ht : 0 < m.deta) (hj : 0 < dthetaDeta m.ε m.h (x2 * m.deta + m.etaMin)) :
    (m.spatial x1 x2).lower * (m.spatial x1 x2).upper = 1 ∧
    (m.four x1 x2).lower * (m.four x1 x2).upper = 1 ∧
    (m.four x1 x2).lower = admLower (m.alpha x1 x2) (m.beta1 x1 x2) (m.spatial x1 x2) ∧
    (m.spatial x1 x2).lower.det = m.sqrtDetH x1 x2 ^ 2 ∧ 0 < m.sqrtDetH x1 x2 ∧
    m.sqrtDetH x1 x2 = m.sqrtDetHTilde x1 x2 * sin (m.toPh2 x2) := by
  have hr' : 0 < m.rad x1 := hr
  have hs' : 0 < sin (m.ang x2) := hs
  have he := exp_pos (x1 * m.dchi + m.chiMin)
  have j1 : m.dchi * exp (x1 * m.dchi + m.chiMin) ≠ 0 := by positivity
  have j2 : m.deta * dthetaDeta m.ε m.h (x2 * m.deta + m.etaMin) ≠ 0 := by positivity
  obtain ⟨h1, h2, h3, h4, h5⟩ := gen_inverse (a := m.a) hr' hs'.ne' j1 j2
  have hS := sigma_pos (a := m.a) (θ := m.ang x2) hr'
  have hz := zed_pos (a := m.a) (θ := m.ang x2) hr'
  rw [qks_spatial, qks_four]
  refine ⟨spatial_inverse h1 h2 h3 h4 h5, gen_four_inverse hr' hs'.ne' j1 j2, ?_, ?_, ?_, ?_⟩
  · rw [gen_adm hr' j1]
    simp only [QKS.alpha, QKS.beta1, Real.exp_neg]
    congr 1
    field_simp
  · rw [gen_det hr']
    simp only [QKS.sqrtDetH, QKS.rad]
    ring
  · unfold QKS.sqrtDetH
    unfold QKS.rad at hS hz
    positivity
  · simp only [QKS.sqrtDetH, QKS.sqrtDetHTilde, QSph.toPh2, QKS.ang]; ring

@[inherit_doc C86_kerr_schild]
theorem C86_kerr_schild_0 (m : KS0) (x1 x2 : ℝ) (hr : 0 < m.toPh1 x1) (hs : 0 < sin (m.toPh2 x2))
    (hd : 0 < m.dr) (ht : 0 < m.dt) :
    (m.spatial x1 x2).lower * (m.spatial x1 x2).upper = 1 ∧
    (m.four x1 x2).lower * (m.four x1 x2).upper = 1 ∧
    (m.four x1 x2).lower = admLower (m.deriv x1 x2).alpha (m.deriv x1 x2).beta1 (m.spatial x1 x2) ∧
    (m.spatial x1 x2).lower.det = m.sqrtDetH x1 x2 ^ 2 ∧ 0 < m.sqrtDetH x1 x2 ∧
    m.sqrtDetH x1 x2 = m.sqrtDetHTilde x1 * sin (m.toPh2 x2) := by
  have hr' : 0 < x1 * m.dr + m.rmin := hr
  have hs' : 0 < sin (x2 * m.dt + m.tmin) := hs
  refine ⟨?_, ?_, ?_, ?_, ?_, ?_⟩
  · apply spatial_inverse <;> simp only [KS0.spatial] <;> field_simp <;> ring
  · ext i j
    fin_cases i <;> fin_cases j <;>
      simp [Four.lower, Four.upper, Matrix.mul_apply, Fin.sum_univ_four, KS0.four, KS0.spatial] <;>
      field_simp
  · ext i j
    fin_cases i <;> fin_cases j <;>
      simp [Four.lower, admLower, KS0.four, KS0.spatial, KS0.deriv]
  · simp only [Spatial.lower, Matrix.det_fin_three, Matrix.of_apply, Matrix.cons_val',
      Matrix.cons_val_zero, Matrix.cons_val_one, Matrix.cons_val, KS0.spatial, KS0.sqrtDetH]
    ring
  · unfold KS0.sqrtDetH
    positivity
  · rfl

/-- **C86 (Cartesian, spherical, quasi-spherical).** `sqrt_h_` is the root of `h_` in every direction,
`sqrt_det_h` the product of the roots, and `sqrt_det_h_tilde` is `sqrt_det_h` without its factor
sin θ. -/
theorem C86_diagonal (c : Mink) (s : Sph) (q : QSph) (x1 x2 : ℝ) :
    (c.sqrtH_ ^ 2 = c.h_ ∧ ∀ D, 1 ≤ D → D ≤ 3 → c.sqrtDetH D = c.sqrtH_ ^ D) ∧
    ((∀ i, s.sqrtH_ x1 x2 i ^ 2 = s.h_ x1 x2 i) ∧
      s.sqrtDetH x1 x2 = s.sqrtH_ x1 x2 0 * s.sqrtH_ x1 x2 1 * s.sqrtH_ x1 x2 2 ∧
      s.sqrtDetH x1 x2 = s.sqrtDetHTilde x1 * sin (s.toPh2 x2)) ∧
    ((∀ i, q.sqrtH_ x1 x2 i ^ 2 = q.h_ x1 x2 i) ∧
      q.sqrtDetH x1 x2 = q.sqrtH_ x1 x2 0 * q.sqrtH_ x1 x2 1 * q.sqrtH_ x1 x2 2 ∧
      q.sqrtDetH x1 x2 = q.sqrtDetHTilde x1 x2 * sin (q.toPh2 x2)) := by
  refine ⟨⟨?_, ?_⟩, ⟨?_, ?_, ?_⟩, ⟨?_, ?_, ?_⟩⟩
  · simp only [Mink.sqrtH_, Mink.h_]; ring
  · intro D h1 h3
    have : D = 1 ∨ D = 2 ∨ D = 3 := by omega
    rcases this with rfl | rfl | rfl <;> simp [Mink.sqrtDetH, Mink.sqrtH_] <;> ring
  · intro i
    fin_cases i <;> simp [Sph.sqrtH_, Sph.h_] <;> ring
  · simp only [Sph.sqrtH_, Sph.sqrtDetH]; ring
  · rfl
  · intro i
    have e1 : exp (2 * (x1 * q.dchi + q.chiMin)) = exp (x1 * q.dchi + q.chiMin) ^ 2 := by
      rw [← Real.exp_nat_mul]; norm_num
    fin_cases i <;> simp [QSph.sqrtH_, QSph.h_, e1] <;> ring
  · simp only [QSph.sqrtH_, QSph.sqrtDetH]; ring
  · rfl

/-! ## C87 -/

/-- **C87 (Cartesian, spherical, quasi-spherical).** Component-wise transformations satisfy the rules
wherever the factors do not vanish. -/
theorem C87_diagonal (s : Sph) (q : QSph) (x1 x2 : ℝ) (i : Fin 3) :
    (s.sqrtH_ x1 x2 i ≠ 0 → s.dr ≠ 0 → s.dt ≠ 0 → VectorRules (s.transform x1 x2 i) (· * ·) .Sph) ∧
    (q.sqrtH_ x1 x2 i ≠ 0 → q.dchi ≠ 0 → q.deta ≠ 0 →
      dthetaDeta q.ε q.h (x2 * q.deta + q.etaMin) ≠ 0 →
      VectorRules (q.transform x1 x2 i) (· * ·) .Sph) := by
  have hC := C86_diagonal ⟨1, fun _ => 0⟩ s q x1 x2
  refine ⟨fun h hd ht => diag_rules h (hC.2.1.1 i).symm ?_,
    fun h hd ht hj => diag_rules h (hC.2.2.1 i).symm ?_⟩
  · fin_cases i <;> simp [hd, ht]
  · have := exp_pos (x1 * q.dchi + q.chiMin)
    fin_cases i <;> simp <;> field_simp

@[inherit_doc C87_diagonal]
theorem C87_minkowski (m : Mink) (hd : m.dx ≠ 0) (D : Nat) (i : Fin 3) :
    VectorRules (m.transform D i) (· * ·) .XYZ := by
  by_cases hi : D ≤ i.val
  · have : m.transform D i = fun _ _ v => .ok v := by
      funext a b v
      simp [Mink.transform, hi]
    rw [this]
    refine ⟨?_, fun a b _ v => rfl, fun v w => ⟨v, w, v, w, rfl, rfl, rfl, rfl, rfl, rfl⟩⟩
    intro a b c _ _ _ _ _ v
    simp
  · refine ⟨?_, ?_, ?_⟩
    · apply path_of_tetrad
        (fun a v => match a with | .U => v * m.dx | .D => v / m.dx | _ => v)
        (fun a v => match a with | .U => v / m.dx | .D => v * m.dx | _ => v)
      · intro a ha v; fin_cases ha <;> simp <;> field_simp
      · intro a ha v; fin_cases ha <;> simp <;> field_simp
      · intro a ha b hb hab v
        fin_cases ha <;> fin_cases hb <;>
          simp [Mink.transform, hi, Mink.sqrtH_, Mink.h_] at hab ⊢ <;> field_simp
    · intro a b hab v
      fin_cases hab <;> simp [Mink.transform, hi] <;> field_simp
    · intro v w
      refine ⟨v / m.dx, w * m.dx, v / m.dx * m.dx, w * m.dx * (1 / m.dx), by
        simp [Mink.transform, hi, Mink.sqrtH_], by simp [Mink.transform, hi, Mink.sqrtH_], ?_,
        by simp [Mink.transform, hi], by simp [Mink.transform, hi], ?_⟩ <;> field_simp

/-- **C87 (Kerr-Schild metrics).** Transformations of whole vectors satisfy the rules off the axis. -/
theorem C87_kerr_schild (m : KS) (x1 x2 : ℝ) (hr : 0 < m.toPh1 x1) (hs : sin (m.toPh2 x2) ≠ 0)
    (hd : m.dr ≠ 0) (ht : m.dt ≠ 0) : VectorRules (m.transform x1 x2) V3.dot .Sph := by
  unfold KS.transform
  rw [ks_spatial]
  exact gr_rules (gen_good hr hs hd ht) (by simp [hd]) (by simp [ht]) (by simp)

@[inherit_doc C87_kerr_schild]
theorem C87_qkerr_schild (m : QKS) (x1 x2 : ℝ) (hr : 0 < m.toPh1 x1) (hs : sin (m.toPh2 x2) ≠ 0)
    (hd : m.dchi ≠ 0) (ht : m.deta ≠ 0)
    (hj : dthetaDeta m.ε m.h (x2 * m.deta + m.etaMin) ≠ 0) :
    VectorRules (m.transform x1 x2) V3.dot .Sph := by
  have he := exp_pos (x1 * m.dchi + m.chiMin)
  unfold QKS.transform
  rw [qks_spatial]
  refine gr_rules (gen_good hr hs (by positivity) (by positivity)) ?_ ?_ ?_ <;> simp only <;>
    field_simp

@[inherit_doc C87_kerr_schild]
theorem C87_kerr_schild_0 (m : KS0) (x1 x2 : ℝ) (hr : 0 < m.toPh1 x1) (hs : sin (m.toPh2 x2) ≠ 0)
    (hd : m.dr ≠ 0) (ht : m.dt ≠ 0) : VectorRules (m.transform x1 x2) V3.dot .Sph := by
  have hr' : 0 < x1 * m.dr + m.rmin := hr
  have hs' : sin (x2 * m.dt + m.tmin) ≠ 0 := hs
  unfold KS0.transform
  refine gr0_rules ⟨?_, ?_, ?_, ?_, ?_, ?_, ?_⟩ rfl (by simp [hd]) (by simp [ht]) (by simp) <;>
    simp only [KS0.spatial]
  · positivity
  · positivity
  · positivity
  all_goals field_simp
  all_goals ring

/-- **C87 (tetrad and Cartesian components on spherical grids).** The two transformations are inverse to
one another and keep scalar products. -/
theorem C87_tetrad_xyz (t p : ℝ) (v w : V3 ℝ) :
    xyzToTetrad t p (tetradToXyz t p v) = v ∧ tetradToXyz t p (xyzToTetrad t p v) = v ∧
    (tetradToXyz t p v).dot (tetradToXyz t p w) = v.dot w := by
  have ht := cos_sq_eq t
  have hp := cos_sq_eq p
  refine ⟨?_, ?_, ?_⟩
  · ext <;> simp only [xyzToTetrad, tetradToXyz] <;> ring_nf <;> simp only [ht, hp] <;> ring
  · ext <;> simp only [xyzToTetrad, tetradToXyz] <;> ring_nf <;> simp only [ht, hp] <;> ring
  · simp only [V3.dot, tetradToXyz]
    ring_nf
    simp only [ht, hp]
    ring

def V4.toFn (v : V4) : Fin 4 → ℝ := ![v.t, v.x, v.y, v.z]

theorem V4.toFn_inj {v w : V4} (h : v.toFn = w.toFn) : v = w := by
  obtain ⟨a, b, c, d⟩ := v
  obtain ⟨a', b', c', d'⟩ := w
  have h0 := congrFun h 0
  have h1 := congrFun h 1
  have h2 := congrFun h 2
  have h3 := congrFun h 3
  simp [V4.toFn] at h0 h1 h2 h3
  simp [h0, h1, h2, h3]

theorem toFn_raise (g : Four) (v : V4) : (raise4 g v).toFn = g.upper *ᵥ v.toFn := by
  ext i
  fin_cases i <;>
    simp [V4.toFn, raise4, Four.upper, Matrix.mulVec, dotProduct, Fin.sum_univ_four] <;> ring

theorem toFn_lower (g : Four) (v : V4) : (lower4 g v).toFn = g.lower *ᵥ v.toFn := by
  ext i
  fin_cases i <;>
    simp [V4.toFn, lower4, Four.lower, Matrix.mulVec, dotProduct, Fin.sum_univ_four] <;> ring

theorem raise_lower {g : Four} (hg : g.lower * g.upper = 1) (v : V4) :
    raise4 g (lower4 g v) = v ∧ lower4 g (raise4 g v) = v := by
  have hg' : g.upper * g.lower = 1 := mul_eq_one_comm.1 hg
  constructor <;> apply V4.toFn_inj
  · rw [toFn_raise, toFn_lower, Matrix.mulVec_mulVec, hg', Matrix.one_mulVec]
  · rw [toFn_lower, toFn_raise, Matrix.mulVec_mulVec, hg, Matrix.one_mulVec]

/-- **C87 (four-vectors).** Raising and lowering the index of a four-vector are inverse to one another
in all three general-relativistic metrics. -/
theorem C87_four_vectors (k : KS) (z : KS0) (q : QKS) (x1 x2 : ℝ) (v : V4) :
    (0 < k.toPh1 x1 → 0 < sin (k.toPh2 x2) → 0 < k.dr → 0 < k.dt →
      raise4 (k.four x1 x2) (lower4 (k.four x1 x2) v) = v ∧
      lower4 (k.four x1 x2) (raise4 (k.four x1 x2) v) = v) ∧
    (0 < z.toPh1 x1 → 0 < sin (z.toPh2 x2) → 0 < z.dr → 0 < z.dt →
      raise4 (z.four x1 x2) (lower4 (z.four x1 x2) v) = v ∧
      lower4 (z.four x1 x2) (raise4 (z.four x1 x2) v) = v) ∧
    (0 < q.toPh1 x1 → 0 < sin (q.toPh2 x2) → 0 < q.dchi → 0 < q.deta →
      0 < dthetaDeta q.ε q.h (x2 * q.deta + q.etaMin) →
      raise4 (q.four x1 x2) (lower4 (q.four x1 x2) v) = v ∧
      lower4 (q.four x1 x2) (raise4 (q.four x1 x2) v) = v) :=
  ⟨fun a b c d => raise_lower (C86_kerr_schild k x1 x2 a b c d).2.1 v,
   fun a b c d => raise_lower (C86_kerr_schild_0 z x1 x2 a b c d).2.1 v,
   fun a b c d e => raise_lower (C86_qkerr_schild q x1 x2 a b c d e).2.1 v⟩

/-! ## C90 -/

/-- The covariant four-velocity with energy component `e` and spatial components `u` has norm `-norm`
and points to the future. -/
structure OnShell (g : Four) (u : V3 ℝ) (norm e : ℝ) : Prop where
  norm_eq : (raise4 g ⟨e, u.x, u.y, u.z⟩).dot ⟨e, u.x, u.y, u.z⟩ = -norm
  future : 0 ≤ (raise4 g ⟨e, u.x, u.y, u.z⟩).t

theorem u0_shell {g : Four} (hA : g.u00 < 0) {u : V3 ℝ} {norm : ℝ}
    (hd : 0 ≤ (g.u01 * u.x) ^ 2 - g.u00 *
      (g.u11 * u.x ^ 2 + g.u22 * u.y ^ 2 + g.u33 * u.z ^ 2 + 2 * g.u13 * u.x * u.z + norm)) (e : ℝ) :
    OnShell g u norm e ↔ e = u0 g u norm := by
  set Q := g.u11 * u.x ^ 2 + g.u22 * u.y ^ 2 + g.u33 * u.z ^ 2 + 2 * g.u13 * u.x * u.z + norm with hQ
  have hB : (-2 * g.u01 * u.x) ^ 2 - 4 * g.u00 * Q = 2 ^ 2 * ((g.u01 * u.x) ^ 2 - g.u00 * Q) := by ring
  have hsq : √((-2 * g.u01 * u.x) ^ 2 - 4 * g.u00 * Q) = 2 * √((g.u01 * u.x) ^ 2 - g.u00 * Q) := by
    rw [hB, Real.sqrt_mul (by norm_num), Real.sqrt_sq (by norm_num)]
  have hs := Real.sq_sqrt hd
  have hs0 := Real.sqrt_nonneg ((g.u01 * u.x) ^ 2 - g.u00 * Q)
  have hu : u0 g u norm = (-g.u01 * u.x + √((g.u01 * u.x) ^ 2 - g.u00 * Q)) / g.u00 := by
    unfold u0
    dsimp only
    rw [← hQ, hsq]
    field_simp
  set s := √((g.u01 * u.x) ^ 2 - g.u00 * Q)
  clear_value s
  have hn : (raise4 g ⟨e, u.x, u.y, u.z⟩).dot ⟨e, u.x, u.y, u.z⟩ =
      g.u00 * e ^ 2 + 2 * (g.u01 * u.x) * e + Q - norm := by
    simp only [raise4, V4.dot, hQ]; ring
  have ht : (raise4 g ⟨e, u.x, u.y, u.z⟩).t = g.u00 * e + g.u01 * u.x := by
    simp only [raise4]; ring
  clear_value Q
  rw [hu, eq_div_iff hA.ne]
  constructor
  · rintro ⟨h1, h2⟩
    rw [hn] at h1
    rw [ht] at h2
    have : (g.u00 * e + g.u01 * u.x) ^ 2 = s ^ 2 := by
      rw [hs]; linear_combination g.u00 * h1
    have := (sq_eq_sq₀ h2 hs0).1 this
    linarith
  · intro h
    have he : g.u00 * e + g.u01 * u.x = s := by linarith
    refine ⟨?_, by rw [ht, he]; exact hs0⟩
    rw [hn]
    have : (g.u00 * e + g.u01 * u.x) ^ 2 = (g.u01 * u.x) ^ 2 - g.u00 * Q := by rw [he, hs]
    have : g.u00 * (g.u00 * e ^ 2 + 2 * (g.u01 * u.x) * e + Q) = 0 := by linear_combination this
    have := (mul_eq_zero.1 this).resolve_left hA.ne
    linarith

theorem gen_disc {a r θ jr jt : ℝ} (hr : 0 < r) (hs : sin θ ≠ 0) (hj : jr ≠ 0) (ht : jt ≠ 0)
    (u : V3 ℝ) {norm : ℝ} (hn : 0 ≤ norm) : let g := genFour a r θ jr jt
    0 ≤ (g.u01 * u.x) ^ 2 - g.u00 *
      (g.u11 * u.x ^ 2 + g.u22 * u.y ^ 2 + g.u33 * u.z ^ 2 + 2 * g.u13 * u.x * u.z + norm) := by
  intro g
  have hS := sigma_pos (a := a) (θ := θ) hr
  have hz := zed_pos (a := a) (θ := θ) hr
  have hSe : Sigma a r θ = r ^ 2 + a ^ 2 * (1 - sin θ ^ 2) := by unfold Sigma; rw [cos_sq_eq]
  have key : (g.u01 * u.x) ^ 2 - g.u00 *
      (g.u11 * u.x ^ 2 + g.u22 * u.y ^ 2 + g.u33 * u.z ^ 2 + 2 * g.u13 * u.x * u.z + norm) =
      (1 + zed a r θ) * ((a * u.x * sin θ / jr + u.z / sin θ) ^ 2 / Sigma a r θ +
        (u.x / jr) ^ 2 / (1 + zed a r θ) + u.y ^ 2 / (Sigma a r θ * jt ^ 2) + norm) := by
    have : 1 + zed a r θ ≠ 0 := by positivity
    have hD : Delta a r = Sigma a r θ - 2 * r + a ^ 2 * sin θ ^ 2 := by rw [hSe]; unfold Delta; ring
    simp only [g, genFour, genSpatial, hD]
    have hzS : 2 * r = zed a r θ * Sigma a r θ := by unfold zed; field_simp
    rw [hzS]
    field_simp
    ring
  rw [key]
  positivity

/-- **C90.** For every covariant velocity and every norm (one for massive, zero for massless particles)
`u_0` is the one number that puts the four-velocity on the mass shell pointing to the future, in all
three general-relativistic metrics. -/
theorem C90_energy (k : KS) (z : KS0) (q : QKS) (x1 x2 : ℝ) (u : V3 ℝ) (norm : ℝ) (hn : 0 ≤ norm)
    (e : ℝ) :
    (0 < k.toPh1 x1 → sin (k.toPh2 x2) ≠ 0 → k.dr ≠ 0 → k.dt ≠ 0 →
      (OnShell (k.four x1 x2) u norm e ↔ e = u0 (k.four x1 x2) u norm)) ∧
    (0 < z.toPh1 x1 → sin (z.toPh2 x2) ≠ 0 → z.dr ≠ 0 → z.dt ≠ 0 →
      (OnShell (z.four x1 x2) u norm e ↔ e = u0 (z.four x1 x2) u norm)) ∧
    (0 < q.toPh1 x1 → sin (q.toPh2 x2) ≠ 0 → q.dchi ≠ 0 → q.deta ≠ 0 →
      dthetaDeta q.ε q.h (x2 * q.deta + q.etaMin) ≠ 0 →
      (OnShell (q.four x1 x2) u norm e ↔ e = u0 (q.four x1 x2) u norm)) := by
  refine ⟨fun hr hs hd ht => ?_, fun hr hs hd ht => ?_, fun hr hs hd ht hj => ?_⟩
  · rw [ks_four]
    have : 0 < zed k.a (k.toPh1 x1) (k.toPh2 x2) := zed_pos hr
    exact u0_shell (by
        change -(1 + zed k.a (k.toPh1 x1) (k.toPh2 x2)) < 0
        linarith)
      (gen_disc hr hs hd ht u hn) e
  · apply u0_shell
    · simp [KS0.four]
    · have hr' : 0 < x1 * z.dr + z.rmin := hr
      simp only [KS0.four, KS0.spatial, zero_mul, mul_zero, add_zero, zero_pow two_ne_zero, zero_sub,
        neg_mul, one_mul, neg_neg]
      positivity
  · rw [qks_four]
    have he := exp_pos (x1 * q.dchi + q.chiMin)
    have := zed_pos (a := q.a) (θ := q.ang x2) hr
    exact u0_shell (by simp only [genFour]; change -(1 + zed q.a (q.toPh1 x1) (q.ang x2)) < 0; linarith)
      (gen_disc hr hs (by positivity) (by positivity) u hn) e

/-! ## Examples -/

/-- A black hole of spin 1/2, grid of 4 × 2 cells from radius 2 to 10: the hypotheses hold at the middle
of the grid. -/
example : let m := KS.make (1 / 10 ^ 6) (1 / 2) ⟨2, 10, 4⟩ ⟨0, π, 2⟩
    0 < m.toPh1 1 ∧ 0 < sin (m.toPh2 1) ∧ 0 < m.dr ∧ 0 < m.dt ∧ m.toPh1 1 = 4 := by
  refine ⟨?_, ?_, ?_, ?_, ?_⟩
  · simp [KS.make, KS.toPh1]; norm_num
  · have : (1 : ℝ) * ((π - 0) / 2) + 0 = π / 2 := by ring
    simp only [KS.make, KS.toPh2]
    rw [this, sin_pi_div_two]
    norm_num
  · simp [KS.make]; norm_num
  · have := pi_pos
    simp [KS.make]
    positivity
  · simp [KS.make, KS.toPh1]; norm_num

/-- The same grid with stretching: the Jacobian of the angle is positive for every stretching between
zero and one. -/
example (ε h η : ℝ) (h0 : 0 ≤ h) (h1 : h < 1) : 0 < dthetaDeta ε h η := by
  unfold dthetaDeta
  split_ifs
  · norm_num
  · have : 1 + 2 * h + 12 * h * (η * (1 / π)) * (η * (1 / π) - 1) =
      (1 - h) + 12 * h * (η * (1 / π) - 1 / 2) ^ 2 := by ring
    rw [this]
    have : 0 < 1 - h := by linarith
    positivity

end Entity.Metric
