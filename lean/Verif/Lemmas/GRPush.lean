import Mathlib.Analysis.SpecialFunctions.Sqrt
import Mathlib.Tactic.LinearCombination
import Verif.Model.GRPush
import Verif.Lemmas.MetricVec
import Verif.Props.MetricAlgebra
import Verif.Props.Momentum

/-! Lemmas about the general-relativistic pusher. -/

namespace Entity.GRPush

open Entity Entity.Push Entity.Metric
open Real

/-- Square of the velocity with respect to the inverse spatial metric. -/
def quad (h : Spatial) (u : V3 ℝ) : ℝ :=
  h.u11 * u.x ^ 2 + h.u22 * u.y ^ 2 + h.u33 * u.z ^ 2 + 2 * h.u13 * u.x * u.z

/-- Minus the squared norm of the four-velocity: one for massive, zero for massless particles. -/
def shellNorm (massive : Bool) : ℝ := if massive then 1 else 0

noncomputable def ham (al be : ℝ) (h : Spatial) (norm : ℝ) (u : V3 ℝ) : ℝ :=
  al * √(norm + quad h u) - be * u.x

/-- The space-time metric with upper indices in terms of lapse, shift and spatial metric. -/
structure Adm (g : Four) (al be : ℝ) (h : Spatial) : Prop where
  u00 : g.u00 = -(1 / al ^ 2)
  u01 : g.u01 = be / al ^ 2
  u11 : g.u11 = h.u11 - be ^ 2 / al ^ 2
  u22 : g.u22 = h.u22
  u33 : g.u33 = h.u33
  u13 : g.u13 = h.u13

theorem u0_adm {g : Four} {al be : ℝ} {h : Spatial} (a : Adm g al be h) (hal : 0 < al) (u : V3 ℝ)
    (norm : ℝ) : u0 g u norm = -ham al be h norm u := by
  unfold u0 ham
  rw [a.u00, a.u01, a.u11, a.u22, a.u33, a.u13]
  have e : (-2 * (be / al ^ 2) * u.x) ^ 2 - 4 * -(1 / al ^ 2) *
      ((h.u11 - be ^ 2 / al ^ 2) * u.x ^ 2 + h.u22 * u.y ^ 2 + h.u33 * u.z ^ 2 +
        2 * h.u13 * u.x * u.z + norm) = (2 / al) ^ 2 * (norm + quad h u) := by
    unfold quad; field_simp; ring
  simp only [e]
  rw [Real.sqrt_mul (by positivity), Real.sqrt_sq (by positivity)]
  field_simp
  ring

/-- Lapse, shift and inverse spatial metric with their derivatives at a point. -/
structure HasDerivs (al be : Field) (h : ℝ → ℝ → Spatial) (d : Deriv) (x1 x2 : ℝ) : Prop where
  alpha : d.alpha = al x1 x2
  dal : Derivs al d.drAlpha d.dtAlpha x1 x2
  dbe : Derivs be d.drBeta1 d.dtBeta1 x1 x2
  d11 : Derivs (fun x y => (h x y).u11) d.drH11 d.dtH11 x1 x2
  d22 : Derivs (fun x y => (h x y).u22) d.drH22 d.dtH22 x1 x2
  d33 : Derivs (fun x y => (h x y).u33) d.drH33 d.dtH33 x1 x2
  d13 : Derivs (fun x y => (h x y).u13) d.drH13 d.dtH13 x1 x2

theorem ham_deriv {al be h11 h22 h33 h13 : ℝ → ℝ} {al' be' h11' h22' h33' h13' x norm : ℝ} {u : V3 ℝ}
    (dal : HasDerivAt al al' x) (dbe : HasDerivAt be be' x) (d11 : HasDerivAt h11 h11' x)
    (d22 : HasDerivAt h22 h22' x) (d33 : HasDerivAt h33 h33' x) (d13 : HasDerivAt h13 h13' x)
    (hQ : 0 < norm + (h11 x * u.x ^ 2 + h22 x * u.y ^ 2 + h33 x * u.z ^ 2 + 2 * h13 x * u.x * u.z))
    (hal : 0 < al x) :
    let G := √(norm + (h11 x * u.x ^ 2 + h22 x * u.y ^ 2 + h33 x * u.z ^ 2 + 2 * h13 x * u.x * u.z))
    HasDerivAt (fun y => al y * √(norm + (h11 y * u.x ^ 2 + h22 y * u.y ^ 2 + h33 y * u.z ^ 2 +
        2 * h13 y * u.x * u.z)) - be y * u.x)
      (-(-al x * (G / al x) * al' + u.x * be' - 1 / 2 / (G / al x) *
        (h11' * u.x ^ 2 + h22' * u.y ^ 2 + h33' * u.z ^ 2 + 2 * h13' * u.x * u.z))) x := by
  intro G
  have hG : 0 < G := Real.sqrt_pos.2 hQ
  have q := ((((d11.mul_const (u.x ^ 2)).add (d22.mul_const (u.y ^ 2))).add
    (d33.mul_const (u.z ^ 2))).add (((d13.const_mul 2).mul_const u.x).mul_const u.z)).const_add norm
  have s := q.sqrt (by simpa using hQ.ne')
  have t := (dal.mul s).sub (dbe.mul_const u.x)
  refine t.congr_deriv ?_
  change al' * G + al x * (_ / (2 * G)) - be' * u.x = _
  field_simp
  ring

/-- Derivatives of the energy along the two coordinates. -/
theorem ham_dr {al be : Field} {h : ℝ → ℝ → Spatial} {d : Deriv} {x1 x2 : ℝ}
    (H : HasDerivs al be h d x1 x2) {norm : ℝ} {u : V3 ℝ} (hQ : 0 < norm + quad (h x1 x2) u)
    (hal : 0 < al x1 x2) :
    HasDerivAt (fun x => ham (al x x2) (be x x2) (h x x2) norm u)
      (-rateR d (√(norm + quad (h x1 x2) u) / d.alpha) u) x1 ∧
    HasDerivAt (fun y => ham (al x1 y) (be x1 y) (h x1 y) norm u)
      (-rateT d (√(norm + quad (h x1 x2) u) / d.alpha) u) x2 := by
  refine ⟨?_, ?_⟩
  · have := ham_deriv H.dal.dr H.dbe.dr H.d11.dr H.d22.dr H.d33.dr H.d13.dr hQ hal
    unfold rateR
    rw [H.alpha]
    exact this
  · have := ham_deriv H.dal.dt H.dbe.dt H.d11.dt H.d22.dt H.d33.dt H.d13.dt hQ hal
    unfold rateT
    rw [H.alpha]
    exact this

/-- Derivatives of the energy along the components of the velocity. -/
theorem ham_du (al be : ℝ) (h : Spatial) (norm : ℝ) (u : V3 ℝ) (hQ : 0 < norm + quad h u)
    (hal : 0 < al) :
    let G := √(norm + quad h u)
    HasDerivAt (fun s => ham al be h norm ⟨s, u.y, u.z⟩)
      ((u.x * h.u11 + u.z * h.u13) / (G / al) - be) u.x ∧
    HasDerivAt (fun s => ham al be h norm ⟨u.x, s, u.z⟩) (u.y * h.u22 / (G / al)) u.y ∧
    HasDerivAt (fun s => ham al be h norm ⟨u.x, u.y, s⟩)
      ((u.x * h.u13 + u.z * h.u33) / (G / al)) u.z := by
  intro G
  have hG : 0 < G := Real.sqrt_pos.2 hQ
  have i := fun s : ℝ => hasDerivAt_id' (𝕜 := ℝ) s
  unfold ham quad
  refine ⟨?_, ?_, ?_⟩
  · have q := ((((((i u.x).pow 2).const_mul h.u11).add_const (h.u22 * u.y ^ 2)).add_const
      (h.u33 * u.z ^ 2)).add (((i u.x).const_mul (2 * h.u13)).mul_const u.z)).const_add norm
    have s := q.sqrt (by simpa [quad] using hQ.ne')
    refine ((s.const_mul al).sub ((i u.x).const_mul be)).congr_deriv ?_
    change al * (_ / (2 * G)) - _ = _
    simp
    field_simp
  · have q := ((((((i u.y).pow 2).const_mul h.u22).const_add (h.u11 * u.x ^ 2)).add_const
      (h.u33 * u.z ^ 2)).add_const (2 * h.u13 * u.x * u.z)).const_add norm
    have s := q.sqrt (by simpa [quad] using hQ.ne')
    refine ((s.const_mul al).sub_const (be * u.x)).congr_deriv ?_
    change al * (_ / (2 * G)) = _
    simp
    field_simp
  · have q := (((((i u.z).pow 2).const_mul h.u33).const_add (h.u11 * u.x ^ 2 + h.u22 * u.y ^ 2)).add
      ((i u.z).const_mul (2 * h.u13 * u.x))).const_add norm
    have s := q.sqrt (by simpa [quad] using hQ.ne')
    refine ((s.const_mul al).sub_const (be * u.x)).congr_deriv ?_
    change al * (_ / (2 * G)) = _
    simp
    field_simp
    ring

/-! ## Definiteness -/

/-- The tetrad components of a covariant vector; `raise` its contravariant components. -/
theorem tetrad_of {tr : Idx → Idx → V3 ℝ → Outcome (V3 ℝ)} (R : VectorRules tr V3.dot .Sph)
    (u : V3 ℝ) : ∃ t c, tr .D .T u = .ok t ∧ tr .T .D t = .ok u ∧ tr .D .U u = .ok c ∧
      c.dot u = t.dot t := by
  obtain ⟨-, -, -, d0, -, -, hd0, -⟩ := R.contract u u
  have p := R.path .D .T .D (by simp) (by simp) (by simp) (by simp) (by simp) u
  rw [if_pos rfl] at p
  cases ht : tr .D .T u with
  | ok t =>
    rw [ht, Outcome.bind_ok] at p
    obtain ⟨c, d, -, -, h1, h2, h3, -⟩ := R.contract t t
    have q := R.path .D .T .U (by simp) (by simp) (by simp) (by simp) (by simp) u
    rw [if_neg (by simp), ht, Outcome.bind_ok, h1] at q
    rw [h2] at p
    cases p
    exact ⟨t, c, rfl, h2, q.symm, h3⟩
  | err => rw [ht] at p; exact absurd p (by simp [Bind.bind, Outcome.bind])
  | ub => rw [ht] at p; exact absurd p (by simp [Bind.bind, Outcome.bind])

theorem dot_self_pos {t : V3 ℝ} (h : t ≠ ⟨0, 0, 0⟩) : 0 < t.dot t := by
  obtain ⟨a, b, c⟩ := t
  simp only [V3.dot]
  have h1 := mul_self_nonneg a
  have h2 := mul_self_nonneg b
  have h3 := mul_self_nonneg c
  rcases lt_or_eq_of_le (add_nonneg (add_nonneg h1 h2) h3) with h4 | h4
  · exact h4
  · exfalso
    apply h
    have ha : a * a = 0 := by linarith
    have hb : b * b = 0 := by linarith
    have hc : c * c = 0 := by linarith
    simp [mul_self_eq_zero.1 ha, mul_self_eq_zero.1 hb, mul_self_eq_zero.1 hc]

/-! ## Steps at a point -/

/-- What is needed of a metric at a point. -/
structure Geo (g : Met) (al be : Field) (h : ℝ → ℝ → Spatial) (four : ℝ → ℝ → Four) (x1 x2 : ℝ) :
    Prop where
  pos : 0 < al x1 x2
  alpha : (g.deriv x1 x2).alpha = al x1 x2
  beta : (g.deriv x1 x2).beta1 = be x1 x2
  raise : ∀ v, g.transform x1 x2 .D .U v = .ok ⟨v.x * (h x1 x2).u11 + v.z * (h x1 x2).u13,
    v.y * (h x1 x2).u22, v.x * (h x1 x2).u13 + v.z * (h x1 x2).u33⟩
  rules : VectorRules (g.transform x1 x2) V3.dot .Sph
  adm : Adm (four x1 x2) (al x1 x2) (be x1 x2) (h x1 x2)

section
variable {g : Met} {al be : Field} {h : ℝ → ℝ → Spatial} {four : ℝ → ℝ → Four} {x1 x2 : ℝ}

theorem Geo.quad_pos (G : Geo g al be h four x1 x2) {massive : Bool} {u : V3 ℝ}
    (hu : massive = true ∨ u ≠ ⟨0, 0, 0⟩) : 0 < shellNorm massive + quad (h x1 x2) u := by
  obtain ⟨t, c, h1, h2, h3, h4⟩ := tetrad_of G.rules u
  rw [G.raise] at h3
  cases h3
  have e : quad (h x1 x2) u = t.dot t := by rw [← h4]; simp only [quad, V3.dot]; ring
  rw [e]
  have h0 : 0 ≤ t.dot t := by
    have h1 := mul_self_nonneg t.x
    have h2 := mul_self_nonneg t.y
    have h3 := mul_self_nonneg t.z
    simp only [V3.dot]; linarith
  rcases hu with rfl | hu
  · simp only [shellNorm, if_true]; linarith
  · have ht : t ≠ ⟨0, 0, 0⟩ := by
      rintro rfl
      have : quad (h x1 x2) u = 0 := by rw [e]; simp [V3.dot]
      -- the zero tetrad vector is the image of the zero vector
      obtain ⟨t', c', k1, k2, k3, k4⟩ := tetrad_of G.rules ⟨0, 0, 0⟩
      rw [G.raise] at k3
      cases k3
      have hz : t'.dot t' = 0 := by rw [← k4]; simp [V3.dot]
      have ht' : t' = ⟨0, 0, 0⟩ := by
        by_contra hne
        exact (dot_self_pos hne).ne' hz
      rw [ht'] at k2
      rw [h2] at k2
      cases k2
      exact hu rfl
    have := dot_self_pos ht
    simp only [shellNorm]; split_ifs <;> linarith

theorem Geo.gamma_eq (u : V3 ℝ) (massive : Bool) (H : Spatial) :
    gamma massive u ⟨u.x * H.u11 + u.z * H.u13, u.y * H.u22, u.x * H.u13 + u.z * H.u33⟩ =
      √(shellNorm massive + quad H u) := by
  unfold gamma shellNorm quad
  split_ifs <;> congr 1 <;> ring

theorem Geo.momentumPass (G : Geo g al be h four x1 x2) (massive : Bool) (dt : ℝ) (v w : V3 ℝ) :
    let mid : V3 ℝ := ⟨1 / 2 * (v.x + w.x), 1 / 2 * (v.y + w.y), v.z⟩
    let u0 := √(shellNorm massive + quad (h x1 x2) mid) / (g.deriv x1 x2).alpha
    momentumPass g massive dt x1 x2 v w = .ok ⟨v.x + dt * rateR (g.deriv x1 x2) u0 mid,
      v.y + dt * rateT (g.deriv x1 x2) u0 mid, w.z⟩ := by
  intro mid u0
  unfold GRPush.momentumPass
  simp only [G.raise, Outcome.bind_ok, Outcome.pure_eq]
  have e := Geo.gamma_eq mid massive (h x1 x2)
  simp only [mid] at e
  rw [e]

theorem Geo.momentumPush (G : Geo g al be h four x1 x2) (massive : Bool) (dt : ℝ) (v : V3 ℝ) (n : Nat) :
    ∃ w, momentumPush g massive dt x1 x2 v n = .ok w ∧ w.z = v.z := by
  induction n with
  | zero => exact ⟨v, rfl, rfl⟩
  | succ n ih =>
    obtain ⟨w, h1, h2⟩ := ih
    rw [GRPush.momentumPush, h1, Outcome.bind_ok, G.momentumPass]
    exact ⟨_, rfl, h2⟩

end

end Entity.GRPush
