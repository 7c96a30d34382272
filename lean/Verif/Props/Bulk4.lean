import Verif.Model.Bulk4
import Verif.Props.MetricAlgebra

/-!
# C123: bulk four-velocity of the output (GR)
-/

namespace Entity.Metric

open Entity Entity.Push
open Real

/-! ## Specification -/

/-- The Kerr metric in Kerr-Schild coordinates t, r, θ, φ as a quadratic form (mass one, spin `a`), written
out; at `M = 0` it is flat space in spherical coordinates. -/
noncomputable def kerrForm (M a r θ : ℝ) (w : V4) : ℝ :=
  let S := r ^ 2 + a ^ 2 * cos θ ^ 2
  let z := 2 * M * r / S
  (z - 1) * w.t ^ 2 + 2 * z * w.t * w.x + (1 + z) * w.x ^ 2 + S * w.y ^ 2
    + (r ^ 2 + a ^ 2 + z * a ^ 2 * sin θ ^ 2) * sin θ ^ 2 * w.z ^ 2
    - 2 * a * z * sin θ ^ 2 * w.t * w.z - 2 * a * (1 + z) * sin θ ^ 2 * w.x * w.z

def V4.add (v w : V4) : V4 := ⟨v.t + w.t, v.x + w.x, v.y + w.y, v.z + w.z⟩

def V4.zero : V4 := ⟨0, 0, 0, 0⟩

/-- Components in t, r, θ, φ of a vector with components in code coordinates; `jr`, `jt` are the
derivatives of r and θ. -/
def V4.phys (jr jt : ℝ) (v : V4) : V4 := ⟨v.t, v.x * jr, v.y * jt, v.z⟩

/-- `w` is the bulk four-velocity for the flux `n`, both in t, r, θ, φ, at a point of Kerr space-time:
it has norm -1; it points to the future; it is along the flux, if the flux is timelike beyond the
tolerance; without particles it is orthogonal to the slices of constant time (the observer at rest). -/
structure IsBulk (M a r θ eps : ℝ) (n w : V4) : Prop where
  unit : kerrForm M a r θ w = -1
  future : 0 ≤ n.t → 0 < w.t
  along : eps < n.t → eps ^ 2 < -kerrForm M a r θ n →
    ∃ k > 0, w = ⟨k * n.t, k * n.x, k * n.y, k * n.z⟩
  rest : |n.t| ≤ eps → ∀ s : V4, s.t = 0 →
    kerrForm M a r θ (w.add s) = kerrForm M a r θ w + kerrForm M a r θ s

/-! ## Helpers -/

theorem normSq_gen {a r θ jr jt : ℝ} (hr : 0 < r) (n : V4) :
    normSq4 (genFour a r θ jr jt) n = kerrForm 1 a r θ (n.phys jr jt) := by
  have hS := (sigma_pos (a := a) (θ := θ) hr).ne'
  unfold Sigma at hS
  simp only [normSq4, lower4, genFour, genSpatial, kerrForm, V4.phys, bigA_eq, zed, Sigma]
  field_simp
  ring

theorem normSq_ks0 (m : KS0) (x1 x2 : ℝ) (hr : 0 < m.toPh1 x1) (n : V4) :
    normSq4 (m.four x1 x2) n = kerrForm 0 0 (m.toPh1 x1) (m.toPh2 x2) (n.phys m.dr m.dt) := by
  simp only [normSq4, lower4, KS0.four, KS0.spatial, kerrForm, V4.phys, KS0.toPh1, KS0.toPh2]
  ring

/-- The observer at rest has norm -1. -/
theorem normSq_zamo {a r θ jr jt : ℝ} (hr : 0 < r) (hj : jr ≠ 0) :
    normSq4 (genFour a r θ jr jt)
      (zamo (1 / √(1 + zed a r θ)) (1 / jr * zed a r θ / (1 + zed a r θ))) = -1 := by
  have hz := zed_pos (a := a) (θ := θ) hr
  have h1 : 1 + zed a r θ ≠ 0 := by positivity
  have hs : √(1 + zed a r θ) ^ 2 = 1 + zed a r θ := Real.sq_sqrt (by linarith)
  simp only [normSq4, lower4, genFour, genSpatial, zamo, one_div, inv_inv, div_inv_eq_mul, mul_zero,
    zero_mul, add_zero, one_mul]
  generalize √(1 + zed a r θ) = s at *
  field_simp
  linear_combination (-1 : ℝ) * hs

theorem normalize_norm {eps : ℝ} (he : 0 ≤ eps) {g : Four} {α β : ℝ} (hz : normSq4 g (zamo α β) = -1)
    (n : V4) : normSq4 g (normalize4 eps g α β n) = -1 := by
  unfold normalize4
  split_ifs with h1 h2 h3
  · exact hz
  · exact hz
  · have hq : 0 < √(-normSq4 g n) := Real.sqrt_pos.2 (by linarith)
    have hs := Real.sq_sqrt (show 0 ≤ -normSq4 g n by linarith)
    have : normSq4 g ⟨n.t / √(-normSq4 g n), n.x / √(-normSq4 g n), n.y / √(-normSq4 g n),
        n.z / √(-normSq4 g n)⟩ = normSq4 g n / √(-normSq4 g n) ^ 2 := by
      generalize √(-normSq4 g n) = s at *
      simp only [normSq4, lower4]
      field_simp
    rw [this, hs, div_neg, div_self (by linarith)]
  · exact hz

theorem normalize_future {eps : ℝ} (he : 0 ≤ eps) {g : Four} {α β : ℝ} (ha : 0 < α)
    {n : V4} (hn : 0 ≤ n.t) : 0 < (normalize4 eps g α β n).t := by
  unfold normalize4
  split_ifs with h1 h2 h3
  · exact one_div_pos.2 ha
  · exact one_div_pos.2 ha
  · have hq : 0 < √(-normSq4 g n) := Real.sqrt_pos.2 (by linarith)
    have : n.t ≠ 0 := by
      intro h; rw [h, abs_zero] at h1; exact h1 he
    exact div_pos (lt_of_le_of_ne hn (Ne.symm this)) hq
  · exact one_div_pos.2 ha

theorem normalize_dir {eps : ℝ} {g : Four} {α β : ℝ} {n : V4} (he : 0 ≤ eps)
    (ht : eps < n.t) (hq : eps ^ 2 < -normSq4 g n) : ∃ k > 0,
    normalize4 eps g α β n = ⟨k * n.t, k * n.x, k * n.y, k * n.z⟩ := by
  have hpos : 0 < -normSq4 g n := lt_of_le_of_lt (by positivity) hq
  have hs : 0 < √(-normSq4 g n) := Real.sqrt_pos.2 hpos
  refine ⟨1 / √(-normSq4 g n), by positivity, ?_⟩
  have h1 : ¬ |n.t| ≤ eps := by rw [not_le]; exact lt_of_lt_of_le ht (le_abs_self _)
  have h2 : normSq4 g n < 0 := by linarith
  have h3 : ¬ |√(-normSq4 g n)| ≤ eps := by
    rw [not_le, abs_of_pos hs]; exact Real.lt_sqrt_of_sq_lt hq
  unfold normalize4
  rw [if_neg h1, if_neg (by simpa using h2), if_neg h3]
  simp only [div_eq_inv_mul, mul_one]

/-- Tetrad: the form as minus a square plus three squares. -/
theorem kerr_squares {M a r θ : ℝ} (hM : 0 ≤ M) (hr : 0 < r) : ∃ A B C D E F : ℝ, 0 < A ∧ 0 < B ∧
    0 < E ∧ (sin θ ≠ 0 → F ≠ 0) ∧ ∀ w : V4,
    kerrForm M a r θ w = -(A * w.t) ^ 2 + (B * (w.x + C * w.t + D * w.z)) ^ 2 + (E * w.y) ^ 2
      + (F * w.z) ^ 2 := by
  have hS : 0 < r ^ 2 + a ^ 2 * cos θ ^ 2 := by positivity
  set S := r ^ 2 + a ^ 2 * cos θ ^ 2 with hSdef
  have hz : 0 ≤ 2 * M * r / S := by positivity
  have hSe : S = r ^ 2 + a ^ 2 * (1 - sin θ ^ 2) := by rw [hSdef, cos_sq_eq]
  set z := 2 * M * r / S with hzdef
  have h1 : 0 < 1 + z := by linarith
  refine ⟨√(1 / (1 + z)), √(1 + z), z / (1 + z), -a * sin θ ^ 2, √S, √S * sin θ,
    Real.sqrt_pos.2 (by positivity), Real.sqrt_pos.2 h1, Real.sqrt_pos.2 hS,
    fun h => mul_ne_zero (Real.sqrt_pos.2 hS).ne' h, ?_⟩
  intro w
  simp only [mul_pow, Real.sq_sqrt (show 0 ≤ 1 / (1 + z) by positivity), Real.sq_sqrt h1.le,
    Real.sq_sqrt hS.le]
  simp only [kerrForm, ← hSdef, ← hzdef]
  have e : r ^ 2 = S - a ^ 2 * (1 - sin θ ^ 2) := by rw [hSe]; ring
  rw [e]
  clear_value z S
  field_simp
  ring

/-- Cone of three squares: the sum of a vector inside and one inside or on it is inside. -/
theorem cone3 {t p q r t' p' q' r' : ℝ} (ht : 0 ≤ t) (ht' : 0 ≤ t')
    (h : p ^ 2 + q ^ 2 + r ^ 2 < t ^ 2) (h' : p' ^ 2 + q' ^ 2 + r' ^ 2 ≤ t' ^ 2) :
    (p + p') ^ 2 + (q + q') ^ 2 + (r + r') ^ 2 < (t + t') ^ 2 := by
  have hc : (p * p' + q * q' + r * r') ^ 2 ≤ (p ^ 2 + q ^ 2 + r ^ 2) * (p' ^ 2 + q' ^ 2 + r' ^ 2) := by
    nlinarith [sq_nonneg (p * q' - q * p'), sq_nonneg (p * r' - r * p'), sq_nonneg (q * r' - r * q')]
  have h2 : (p ^ 2 + q ^ 2 + r ^ 2) * (p' ^ 2 + q' ^ 2 + r' ^ 2) ≤ t ^ 2 * t' ^ 2 :=
    mul_le_mul h.le h' (by positivity) (by positivity)
  have h3 : p * p' + q * q' + r * r' ≤ t * t' := by
    refine le_of_abs_le (abs_le_of_sq_le_sq ?_ (mul_nonneg ht ht'))
    calc (p * p' + q * q' + r * r') ^ 2 ≤ _ := hc
      _ ≤ _ := h2
      _ = (t * t') ^ 2 := by ring
  nlinarith

/-- Sum of a timelike and a causal vector, both to the future. -/
theorem kerr_add {M a r θ : ℝ} (hM : 0 ≤ M) (hr : 0 < r) {v w : V4} (hv : 0 ≤ v.t) (hw : 0 ≤ w.t)
    (h : kerrForm M a r θ v < 0) (h' : kerrForm M a r θ w ≤ 0) : kerrForm M a r θ (v.add w) < 0 := by
  obtain ⟨A, B, C, D, E, F, hA, -, -, -, hq⟩ := kerr_squares (a := a) (θ := θ) hM hr
  rw [hq] at h h' ⊢
  have := cone3 (t := A * v.t) (t' := A * w.t) (p := B * (v.x + C * v.t + D * v.z)) (q := E * v.y)
    (r := F * v.z) (p' := B * (w.x + C * w.t + D * w.z)) (q' := E * w.y) (r' := F * w.z)
    (by positivity) (by positivity) (by linarith) (by linarith)
  simp only [V4.add]
  nlinarith [this]

theorem cone3' {t p q r t' p' q' r' : ℝ} (ht : 0 ≤ t) (ht' : 0 ≤ t')
    (h : p ^ 2 + q ^ 2 + r ^ 2 ≤ t ^ 2) (h' : p' ^ 2 + q' ^ 2 + r' ^ 2 ≤ t' ^ 2) :
    (p + p') ^ 2 + (q + q') ^ 2 + (r + r') ^ 2 ≤ (t + t') ^ 2 := by
  have hc : (p * p' + q * q' + r * r') ^ 2 ≤ (p ^ 2 + q ^ 2 + r ^ 2) * (p' ^ 2 + q' ^ 2 + r' ^ 2) := by
    nlinarith [sq_nonneg (p * q' - q * p'), sq_nonneg (p * r' - r * p'), sq_nonneg (q * r' - r * q')]
  have h2 : (p ^ 2 + q ^ 2 + r ^ 2) * (p' ^ 2 + q' ^ 2 + r' ^ 2) ≤ t ^ 2 * t' ^ 2 :=
    mul_le_mul h h' (by positivity) (by positivity)
  have h3 : p * p' + q * q' + r * r' ≤ t * t' := by
    refine le_of_abs_le (abs_le_of_sq_le_sq ?_ (mul_nonneg ht ht'))
    calc (p * p' + q * q' + r * r') ^ 2 ≤ _ := hc
      _ ≤ _ := h2
      _ = (t * t') ^ 2 := by ring
  nlinarith

theorem kerr_add' {M a r θ : ℝ} (hM : 0 ≤ M) (hr : 0 < r) {v w : V4} (hv : 0 ≤ v.t) (hw : 0 ≤ w.t)
    (h : kerrForm M a r θ v ≤ 0) (h' : kerrForm M a r θ w ≤ 0) : kerrForm M a r θ (v.add w) ≤ 0 := by
  obtain ⟨A, B, C, D, E, F, hA, -, -, -, hq⟩ := kerr_squares (a := a) (θ := θ) hM hr
  rw [hq] at h h' ⊢
  have := cone3' (t := A * v.t) (t' := A * w.t) (p := B * (v.x + C * v.t + D * v.z)) (q := E * v.y)
    (r := F * v.z) (p' := B * (w.x + C * w.t + D * w.z)) (q' := E * w.y) (r' := F * w.z)
    (by positivity) (by positivity) (by linarith) (by linarith)
  simp only [V4.add]
  nlinarith [this]

/-- A particle: mass, the rest of its coefficient, stored velocity. -/
structure Contrib where
  mass : ℝ
  c : ℝ
  u : V3 ℝ

/-- Weights are not negative, masses neither, and a massless particle moves. -/
structure Contrib.Valid (p : Contrib) : Prop where
  mass : 0 ≤ p.mass
  c : 0 ≤ p.c
  moves : p.mass = 0 → p.u ≠ ⟨0, 0, 0⟩

/-- The flux of particles at one point. -/
noncomputable def fluxSum (g : Four) (ps : List Contrib) : V4 :=
  ps.foldr (fun p n => (flux4 g p.mass p.c p.u).add n) V4.zero

/-- What is used of a metric at a point. -/
structure Pt (g : Four) (M a r θ jr jt : ℝ) : Prop where
  hM : 0 ≤ M
  hr : 0 < r
  hs : sin θ ≠ 0
  form : ∀ n, normSq4 g n = kerrForm M a r θ (n.phys jr jt)
  inv : ∀ v, lower4 g (raise4 g v) = v
  shell : ∀ u : V3 ℝ, ∀ norm : ℝ, 0 ≤ norm → OnShell g u norm (u0 g u norm)
  jr0 : jr ≠ 0
  jt0 : jt ≠ 0

theorem flux_causal {g : Four} {M a r θ jr jt : ℝ} (h : Pt g M a r θ jr jt) {p : Contrib}
    (hp : p.Valid) : let n := (flux4 g p.mass p.c p.u).phys jr jt
    0 ≤ n.t ∧ kerrForm M a r θ n ≤ 0 ∧ (0 < p.mass → 0 < p.c → 0 < n.t ∧ kerrForm M a r θ n < 0) := by
  intro n
  set norm : ℝ := if p.mass = 0 then 0 else 1 with hnorm
  have hn0 : 0 ≤ norm := by rw [hnorm]; split_ifs <;> norm_num
  obtain ⟨hnorm_eq, hfut⟩ := h.shell p.u norm hn0
  set cov : V4 := ⟨u0 g p.u norm, p.u.x, p.u.y, p.u.z⟩ with hcov
  set v := raise4 g cov with hv
  have hf : normSq4 g v = -norm := by
    rw [← hnorm_eq]
    simp only [normSq4, hv, h.inv]
    simp only [V4.dot]; ring
  obtain ⟨A, B, C, D, E, F, hA, hB, hE, hF, hq⟩ := kerr_squares (a := a) (θ := θ) h.hM h.hr
  have hform := hf
  rw [h.form, hq] at hform
  simp only [V4.phys] at hform
  have htpos : 0 < v.t := by
    refine lt_of_le_of_ne hfut fun h0 => ?_
    rw [← h0] at hform
    by_cases hm : p.mass = 0
    · have hno : norm = 0 := by rw [hnorm, if_pos hm]
      rw [hno] at hform
      have q1 := sq_nonneg (B * (v.x * jr + C * 0 + D * v.z))
      have q2 := sq_nonneg (E * (v.y * jt))
      have q3 := sq_nonneg (F * v.z)
      have e1 : (E * (v.y * jt)) ^ 2 = 0 := by nlinarith
      have e2 : (F * v.z) ^ 2 = 0 := by nlinarith
      have e3 : (B * (v.x * jr + C * 0 + D * v.z)) ^ 2 = 0 := by nlinarith
      have y0 : v.y = 0 := by
        have := pow_eq_zero_iff two_ne_zero |>.1 e1
        simpa [hE.ne', h.jt0] using this
      have z0 : v.z = 0 := by
        have := pow_eq_zero_iff two_ne_zero |>.1 e2
        simpa [hF h.hs] using this
      have x0 : v.x = 0 := by
        have := pow_eq_zero_iff two_ne_zero |>.1 e3
        simpa [hB.ne', h.jr0, z0] using this
      have hl := h.inv cov
      rw [← hv] at hl
      have hz : v = V4.zero := by
        cases hvv : v
        simp only [hvv] at h0 x0 y0 z0
        simp only [V4.zero, x0, y0, z0, ← h0]
      rw [hz] at hl
      simp only [lower4, V4.zero, zero_mul, add_zero, hcov, V4.mk.injEq] at hl
      refine hp.moves hm ?_
      cases hu : p.u
      simp only [hu] at hl
      obtain ⟨-, hx, hy, hz⟩ := hl
      simp [← hx, ← hy, ← hz]
    · have hno : norm = 1 := by rw [hnorm, if_neg hm]
      rw [hno] at hform
      have q1 := sq_nonneg (B * (v.x * jr + C * 0 + D * v.z))
      have q2 := sq_nonneg (E * (v.y * jt))
      have q3 := sq_nonneg (F * v.z)
      nlinarith
  set m : ℝ := if p.mass = 0 then 1 else p.mass with hm
  have hm0 : 0 < m := by
    rw [hm]; split_ifs with h0
    · norm_num
    · exact lt_of_le_of_ne hp.mass (Ne.symm h0)
  have hnt : n.t = m * p.c := rfl
  have hn : kerrForm M a r θ n = (m * p.c / v.t) ^ 2 * -norm := by
    rw [← hf, h.form]
    have : n = ⟨m * p.c / v.t * v.t, m * p.c / v.t * v.x * jr, m * p.c / v.t * v.y * jt,
        m * p.c / v.t * v.z⟩ := by
      have : n = ⟨m * p.c, m * v.x / v.t * p.c * jr, m * v.y / v.t * p.c * jt, m * v.z / v.t * p.c⟩ := rfl
      rw [this]
      congr 1 <;> field_simp
    rw [this]
    simp only [kerrForm, V4.phys]
    ring
  rw [hnt, hn]
  have hc := hp.c
  refine ⟨by positivity, ?_, ?_⟩
  · have : 0 ≤ (m * p.c / v.t) ^ 2 * norm := by positivity
    linarith
  · intro h1 h2
    have : norm = 1 := by rw [hnorm, if_neg h1.ne']
    rw [this]
    refine ⟨by positivity, ?_⟩
    have : 0 < (m * p.c / v.t) ^ 2 := by positivity
    linarith

theorem fluxSum_causal {g : Four} {M a r θ jr jt : ℝ} (h : Pt g M a r θ jr jt) {ps : List Contrib}
    (hp : ∀ p ∈ ps, p.Valid) : let n := (fluxSum g ps).phys jr jt
    0 ≤ n.t ∧ kerrForm M a r θ n ≤ 0 ∧
      ((∃ p ∈ ps, 0 < p.mass ∧ 0 < p.c) → 0 < n.t ∧ kerrForm M a r θ n < 0) := by
  induction ps with
  | nil => simp [fluxSum, V4.zero, V4.phys, kerrForm]
  | cons p ps ih =>
    intro n
    obtain ⟨i1, i2, i3⟩ := ih fun q hq => hp q (List.mem_cons_of_mem _ hq)
    obtain ⟨j1, j2, j3⟩ := flux_causal h (hp p List.mem_cons_self)
    have hn : n = ((flux4 g p.mass p.c p.u).phys jr jt).add ((fluxSum g ps).phys jr jt) := by
      simp only [n, fluxSum, List.foldr_cons, V4.phys, V4.add]
      congr 1 <;> ring
    have hcomm : n = ((fluxSum g ps).phys jr jt).add ((flux4 g p.mass p.c p.u).phys jr jt) := by
      rw [hn]; simp only [V4.add]; congr 1 <;> ring
    have ht : n.t = ((flux4 g p.mass p.c p.u).phys jr jt).t + ((fluxSum g ps).phys jr jt).t := by
      rw [hn]; rfl
    refine ⟨by rw [ht]; positivity, by rw [hn]; exact kerr_add' h.hM h.hr j1 i1 j2 i2, ?_⟩
    rintro ⟨q, hq, hm, hc⟩
    rcases List.mem_cons.1 hq with rfl | hq
    · obtain ⟨k1, k2⟩ := j3 hm hc
      exact ⟨by rw [ht]; linarith, by rw [hn]; exact kerr_add h.hM h.hr j1 i1 k2 i2⟩
    · obtain ⟨k1, k2⟩ := i3 ⟨q, hq, hm, hc⟩
      exact ⟨by rw [ht]; linarith, by rw [hcomm]; exact kerr_add h.hM h.hr i1 j1 k2 j2⟩

theorem isBulk_of {g : Four} {M a r θ jr jt α β eps : ℝ} (he : 0 ≤ eps)
    (form : ∀ n, normSq4 g n = kerrForm M a r θ (n.phys jr jt)) (ha : 0 < α)
    (hz : normSq4 g (zamo α β) = -1)
    (ho : ∀ s : V4, s.t = 0 → kerrForm M a r θ (((zamo α β).phys jr jt).add s) =
      kerrForm M a r θ ((zamo α β).phys jr jt) + kerrForm M a r θ s) (n : V4) :
    IsBulk M a r θ eps (n.phys jr jt) ((normalize4 eps g α β n).phys jr jt) where
  unit := by rw [← form]; exact normalize_norm he hz n
  future := fun h => normalize_future he ha h
  along := by
    intro h1 h2
    rw [← form] at h2
    obtain ⟨k, hk, h⟩ := normalize_dir (α := α) (β := β) (n := n) he h1 h2
    refine ⟨k, hk, ?_⟩
    rw [h]
    simp only [V4.phys]
    congr 1 <;> ring
  rest := by
    intro h
    have : normalize4 eps g α β n = zamo α β := if_pos h
    rw [this]
    exact ho

theorem zamo_rest {a r θ jr : ℝ} (jt : ℝ) (hr : 0 < r) (hj : jr ≠ 0) (s : V4) (hs : s.t = 0) :
    let w := (zamo (1 / √(1 + zed a r θ)) (1 / jr * zed a r θ / (1 + zed a r θ))).phys jr jt
    kerrForm 1 a r θ (w.add s) = kerrForm 1 a r θ w + kerrForm 1 a r θ s := by
  have hz := zed_pos (a := a) (θ := θ) hr
  have h1 : 1 + zed a r θ ≠ 0 := by positivity
  have hzz : 2 * 1 * r / (r ^ 2 + a ^ 2 * cos θ ^ 2) = zed a r θ := by unfold zed Sigma; ring
  intro w
  have hw : w = ⟨√(1 + zed a r θ), -(zed a r θ / (1 + zed a r θ)) * √(1 + zed a r θ), 0, 0⟩ := by
    simp only [w, zamo, V4.phys]
    congr 1
    · simp
    · field_simp
    · ring
  rw [hw]
  simp only [kerrForm, V4.add, hs, hzz]
  field_simp
  ring

theorem pt_gen {a r θ jr jt : ℝ} (hr : 0 < r) (hs : sin θ ≠ 0) (hj : jr ≠ 0) (ht : jt ≠ 0) :
    Pt (genFour a r θ jr jt) 1 a r θ jr jt where
  hM := zero_le_one
  hr := hr
  hs := hs
  form := normSq_gen hr
  inv := fun v => (raise_lower (gen_four_inverse hr hs hj ht) v).2
  shell := fun u norm hn => (u0_shell (by
    have := zed_pos (a := a) (θ := θ) hr
    change -(1 + zed a r θ) < 0
    linarith) (gen_disc hr hs hj ht u hn) _).2 rfl
  jr0 := hj
  jt0 := ht

/-! ## Theorems -/

/-- **C123 (Kerr-Schild).** Whatever the flux in a cell (away from the origin), the written
four-velocity is the bulk velocity in the sense of `IsBulk`; in particular its norm is -1. -/
theorem C123_kerr_schild (m : KS) (x1 x2 eps : ℝ) (hr : 0 < m.toPh1 x1) (hd : m.dr ≠ 0)
    (he : 0 ≤ eps) (n : V4) :
    ∃ w, bulk4 eps (m.four x1 x2) (m.alpha x1 x2) (m.beta1 x1 x2) (m.transform x1 x2) n = .ok w ∧
      IsBulk 1 m.a (m.toPh1 x1) (m.toPh2 x2) eps (n.phys m.dr m.dt) w := by
  have hz := zed_pos (a := m.a) (θ := m.toPh2 x2) hr
  refine ⟨(normalize4 eps (m.four x1 x2) (m.alpha x1 x2) (m.beta1 x1 x2) n).phys m.dr m.dt, ?_, ?_⟩
  · simp [bulk4, toPhys4, KS.transform, grTransform, V4.phys]
  · rw [ks_four]
    exact isBulk_of he (normSq_gen hr) (one_div_pos.2 (Real.sqrt_pos.2 (by
      change 0 < 1 + zed m.a (m.toPh1 x1) (m.toPh2 x2)
      linarith))) (normSq_zamo hr hd) (zamo_rest m.dt hr hd) n

@[inherit_doc C123_kerr_schild]
theorem C123_qkerr_schild (m : QKS) (x1 x2 eps : ℝ) (hr : 0 < m.toPh1 x1) (hd : m.dchi ≠ 0)
    (he : 0 ≤ eps) (n : V4) :
    ∃ w, bulk4 eps (m.four x1 x2) (m.alpha x1 x2) (m.beta1 x1 x2) (m.transform x1 x2) n = .ok w ∧
      IsBulk 1 m.a (m.toPh1 x1) (m.toPh2 x2) eps (n.phys (m.dchi * exp (x1 * m.dchi + m.chiMin))
        (m.deta * dthetaDeta m.ε m.h (x2 * m.deta + m.etaMin))) w := by
  have hr' : 0 < m.rad x1 := hr
  have hz := zed_pos (a := m.a) (θ := m.ang x2) hr'
  have hj : m.dchi * exp (x1 * m.dchi + m.chiMin) ≠ 0 := mul_ne_zero hd (exp_pos _).ne'
  refine ⟨(normalize4 eps (m.four x1 x2) (m.alpha x1 x2) (m.beta1 x1 x2) n).phys
    (m.dchi * exp (x1 * m.dchi + m.chiMin)) (m.deta * dthetaDeta m.ε m.h (x2 * m.deta + m.etaMin)), ?_, ?_⟩
  · simp only [bulk4, toPhys4, QKS.transform, grTransform, V4.phys]
    simp [mul_comm]
  · have hb : m.beta1 x1 x2 = 1 / (m.dchi * exp (x1 * m.dchi + m.chiMin)) * zed m.a (m.rad x1) (m.ang x2) /
        (1 + zed m.a (m.rad x1) (m.ang x2)) := by
      simp only [QKS.beta1, Real.exp_neg]
      field_simp
    rw [qks_four, hb]
    exact isBulk_of he (normSq_gen hr') (one_div_pos.2 (Real.sqrt_pos.2 (by
      change 0 < 1 + zed m.a (m.rad x1) (m.ang x2)
      linarith)))
      (normSq_zamo hr' hj) (zamo_rest _ hr' hj) n

/-- **C123 (flat).** The same for the Kerr-Schild code coordinates in flat space. -/
theorem C123_kerr_schild_0 (m : KS0) (x1 x2 eps : ℝ) (hr : 0 < m.toPh1 x1) (he : 0 ≤ eps) (n : V4) :
    ∃ w, bulk4 eps (m.four x1 x2) (m.deriv x1 x2).alpha (m.deriv x1 x2).beta1 (m.transform x1 x2) n =
        .ok w ∧
      IsBulk 0 0 (m.toPh1 x1) (m.toPh2 x2) eps (n.phys m.dr m.dt) w := by
  refine ⟨(normalize4 eps (m.four x1 x2) 1 0 n).phys m.dr m.dt, ?_, ?_⟩
  · simp [bulk4, toPhys4, KS0.transform, gr0Transform, V4.phys, KS0.deriv]
  · refine isBulk_of he (normSq_ks0 m x1 x2 hr) one_pos ?_ ?_ n
    · simp [normSq4, lower4, zamo, KS0.four]
    · intro s hs
      simp only [kerrForm, V4.add, zamo, V4.phys, hs]
      ring

/-- **C123 (flux, partial).** Particles at one point, massive or massless, with weights of either zero
or more: their flux points to the future and is not spacelike; it is timelike as soon as one massive
particle counts.  Hence (`IsBulk.along`) the velocity written is along the flux.  What is missing: the
code evaluates the flux of a particle at the place of the particle and the norm at the centre of the
cell, see the counterexample. -/
theorem C123_flux_partial (k : KS) (q : QKS) (z : KS0) (x1 x2 : ℝ) (ps : List Contrib)
    (hp : ∀ p ∈ ps, p.Valid) (h1 : ∃ p ∈ ps, 0 < p.mass ∧ 0 < p.c) :
    (0 < k.toPh1 x1 → sin (k.toPh2 x2) ≠ 0 → k.dr ≠ 0 → k.dt ≠ 0 →
      let n := (fluxSum (k.four x1 x2) ps).phys k.dr k.dt
      0 < n.t ∧ kerrForm 1 k.a (k.toPh1 x1) (k.toPh2 x2) n < 0) ∧
    (0 < q.toPh1 x1 → sin (q.toPh2 x2) ≠ 0 → q.dchi ≠ 0 → q.deta ≠ 0 →
      dthetaDeta q.ε q.h (x2 * q.deta + q.etaMin) ≠ 0 →
      let n := (fluxSum (q.four x1 x2) ps).phys (q.dchi * exp (x1 * q.dchi + q.chiMin))
        (q.deta * dthetaDeta q.ε q.h (x2 * q.deta + q.etaMin))
      0 < n.t ∧ kerrForm 1 q.a (q.toPh1 x1) (q.toPh2 x2) n < 0) ∧
    (0 < z.toPh1 x1 → 0 < sin (z.toPh2 x2) → 0 < z.dr → 0 < z.dt →
      let n := (fluxSum (z.four x1 x2) ps).phys z.dr z.dt
      0 < n.t ∧ kerrForm 0 0 (z.toPh1 x1) (z.toPh2 x2) n < 0) := by
  refine ⟨fun hr hs hd ht => ?_, fun hr hs hd ht hj => ?_, fun hr hs hd ht => ?_⟩
  · rw [ks_four]
    exact (fluxSum_causal (pt_gen hr hs hd ht) hp).2.2 h1
  · rw [qks_four]
    exact (fluxSum_causal (pt_gen hr hs (mul_ne_zero hd (exp_pos _).ne') (mul_ne_zero ht hj)) hp).2.2 h1
  · have P : Pt (z.four x1 x2) 0 0 (z.toPh1 x1) (z.toPh2 x2) z.dr z.dt :=
      { hM := le_refl _, hr := hr, hs := hs.ne', form := normSq_ks0 z x1 x2 hr
        inv := fun v => (raise_lower (C86_kerr_schild_0 z x1 x2 hr hs hd ht).2.1 v).2
        shell := fun u norm hn => ((C90_energy k z
          q x1 x2 u norm hn _).2.1 hr hs.ne' hd.ne' ht.ne').2 rfl
        jr0 := hd.ne', jt0 := ht.ne' }
    exact (fluxSum_causal P hp).2.2 h1

/-- **C123 (counterexample).** Flat space, grid with cells of size one in r from the origin: a particle of
mass one at the edge r = 1 of the cell between 1 and 2, going round with 4/5 of the speed of light.  Its
flux is spacelike with the metric at the centre r = 3/2, and the velocity written for the cell is that of
a fluid at rest. -/
theorem C123_off_centre_counterexample : let m : KS0 := ⟨0, 1, 0, π⟩
    flux4 (m.four 1 (1/2)) 1 1 ⟨0, 0, 4/3⟩ = ⟨1, 0, 0, 4/5⟩ ∧
    bulk4 0 (m.four (3/2) (1/2)) (m.deriv (3/2) (1/2)).alpha (m.deriv (3/2) (1/2)).beta1
      (m.transform (3/2) (1/2)) (flux4 (m.four 1 (1/2)) 1 1 ⟨0, 0, 4/3⟩) = .ok ⟨1, 0, 0, 0⟩ := by
  intro m
  have hs : sin (1 / 2 * π + 0) = 1 := by
    rw [add_zero, one_div_mul_eq_div, sin_pi_div_two]
  have hf : flux4 (m.four 1 (1/2)) 1 1 ⟨0, 0, 4/3⟩ = ⟨1, 0, 0, 4/5⟩ := by
    have hu : u0 (m.four 1 (1/2)) ⟨0, 0, 4/3⟩ 1 = -(5/3) := by
      simp only [u0, m, KS0.four, KS0.spatial, hs]
      norm_num
      rw [show (100 : ℝ) = 10 ^ 2 by norm_num, show (9 : ℝ) = 3 ^ 2 by norm_num,
        Real.sqrt_sq (by norm_num), Real.sqrt_sq (by norm_num)]
      norm_num
    simp only [flux4, one_ne_zero, if_false, hu]
    simp only [raise4, m, KS0.four, KS0.spatial, hs]
    norm_num
  refine ⟨hf, ?_⟩
  rw [hf]
  have hq : ¬ normSq4 (m.four (3/2) (1/2)) ⟨1, 0, 0, 4/5⟩ < 0 := by
    simp only [normSq4, lower4, m, KS0.four, KS0.spatial, hs]
    norm_num
  simp only [bulk4, normalize4, hq, not_false_eq_true, if_true, toPhys4, KS0.transform, gr0Transform,
    zamo, KS0.deriv]
  norm_num

/-- Spin 1/2 at r = 4 on the equator, one electron and one photon: the hypotheses of `C123_flux_partial`
hold. -/
example : let ps : List Contrib := [⟨1, 1/2, ⟨1, 2, 3⟩⟩, ⟨0, 2, ⟨0, 1, 0⟩⟩]
    (∀ p ∈ ps, p.Valid) ∧ ∃ p ∈ ps, 0 < p.mass ∧ 0 < p.c := by
  refine ⟨?_, ⟨1, 1/2, ⟨1, 2, 3⟩⟩, by simp, by norm_num, by norm_num⟩
  intro p hp
  simp only [List.mem_cons, List.not_mem_nil, or_false] at hp
  rcases hp with rfl | rfl
  · exact ⟨by norm_num, by norm_num, fun h => by norm_num at h⟩
  · exact ⟨by norm_num, by norm_num, fun _ h => by simp at h⟩

/-- A flux at rest in flat space gives a fluid at rest. -/
example : IsBulk 0 0 2 (π / 2) 0 ⟨3, 0, 0, 0⟩ ⟨1, 0, 0, 0⟩ where
  unit := by simp [kerrForm]
  future := fun _ => one_pos
  along := fun _ _ => ⟨1/3, by norm_num, by norm_num⟩
  rest := fun h => by norm_num at h

end Entity.Metric
