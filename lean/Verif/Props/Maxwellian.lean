import Verif.Model.Maxwellian
import Mathlib.Tactic.FieldSimp
import Mathlib.Tactic.Linarith
import Mathlib.Tactic.Positivity
import Mathlib.Tactic.LinearCombination

/-!
# C65: drifting Maxwellian
-/

namespace Entity.Maxwell

open Entity.Push Entity.Push.V3

/-! ## Specification -/

/-- Lorentz factor of a four-velocity. -/
noncomputable def lorentz (u : V3 ℝ) : ℝ := √(1 + u.x ^ 2 + u.y ^ 2 + u.z ^ 2)

/-- `u` is what a particle with Lorentz factor `g`, four-velocity `p` along the unit vector `n` and
squared transverse four-velocity `t` becomes under a Lorentz boost along `n` by the
four-velocity `U`. -/
structure Boosted (n : V3 ℝ) (U g p t : ℝ) (u : V3 ℝ) : Prop where
  par : u.x * n.x + u.y * n.y + u.z * n.z = √(1 + U ^ 2) * p + U * g
  gamma : lorentz u = √(1 + U ^ 2) * g + U * p
  perp : u.x ^ 2 + u.y ^ 2 + u.z ^ 2 - (u.x * n.x + u.y * n.y + u.z * n.z) ^ 2 = t

/-! ## Rotation -/

/-- **C65 (rotation).** For every unit vector except the one opposite to x1, the general rotation keeps
all scalar products and takes the first axis to that vector. -/
theorem C65_rotation (n : V3 ℝ) (hn : n.x ^ 2 + n.y ^ 2 + n.z ^ 2 = 1) (h : n.x ≠ -1) :
    (∀ v w, (rotate 4 n v).dot (rotate 4 n w) = v.dot w) ∧ rotate 4 n ⟨1, 0, 0⟩ = n := by
  have h1 : n.x + 1 ≠ 0 := fun e => h (by linarith)
  have hr : ∀ v, rotate 4 n v =
    ⟨v.x * n.x - v.y * n.y - v.z * n.z,
     (v.x * n.y * (n.x + 1) + v.y * (n.x ^ 2 + n.x + n.z ^ 2) - v.z * n.y * n.z) / (n.x + 1),
     (v.x * n.z * (n.x + 1) - v.y * n.y * n.z - v.z * (-n.x + n.z ^ 2 - 1)) / (n.x + 1)⟩ := by
    intro v; simp [rotate]
  have hz : n.z ^ 2 = 1 - n.x ^ 2 - n.y ^ 2 := by linarith
  constructor
  · intro v w
    rw [hr, hr]
    obtain ⟨a, b, c⟩ := n
    obtain ⟨v1, v2, v3⟩ := v
    obtain ⟨w1, w2, w3⟩ := w
    simp only [dot] at *
    field_simp
    have e1 : a * (a + 1) + c ^ 2 = (a + 1) - b ^ 2 := by linarith
    rw [e1]
    linear_combination ((a + 1) ^ 2 * (v1 * w1) - (a + 1) * (v1 * (b * w2 + c * w3) +
      w1 * (b * v2 + c * v3)) + (b * v2 + c * v3) * (b * w2 + c * w3)) * hn
  · rw [hr]
    obtain ⟨a, b, c⟩ := n
    simp only at *
    ext
    · simp
    · simp; field_simp
    · simp; field_simp

/-! ## Boost -/

theorem lorentz_eq (u : V3 ℝ) : lorentz u = √(1 + u.normSq) := by
  unfold lorentz normSq; congr 1; ring

theorem lorentz_sq (u : V3 ℝ) : lorentz u ^ 2 = 1 + u.x ^ 2 + u.y ^ 2 + u.z ^ 2 := by
  unfold lorentz; rw [Real.sq_sqrt]; positivity

theorem lorentz_nonneg (u : V3 ℝ) : 0 ≤ lorentz u := Real.sqrt_nonneg _

theorem abs_le_lorentz (u : V3 ℝ) {p : ℝ} (h : p ^ 2 ≤ u.x ^ 2 + u.y ^ 2 + u.z ^ 2) :
    |p| ≤ lorentz u := by
  apply abs_le_of_sq_le_sq _ (lorentz_nonneg u)
  rw [lorentz_sq]; linarith

/-- The three relations follow from the component along `n` and the length. -/
theorem boosted_of {n u v : V3 ℝ} {U p : ℝ}
    (hp : p ^ 2 ≤ v.x ^ 2 + v.y ^ 2 + v.z ^ 2)
    (h1 : u.x * n.x + u.y * n.y + u.z * n.z = √(1 + U ^ 2) * p + U * lorentz v)
    (h2 : u.x ^ 2 + u.y ^ 2 + u.z ^ 2 =
      (√(1 + U ^ 2) * p + U * lorentz v) ^ 2 + (v.x ^ 2 + v.y ^ 2 + v.z ^ 2 - p ^ 2)) :
    Boosted n U (lorentz v) p (v.x ^ 2 + v.y ^ 2 + v.z ^ 2 - p ^ 2) u := by
  refine ⟨h1, ?_, by rw [h1, h2]; ring⟩
  have hG : √(1 + U ^ 2) ^ 2 = 1 + U ^ 2 := Real.sq_sqrt (by positivity)
  have hG0 := Real.sqrt_nonneg (1 + U ^ 2)
  have hg := lorentz_sq v
  have hUG : |U| ≤ √(1 + U ^ 2) := by
    apply abs_le_of_sq_le_sq _ hG0; rw [hG]; linarith
  have hpg := abs_le_lorentz v hp
  have hpos : 0 ≤ √(1 + U ^ 2) * lorentz v + U * p := by
    have : |U * p| ≤ √(1 + U ^ 2) * lorentz v := by
      rw [abs_mul]; exact mul_le_mul hUG hpg (abs_nonneg _) hG0
    have := neg_le_of_abs_le this
    linarith
  apply (sq_eq_sq₀ (lorentz_nonneg u) hpos).1
  rw [lorentz_sq]
  have : 1 + u.x ^ 2 + u.y ^ 2 + u.z ^ 2 = 1 + (u.x ^ 2 + u.y ^ 2 + u.z ^ 2) := by ring
  rw [this, h2]
  linear_combination (p ^ 2 - lorentz v ^ 2) * hG - hg

/-- The momentum along the first axis after the flip. -/
noncomputable def flipped (U ξ : ℝ) (p g : ℝ) : ℝ :=
  if g * ξ < -(U / √(1 + U ^ 2)) * p then -p else p

theorem flipped_sq (U ξ p g : ℝ) : flipped U ξ p g ^ 2 = p ^ 2 := by
  unfold flipped; split <;> ring

theorem boost_eq (U ξ : ℝ) (v : V3 ℝ) : boost U (U / √(1 + U ^ 2)) ξ v =
    ⟨√(1 + U ^ 2) * flipped U ξ v.x (lorentz v) + U * lorentz v, v.y, v.z⟩ := by
  have hG : √(1 + U ^ 2) ≠ 0 := (Real.sqrt_pos.2 (by positivity)).ne'
  unfold boost flip flipped
  rw [← lorentz_eq]
  simp only [gt_iff_lt]
  split <;> (ext <;> simp only [] <;> field_simp)

/-- **C65 (drifting Maxwellian).** For every drift whose components are either zero or above the
tolerance of the comparison, every isotropic sample and every random number: the result is the sample,
its first component kept or reversed by the flipping rule, boosted by the drift four-velocity along
the drift direction, with the transverse momentum of the sample.  Missing from the claim: drifts with
a component that is not zero but below the tolerance (`C65_counterexample`). -/
theorem C65_drift_partial (ε : ℝ) (hε : 0 ≤ ε) (d : V3 ℝ)
    (hx : d.x = 0 ∨ ε < |d.x|) (hy : d.y = 0 ∨ ε < |d.y|) (hz : d.z = 0 ∨ ε < |d.z|)
    (hd : d.x ≠ 0 ∨ d.y ≠ 0 ∨ d.z ≠ 0) (ξ : ℝ) (v : V3 ℝ) :
    let U := √(d.x ^ 2 + d.y ^ 2 + d.z ^ 2)
    let n : V3 ℝ := ⟨d.x / U, d.y / U, d.z / U⟩
    Boosted n U (lorentz v) (flipped U ξ v.x (lorentz v)) (v.y ^ 2 + v.z ^ 2)
      (sample (mk ε d) ξ v) := by
  intro U n
  have hUdef : √d.normSq = U := rfl
  have hsq : 0 < d.x ^ 2 + d.y ^ 2 + d.z ^ 2 := by
    rcases hd with h | h | h
    · have := sq_pos_of_ne_zero h; nlinarith [sq_nonneg d.y, sq_nonneg d.z]
    · have := sq_pos_of_ne_zero h; nlinarith [sq_nonneg d.x, sq_nonneg d.z]
    · have := sq_pos_of_ne_zero h; nlinarith [sq_nonneg d.x, sq_nonneg d.y]
  have hU : 0 < U := Real.sqrt_pos.2 hsq
  have hU2 : U ^ 2 = d.x ^ 2 + d.y ^ 2 + d.z ^ 2 := Real.sq_sqrt hsq.le
  have hU0 : U ≠ 0 := hU.ne'
  have hn : n.x ^ 2 + n.y ^ 2 + n.z ^ 2 = 1 := by
    simp only [n]; field_simp; linarith
  have hle : ∀ c, c ^ 2 ≤ U ^ 2 → |c| ≤ U := fun c h => abs_le_of_sq_le_sq h hU.le
  have hUε : ¬ |U| ≤ ε := by
    rw [abs_of_pos hU]
    push Not
    rcases hd with h | h | h
    · exact (hx.resolve_left h).trans_le (hle _ (by rw [hU2]; nlinarith [sq_nonneg d.y, sq_nonneg d.z]))
    · exact (hy.resolve_left h).trans_le (hle _ (by rw [hU2]; nlinarith [sq_nonneg d.x, sq_nonneg d.z]))
    · exact (hz.resolve_left h).trans_le (hle _ (by rw [hU2]; nlinarith [sq_nonneg d.x, sq_nonneg d.y]))
  have haz : ∀ c, (c = 0 ∨ ε < |c|) → (almostZero ε c = true ↔ c = 0) := by
    intro c hc
    unfold almostZero
    rw [decide_eq_true_eq]
    constructor
    · intro h
      rcases hc with h' | h'
      · exact h'
      · linarith
    · rintro rfl; simpa using hε
  set P := flipped U ξ v.x (lorentz v) with hP
  have hP2 : P ^ 2 = v.x ^ 2 := flipped_sq _ _ _ _
  set A := √(1 + U ^ 2) * P + U * lorentz v with hA
  -- what is to be shown about a rotation
  have key : ∀ u : V3 ℝ, u.x * n.x + u.y * n.y + u.z * n.z = A →
      u.x ^ 2 + u.y ^ 2 + u.z ^ 2 = A ^ 2 + v.y ^ 2 + v.z ^ 2 →
      Boosted n U (lorentz v) P (v.y ^ 2 + v.z ^ 2) u := by
    intro u h1 h2
    have := boosted_of (n := n) (u := u) (v := v) (U := U) (p := P)
      (by rw [hP2]; nlinarith [sq_nonneg v.y, sq_nonneg v.z]) h1 (by rw [h2, hP2]; ring)
    rw [show v.x ^ 2 + v.y ^ 2 + v.z ^ 2 - P ^ 2 = v.y ^ 2 + v.z ^ 2 by rw [hP2]; ring] at this
    exact this
  have hmk : mk ε d = ⟨U / √(1 + U ^ 2), U, n,
      if d.z = 0 ∧ d.y = 0 then sign d.x * 1
      else if d.x = 0 ∧ d.z = 0 then sign d.y * 2
      else if d.y = 0 ∧ d.x = 0 then sign d.z * 3 else 4⟩ := by
    unfold mk
    simp only [hUdef]
    rw [if_neg (by simpa [almostZero] using hUε)]
    simp only [Bool.and_eq_true, haz _ hx, haz _ hy, haz _ hz]
    rfl
  rw [hmk]
  have hdir : ∀ dir : Int, dir ≠ 0 → sample ⟨U / √(1 + U ^ 2), U, n, dir⟩ ξ v =
      rotate dir n ⟨A, v.y, v.z⟩ := by
    intro dir h0
    unfold sample
    rw [if_pos h0]
    simp only
    rw [boost_eq]
  have hsg : ∀ c : ℝ, sign c = 1 ∧ 0 ≤ c ∨ sign c = -1 ∧ c < 0 := by
    intro c; unfold sign
    by_cases h : c < 0
    · right; simp [h]
    · left; simp [h]; linarith
  by_cases c1 : d.z = 0 ∧ d.y = 0
  · obtain ⟨z0, y0⟩ := c1
    rw [if_pos ⟨z0, y0⟩]
    have hUx : U = |d.x| := by
      rw [← Real.sqrt_sq_eq_abs]; show √_ = _; rw [y0, z0]; congr 1; ring
    rcases hsg d.x with ⟨e, e'⟩ | ⟨e, e'⟩
    · rw [e, hdir _ (by norm_num)]
      have : rotate (1 * 1) n ⟨A, v.y, v.z⟩ = ⟨A, v.y, v.z⟩ := by simp [rotate]
      rw [this]
      have hnx : n.x = 1 := by
        show d.x / U = 1
        rw [hUx, abs_of_nonneg e']; rw [hUx, abs_of_nonneg e'] at hU0; field_simp
      have hny : n.y = 0 := by show d.y / U = 0; rw [y0]; simp
      have hnz : n.z = 0 := by show d.z / U = 0; rw [z0]; simp
      exact key _ (by rw [hnx, hny, hnz]; ring) (by ring)
    · rw [e, hdir _ (by norm_num)]
      have : rotate (-1 * 1) n ⟨A, v.y, v.z⟩ = ⟨-A, v.y, v.z⟩ := by simp [rotate]
      rw [this]
      have hnx : n.x = -1 := by
        show d.x / U = -1
        rw [hUx, abs_of_neg e', div_neg, div_self e'.ne]
      have hny : n.y = 0 := by show d.y / U = 0; rw [y0]; simp
      have hnz : n.z = 0 := by show d.z / U = 0; rw [z0]; simp
      exact key _ (by rw [hnx, hny, hnz]; ring) (by ring)
  rw [if_neg c1]
  by_cases c2 : d.x = 0 ∧ d.z = 0
  · obtain ⟨x0, z0⟩ := c2
    rw [if_pos ⟨x0, z0⟩]
    have hUx : U = |d.y| := by
      rw [← Real.sqrt_sq_eq_abs]; show √_ = _; rw [x0, z0]; congr 1; ring
    have hnx : n.x = 0 := by show d.x / U = 0; rw [x0]; simp
    have hnz : n.z = 0 := by show d.z / U = 0; rw [z0]; simp
    rcases hsg d.y with ⟨e, e'⟩ | ⟨e, e'⟩
    · rw [e, hdir _ (by norm_num)]
      have : rotate (1 * 2) n ⟨A, v.y, v.z⟩ = ⟨v.y, A, v.z⟩ := by simp [rotate]
      rw [this]
      have hny : n.y = 1 := by
        show d.y / U = 1
        rw [hUx, abs_of_nonneg e']; rw [hUx, abs_of_nonneg e'] at hU0; field_simp
      exact key _ (by rw [hnx, hny, hnz]; ring) (by ring)
    · rw [e, hdir _ (by norm_num)]
      have : rotate (-1 * 2) n ⟨A, v.y, v.z⟩ = ⟨v.y, -A, v.z⟩ := by simp [rotate]
      rw [this]
      have hny : n.y = -1 := by
        show d.y / U = -1
        rw [hUx, abs_of_neg e', div_neg, div_self e'.ne]
      exact key _ (by rw [hnx, hny, hnz]; ring) (by ring)
  rw [if_neg c2]
  by_cases c3 : d.y = 0 ∧ d.x = 0
  · obtain ⟨y0, x0⟩ := c3
    rw [if_pos ⟨y0, x0⟩]
    have hUx : U = |d.z| := by
      rw [← Real.sqrt_sq_eq_abs]; show √_ = _; rw [x0, y0]; congr 1; ring
    have hnx : n.x = 0 := by show d.x / U = 0; rw [x0]; simp
    have hny : n.y = 0 := by show d.y / U = 0; rw [y0]; simp
    rcases hsg d.z with ⟨e, e'⟩ | ⟨e, e'⟩
    · rw [e, hdir _ (by norm_num)]
      have : rotate (1 * 3) n ⟨A, v.y, v.z⟩ = ⟨v.z, v.y, A⟩ := by simp [rotate]
      rw [this]
      have hnz : n.z = 1 := by
        show d.z / U = 1
        rw [hUx, abs_of_nonneg e']; rw [hUx, abs_of_nonneg e'] at hU0; field_simp
      exact key _ (by rw [hnx, hny, hnz]; ring) (by ring)
    · rw [e, hdir _ (by norm_num)]
      have : rotate (-1 * 3) n ⟨A, v.y, v.z⟩ = ⟨v.z, v.y, -A⟩ := by simp [rotate]
      rw [this]
      have hnz : n.z = -1 := by
        show d.z / U = -1
        rw [hUx, abs_of_neg e', div_neg, div_self e'.ne]
      exact key _ (by rw [hnx, hny, hnz]; ring) (by ring)
  rw [if_neg c3, hdir _ (by norm_num)]
  have hne : n.x ≠ -1 := by
    intro e
    have h0 : n.y ^ 2 + n.z ^ 2 = 0 := by rw [e] at hn; linarith
    have hy0 : n.y = 0 := by nlinarith [sq_nonneg n.y, sq_nonneg n.z]
    have hz0 : n.z = 0 := by nlinarith [sq_nonneg n.y, sq_nonneg n.z]
    refine c1 ⟨?_, ?_⟩
    · have : d.z / U = 0 := hz0
      rw [div_eq_zero_iff] at this
      exact this.resolve_right hU0
    · have : d.y / U = 0 := hy0
      rw [div_eq_zero_iff] at this
      exact this.resolve_right hU0
  obtain ⟨r1, r2⟩ := C65_rotation n hn hne
  apply key
  · have := r1 ⟨A, v.y, v.z⟩ ⟨1, 0, 0⟩
    rw [r2] at this
    simp only [dot] at this
    linarith
  · have := r1 ⟨A, v.y, v.z⟩ ⟨A, v.y, v.z⟩
    simp only [dot] at this
    linarith

/-- **C65 (no drift).** Without drift the sample is left alone. -/
theorem C65_no_drift (ε : ℝ) (hε : 0 ≤ ε) (ξ : ℝ) (v : V3 ℝ) : sample (mk ε ⟨0, 0, 0⟩) ξ v = v := by
  simp [sample, mk, almostZero, normSq, hε]

/-- **C65 (cold beam).** At zero temperature every particle gets exactly the drift four-velocity. -/
theorem C65_cold (ε : ℝ) (hε : 0 ≤ ε) (d : V3 ℝ)
    (hx : d.x = 0 ∨ ε < |d.x|) (hy : d.y = 0 ∨ ε < |d.y|) (hz : d.z = 0 ∨ ε < |d.z|)
    (hd : d.x ≠ 0 ∨ d.y ≠ 0 ∨ d.z ≠ 0) (ξ : ℝ) :
    sample (mk ε d) ξ ⟨0, 0, 0⟩ = d := by
  obtain ⟨h1, -, h3⟩ := C65_drift_partial ε hε d hx hy hz hd ξ ⟨0, 0, 0⟩
  set u := sample (mk ε d) ξ ⟨0, 0, 0⟩ with hu
  have hsq : 0 < d.x ^ 2 + d.y ^ 2 + d.z ^ 2 := by
    rcases hd with h | h | h
    · have := sq_pos_of_ne_zero h; nlinarith [sq_nonneg d.y, sq_nonneg d.z]
    · have := sq_pos_of_ne_zero h; nlinarith [sq_nonneg d.x, sq_nonneg d.z]
    · have := sq_pos_of_ne_zero h; nlinarith [sq_nonneg d.x, sq_nonneg d.y]
  set U := √(d.x ^ 2 + d.y ^ 2 + d.z ^ 2) with hU
  have hU0 : 0 < U := Real.sqrt_pos.2 hsq
  have hU2 : U ^ 2 = d.x ^ 2 + d.y ^ 2 + d.z ^ 2 := Real.sq_sqrt hsq.le
  have hf : flipped U ξ 0 1 = 0 := by unfold flipped; simp
  simp only [show lorentz ⟨0, 0, 0⟩ = 1 by simp [lorentz], hf, mul_zero, mul_one, zero_add] at h1 h3
  have e1 : u.x * d.x + u.y * d.y + u.z * d.z = U ^ 2 := by
    have : (u.x * (d.x / U) + u.y * (d.y / U) + u.z * (d.z / U)) * U =
        u.x * d.x + u.y * d.y + u.z * d.z := by field_simp
    rw [h1] at this
    rw [← this]; ring
  rw [h1] at h3
  have e3 : (u.x - d.x) ^ 2 + (u.y - d.y) ^ 2 + (u.z - d.z) ^ 2 = 0 := by nlinarith
  have a1 := sq_nonneg (u.x - d.x)
  have a2 := sq_nonneg (u.y - d.y)
  have a3 := sq_nonneg (u.z - d.z)
  have b1 : u.x - d.x = 0 := by apply pow_eq_zero_iff (two_ne_zero) |>.1; linarith
  have b2 : u.y - d.y = 0 := by apply pow_eq_zero_iff (two_ne_zero) |>.1; linarith
  have b3 : u.z - d.z = 0 := by apply pow_eq_zero_iff (two_ne_zero) |>.1; linarith
  clear_value u
  obtain ⟨ux, uy, uz⟩ := u
  obtain ⟨dx, dy, dz⟩ := d
  simp only at b1 b2 b3
  rw [sub_eq_zero.1 b1, sub_eq_zero.1 b2, sub_eq_zero.1 b3]

/-- **C65 (boost along an axis).** `SampleFromMaxwellian` with a boost four-velocity that is not below
the tolerance is the boost along the chosen axis, possibly followed by a reversal of all
components. -/
theorem C65_sample_boost (ε U : ℝ) (hU : ε < |U|) (k : Nat) (hk : k < 3) (fl : Bool) (ξ : ℝ)
    (v : V3 ℝ) :
    let n : V3 ℝ := ⟨if k = 0 then 1 else 0, if k = 1 then 1 else 0, if k = 2 then 1 else 0⟩
    let u := sampleFromMaxwellian ε U k fl ξ v
    Boosted n U (lorentz v) (flipped U ξ (comp k v) (lorentz v))
      (v.x ^ 2 + v.y ^ 2 + v.z ^ 2 - comp k v ^ 2)
      (if fl then ⟨-u.x, -u.y, -u.z⟩ else u) := by
  intro n u
  have hG : √(1 + U ^ 2) ≠ 0 := (Real.sqrt_pos.2 (by positivity)).ne'
  set P := flipped U ξ (comp k v) (lorentz v) with hP
  have hP2 : P ^ 2 = comp k v ^ 2 := flipped_sq _ _ _ _
  have hcle : comp k v ^ 2 ≤ v.x ^ 2 + v.y ^ 2 + v.z ^ 2 := by
    unfold comp
    split_ifs <;> nlinarith [sq_nonneg v.x, sq_nonneg v.y, sq_nonneg v.z]
  have hu : (if fl then (⟨-u.x, -u.y, -u.z⟩ : V3 ℝ) else u) =
      setComp k (√(1 + U ^ 2) * P + U * lorentz v) v := by
    simp only [u, sampleFromMaxwellian]
    have haz : almostZero ε U = false := by simpa [almostZero] using hU
    rw [← lorentz_eq]
    simp only [haz, Bool.false_eq_true, if_false]
    have hcs : ∀ c, comp k (setComp k c v) = c := by
      intro c; unfold comp setComp; split_ifs <;> rfl
    have hss : ∀ c c', setComp k c (setComp k c' v) = setComp k c v := by
      intro c c'; unfold setComp; split_ifs <;> rfl
    have hw : ∀ w w' : V3 ℝ, w = w' → (if fl then (⟨-(if fl then (⟨-w.x, -w.y, -w.z⟩ : V3 ℝ) else w).x,
        -(if fl then (⟨-w.x, -w.y, -w.z⟩ : V3 ℝ) else w).y,
        -(if fl then (⟨-w.x, -w.y, -w.z⟩ : V3 ℝ) else w).z⟩ : V3 ℝ) else
        (if fl then (⟨-w.x, -w.y, -w.z⟩ : V3 ℝ) else w)) = w' := by
      rintro w _ rfl; cases fl <;> simp
    refine hw _ _ ?_
    rw [hP]
    unfold flipped
    simp only [gt_iff_lt]
    split
    · rw [hcs, hss]; congr 1; field_simp
    · congr 1; field_simp
  rw [hu]
  have hfin := boosted_of (n := n) (u := setComp k (√(1 + U ^ 2) * P + U * lorentz v) v) (v := v)
    (U := U) (p := P) (by rw [hP2]; exact hcle)
    (by
      have : k = 0 ∨ k = 1 ∨ k = 2 := by omega
      rcases this with rfl | rfl | rfl <;> simp [setComp, n])
    (by
      rw [hP2]
      have : k = 0 ∨ k = 1 ∨ k = 2 := by omega
      rcases this with rfl | rfl | rfl <;> simp [setComp, comp] <;> ring)
  rw [hP2] at hfin
  exact hfin

/-- **C65 fails within the tolerance.**  Whatever the tolerance, a drift with a transverse component
equal to it (not zero) is given entirely to the first axis: the cold beam loses that component. -/
theorem C65_counterexample (ε : ℝ) (hε : 0 < ε) (ξ : ℝ) :
    (sample (mk ε ⟨2 * ε, ε, 0⟩) ξ ⟨0, 0, 0⟩).y = 0 := by
  have h1 : ¬ |√((2 * ε) ^ 2 + ε ^ 2 + 0 ^ 2)| ≤ ε := by
    rw [abs_of_nonneg (Real.sqrt_nonneg _)]
    push Not
    exact Real.lt_sqrt_of_sq_lt (by nlinarith)
  have hs : sign (2 * ε) = 1 := by unfold sign; rw [if_neg (by linarith)]
  have ha : |ε| ≤ ε := by rw [abs_of_pos hε]
  have h0 : |(0 : ℝ)| ≤ ε := by simpa using hε.le
  have hm : (mk ε ⟨2 * ε, ε, 0⟩).dir = 1 := by
    have h1' : almostZero ε √(V3.normSq ⟨2 * ε, ε, 0⟩) = false := by
      unfold almostZero
      rw [decide_eq_false_iff_not]
      exact h1
    simp [mk, h1']
    simp [almostZero, hs, ha, hε.le]
  unfold sample
  rw [hm, if_pos (by norm_num)]
  simp only [boost, flip]
  split <;> simp [rotate]

/-- Hypotheses of `C65_drift_partial` met by a general direction. -/
example : ((3 : ℝ) = 0 ∨ (1 / 2 : ℝ) < |3|) ∧ ((-4 : ℝ) = 0 ∨ (1 / 2 : ℝ) < |(-4)|) ∧
    ((0 : ℝ) = 0 ∨ (1 / 2 : ℝ) < |0|) ∧ ((3 : ℝ) ≠ 0 ∨ (-4 : ℝ) ≠ 0 ∨ (0 : ℝ) ≠ 0) := by
  norm_num [abs_of_pos]

end Entity.Maxwell
