import Verif.Lemmas.EnergyBoost
import Mathlib.MeasureTheory.Measure.Lebesgue.EqHaar
import Verif.Props.Maxwellian

/-!
# The rotation of a distribution
-/

namespace Entity.EnergyDist

open Entity.Push MeasureTheory Set Real
open scoped ENNReal

/-- Square of the length. -/
def nsq (v : ℝ × ℝ × ℝ) : ℝ := v.1 ^ 2 + (v.2.1 ^ 2 + v.2.2 ^ 2)

instance : (volume : Measure (ℝ × ℝ × ℝ)).IsAddHaarMeasure := by
  have h2 : ((volume : Measure ℝ).prod (volume : Measure ℝ)).IsAddHaarMeasure := inferInstance
  have h3 : ((volume : Measure ℝ).prod ((volume : Measure ℝ).prod (volume : Measure ℝ))).IsAddHaarMeasure :=
    inferInstance
  exact h3

/-- Linear maps that keep the length keep the volume. -/
theorem isometry_int {R : ℝ × ℝ × ℝ → ℝ × ℝ × ℝ} (hlin : IsLinearMap ℝ R) (hiso : ∀ v, nsq (R v) = nsq v) :
    (volume : Measure (ℝ × ℝ × ℝ)).map R = volume ∧ Measurable R := by
  let L := hlin.mk' R
  have hdet : LinearMap.det L ≠ 0 := by
    intro h
    have := LinearMap.bot_lt_ker_of_det_eq_zero h
    obtain ⟨v, hv, h0⟩ := (Submodule.ne_bot_iff _).1 this.ne'
    have hv : R v = 0 := hv
    have h1 := hiso v
    rw [hv] at h1
    apply h0
    simp only [nsq, Prod.fst_zero, Prod.snd_zero] at h1
    have a1 : v.1 = 0 := by nlinarith [sq_nonneg v.1, sq_nonneg v.2.1, sq_nonneg v.2.2]
    have a2 : v.2.1 = 0 := by nlinarith [sq_nonneg v.1, sq_nonneg v.2.1, sq_nonneg v.2.2]
    have a3 : v.2.2 = 0 := by nlinarith [sq_nonneg v.1, sq_nonneg v.2.1, sq_nonneg v.2.2]
    exact Prod.ext a1 (Prod.ext a2 a3)
  have hcont : Continuous nsq := by unfold nsq; fun_prop
  set B : Set (ℝ × ℝ × ℝ) := {v | nsq v < 1}
  have hB : IsOpen B := isOpen_lt hcont continuous_const
  have hB0 : (volume : Measure (ℝ × ℝ × ℝ)) B ≠ 0 := (hB.measure_pos volume ⟨0, by simp [B, nsq]⟩).ne'
  have hB1 : (volume : Measure (ℝ × ℝ × ℝ)) B ≠ ∞ := by
    have hsub : B ⊆ Icc (-1 : ℝ) 1 ×ˢ (Icc (-1 : ℝ) 1 ×ˢ Icc (-1 : ℝ) 1) := by
      intro v hv
      have hv : v.1 ^ 2 + (v.2.1 ^ 2 + v.2.2 ^ 2) < 1 := hv
      refine ⟨?_, ?_, ?_⟩ <;> constructor <;> nlinarith [sq_nonneg v.1, sq_nonneg v.2.1, sq_nonneg v.2.2]
    refine ne_top_of_le_ne_top ?_ (measure_mono hsub)
    exact (isCompact_Icc.prod (isCompact_Icc.prod isCompact_Icc)).measure_ne_top
  have hone : ENNReal.ofReal |(LinearMap.det L)⁻¹| = 1 := by
    have h := Measure.addHaar_preimage_linearMap (volume : Measure (ℝ × ℝ × ℝ)) hdet B
    have e : L ⁻¹' B = B := by
      ext v
      change nsq (R v) < 1 ↔ nsq v < 1
      rw [hiso]
    rw [e] at h
    have h' : 1 * volume B = ENNReal.ofReal |(LinearMap.det L)⁻¹| * volume B := by rw [one_mul]; exact h
    exact ((ENNReal.mul_left_inj hB0 hB1).1 h').symm
  have := Measure.map_linearMap_addHaar_eq_smul_addHaar (volume : Measure (ℝ × ℝ × ℝ)) hdet
  rw [hone, one_smul] at this
  refine ⟨this, ?_⟩
  have hc : Continuous L := LinearMap.continuous_of_finiteDimensional L
  exact hc.measurable

/-- `rotate` with the components as a tuple. -/
noncomputable def rotT (dir : Int) (n : V3 ℝ) (v : ℝ × ℝ × ℝ) : ℝ × ℝ × ℝ :=
  let w := Maxwell.rotate dir n ⟨v.1, v.2.1, v.2.2⟩
  (w.x, w.y, w.z)

/-- What the constructor makes of a drift: its speed, and a linear map that keeps lengths and turns the
first axis to its direction. -/
theorem mk_drift (ε : ℝ) (hε : 0 ≤ ε) (d : V3 ℝ)
    (hx : d.x = 0 ∨ ε < |d.x|) (hy : d.y = 0 ∨ ε < |d.y|) (hz : d.z = 0 ∨ ε < |d.z|)
    (hd : d.x ≠ 0 ∨ d.y ≠ 0 ∨ d.z ≠ 0) :
    let U := √(d.x ^ 2 + d.y ^ 2 + d.z ^ 2)
    let D := Maxwell.mk ε d
    D.dir ≠ 0 ∧ D.drift4 = U ∧ D.drift3 = U / √(1 + U ^ 2) ∧ IsLinearMap ℝ (rotT D.dir D.n) ∧
      (∀ v, nsq (rotT D.dir D.n v) = nsq v) ∧
      ∀ v, d.x * (rotT D.dir D.n v).1 + d.y * (rotT D.dir D.n v).2.1 + d.z * (rotT D.dir D.n v).2.2 = U * v.1 := by
  intro U D
  have hUdef : √d.normSq = U := rfl
  have hsq : 0 < d.x ^ 2 + d.y ^ 2 + d.z ^ 2 := by
    rcases hd with h | h | h
    · have := sq_pos_of_ne_zero h; nlinarith [sq_nonneg d.y, sq_nonneg d.z]
    · have := sq_pos_of_ne_zero h; nlinarith [sq_nonneg d.x, sq_nonneg d.z]
    · have := sq_pos_of_ne_zero h; nlinarith [sq_nonneg d.x, sq_nonneg d.y]
  have hU : 0 < U := Real.sqrt_pos.2 hsq
  have hU2 : U ^ 2 = d.x ^ 2 + d.y ^ 2 + d.z ^ 2 := Real.sq_sqrt hsq.le
  have hle : ∀ c, c ^ 2 ≤ U ^ 2 → |c| ≤ U := fun c h => abs_le_of_sq_le_sq h hU.le
  have hUε : ¬ |U| ≤ ε := by
    rw [abs_of_pos hU]
    push Not
    rcases hd with h | h | h
    · exact (hx.resolve_left h).trans_le (hle _ (by rw [hU2]; nlinarith [sq_nonneg d.y, sq_nonneg d.z]))
    · exact (hy.resolve_left h).trans_le (hle _ (by rw [hU2]; nlinarith [sq_nonneg d.x, sq_nonneg d.z]))
    · exact (hz.resolve_left h).trans_le (hle _ (by rw [hU2]; nlinarith [sq_nonneg d.x, sq_nonneg d.y]))
  have haz : ∀ c, (c = 0 ∨ ε < |c|) → (Maxwell.almostZero ε c = true ↔ c = 0) := by
    intro c hc
    unfold Maxwell.almostZero
    rw [decide_eq_true_eq]
    constructor
    · intro h
      rcases hc with h' | h'
      · exact h'
      · linarith
    · rintro rfl; simpa using hε
  let n : V3 ℝ := ⟨d.x / U, d.y / U, d.z / U⟩
  have hn : n.x ^ 2 + n.y ^ 2 + n.z ^ 2 = 1 := by
    simp only [n]; field_simp; linarith
  have hmk : Maxwell.mk ε d = ⟨U / √(1 + U ^ 2), U, n,
      if d.z = 0 ∧ d.y = 0 then Maxwell.sign d.x * 1
      else if d.x = 0 ∧ d.z = 0 then Maxwell.sign d.y * 2
      else if d.y = 0 ∧ d.x = 0 then Maxwell.sign d.z * 3 else 4⟩ := by
    unfold Maxwell.mk
    simp only [hUdef]
    rw [if_neg (by simpa [Maxwell.almostZero] using hUε)]
    simp only [Bool.and_eq_true, haz _ hx, haz _ hy, haz _ hz]
    rfl
  -- what is to be shown for one direction
  have key : ∀ dir : Int, D = ⟨U / √(1 + U ^ 2), U, n, dir⟩ → dir ≠ 0 → IsLinearMap ℝ (rotT dir n) →
      (∀ v, nsq (rotT dir n v) = nsq v) →
      (∀ v, d.x * (rotT dir n v).1 + d.y * (rotT dir n v).2.1 + d.z * (rotT dir n v).2.2 = U * v.1) →
      D.dir ≠ 0 ∧ D.drift4 = U ∧ D.drift3 = U / √(1 + U ^ 2) ∧ IsLinearMap ℝ (rotT D.dir D.n) ∧
      (∀ v, nsq (rotT D.dir D.n v) = nsq v) ∧
      ∀ v, d.x * (rotT D.dir D.n v).1 + d.y * (rotT D.dir D.n v).2.1 + d.z * (rotT D.dir D.n v).2.2 = U * v.1 := by
    intro dir h h0 h1 h2 h3
    rw [h]
    exact ⟨h0, rfl, rfl, h1, h2, h3⟩
  have lin : ∀ {f : ℝ × ℝ × ℝ → ℝ × ℝ × ℝ}, (∀ v w, f (v + w) = f v + f w) → (∀ (c : ℝ) v, f (c • v) = c • f v) →
      IsLinearMap ℝ f := fun h1 h2 => ⟨h1, h2⟩
  have hsg : ∀ c : ℝ, Maxwell.sign c = 1 ∧ 0 ≤ c ∨ Maxwell.sign c = -1 ∧ c < 0 := by
    intro c; unfold Maxwell.sign
    by_cases h : c < 0
    · right; simp [h]
    · left; simp [h]; linarith
  have hD : D = ⟨U / √(1 + U ^ 2), U, n, D.dir⟩ := by
    change Maxwell.mk ε d = ⟨_, _, _, (Maxwell.mk ε d).dir⟩
    rw [hmk]
  have hdir : D.dir = if d.z = 0 ∧ d.y = 0 then Maxwell.sign d.x * 1
      else if d.x = 0 ∧ d.z = 0 then Maxwell.sign d.y * 2
      else if d.y = 0 ∧ d.x = 0 then Maxwell.sign d.z * 3 else 4 := by
    change (Maxwell.mk ε d).dir = _
    rw [hmk]
  by_cases c1 : d.z = 0 ∧ d.y = 0
  · obtain ⟨z0, y0⟩ := c1
    rw [if_pos ⟨z0, y0⟩] at hdir
    have hUx : U = |d.x| := by
      rw [← Real.sqrt_sq_eq_abs]; change √_ = _; rw [y0, z0]; congr 1; ring
    rcases hsg d.x with ⟨e, e'⟩ | ⟨e, e'⟩
    · rw [e] at hdir
      have hr : ∀ v, rotT 1 n v = v := fun v => by simp [rotT, Maxwell.rotate]
      rw [abs_of_nonneg e'] at hUx
      refine key 1 (by rw [hD, hdir]; rfl) (by norm_num) (lin (fun v w => by simp only [hr]) (fun c v => by simp only [hr]))
        (fun v => by rw [hr]) (fun v => by rw [hr, y0, z0, hUx]; ring)
    · rw [e] at hdir
      have hr : ∀ v, rotT (-1) n v = (-v.1, v.2.1, v.2.2) := fun v => by simp [rotT, Maxwell.rotate]
      rw [abs_of_neg e'] at hUx
      refine key (-1) (by rw [hD, hdir]; rfl) (by norm_num) (lin (fun v w => ?_) (fun c v => ?_))
        (fun v => by rw [hr]; simp [nsq]) (fun v => by rw [hr, y0, z0, hUx]; ring)
      · simp only [hr, Prod.fst_add, Prod.snd_add, neg_add, Prod.mk_add_mk]
      · simp [hr]
        rfl
  rw [if_neg c1] at hdir
  by_cases c2 : d.x = 0 ∧ d.z = 0
  · obtain ⟨x0, z0⟩ := c2
    rw [if_pos ⟨x0, z0⟩] at hdir
    have hUx : U = |d.y| := by
      rw [← Real.sqrt_sq_eq_abs]; change √_ = _; rw [x0, z0]; congr 1; ring
    rcases hsg d.y with ⟨e, e'⟩ | ⟨e, e'⟩
    · rw [e] at hdir
      have hr : ∀ v, rotT 2 n v = (v.2.1, v.1, v.2.2) := fun v => by simp [rotT, Maxwell.rotate]
      rw [abs_of_nonneg e'] at hUx
      refine key 2 (by rw [hD, hdir]; rfl) (by norm_num) (lin (fun v w => ?_) (fun c v => ?_))
        (fun v => by rw [hr]; simp only [nsq]; ring) (fun v => by rw [hr, x0, z0, hUx]; ring)
      · simp [hr]
      · simp [hr]
    · rw [e] at hdir
      have hr : ∀ v, rotT (-2) n v = (v.2.1, -v.1, v.2.2) := fun v => by simp [rotT, Maxwell.rotate]
      rw [abs_of_neg e'] at hUx
      refine key (-2) (by rw [hD, hdir]; rfl) (by norm_num) (lin (fun v w => ?_) (fun c v => ?_))
        (fun v => by rw [hr]; simp only [nsq]; ring) (fun v => by rw [hr, x0, z0, hUx]; ring)
      · simp only [hr, Prod.fst_add, Prod.snd_add, neg_add, Prod.mk_add_mk]
      · simp [hr]
  rw [if_neg c2] at hdir
  by_cases c3 : d.y = 0 ∧ d.x = 0
  · obtain ⟨y0, x0⟩ := c3
    rw [if_pos ⟨y0, x0⟩] at hdir
    have hUx : U = |d.z| := by
      rw [← Real.sqrt_sq_eq_abs]; change √_ = _; rw [x0, y0]; congr 1; ring
    rcases hsg d.z with ⟨e, e'⟩ | ⟨e, e'⟩
    · rw [e] at hdir
      have hr : ∀ v, rotT 3 n v = (v.2.2, v.2.1, v.1) := fun v => by simp [rotT, Maxwell.rotate]
      rw [abs_of_nonneg e'] at hUx
      refine key 3 (by rw [hD, hdir]; rfl) (by norm_num) (lin (fun v w => ?_) (fun c v => ?_))
        (fun v => by rw [hr]; simp only [nsq]; ring) (fun v => by rw [hr, x0, y0, hUx]; ring)
      · simp [hr]
      · simp [hr]
    · rw [e] at hdir
      have hr : ∀ v, rotT (-3) n v = (v.2.2, v.2.1, -v.1) := fun v => by simp [rotT, Maxwell.rotate]
      rw [abs_of_neg e'] at hUx
      refine key (-3) (by rw [hD, hdir]; rfl) (by norm_num) (lin (fun v w => ?_) (fun c v => ?_))
        (fun v => by rw [hr]; simp only [nsq]; ring) (fun v => by rw [hr, x0, y0, hUx]; ring)
      · simp only [hr, Prod.fst_add, Prod.snd_add, neg_add, Prod.mk_add_mk]
      · simp [hr]
  rw [if_neg c3] at hdir
  have hne : n.x ≠ -1 := by
    intro e
    have h0 : n.y ^ 2 + n.z ^ 2 = 0 := by rw [e] at hn; linarith
    have hy0 : n.y = 0 := by nlinarith [sq_nonneg n.y, sq_nonneg n.z]
    have hz0 : n.z = 0 := by nlinarith [sq_nonneg n.y, sq_nonneg n.z]
    refine c1 ⟨?_, ?_⟩
    · have : d.z / U = 0 := hz0
      rw [div_eq_zero_iff] at this
      exact this.resolve_right hU.ne'
    · have : d.y / U = 0 := hy0
      rw [div_eq_zero_iff] at this
      exact this.resolve_right hU.ne'
  obtain ⟨r1, r2⟩ := Maxwell.C65_rotation n hn hne
  have hr : ∀ v, rotT 4 n v =
      (v.1 * n.x - v.2.1 * n.y - v.2.2 * n.z,
       (v.1 * n.y * (n.x + 1) + v.2.1 * (n.x ^ 2 + n.x + n.z ^ 2) - v.2.2 * n.y * n.z) / (n.x + 1),
       (v.1 * n.z * (n.x + 1) - v.2.1 * n.y * n.z - v.2.2 * (-n.x + n.z ^ 2 - 1)) / (n.x + 1)) :=
    fun v => by simp [rotT, Maxwell.rotate]
  refine key 4 (by rw [hD, hdir]) (by norm_num) (lin (fun v w => ?_) (fun c v => ?_)) (fun v => ?_) (fun v => ?_)
  · simp only [hr, Prod.fst_add, Prod.snd_add, Prod.mk_add_mk]
    refine Prod.ext ?_ (Prod.ext ?_ ?_) <;> simp only <;> ring
  · simp only [hr, Prod.smul_fst, Prod.smul_snd, smul_eq_mul, Prod.smul_mk]
    refine Prod.ext ?_ (Prod.ext ?_ ?_) <;> simp only <;> ring
  · have := r1 ⟨v.1, v.2.1, v.2.2⟩ ⟨v.1, v.2.1, v.2.2⟩
    simp only [V3.dot] at this
    simp only [nsq, rotT]
    linarith
  · have := r1 ⟨1, 0, 0⟩ ⟨v.1, v.2.1, v.2.2⟩
    rw [r2] at this
    simp only [V3.dot, n] at this
    simp only [rotT]
    have h' := congrArg (U * ·) this
    rw [one_mul, zero_mul, zero_mul, add_zero, add_zero] at h'
    rw [← h']
    field_simp
    rfl

end Entity.EnergyDist
