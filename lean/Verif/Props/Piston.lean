import Verif.Model.Piston
import Mathlib.Tactic.FieldSimp
import Mathlib.Tactic.Linarith
import Mathlib.Tactic.Positivity
import Mathlib.Tactic.LinearCombination

/-!
# C64: moving piston
-/

namespace Entity.Piston

open Entity Entity.Push Entity.Push.V3

/-! ## Specification -/

/-- Momentum along x1 in the frame moving with velocity `v` along x1, of a particle with energy `g`
and momentum `ux`. -/
noncomputable def inFrame (v g ux : ℝ) : ℝ := (ux - v * g) / √(1 - v ^ 2)
/-- Energy in that frame. -/
noncomputable def energyInFrame (v g ux : ℝ) : ℝ := (g - v * ux) / √(1 - v ^ 2)

/-- Position of a particle, in physical units. -/
noncomputable def pos (x0 Δ : ℝ) (p : P) : ℝ := x0 + ((p.i : ℝ) + p.dx) * Δ
/-- Position before the step. -/
noncomputable def posPrev (x0 Δ : ℝ) (p : P) : ℝ := x0 + ((p.iPrev : ℝ) + p.dxPrev) * Δ

/-! ## Lemmas -/

theorem one_sub_sq {v : ℝ} (hv : |v| < 1) : 0 < 1 - v ^ 2 := by
  have := abs_lt.1 hv
  nlinarith

theorem energy_nonneg (b : Bool) (u : V3 ℝ) : 0 ≤ energy b u := by
  unfold energy; split <;> exact Real.sqrt_nonneg _

theorem energy_sq (b : Bool) (u : V3 ℝ) :
    energy b u ^ 2 = (if b then 1 else 0) + u.normSq := by
  have h : 0 ≤ u.normSq := by unfold normSq; positivity
  unfold energy
  split
  · rw [Real.sq_sqrt (by linarith)]
  · rw [Real.sq_sqrt h]; ring

theorem abs_ux_le (b : Bool) (u : V3 ℝ) : |u.x| ≤ energy b u := by
  apply abs_le_of_sq_le_sq _ (energy_nonneg b u)
  rw [energy_sq]
  have : 0 ≤ (if b then (1 : ℝ) else 0) := by split <;> norm_num
  unfold normSq
  nlinarith [sq_nonneg u.y, sq_nonneg u.z]

theorem reflectU_eq {v : ℝ} (hv : |v| < 1) (g ux : ℝ) :
    reflectU v g ux = -((1 + v ^ 2) * ux - 2 * v * g) / (1 - v ^ 2) := by
  have h := one_sub_sq hv
  unfold reflectU
  rw [div_pow, one_pow, Real.sq_sqrt h.le]
  field_simp

/-- the reflected energy -/
theorem energy_reflect {v : ℝ} (hv : |v| < 1) (b : Bool) (u : V3 ℝ) :
    energy b ⟨reflectU v (energy b u) u.x, u.y, u.z⟩ =
      ((1 + v ^ 2) * energy b u - 2 * v * u.x) / (1 - v ^ 2) := by
  have h := one_sub_sq hv
  have hg := energy_sq b u
  have hle := abs_ux_le b u
  have hg0 := energy_nonneg b u
  rw [reflectU_eq hv]
  set g := energy b u with hgd
  have hnum : 0 ≤ (1 + v ^ 2) * g - 2 * v * u.x := by
    have h1 : v * u.x ≤ |v| * g := by
      calc v * u.x ≤ |v * u.x| := le_abs_self _
        _ = |v| * |u.x| := abs_mul _ _
        _ ≤ |v| * g := by gcongr
    have h2 : v ^ 2 = |v| ^ 2 := (sq_abs v).symm
    nlinarith [sq_nonneg (1 - |v|), abs_nonneg v]
  apply (sq_eq_sq₀ (energy_nonneg _ _) (div_nonneg hnum h.le)).1
  rw [energy_sq]
  unfold normSq at hg ⊢
  simp only
  have hg' : (if b then (1 : ℝ) else 0) = g ^ 2 - (u.x ^ 2 + u.y ^ 2 + u.z ^ 2) := by linarith
  rw [hg']
  field_simp
  ring

theorem renorm_sum (i : Int) (d : ℝ) : ((renorm i d).1 : ℝ) + (renorm i d).2 = i + d := by
  unfold renorm b2i b2n
  simp only
  by_cases h1 : d ≥ 1
  · have h2 : ¬ d < 0 := by linarith
    have h3 : ¬ d - 1 < 0 := by linarith
    simp [h1, h2, h3]
  · by_cases h2 : d < 0
    · simp [h1, h2]
    · simp [h1, h2]

theorem fromXi_sum (x : ℝ) : ((fromXiToIDi x).1 : ℝ) + (fromXiToIDi x).2 = x := by
  simp [fromXiToIDi]

/-! ## C64 -/

/-- **C64 (momentum).** For every particle, massive or not, every subluminal wall and every time step:
a particle the wall does not reach is left alone; of one that it reaches the momentum along the wall
is kept, and in the frame of the wall the momentum across it is reversed and the energy is the
same. -/
theorem C64_reflection (x0 Δ dt : ℝ) (massive : Bool) (w : Wall) (hv : |w.v| < 1) (p : P) :
    (pos x0 Δ p - w.v * dt ≥ w.pos → 0 < Δ → piston x0 Δ dt massive w p = p) ∧
    (pos x0 Δ p - w.v * dt < w.pos → 0 < Δ →
      let q := piston x0 Δ dt massive w p
      q.u.y = p.u.y ∧ q.u.z = p.u.z ∧
      inFrame w.v (energy massive q.u) q.u.x = -inFrame w.v (energy massive p.u) p.u.x ∧
      energyInFrame w.v (energy massive q.u) q.u.x = energyInFrame w.v (energy massive p.u) p.u.x) := by
  have hc : 0 < Δ → (crosses x0 Δ dt w p = true ↔ pos x0 Δ p - w.v * dt < w.pos) := by
    intro hΔ
    unfold crosses pos iDiToXi
    rw [decide_eq_true_eq, gt_iff_lt]
    have : ((p.i : ℝ) + p.dx - w.v / Δ * dt) * Δ + x0 = x0 + ((p.i : ℝ) + p.dx) * Δ - w.v * dt := by
      field_simp; ring
    rw [this]
  constructor
  · intro h hΔ
    unfold piston
    rw [if_neg]
    rw [hc hΔ]; linarith
  · intro h hΔ
    have h1 := one_sub_sq hv
    have h2 : 0 < √(1 - w.v ^ 2) := Real.sqrt_pos.2 h1
    simp only
    unfold piston
    rw [if_pos ((hc hΔ).2 h)]
    simp only
    refine ⟨trivial, trivial, ?_, ?_⟩
    · rw [energy_reflect hv, reflectU_eq hv]
      unfold inFrame
      field_simp
      ring
    · rw [energy_reflect hv, reflectU_eq hv]
      unfold energyInFrame
      field_simp
      ring

/-- **C64 (position).** If the particle was in front of the wall at the start of the step and moved
straight with its velocity, and the wall overtakes it, then there is a moment `t` of the step at
which it meets the wall; it ends where it gets by moving with its old velocity until then and with
its new one for the rest of the step, which is in front of the wall. -/
theorem C64_position (x0 Δ dt : ℝ) (hΔ : 0 < Δ) (massive : Bool) (w : Wall) (hv : |w.v| < 1)
    (p : P) (hmass : 0 < energy massive p.u)
    (hfront : w.pos ≤ posPrev x0 Δ p)
    (hmove : pos x0 Δ p = posPrev x0 Δ p + p.u.x / energy massive p.u * dt)
    (hover : pos x0 Δ p < w.pos + w.v * dt) (hdt : 0 < dt) :
    let q := piston x0 Δ dt massive w p
    ∃ t, 0 ≤ t ∧ t < dt ∧
      posPrev x0 Δ p + p.u.x / energy massive p.u * t = w.pos + w.v * t ∧
      pos x0 Δ q = w.pos + w.v * t + q.u.x / energy massive q.u * (dt - t) ∧
      w.pos + w.v * dt < pos x0 Δ q := by
  have h1 := one_sub_sq hv
  set g := energy massive p.u with hg
  set b := p.u.x / g with hb
  have hbv : b - w.v < 0 := by
    by_contra hcon
    push Not at hcon
    have : 0 ≤ (b - w.v) * dt := mul_nonneg hcon hdt.le
    nlinarith
  have hcr : crosses x0 Δ dt w p = true := by
    unfold crosses iDiToXi
    rw [decide_eq_true_eq, gt_iff_lt]
    have : ((p.i : ℝ) + p.dx - w.v / Δ * dt) * Δ + x0 = pos x0 Δ p - w.v * dt := by
      unfold pos; field_simp; ring
    rw [this]; linarith
  set t := (w.pos - posPrev x0 Δ p) / (b - w.v) with ht
  have htb : t * (b - w.v) = w.pos - posPrev x0 Δ p := by
    rw [ht]; exact div_mul_cancel₀ _ hbv.ne
  have ht0 : 0 ≤ t := by
    rw [ht]; exact div_nonneg_of_nonpos (by linarith) hbv.le
  have htl : t < dt := by
    rw [ht, div_lt_iff_of_neg hbv]
    nlinarith
  have hgr := energy_reflect hv massive p.u
  -- the new energy is positive and the new velocity exceeds that of the wall
  have hle := abs_ux_le massive p.u
  have hb1 : p.u.x < w.v * g := by
    have : b < w.v := by linarith
    rw [hb, div_lt_iff₀ hmass] at this
    exact this
  have hg'pos : 0 < ((1 + w.v ^ 2) * g - 2 * w.v * p.u.x) / (1 - w.v ^ 2) := by
    apply div_pos _ h1
    have h2 := abs_lt.1 hv
    have h3 : w.v * p.u.x ≤ |w.v| * g := by
      calc w.v * p.u.x ≤ |w.v * p.u.x| := le_abs_self _
        _ = |w.v| * |p.u.x| := abs_mul _ _
        _ ≤ |w.v| * g := by gcongr
    have h4 : w.v ^ 2 = |w.v| ^ 2 := (sq_abs w.v).symm
    have h5 : 0 < (1 - |w.v|) ^ 2 := by
      have : 0 < 1 - |w.v| := by linarith
      positivity
    nlinarith
  simp only
  refine ⟨t, ht0, htl, by nlinarith [htb], ?_⟩
  have hto : iDiToXi ((fromXiToIDi ((w.pos - x0) / Δ)).1 - p.iPrev)
      ((fromXiToIDi ((w.pos - x0) / Δ)).2 - p.dxPrev) / ((b - w.v) / Δ) = t := by
    have e := fromXi_sum ((w.pos - x0) / Δ)
    unfold iDiToXi
    push_cast
    have e2 : ((fromXiToIDi ((w.pos - x0) / Δ)).1 : ℝ) - p.iPrev +
        ((fromXiToIDi ((w.pos - x0) / Δ)).2 - p.dxPrev) = (w.pos - posPrev x0 Δ p) / Δ := by
      unfold posPrev
      have : ((fromXiToIDi ((w.pos - x0) / Δ)).1 : ℝ) - p.iPrev +
        ((fromXiToIDi ((w.pos - x0) / Δ)).2 - p.dxPrev) = (w.pos - x0) / Δ - (p.iPrev + p.dxPrev) := by
        linear_combination e
      rw [this]
      field_simp
      ring
    rw [e2, ht, div_div_div_cancel_right₀ hΔ.ne']
  have hpos : pos x0 Δ (piston x0 Δ dt massive w p) = w.pos + w.v * t +
      (piston x0 Δ dt massive w p).u.x / energy massive (piston x0 Δ dt massive w p).u * (dt - t) := by
    unfold piston
    rw [if_pos hcr]
    simp only
    rw [← hg, ← hb, hto]
    unfold pos
    simp only
    rw [renorm_sum]
    have e1 := renorm_sum (fromXiToIDi ((w.pos - x0) / Δ)).1
      ((fromXiToIDi ((w.pos - x0) / Δ)).2 + w.v / Δ * t)
    have e2 := fromXi_sum ((w.pos - x0) / Δ)
    have e3 : ((renorm (fromXiToIDi ((w.pos - x0) / Δ)).1
        ((fromXiToIDi ((w.pos - x0) / Δ)).2 + w.v / Δ * t)).1 : ℝ) +
        (renorm (fromXiToIDi ((w.pos - x0) / Δ)).1
        ((fromXiToIDi ((w.pos - x0) / Δ)).2 + w.v / Δ * t)).2 = (w.pos - x0) / Δ + w.v / Δ * t := by
      rw [e1, ← add_assoc, e2]
    set A := reflectU w.v g p.u.x / Δ * ((dt - t) / energy massive ⟨reflectU w.v g p.u.x, p.u.y, p.u.z⟩)
      with hA
    have e4 : ((renorm (fromXiToIDi ((w.pos - x0) / Δ)).1
        ((fromXiToIDi ((w.pos - x0) / Δ)).2 + w.v / Δ * t)).1 : ℝ) + (A +
        (renorm (fromXiToIDi ((w.pos - x0) / Δ)).1
        ((fromXiToIDi ((w.pos - x0) / Δ)).2 + w.v / Δ * t)).2) = (w.pos - x0) / Δ + w.v / Δ * t + A := by
      rw [← e3]; ring
    rw [e4, hA]
    field_simp
    ring
  refine ⟨hpos, ?_⟩
  have hu : (piston x0 Δ dt massive w p).u = ⟨reflectU w.v g p.u.x, p.u.y, p.u.z⟩ := by
    unfold piston; rw [if_pos hcr]
  rw [hpos, hu, hgr]
  simp only
  rw [reflectU_eq hv]
  have hfast : w.v < -((1 + w.v ^ 2) * p.u.x - 2 * w.v * g) / (1 - w.v ^ 2) /
      (((1 + w.v ^ 2) * g - 2 * w.v * p.u.x) / (1 - w.v ^ 2)) := by
    rw [lt_div_iff₀ hg'pos, ← mul_div_assoc, div_lt_div_iff_of_pos_right h1]
    nlinarith
  have : 0 < dt - t := by linarith
  nlinarith

theorem renorm_range (i : Int) {d : ℝ} (h : -1 ≤ d) (h' : d < 2) :
    0 ≤ (renorm i d).2 ∧ (renorm i d).2 < 1 := by
  unfold renorm b2n
  simp only
  by_cases h1 : d ≥ 1
  · have h3 : ¬ d - 1 < 0 := by linarith
    simp only [h1, decide_true, if_true, h3, decide_false]
    constructor <;> norm_num <;> linarith
  · by_cases h2 : d < 0
    · have : (d - (if decide (d ≥ 1) = true then (1 : ℝ) else 0)) = d := by simp [h1]
      rw [this]
      simp only [h2, decide_true, if_true]
      constructor <;> linarith
    · have : (d - (if decide (d ≥ 1) = true then (1 : ℝ) else 0)) = d := by simp [h1]
      rw [this]
      simp only [h2, decide_false, Bool.false_eq_true, if_false]
      constructor <;> linarith

/-- **C64 (offset).** Under the conditions of `C64_position`, if the time step is shorter than a cell
and the wall starts no further than a cell below the lower end of the mesh, the offset inside the
cell is again in `[0, 1)`. -/
theorem C64_offset (x0 Δ dt : ℝ) (hΔ : 0 < Δ) (massive : Bool) (w : Wall) (hv : |w.v| < 1)
    (p : P) (hmass : 0 < energy massive p.u)
    (hfront : w.pos ≤ posPrev x0 Δ p)
    (hmove : pos x0 Δ p = posPrev x0 Δ p + p.u.x / energy massive p.u * dt)
    (hover : pos x0 Δ p < w.pos + w.v * dt) (hdt : 0 < dt) (hcfl : dt < Δ) (hlow : x0 - Δ ≤ w.pos) :
    0 ≤ (piston x0 Δ dt massive w p).dx ∧ (piston x0 Δ dt massive w p).dx < 1 := by
  set g := energy massive p.u with hg
  set b := p.u.x / g with hb
  have hbv : b - w.v < 0 := by
    by_contra hcon
    push Not at hcon
    have : 0 ≤ (b - w.v) * dt := mul_nonneg hcon hdt.le
    nlinarith
  have hcr : crosses x0 Δ dt w p = true := by
    unfold crosses iDiToXi
    rw [decide_eq_true_eq, gt_iff_lt]
    have : ((p.i : ℝ) + p.dx - w.v / Δ * dt) * Δ + x0 = pos x0 Δ p - w.v * dt := by
      unfold pos; field_simp; ring
    rw [this]; linarith
  set t := (w.pos - posPrev x0 Δ p) / (b - w.v) with ht
  have ht0 : 0 ≤ t := by
    rw [ht]; exact div_nonneg_of_nonpos (by linarith) hbv.le
  have htl : t < dt := by
    rw [ht, div_lt_iff_of_neg hbv]
    nlinarith
  have hto : iDiToXi ((fromXiToIDi ((w.pos - x0) / Δ)).1 - p.iPrev)
      ((fromXiToIDi ((w.pos - x0) / Δ)).2 - p.dxPrev) / ((b - w.v) / Δ) = t := by
    have e := fromXi_sum ((w.pos - x0) / Δ)
    unfold iDiToXi
    push_cast
    have e2 : ((fromXiToIDi ((w.pos - x0) / Δ)).1 : ℝ) - p.iPrev +
        ((fromXiToIDi ((w.pos - x0) / Δ)).2 - p.dxPrev) = (w.pos - posPrev x0 Δ p) / Δ := by
      unfold posPrev
      have : ((fromXiToIDi ((w.pos - x0) / Δ)).1 : ℝ) - p.iPrev +
        ((fromXiToIDi ((w.pos - x0) / Δ)).2 - p.dxPrev) = (w.pos - x0) / Δ - (p.iPrev + p.dxPrev) := by
        linear_combination e
      rw [this]
      field_simp
      ring
    rw [e2, ht, div_div_div_cancel_right₀ hΔ.ne']
  have hdw : 0 ≤ (fromXiToIDi ((w.pos - x0) / Δ)).2 ∧ (fromXiToIDi ((w.pos - x0) / Δ)).2 < 1 := by
    have h0 : 0 ≤ (w.pos - x0) / Δ + 1 := by
      have : (w.pos - x0) / Δ + 1 = (w.pos - x0 + Δ) / Δ := by field_simp
      rw [this]; apply div_nonneg _ hΔ.le; linarith
    simp only [fromXiToIDi, fromXiToI, castInt, if_pos h0]
    push_cast
    have := Int.floor_le ((w.pos - x0) / Δ + 1)
    have := Int.lt_floor_add_one ((w.pos - x0) / Δ + 1)
    constructor <;> linarith
  have small : ∀ (c s : ℝ), |c| ≤ 1 → 0 ≤ s → s < Δ → -1 < c / Δ * s ∧ c / Δ * s < 1 := by
    intro c s hc hs hs'
    have : |c / Δ * s| < 1 := by
      rw [abs_mul, abs_div, abs_of_pos hΔ, abs_of_nonneg hs, div_mul_eq_mul_div, div_lt_one hΔ]
      nlinarith [abs_nonneg c]
    exact abs_lt.1 this
  unfold piston
  rw [if_pos hcr]
  simp only
  rw [← hg, ← hb, hto]
  obtain ⟨s1, s2⟩ := small w.v t hv.le ht0 (by linarith)
  obtain ⟨r1, r2⟩ := renorm_range (fromXiToIDi ((w.pos - x0) / Δ)).1
    (d := (fromXiToIDi ((w.pos - x0) / Δ)).2 + w.v / Δ * t) (by linarith) (by linarith)
  set u' : V3 ℝ := ⟨reflectU w.v g p.u.x, p.u.y, p.u.z⟩ with hu'
  have hle := abs_ux_le massive u'
  have hn := energy_nonneg massive u'
  have hbeta : |u'.x / energy massive u'| ≤ 1 := by
    rw [abs_div, abs_of_nonneg hn]
    exact div_le_one_of_le₀ hle hn
  obtain ⟨q1, q2⟩ := small _ (dt - t) hbeta (by linarith) (by linarith)
  have e : reflectU w.v g p.u.x / Δ * ((dt - t) / energy massive u') =
      u'.x / energy massive u' / Δ * (dt - t) := by
    rw [hu']; ring
  rw [e]
  exact renorm_range _ (by linarith) (by linarith)

/-- The wall at rest turns the particle round; a wall at half the speed of light speeds a resting
particle up to `4/3`: a case of `C64_reflection` with a real change. -/
example : reflectU 0 3 (-2) = 2 ∧ reflectU (1 / 2) 1 0 = 4 / 3 := by
  constructor <;> rw [reflectU_eq (by norm_num [abs_lt])] <;> norm_num

/-- The hypotheses of `C64_position` can be met: a particle at rest (energy one) half a cell in front of
a wall that moves by one cell. -/
example : ∃ (p : P) (w : Wall), |w.v| < 1 ∧ 0 < energy true p.u ∧ w.pos ≤ posPrev 0 1 p ∧
    pos 0 1 p = posPrev 0 1 p + p.u.x / energy true p.u * 2 ∧ pos 0 1 p < w.pos + w.v * 2 := by
  refine ⟨⟨3, 1 / 2, 3, 1 / 2, ⟨0, 0, 0⟩⟩, ⟨3, 1 / 2⟩, by norm_num [abs_lt], ?_, ?_, ?_, ?_⟩
  · simp [energy, normSq]
  · norm_num [posPrev]
  · norm_num [pos, posPrev]
  · norm_num [pos]

end Entity.Piston
