import Verif.Props.Momentum

/-!
# C172: the guiding-centre push
-/

namespace Entity.Push
open V3

/-- Specification: square of `E×B / (E²+B²)`. -/
noncomputable def driftSq (e b : V3 ℝ) : ℝ :=
  (e.cross b).dot (e.cross b) / (e.dot e + b.dot b) ^ 2

/-- Specification: `u` is a momentum along `b` plus that of a particle that drifts with velocity `v`. -/
def Drifts (u b v : V3 ℝ) : Prop := ∃ s, u = b.smul s + v.smul √(gammaSq u)

theorem dot_self (a : V3 ℝ) : 0 ≤ a.dot a := by
  simp only [V3.dot]
  nlinarith [mul_self_nonneg a.x, mul_self_nonneg a.y, mul_self_nonneg a.z]

/-- The factor by which the drift is corrected solves `f = 1 + x f²` up to a small remainder. -/
theorem drift_factor {x : ℝ} (h0 : 0 ≤ x) (h1 : x < 1 / 4) :
    let f := if x < 1 / 100 then 1 + x + 2 * x ^ 2 + 5 * x ^ 2 * x else (1 - √(1 - 4 * x)) / (2 * x)
    ∃ r, f = 1 + f ^ 2 * x - r ∧ f ^ 2 * x < 1 ∧ 0 ≤ r ∧ r ≤ 15 * x ^ 4 ∧ (1 / 100 ≤ x → r = 0) := by
  intro f
  by_cases h : x < 1 / 100
  · have hf : f = 1 + x + 2 * x ^ 2 + 5 * x ^ 2 * x := if_pos h
    have x2 : x ^ 2 ≤ 1 / 100 * x := by nlinarith
    have x3 : x ^ 3 ≤ 1 / 100 * x := by nlinarith [mul_nonneg h0 (sq_nonneg x)]
    have f0 : 0 ≤ f := by rw [hf]; positivity
    have f1 : f ≤ 2 := by rw [hf]; nlinarith
    refine ⟨14 * x ^ 4 + 14 * x ^ 5 + 20 * x ^ 6 + 25 * x ^ 7, by rw [hf]; ring, by nlinarith, by positivity,
      ?_, fun h' => absurd h (not_lt.2 h')⟩
    have : 14 * x ^ 4 + 14 * x ^ 5 + 20 * x ^ 6 + 25 * x ^ 7 =
        x ^ 4 * (14 + (14 * x + 20 * x ^ 2 + 25 * x ^ 3)) := by ring
    rw [this, mul_comm 15]
    exact mul_le_mul_of_nonneg_left (by linarith) (by positivity)
  · have hf : f = (1 - √(1 - 4 * x)) / (2 * x) := if_neg h
    have hx : 0 < x := by linarith
    have hs := Real.sq_sqrt (show 0 ≤ 1 - 4 * x by linarith)
    have hp : 0 < √(1 - 4 * x) := Real.sqrt_pos.2 (by linarith)
    have e : f * (2 * x) = 1 - √(1 - 4 * x) := by rw [hf]; field_simp
    have e2 : f = 1 + f ^ 2 * x := by
      have : 4 * x * f = 4 * x * (1 + f ^ 2 * x) := by
        have : (1 - f * (2 * x)) ^ 2 = 1 - 4 * x := by rw [e]; rw [show (1 - (1 - √(1 - 4 * x))) ^ 2 = √(1 - 4 * x) ^ 2 by ring, hs]
        linarith
      exact mul_left_cancel₀ (by positivity) this
    refine ⟨0, by linarith, ?_, le_rfl, by positivity, fun _ => rfl⟩
    -- f < 2, from 1 - √(1-4x) < 4x
    have : √(1 - 4 * x) < 1 := by nlinarith
    have : f * (2 * x) < 2 * (2 * x) := by rw [e]; nlinarith
    have := lt_of_mul_lt_mul_right this (by positivity)
    linarith

theorem driftSq_lt {e b : V3 ℝ} (hb : 0 < b.dot b) (hne : ¬ (e.dot b = 0 ∧ e.dot e = b.dot b)) :
    0 ≤ driftSq e b ∧ driftSq e b < 1 / 4 := by
  have hE : 0 ≤ e.dot e := dot_self _
  have hL : (e.cross b).dot (e.cross b) = e.dot e * b.dot b - e.dot b ^ 2 := by
    simp only [V3.dot, V3.cross]; ring
  have hC : 0 ≤ (e.cross b).dot (e.cross b) := dot_self _
  refine ⟨by unfold driftSq; positivity, ?_⟩
  unfold driftSq
  rw [div_lt_iff₀ (by positivity), hL]
  have : 0 < (e.dot e - b.dot b) ^ 2 + 4 * e.dot b ^ 2 := by
    by_cases h : e.dot b = 0
    · have : e.dot e - b.dot b ≠ 0 := fun h' => hne ⟨h, by linarith⟩
      positivity
    · positivity
  nlinarith

theorem V3.smul_smul' (a : V3 ℝ) (k l : ℝ) : (a.smul k).smul l = a.smul (k * l) := by
  simp only [V3.smul, V3.mk.injEq]
  refine ⟨?_, ?_, ?_⟩ <;> ring

theorem boosted_cross (e b : V3 ℝ) (k : ℝ) :
    (e + ((e.cross b).smul k).cross b).cross (b - ((e.cross b).smul k).cross e) =
      (e.cross b).smul (1 + k ^ 2 * (e.cross b).dot (e.cross b) - k * (e.dot e + b.dot b)) := by
  obtain ⟨e1, e2, e3⟩ := e
  obtain ⟨b1, b2, b3⟩ := b
  simp only [V3.smul, V3.cross, V3.dot, V3.add_x, V3.add_y, V3.add_z, V3.sub_x, V3.sub_y, V3.sub_z,
    V3.mk.injEq]
  refine ⟨?_, ?_, ?_⟩ <;> ring

/-- **C172**: the momentum along `b` grows by `2 c E·b̂`, `c` being half the time step times the charge
to mass ratio.  The drift `v` is perpendicular to both fields, and in the frame moving with it the
fields, which are proportional to `E + v×B` and `B - v×E`, are parallel up to `r`. -/
theorem C172_guiding_centre (c : ℝ) (e b u : V3 ℝ) (hb : 0 < b.dot b)
    (hne : ¬ (e.dot b = 0 ∧ e.dot e = b.dot b)) :
    (gca c e b u).dot b = u.dot b + 2 * c * e.dot b ∧
    ∃ v r, Drifts (gca c e b u) b v ∧ v.dot b = 0 ∧ v.dot e = 0 ∧ v.dot v < 1 ∧
      (e + v.cross b).cross (b - v.cross e) = (e.cross b).smul r ∧
      0 ≤ r ∧ r ≤ 15 * driftSq e b ^ 4 ∧ (1 / 100 ≤ driftSq e b → r = 0) := by
  obtain ⟨x0, x1⟩ := driftSq_lt hb hne
  have hE : 0 ≤ e.dot e := dot_self _
  have hS : 0 < e.dot e + b.dot b := by linarith
  obtain ⟨r, hf, hl, r0, r1, r2⟩ := drift_factor x0 x1
  set f := if driftSq e b < 1 / 100 then
      1 + driftSq e b + 2 * driftSq e b ^ 2 + 5 * driftSq e b ^ 2 * driftSq e b
    else (1 - √(1 - 4 * driftSq e b)) / (2 * driftSq e b) with hfd
  obtain ⟨w, hw⟩ : ∃ w, w = (e.cross b).smul (1 / (e.normSq + b.normSq)) := ⟨_, rfl⟩
  have nsq : ∀ a : V3 ℝ, a.normSq = a.dot a := fun a => by simp only [V3.normSq, V3.dot] <;> ring
  have hx : w.normSq = driftSq e b := by
    rw [hw, nsq e, nsq b, nsq]
    unfold driftSq
    simp only [V3.dot, V3.smul]
    field_simp
  obtain ⟨n, hn⟩ : ∃ n, n = √b.normSq := ⟨_, rfl⟩
  have n0 : 0 < n := by rw [hn]; exact Real.sqrt_pos.2 (by rw [nsq]; exact hb)
  have n2 : n ^ 2 = b.dot b := by rw [hn, Real.sq_sqrt (by rw [nsq]; exact hb.le), nsq]
  obtain ⟨p, hp⟩ : ∃ p, p = u.dot (b.smul (1 / n)) + c * 2 * e.dot (b.smul (1 / n)) := ⟨_, rfl⟩
  obtain ⟨G, hG⟩ : ∃ G, G = √(1 + p ^ 2) / √(1 - (w.smul f).normSq) := ⟨_, rfl⟩
  have hg : gca c e b u = (b.smul (1 / n)).smul p + (w.smul f).smul G := by
    rw [hG, hp, hn, hfd, ← hx, hw]; rfl
  have wb : w.dot b = 0 := by rw [hw]; simp only [V3.dot, V3.smul, V3.cross]; ring
  have we : w.dot e = 0 := by rw [hw]; simp only [V3.dot, V3.smul, V3.cross]; ring
  have vv : (w.smul f).dot (w.smul f) = f ^ 2 * driftSq e b := by
    rw [← hx, nsq]; simp only [V3.dot, V3.smul]; ring
  have hpn : p * n = u.dot b + 2 * c * e.dot b := by
    rw [hp]; simp only [V3.dot, V3.smul]; field_simp
  have G2 : G ^ 2 * (1 - f ^ 2 * driftSq e b) = 1 + p ^ 2 := by
    rw [hG, nsq, vv, div_pow, Real.sq_sqrt (by positivity), Real.sq_sqrt (by linarith)]
    have : 1 - f ^ 2 * driftSq e b ≠ 0 := by linarith
    field_simp
  have G0 : 0 ≤ G := by rw [hG]; positivity
  have gG : gammaSq (gca c e b u) = G ^ 2 := by
    have h1 : gammaSq (gca c e b u) = 1 + (p / n) ^ 2 * b.dot b + 2 * (p / n) * (f * G) * w.dot b +
        G ^ 2 * (w.smul f).dot (w.smul f) := by
      rw [hg]; simp only [gammaSq, V3.dot, V3.smul, V3.add_x, V3.add_y, V3.add_z]; ring
    rw [h1, wb, vv, ← n2, div_pow, div_mul_cancel₀ _ (by positivity)]
    linarith
  refine ⟨?_, w.smul f, r, ⟨p / n, ?_⟩, ?_, ?_, by rw [vv]; exact hl, ?_, r0, r1, r2⟩
  · have h1 : (gca c e b u).dot b = (p / n) * b.dot b + f * G * w.dot b := by
      rw [hg]; simp only [V3.dot, V3.smul, V3.add_x, V3.add_y, V3.add_z]; ring
    rw [h1, wb, ← n2, ← hpn]; field_simp; ring
  · rw [gG, Real.sqrt_sq G0, hg]
    congr 1
    simp only [V3.smul, V3.mk.injEq]
    refine ⟨?_, ?_, ?_⟩ <;> ring
  · have : (w.smul f).dot b = f * w.dot b := by simp only [V3.dot, V3.smul]; ring
    rw [this, wb, mul_zero]
  · have : (w.smul f).dot e = f * w.dot e := by simp only [V3.dot, V3.smul]; ring
    rw [this, we, mul_zero]
  · have hr : r = 1 + f ^ 2 * driftSq e b - f := by linarith
    rw [hr, hw, nsq, nsq, V3.smul_smul', boosted_cross]
    congr 1
    unfold driftSq
    field_simp

/-- Non-vacuity: crossed fields with a component of the electric field along the magnetic one. -/
example : let e : V3 ℝ := ⟨1, 0, 1⟩; let b : V3 ℝ := ⟨0, 0, 2⟩
    0 < b.dot b ∧ ¬ (e.dot b = 0 ∧ e.dot e = b.dot b) ∧ driftSq e b = 1 / 9 := by
  simp only [V3.dot, V3.cross, driftSq]; norm_num

end Entity.Push
