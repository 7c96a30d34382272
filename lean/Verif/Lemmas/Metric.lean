import Mathlib.Tactic.LinearCombination
import Mathlib.Tactic.FieldSimp
import Mathlib.Tactic.Linarith
import Mathlib.Tactic.Positivity
import Verif.Model.Metric

/-! Inversion of the stretched angle. -/

namespace Entity.Metric

open Real

/-- `eta2theta` about the equator is an odd cubic. -/
theorem eta2theta_cubic {ε h : ℝ} (hε : ε < |h|) (η : ℝ) :
    eta2theta ε h η - π / 2 = (1 - h) * (η - π / 2) + 4 * h / π ^ 2 * (η - π / 2) ^ 3 := by
  have hp : π ≠ 0 := pi_ne_zero
  rw [eta2theta, if_neg (not_le.2 hε)]
  field_simp
  ring

theorem radicand_eq (h θ : ℝ) :
    3 * radicand h θ = (18 * h ^ 2 * (θ - π / 2)) ^ 2 + 12 * π ^ 2 * (h * (1 - h)) ^ 3 := by
  unfold radicand; ring

theorem eta2theta_strictMono {ε h : ℝ} (h0 : 0 < h) (h1 : h < 1) (hε : ε < |h|) {a b : ℝ}
    (hab : a < b) : eta2theta ε h a < eta2theta ε h b := by
  have ha := eta2theta_cubic hε a
  have hb := eta2theta_cubic hε b
  have hk : 0 < 4 * h / π ^ 2 := by positivity
  set k := 4 * h / π ^ 2
  set x := a - π / 2
  set y := b - π / 2
  have hxy : x < y := by simp only [x, y]; linarith
  have h3 : x ^ 3 ≤ y ^ 3 := by nlinarith [sq_nonneg (x + y), sq_nonneg x, sq_nonneg y]
  nlinarith

/-- The closed form solves the cubic. -/
theorem theta2eta_spec {ε h : ℝ} (h0 : 0 < h) (h1 : h < 1) (hε : ε < |h|) (θ : ℝ) :
    ∃ η, theta2eta ε h θ = some η ∧ eta2theta ε h η = θ := by
  have hp : 0 < π := pi_pos
  have hh : 0 < h * (1 - h) := mul_pos h0 (by linarith)
  have hrad : 0 ≤ radicand h θ := by
    have := radicand_eq h θ
    have : 0 ≤ 3 * radicand h θ := by rw [this]; positivity
    linarith
  set q := 18 * h ^ 2 * (θ - π / 2) with hq
  set c := -9 * h ^ 2 * (π - 2 * θ) + √3 * √(radicand h θ) with hc
  have hcq : c = q + √(3 * radicand h θ) := by
    rw [hc, hq, Real.sqrt_mul (by norm_num)]; ring
  have hsq : √(3 * radicand h θ) ^ 2 = q ^ 2 + 12 * π ^ 2 * (h * (1 - h)) ^ 3 := by
    rw [Real.sq_sqrt (by linarith), radicand_eq]
  have hc0 : 0 < c := by
    rw [hcq]
    have : |q| < √(3 * radicand h θ) := by
      apply abs_lt_of_sq_lt_sq _ (Real.sqrt_nonneg _)
      rw [hsq]; have : 0 < 12 * π ^ 2 * (h * (1 - h)) ^ 3 := by positivity
      linarith
    have := (abs_lt.1 this).1
    linarith
  have hcc : c * (c - 2 * q) = 12 * π ^ 2 * (h * (1 - h)) ^ 3 := by
    rw [hcq]; linear_combination hsq
  -- cube roots
  have cube : ∀ x : ℝ, 0 ≤ x → (x ^ (1 / 3 : ℝ)) ^ 3 = x := by
    intro x hx
    rw [← Real.rpow_natCast, ← Real.rpow_mul hx]; norm_num
  have two3 : ∀ x : ℝ, 0 ≤ x → x ^ (2 / 3 : ℝ) = (x ^ (1 / 3 : ℝ)) ^ 2 := by
    intro x hx
    rw [← Real.rpow_natCast, ← Real.rpow_mul hx]; norm_num
  have hR3 := cube c hc0.le
  have hRpos : 0 < c ^ (1 / 3 : ℝ) := Real.rpow_pos_of_pos hc0 _
  have hs3 := cube π hp.le
  have ht3 := cube 2 (by norm_num)
  have hw3 := cube 3 (by norm_num)
  have h3p : (3 * π) ^ (1 / 3 : ℝ) = 3 ^ (1 / 3 : ℝ) * π ^ (1 / 3 : ℝ) :=
    Real.mul_rpow (by norm_num) hp.le
  refine ⟨π ^ (2 / 3 : ℝ) * (6 * π ^ (1 / 3 : ℝ) +
        2 * 2 ^ (1 / 3 : ℝ) * (h - 1) * (3 * π) ^ (2 / 3 : ℝ) / c ^ (1 / 3 : ℝ) +
        2 ^ (2 / 3 : ℝ) * 3 ^ (1 / 3 : ℝ) * c ^ (1 / 3 : ℝ) / h) / 12, ?_, ?_⟩
  · rw [theta2eta, if_neg (not_le.2 hε), if_neg (not_lt.2 hrad)]
    simp only
    rw [if_neg (not_le.2 hc0)]
  · have key := eta2theta_cubic hε (π ^ (2 / 3 : ℝ) * (6 * π ^ (1 / 3 : ℝ) +
        2 * 2 ^ (1 / 3 : ℝ) * (h - 1) * (3 * π) ^ (2 / 3 : ℝ) / c ^ (1 / 3 : ℝ) +
        2 ^ (2 / 3 : ℝ) * 3 ^ (1 / 3 : ℝ) * c ^ (1 / 3 : ℝ) / h) / 12)
    rw [two3 π hp.le, two3 2 (by norm_num), two3 (3 * π) (by positivity), h3p] at key ⊢
    set s := π ^ (1 / 3 : ℝ)
    set t := (2 : ℝ) ^ (1 / 3 : ℝ)
    set w := (3 : ℝ) ^ (1 / 3 : ℝ)
    set R := c ^ (1 / 3 : ℝ)
    set al := s ^ 4 * t * w ^ 2 * (h - 1) / 6 with hal
    set be := s ^ 2 * t ^ 2 * w / (12 * h) with hbe
    have hRne : R ≠ 0 := hRpos.ne'
    have hx : s ^ 2 * (6 * s + 2 * t * (h - 1) * (w * s) ^ 2 / R + t ^ 2 * w * R / h) / 12 - π / 2 =
        al / R + be * R := by
      rw [hal, hbe, ← hs3]; field_simp; ring
    rw [hx] at key
    have hab : al * be = π ^ 2 * (h - 1) / (12 * h) := by
      rw [hal, hbe]
      have : s ^ 4 * t * w ^ 2 * (h - 1) / 6 * (s ^ 2 * t ^ 2 * w / (12 * h)) =
          (s ^ 3) ^ 2 * t ^ 3 * w ^ 3 * (h - 1) / (72 * h) := by field_simp; ring
      rw [this, hs3, ht3, hw3]; field_simp; ring
    have ha3 : al ^ 3 = π ^ 4 * (h - 1) ^ 3 / 12 := by
      have : al ^ 3 = (s ^ 3) ^ 4 * t ^ 3 * (w ^ 3) ^ 2 * (h - 1) ^ 3 / 216 := by rw [hal]; ring
      rw [this, hs3, ht3, hw3]; ring
    have hb3 : be ^ 3 = π ^ 2 / (144 * h ^ 3) := by
      have : be ^ 3 = (s ^ 3) ^ 2 * (t ^ 3) ^ 2 * w ^ 3 / (1728 * h ^ 3) := by
        rw [hbe]; field_simp; norm_num
      rw [this, hs3, ht3, hw3]; field_simp; norm_num
    have hcube : (al / R + be * R) ^ 3 = al ^ 3 / c + be ^ 3 * c + 3 * (al * be) * (al / R + be * R) := by
      rw [← hR3]; field_simp; ring
    have hne : c ≠ 0 := hc0.ne'
    rw [hcube, ha3, hb3, hab] at key
    have e1 : (1 - h) * (al / R + be * R) + 4 * h / π ^ 2 * (π ^ 4 * (h - 1) ^ 3 / 12 / c +
        π ^ 2 / (144 * h ^ 3) * c + 3 * (π ^ 2 * (h - 1) / (12 * h)) * (al / R + be * R)) =
        h * π ^ 2 * (h - 1) ^ 3 / (3 * c) + c / (36 * h ^ 2) := by
      field_simp; ring
    have e2 : h * π ^ 2 * (h - 1) ^ 3 / (3 * c) = -(c - 2 * q) / (36 * h ^ 2) := by
      rw [div_eq_div_iff (by positivity) (by positivity)]
      have : h ^ 3 * (h - 1) ^ 3 = -(h * (1 - h)) ^ 3 := by ring
      linear_combination (3 : ℝ) * hcc
    rw [e1, e2, hq] at key
    have e3 : -(c - 2 * (18 * h ^ 2 * (θ - π / 2))) / (36 * h ^ 2) + c / (36 * h ^ 2) = θ - π / 2 := by
      field_simp; ring
    rw [e3] at key
    linarith

theorem theta2eta_eta2theta {ε h : ℝ} (h0 : 0 < h) (h1 : h < 1) (hε : ε < |h|) (η : ℝ) :
    theta2eta ε h (eta2theta ε h η) = some η := by
  obtain ⟨η', e, e'⟩ := theta2eta_spec h0 h1 hε (eta2theta ε h η)
  rw [e]
  rcases lt_trichotomy η' η with hlt | heq | hlt
  · exact absurd e' (eta2theta_strictMono h0 h1 hε hlt).ne
  · rw [heq]
  · exact absurd e'.symm (eta2theta_strictMono h0 h1 hε hlt).ne

end Entity.Metric
