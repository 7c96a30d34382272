import Verif.Spec.Float
import Mathlib.Tactic.Linarith
import Mathlib.Tactic.FieldSimp
import Mathlib.Tactic.Ring
import Mathlib.Tactic.NormNum
import Mathlib.Tactic.Positivity

/-! # Rounding -/

namespace Entity.Float

open Entity Entity.Push

theorem b32_ok : b32.Ok := ⟨by decide, by decide⟩
theorem b64_ok : b64.Ok := ⟨by decide, by decide⟩

theorem two_zpow_pos (e : Int) : (0 : ℚ) < 2 ^ e := zpow_pos (by norm_num) e

theorem zpow_mono {a b : Int} (h : a ≤ b) : (2 : ℚ) ^ a ≤ 2 ^ b := zpow_le_zpow_right₀ (by norm_num) h

theorem nearestEven_err (q : ℚ) : |(nearestEven q : ℚ) - q| ≤ 1 / 2 := by
  have h0 := Int.floor_le q
  have h1 := Int.lt_floor_add_one q
  unfold nearestEven
  rw [abs_le]
  split_ifs <;> push_cast <;> constructor <;> linarith

theorem nearestEven_int (n : Int) : nearestEven (n : ℚ) = n := by
  simp [nearestEven]

theorem nearestEven_nearest (q : ℚ) (n : Int) : |(nearestEven q : ℚ) - q| ≤ |(n : ℚ) - q| := by
  by_cases h : n = nearestEven q
  · rw [h]
  · have h1 := nearestEven_err q
    have h2 : (1 : ℚ) ≤ |(n : ℚ) - nearestEven q| := by
      have : (1 : Int) ≤ |n - nearestEven q| := Int.one_le_abs (sub_ne_zero.2 h)
      exact_mod_cast this
    have h3 : |(n : ℚ) - nearestEven q| ≤ |(n : ℚ) - q| + |q - nearestEven q| := abs_sub_le _ _ _
    rw [abs_sub_comm q] at h3
    linarith

theorem round_err (F : Fmt) (x : ℚ) : |F.round x - x| ≤ 2 ^ F.quantum x / 2 := by
  have h := nearestEven_err (x / 2 ^ F.quantum x)
  have hp := two_zpow_pos (F.quantum x)
  have e : F.round x - x = (nearestEven (x / 2 ^ F.quantum x) - x / 2 ^ F.quantum x) * 2 ^ F.quantum x := by
    unfold Fmt.round
    field_simp
  rw [e, abs_mul, abs_of_pos hp]
  nlinarith

theorem round_zero (F : Fmt) : F.round 0 = 0 := by
  simp [Fmt.round, nearestEven]

theorem abs_lt_quantum (F : Fmt) (x : ℚ) : |x| < 2 ^ (F.quantum x + F.p) := by
  have h1 : |x| < 2 ^ (Int.log 2 |x| + 1) := by
    have := Int.lt_zpow_succ_log_self (b := 2) (by norm_num) |x|
    exact_mod_cast this
  refine lt_of_lt_of_le h1 (zpow_mono ?_)
  have := le_max_left (Int.log 2 |x| + 1 - F.p) F.emin
  unfold Fmt.quantum
  omega

theorem round_rep' (F : Fmt) (x : ℚ) : F.Rep (F.round x) := by
  refine ⟨nearestEven (x / 2 ^ F.quantum x), F.quantum x, le_max_right _ _, ?_, rfl⟩
  have hp := two_zpow_pos (F.quantum x)
  have h := abs_lt_quantum F x
  rw [zpow_add₀ (by norm_num), zpow_natCast] at h
  have h2 : |x / 2 ^ F.quantum x| < 2 ^ F.p := by
    rw [abs_div, abs_of_pos hp, div_lt_iff₀ hp]
    linarith
  obtain ⟨a, b⟩ := abs_lt.1 h2
  have e := nearestEven_nearest (x / 2 ^ F.quantum x)
  have c1 := e (2 ^ F.p)
  have c2 := e (-2 ^ F.p)
  have g : |(nearestEven (x / 2 ^ F.quantum x) : ℚ)| ≤ 2 ^ F.p := by
    push_cast at c1 c2
    rw [abs_of_pos (show (0 : ℚ) < 2 ^ F.p - x / 2 ^ F.quantum x by linarith)] at c1
    rw [abs_of_neg (show (-2 ^ F.p - x / 2 ^ F.quantum x : ℚ) < 0 by linarith)] at c2
    have d1 := abs_le.1 c1
    have d2 := abs_le.1 c2
    rw [abs_le]
    constructor <;> linarith [d1.2, d2.1]
  exact_mod_cast g

/-- The rounded number is the nearest number of the format. -/
theorem round_nearest {F : Fmt} (hF : F.Ok) (x z : ℚ) (hz : F.Rep z) :
    |F.round x - x| ≤ |z - x| := by
  by_cases hx0 : x = 0
  · rw [hx0, round_zero, sub_self, abs_zero]
    exact abs_nonneg _
  obtain ⟨m, e, he, hm, rfl⟩ := hz
  have hp := two_zpow_pos (F.quantum x)
  have key : ∀ n : Int, |F.round x - x| ≤ |(n : ℚ) * 2 ^ F.quantum x - x| := by
    intro n
    have h := nearestEven_nearest (x / 2 ^ F.quantum x) n
    have e1 : F.round x - x =
        (nearestEven (x / 2 ^ F.quantum x) - x / 2 ^ F.quantum x) * 2 ^ F.quantum x := by
      unfold Fmt.round
      field_simp
    have e2 : (n : ℚ) * 2 ^ F.quantum x - x = (n - x / 2 ^ F.quantum x) * 2 ^ F.quantum x := by
      field_simp
    rw [e1, e2, abs_mul, abs_mul, abs_of_pos hp]
    exact mul_le_mul_of_nonneg_right h hp.le
  by_cases hq : F.quantum x ≤ e
  · obtain ⟨k, hk⟩ := Int.le.dest hq
    have := key (m * 2 ^ k)
    rw [← hk, zpow_add₀ (by norm_num), zpow_natCast]
    push_cast at this
    rwa [show (m : ℚ) * (2 ^ F.quantum x * 2 ^ k) = m * 2 ^ k * 2 ^ F.quantum x by ring]
  · -- `z` lies below the binade of `x`
    have hlt : F.emin < F.quantum x := by omega
    have hqe : F.quantum x = Int.log 2 |x| + 1 - F.p := by
      unfold Fmt.quantum at hlt ⊢
      rcases le_total (Int.log 2 |x| + 1 - F.p) F.emin with h | h
      · rw [max_eq_right h] at hlt; omega
      · rw [max_eq_left h]
    have hL : (2 : ℚ) ^ (Int.log 2 |x|) = 2 ^ (F.p - 1) * 2 ^ F.quantum x := by
      rw [← zpow_natCast, ← zpow_add₀ (by norm_num)]
      congr 1
      have := hF.p
      omega
    have h1 : (2 : ℚ) ^ (Int.log 2 |x|) ≤ |x| := by
      have := Int.zpow_log_le_self (b := 2) (r := |x|) (by norm_num) (abs_pos.2 hx0)
      exact_mod_cast this
    have h2 : |(m : ℚ) * 2 ^ e| ≤ 2 ^ (Int.log 2 |x|) := by
      rw [abs_mul, abs_of_pos (two_zpow_pos e)]
      have hm' : |(m : ℚ)| ≤ 2 ^ F.p := by exact_mod_cast hm
      calc |(m : ℚ)| * 2 ^ e ≤ 2 ^ F.p * 2 ^ e := mul_le_mul_of_nonneg_right hm' (two_zpow_pos e).le
        _ = 2 ^ ((F.p : Int) + e) := by rw [zpow_add₀ (by norm_num), zpow_natCast]
        _ ≤ _ := zpow_mono (by omega)
    generalize (2 : ℚ) ^ (Int.log 2 |x|) = L at hL h1 h2
    obtain ⟨a, b⟩ := abs_le.1 h2
    rcases lt_or_gt_of_ne hx0 with hx | hx
    · have := key (-2 ^ (F.p - 1))
      push_cast at this
      rw [neg_mul, ← hL] at this
      rw [abs_of_neg hx] at h1
      refine this.trans ?_
      rw [abs_of_nonneg (show 0 ≤ -L - x by linarith),
        abs_of_nonneg (show 0 ≤ (m : ℚ) * 2 ^ e - x by linarith)]
      linarith
    · have := key (2 ^ (F.p - 1))
      push_cast at this
      rw [← hL] at this
      rw [abs_of_pos hx] at h1
      refine this.trans ?_
      rw [abs_of_nonpos (show L - x ≤ 0 by linarith),
        abs_of_nonpos (show (m : ℚ) * 2 ^ e - x ≤ 0 by linarith)]
      linarith

theorem round_rep {F : Fmt} (hF : F.Ok) {x : ℚ} (h : F.Rep x) : F.round x = x := by
  have := round_nearest hF x x h
  rw [sub_self, abs_zero] at this
  have := abs_nonpos_iff.1 this
  linarith

theorem round_mono {F : Fmt} (hF : F.Ok) {x y : ℚ} (h : x ≤ y) : F.round x ≤ F.round y := by
  by_contra hlt
  rw [not_le] at hlt
  have h1 := round_nearest hF x _ (round_rep' F y)
  have h2 := round_nearest hF y _ (round_rep' F x)
  have a1 : F.round x + F.round y ≤ 2 * x := by
    by_contra hc
    rw [not_le] at hc
    have : |F.round y - x| < |F.round x - x| := by
      rw [abs_lt]
      constructor
      · have := le_abs_self (F.round x - x); linarith
      · have := le_abs_self (F.round x - x); linarith
    linarith
  have a2 : 2 * y ≤ F.round x + F.round y := by
    by_contra hc
    rw [not_le] at hc
    have : |F.round x - y| < |F.round y - y| := by
      rw [abs_lt]
      constructor
      · have := neg_abs_le (F.round y - y); linarith
      · have := neg_abs_le (F.round y - y); linarith
    linarith
  have : x = y := by linarith
  rw [this] at hlt
  exact lt_irrefl _ hlt

theorem rep_int {F : Fmt} (hF : F.Ok) {n : Int} (h : |n| ≤ 2 ^ F.p) : F.Rep (n : ℚ) :=
  ⟨n, 0, by have := hF.emin; omega, h, by simp⟩

theorem rep_one {F : Fmt} (hF : F.Ok) : F.Rep 1 := by
  have := rep_int hF (n := 1) (by
    have : (1 : Int) ≤ 2 ^ F.p := one_le_pow₀ (by norm_num)
    simpa using this)
  simpa using this

theorem rep_two {F : Fmt} (hF : F.Ok) : F.Rep 2 :=
  ⟨1, 1, by have := hF.emin; omega, by
    have : (1 : Int) ≤ 2 ^ F.p := one_le_pow₀ (by norm_num)
    simpa using this, by norm_num⟩

theorem rep_zero {F : Fmt} (hF : F.Ok) : F.Rep 0 := by
  simpa using rep_int hF (n := 0) (by simp)

theorem rep_neg {F : Fmt} {x : ℚ} (h : F.Rep x) : F.Rep (-x) := by
  obtain ⟨m, e, a, b, rfl⟩ := h
  exact ⟨-m, e, a, by simpa using b, by push_cast; ring⟩

/-- A number of a format is one of every larger format. -/
theorem rep_le {F G : Fmt} (h1 : F.p ≤ G.p) (h2 : G.emin ≤ F.emin) {x : ℚ} (h : F.Rep x) : G.Rep x := by
  obtain ⟨m, e, a, b, rfl⟩ := h
  exact ⟨m, e, by omega, b.trans (pow_le_pow_right₀ (by norm_num) h1), rfl⟩

/-- Bounds survive rounding if they are numbers of the format. -/
theorem round_le {F : Fmt} (hF : F.Ok) {x b : ℚ} (hb : F.Rep b) (h : x ≤ b) : F.round x ≤ b := by
  rw [← round_rep hF hb]
  exact round_mono hF h

theorem le_round {F : Fmt} (hF : F.Ok) {x b : ℚ} (hb : F.Rep b) (h : b ≤ x) : b ≤ F.round x := by
  rw [← round_rep hF hb]
  exact round_mono hF h

/-- Powers of two that are numbers of the format. -/
theorem rep_pow {F : Fmt} {k : Int} (h : F.emin ≤ k) : F.Rep (2 ^ k) :=
  ⟨1, k, h, by
    have : (1 : Int) ≤ 2 ^ F.p := one_le_pow₀ (by norm_num)
    simpa using this, by simp⟩

/-- The error of numbers up to `2 ^ k`. -/
theorem round_err_le {F : Fmt} (hF : F.Ok) {x : ℚ} {k : Int} (hx : |x| ≤ 2 ^ k) (hk : F.emin ≤ k - F.p) :
    |F.round x - x| ≤ 2 ^ (k - F.p) / 2 := by
  rcases eq_or_lt_of_le hx with h | h
  · have : F.Rep x := by
      have r := rep_pow (F := F) (k := k) (by omega)
      rcases abs_cases x with ⟨e, _⟩ | ⟨e, _⟩
      · rw [← e, h]; exact r
      · have : x = -2 ^ k := by linarith
        rw [this]; exact rep_neg r
    rw [round_rep hF this, sub_self, abs_zero]
    have := two_zpow_pos (k - F.p)
    positivity
  · by_cases hx0 : x = 0
    · rw [hx0, round_zero, sub_self, abs_zero]
      have := two_zpow_pos (k - F.p)
      positivity
    refine (round_err F x).trans ?_
    have hl : Int.log 2 |x| < k := by
      have h1 := Int.zpow_log_le_self (b := 2) (r := |x|) (by norm_num) (abs_pos.2 hx0)
      have h2 : (2 : ℚ) ^ (Int.log 2 |x|) < 2 ^ k := lt_of_le_of_lt (by exact_mod_cast h1) h
      exact (zpow_lt_zpow_iff_right₀ (by norm_num)).1 h2
    have : F.quantum x ≤ k - F.p := by
      unfold Fmt.quantum
      exact max_le (by omega) hk
    have := zpow_mono this
    linarith

/-- Differences of numbers between 1 and 2 and 1 are exact. -/
theorem rep_sub_one {F : Fmt} (hF : F.Ok) {x : ℚ} (h : F.Rep x) (h1 : 1 ≤ x) (h2 : x ≤ 2) :
    F.Rep (x - 1) := by
  obtain ⟨m, e, he, hm, rfl⟩ := h
  have hm' : |(m : ℚ)| ≤ 2 ^ F.p := by exact_mod_cast hm
  have hp := two_zpow_pos e
  have hpos : 0 < (m : ℚ) := by
    by_contra hc
    rw [not_lt] at hc
    nlinarith
  by_cases h0 : e ≤ 0
  · obtain ⟨k, hk⟩ := Int.le.dest h0
    have e1 : (2 : ℚ) ^ k * 2 ^ e = 1 := by
      rw [← zpow_natCast, ← zpow_add₀ (by norm_num), show (k : Int) + e = 0 by omega, zpow_zero]
    have hle : (2 : ℚ) ^ k ≤ m := by
      by_contra hc
      rw [not_le] at hc
      nlinarith
    have hle' : (2 : Int) ^ k ≤ m := by exact_mod_cast hle
    refine ⟨m - 2 ^ k, e, he, ?_, ?_⟩
    · have : (0 : Int) ≤ 2 ^ k := by positivity
      rw [abs_of_nonneg (by omega)]
      rw [abs_of_nonneg (by omega)] at hm
      omega
    · push_cast
      rw [sub_mul, e1]
  · have hm1 : (1 : ℚ) ≤ m := by
      have : (0 : Int) < m := by exact_mod_cast hpos
      exact_mod_cast this
    have : (2 : ℚ) ^ (1 : Int) ≤ 2 ^ e := zpow_mono (by omega)
    rw [zpow_one] at this
    have h3 : (m : ℚ) * 2 ^ e = 2 := by nlinarith
    rw [h3]
    have := rep_one hF
    norm_num
    exact this

/-- Numbers not below `2 ^ k` are multiples of `2 ^ (k + 1 - p)`. -/
theorem rep_multiple {F : Fmt} (hF : F.Ok) {z : ℚ} (h : F.Rep z) {k : Int} (hk : 2 ^ k ≤ z) :
    ∃ n : Int, z = n * 2 ^ (k + 1 - F.p) := by
  obtain ⟨m, e, he, hm, rfl⟩ := h
  have hm' : |(m : ℚ)| ≤ 2 ^ F.p := by exact_mod_cast hm
  have hp := two_zpow_pos e
  have h1 : (2 : ℚ) ^ k ≤ 2 ^ ((F.p : Int) + e) := by
    rw [zpow_add₀ (by norm_num), zpow_natCast]
    have := le_abs_self (m : ℚ)
    nlinarith
  have h2 : k ≤ F.p + e := (zpow_le_zpow_iff_right₀ (by norm_num)).1 h1
  by_cases h3 : k + 1 - F.p ≤ e
  · obtain ⟨j, hj⟩ := Int.le.dest h3
    refine ⟨m * 2 ^ j, ?_⟩
    rw [← hj, zpow_add₀ (by norm_num), zpow_natCast]
    push_cast
    ring
  · have h4 : k = F.p + e := by omega
    have h5 : (m : ℚ) = 2 ^ F.p := by
      have a := le_abs_self (m : ℚ)
      rw [h4, zpow_add₀ (by norm_num), zpow_natCast] at hk
      have := le_of_mul_le_mul_right hk hp
      linarith
    refine ⟨2 ^ (F.p - 1), ?_⟩
    rw [h5, h4]
    push_cast
    rw [← zpow_natCast, ← zpow_natCast, ← zpow_add₀ (by norm_num), ← zpow_add₀ (by norm_num)]
    congr 1
    have := hF.p
    omega

/-- Numbers nearer to `x` than half the spacing are rounded to `x`. -/
theorem round_eq {F : Fmt} (hF : F.Ok) {x y : ℚ} (hx : F.Rep x) {k : Int} (hk : F.emin ≤ k)
    (h1 : 2 ^ k ≤ x) (h2 : 2 ^ k ≤ y) (h : |y - x| < 2 ^ (k - F.p)) : F.round y = x := by
  have n := round_nearest hF y x hx
  have h3 : 2 ^ k ≤ F.round y := le_round hF (rep_pow hk) h2
  obtain ⟨a, ha⟩ := rep_multiple hF hx h1
  obtain ⟨b, hb⟩ := rep_multiple hF (round_rep' F y) h3
  rw [abs_sub_comm x y] at n
  have hd : |F.round y - x| < 2 ^ (k + 1 - (F.p : Int)) := by
    have e : (2 : ℚ) ^ (k + 1 - (F.p : Int)) = 2 * 2 ^ (k - (F.p : Int)) := by
      rw [show k + 1 - (F.p : Int) = 1 + (k - F.p) by ring, zpow_add₀ (by norm_num), zpow_one]
    rw [e]
    calc |F.round y - x| ≤ |F.round y - y| + |y - x| := abs_sub_le _ _ _
      _ < _ := by linarith
  have hp := two_zpow_pos (k + 1 - F.p)
  rw [hb, ha, ← sub_mul, abs_mul, abs_of_pos hp] at hd
  have h4 : |(b : ℚ) - a| < 1 := by
    by_contra hc
    rw [not_lt] at hc
    nlinarith
  have h5 : |b - a| < 1 := by exact_mod_cast h4
  have h6 : b = a := by
    have := abs_lt.1 h5
    omega
  rw [hb, ha, h6]

end Entity.Float
