import Verif.Lemmas.ShapesRec
import Verif.Lemmas.BSpline
import Mathlib.Tactic.IntervalCases

/-!
# The shape functions of the code are the cardinal B-splines; stencils
-/

namespace Entity.Shapes

open Finset

variable {K : Type} [Field K] [LinearOrder K] [IsStrictOrderedRing K]

theorem S1_bspline (x : K) : S1 |x| = bspline 1 x := by
  rw [bspline_succ 0 x]
  simp only [bspline, Nat.cast_zero, S1]
  rcases lt_or_ge x (-1) with h | h
  · rw [abs_of_neg (by linarith), if_neg (by linarith), if_neg (by rintro ⟨_, _⟩; linarith),
      if_neg (by rintro ⟨_, _⟩; linarith)]; ring
  rcases lt_or_ge x 0 with h' | h'
  · rw [abs_of_neg h', if_pos (c := -(1/2) ≤ x + 1/2 ∧ _) ⟨by linarith, by linarith⟩,
      if_neg (c := -(1/2) ≤ x - 1/2 ∧ _) (by rintro ⟨_, _⟩; linarith)]
    rcases eq_or_lt_of_le h with e | e
    · subst e; norm_num
    · rw [if_pos (by linarith)]; ring
  rcases lt_or_ge x 1 with h'' | h''
  · rw [abs_of_nonneg h', if_pos (by linarith), if_neg (by rintro ⟨_, _⟩; linarith),
      if_pos ⟨by linarith, by linarith⟩]; ring
  · rw [abs_of_nonneg h', if_neg (by linarith), if_neg (by rintro ⟨_, _⟩; linarith),
      if_neg (by rintro ⟨_, _⟩; linarith)]; ring

theorem S2_bspline (x : K) : S2 |x| = bspline 2 x := by
  rw [S2_rec, S1_bspline, S1_bspline, bspline_succ 1 x]
  norm_num

theorem S3_bspline (x : K) : S3 |x| = bspline 3 x := by
  rw [S3_rec, S2_bspline, S2_bspline, bspline_succ 2 x]
  norm_num

theorem S4_bspline (x : K) : S4 |x| = bspline 4 x := by
  rw [S4_rec, S3_bspline, S3_bspline, bspline_succ 3 x]
  norm_num

theorem S5_bspline (x : K) : S5 |x| = bspline 5 x := by
  rw [S5_rec, S4_bspline, S4_bspline, bspline_succ 4 x]
  norm_num

theorem S6_bspline (x : K) : S6 |x| = bspline 6 x := by
  rw [S6_rec, S5_bspline, S5_bspline, bspline_succ 5 x]
  norm_num

theorem S7_bspline (x : K) : S7 |x| = bspline 7 x := by
  rw [S7_rec, S6_bspline, S6_bspline, bspline_succ 6 x]
  norm_num

theorem S8_bspline (x : K) : S8 |x| = bspline 8 x := by
  rw [S8_rec, S7_bspline, S7_bspline, bspline_succ 7 x]
  norm_num

theorem S9_bspline (x : K) : S9 |x| = bspline 9 x := by
  rw [S9_rec, S8_bspline, S8_bspline, bspline_succ 8 x]
  norm_num

theorem S10_bspline (x : K) : S10 |x| = bspline 10 x := by
  rw [S10_rec, S9_bspline, S9_bspline, bspline_succ 9 x]
  norm_num

theorem S11_bspline (x : K) : S11 |x| = bspline 11 x := by
  rw [S11_rec, S10_bspline, S10_bspline, bspline_succ 10 x]
  norm_num

theorem shape_bspline (O : Nat) (h1 : 1 ≤ O) (h2 : O ≤ 11) (x : K) :
    shape O |x| = bspline O x := by
  interval_cases O
  · exact S1_bspline x
  · exact S2_bspline x
  · exact S3_bspline x
  · exact S4_bspline x
  · exact S5_bspline x
  · exact S6_bspline x
  · exact S7_bspline x
  · exact S8_bspline x
  · exact S9_bspline x
  · exact S10_bspline x
  · exact S11_bspline x

/-! ## A window of `O + 1` nodes -/

/-- Nodes `0 ... O` around a point `y` in the middle unit interval of the window. -/
theorem window_sum (O : Nat) (hO : 1 ≤ O) (y : K) (h0 : ((O : K) - 1) / 2 ≤ y)
    (h1 : y ≤ ((O : K) + 1) / 2) : ∑ n ∈ range (O + 1), bspline O (y - (n : K)) = 1 := by
  have key : ∀ y : K, ((O : K) - 1) / 2 ≤ y → y < ((O : K) + 1) / 2 →
      ∑ n ∈ range (O + 1), bspline O (y - (n : K)) = 1 := by
    intro y h0 h1
    rw [← bspline_sum O (y - ((O : K) - 1) / 2) (by linarith) (by linarith),
      ← sum_range_reflect]
    apply sum_congr rfl
    intro k hk
    have : k ≤ O := by simpa [Nat.lt_succ_iff] using hk
    rw [show O + 1 - 1 - k = O - k by omega, Nat.cast_sub this]
    congr 1; ring
  rcases lt_or_eq_of_le h1 with h | h
  · exact key y h0 h
  · have := key (y - 1) (by linarith) (by linarith)
    rw [sum_range_succ, show y - 1 - (O : K) = -(((O : K) + 1) / 2) by rw [h]; ring,
      bspline_left O hO, add_zero] at this
    rw [sum_range_succ', Nat.cast_zero, sub_zero, bspline_hi O y h.ge, add_zero]
    refine Eq.trans ?_ this
    apply sum_congr rfl
    intro k _; congr 1; push_cast; ring

theorem window_mean (O : Nat) (hO : 1 ≤ O) (y : K) (h0 : ((O : K) - 1) / 2 ≤ y)
    (h1 : y ≤ ((O : K) + 1) / 2) : ∑ n ∈ range (O + 1), (y - (n : K)) * bspline O (y - (n : K)) = 0 := by
  obtain ⟨m, rfl⟩ : ∃ m, O = m + 1 := ⟨O - 1, by omega⟩
  have key : ∀ y : K, (((m + 1 : Nat) : K) - 1) / 2 ≤ y → y < (((m + 1 : Nat) : K) + 1) / 2 →
      ∑ n ∈ range (m + 1 + 1), (y - (n : K)) * bspline (m + 1) (y - (n : K)) = 0 := by
    intro y h0 h1
    push_cast at h0 h1
    rw [← bspline_mean m (y - (((m + 1 : Nat) : K) - 1) / 2) (by push_cast; linarith)
      (by push_cast; linarith), ← sum_range_reflect]
    apply sum_congr rfl
    intro k hk
    have : k ≤ m + 1 := by simpa [Nat.lt_succ_iff] using hk
    rw [show m + 1 + 1 - 1 - k = m + 1 - k by omega, Nat.cast_sub this]
    rw [show y - (((m + 1 : Nat) : K) - (k : K)) =
      y - (((m + 1 : Nat) : K) - 1) / 2 + (k : K) - ((m : K) + 2) / 2 by push_cast; ring]
  rcases lt_or_eq_of_le h1 with h | h
  · exact key y h0 h
  · have := key (y - 1) (by linarith) (by linarith)
    rw [sum_range_succ, show y - 1 - ((m + 1 : Nat) : K) = -((((m + 1 : Nat) : K) + 1) / 2) by
      rw [h]; ring, bspline_left (m + 1) hO, mul_zero, add_zero] at this
    rw [sum_range_succ', Nat.cast_zero, sub_zero, bspline_hi (m + 1) y h.ge, mul_zero, add_zero]
    refine Eq.trans ?_ this
    apply sum_congr rfl
    intro k _
    rw [show y - ((k + 1 : Nat) : K) = y - 1 - k by push_cast; ring]

theorem window_out (O : Nat) (hO : 1 ≤ O) (y : K) (h0 : ((O : K) - 1) / 2 ≤ y)
    (h1 : y ≤ ((O : K) + 1) / 2) (m : Int) (hm : m < 0 ∨ (O : Int) < m) :
    bspline O (y - (m : K)) = 0 := by
  rcases hm with h | h
  · have : (m : K) ≤ -1 := by exact_mod_cast (by omega : m ≤ -1)
    exact bspline_hi O _ (by linarith)
  · have : (O : K) + 1 ≤ (m : K) := by exact_mod_cast (by omega : (O : Int) + 1 ≤ m)
    rcases lt_or_eq_of_le (show y - (m : K) ≤ -(((O : K) + 1) / 2) by linarith) with h' | h'
    · exact bspline_lo O _ h'
    · rw [h', bspline_left O hO]

/-! ## `order` -/

/-- Position of node `m` of the grid or of the staggered grid. -/
def nodeAt (staggered : Bool) (m : Int) : K := (m : K) + if staggered then 1/2 else 0

theorem bspline1_left {y : K} (h0 : -1 ≤ y) (h1 : y ≤ 0) : bspline 1 y = 1 + y := by
  rw [← S1_bspline, abs_of_nonpos h1, S1]
  split_ifs <;> linarith

theorem bspline1_right {y : K} (h0 : 0 ≤ y) (h1 : y ≤ 1) : bspline 1 y = 1 - y := by
  rw [← S1_bspline, abs_of_nonneg h0, S1]
  split_ifs <;> linarith

theorem bspline2_right {y : K} (h0 : 1/2 ≤ y) (h1 : y ≤ 3/2) :
    bspline 2 y = 1/2 * (3/2 - y)^2 := by
  rw [← S2_bspline, abs_of_nonneg (by linarith)]
  rcases lt_or_eq_of_le h1 with h | h
  · rw [S2_p1 h0 h]
  · rw [S2_out h.ge, h]; norm_num

theorem bspline2_left {y : K} (h0 : -(3/2) ≤ y) (h1 : y ≤ -(1/2)) :
    bspline 2 y = 1/2 * (3/2 + y)^2 := by
  rw [show y = -(-y) by ring, bspline_even_succ 1, bspline2_right (by linarith) (by linarith)]
  ring

theorem bspline2_mid {y : K} (h0 : -(1/2) ≤ y) (h1 : y ≤ 1/2) : bspline 2 y = 3/4 - y^2 := by
  have key : ∀ y : K, 0 ≤ y → y ≤ 1/2 → bspline 2 y = 3/4 - y^2 := by
    intro y h0 h1
    rcases lt_or_eq_of_le h1 with h | h
    · rw [← S2_bspline, abs_of_nonneg h0, S2_p0 h]
    · rw [bspline2_right h.ge (by linarith), h]; norm_num
  rcases le_total 0 y with h | h
  · exact key y h h1
  · rw [show y = -(-y) by ring, bspline_even_succ 1, key (-y) (by linarith) (by linarith)]
    ring

theorem nodeAt_false (m : Int) : (nodeAt false m : K) = m := by simp [nodeAt]
theorem nodeAt_true (m : Int) : (nodeAt true m : K) = m + 1/2 := by simp [nodeAt]

theorem order_spec (st : Bool) (O : Nat) (h1 : 1 ≤ O) (h2 : O ≤ 11) (i : Int) (di : K)
    (d0 : 0 ≤ di) (d1 : di ≤ 1) : ∃ iMin S, order st O i di = .ok (iMin, S) ∧
      (∀ n, n ≤ O → S n = bspline O ((i : K) + di - nodeAt st (iMin + (n : Int)))) ∧
      ((O : K) - 1) / 2 ≤ (i : K) + di - nodeAt st iMin ∧
      (i : K) + di - nodeAt st iMin ≤ ((O : K) + 1) / 2 := by
  interval_cases O
  · cases st
    · refine ⟨_, _, rfl, ?_, ?_, ?_⟩
      · intro n hn
        interval_cases n
        · rw [bspline1_right (by simp only [nodeAt_false, nodeAt_true]; push_cast; linarith)
            (by simp only [nodeAt_false, nodeAt_true]; push_cast; linarith)]
          simp only [nodeAt_false, nodeAt_true]; push_cast; norm_num; try ring
        · rw [bspline1_left (by simp only [nodeAt_false, nodeAt_true]; push_cast; linarith)
            (by simp only [nodeAt_false, nodeAt_true]; push_cast; linarith)]
          simp only [nodeAt_false, nodeAt_true]; push_cast; norm_num; try ring
      · simp only [nodeAt_false, nodeAt_true]; push_cast; linarith
      · simp only [nodeAt_false, nodeAt_true]; push_cast; linarith
    · by_cases h : di < 1/2
      · rw [show order true 1 i di = _ from if_pos h]
        refine ⟨_, _, rfl, ?_, ?_, ?_⟩
        · intro n hn
          interval_cases n
          · rw [bspline1_right (by simp only [nodeAt_false, nodeAt_true]; push_cast; linarith)
              (by simp only [nodeAt_false, nodeAt_true]; push_cast; linarith)]
            simp only [nodeAt_false, nodeAt_true]; push_cast; norm_num; try ring
          · rw [bspline1_left (by simp only [nodeAt_false, nodeAt_true]; push_cast; linarith)
              (by simp only [nodeAt_false, nodeAt_true]; push_cast; linarith)]
            simp only [nodeAt_false, nodeAt_true]; push_cast; norm_num; try ring
        · simp only [nodeAt_false, nodeAt_true]; push_cast; linarith
        · simp only [nodeAt_false, nodeAt_true]; push_cast; linarith
      · rw [show order true 1 i di = _ from if_neg h]
        rw [not_lt] at h
        refine ⟨_, _, rfl, ?_, ?_, ?_⟩
        · intro n hn
          interval_cases n
          · rw [bspline1_right (by simp only [nodeAt_false, nodeAt_true]; push_cast; linarith)
              (by simp only [nodeAt_false, nodeAt_true]; push_cast; linarith)]
            simp only [nodeAt_false, nodeAt_true]; push_cast; norm_num; try ring
          · rw [bspline1_left (by simp only [nodeAt_false, nodeAt_true]; push_cast; linarith)
              (by simp only [nodeAt_false, nodeAt_true]; push_cast; linarith)]
            simp only [nodeAt_false, nodeAt_true]; push_cast; norm_num; try ring
        · simp only [nodeAt_false, nodeAt_true]; push_cast; linarith
        · simp only [nodeAt_false, nodeAt_true]; push_cast; linarith
  · cases st
    · by_cases h : di < 1/2
      · rw [show order false 2 i di = _ from if_pos h]
        refine ⟨_, _, rfl, ?_, ?_, ?_⟩
        · intro n hn
          interval_cases n
          · rw [bspline2_right (by simp only [nodeAt_false, nodeAt_true]; push_cast; linarith)
              (by simp only [nodeAt_false, nodeAt_true]; push_cast; linarith)]
            simp only [nodeAt_false, nodeAt_true]; push_cast; norm_num; try ring
          · rw [bspline2_mid (by simp only [nodeAt_false, nodeAt_true]; push_cast; linarith)
              (by simp only [nodeAt_false, nodeAt_true]; push_cast; linarith)]
            simp only [nodeAt_false, nodeAt_true]; push_cast; norm_num; try ring
          · rw [bspline2_left (by simp only [nodeAt_false, nodeAt_true]; push_cast; linarith)
              (by simp only [nodeAt_false, nodeAt_true]; push_cast; linarith)]
            simp only [nodeAt_false, nodeAt_true]; push_cast; norm_num; try ring
        · simp only [nodeAt_false, nodeAt_true]; push_cast; linarith
        · simp only [nodeAt_false, nodeAt_true]; push_cast; linarith
      · rw [show order false 2 i di = _ from if_neg h]
        rw [not_lt] at h
        refine ⟨_, _, rfl, ?_, ?_, ?_⟩
        · intro n hn
          interval_cases n
          · rw [bspline2_right (by simp only [nodeAt_false, nodeAt_true]; push_cast; linarith)
              (by simp only [nodeAt_false, nodeAt_true]; push_cast; linarith)]
            simp only [nodeAt_false, nodeAt_true]; push_cast; norm_num; try ring
          · rw [bspline2_mid (by simp only [nodeAt_false, nodeAt_true]; push_cast; linarith)
              (by simp only [nodeAt_false, nodeAt_true]; push_cast; linarith)]
            simp only [nodeAt_false, nodeAt_true]; push_cast; norm_num; try ring
          · rw [bspline2_left (by simp only [nodeAt_false, nodeAt_true]; push_cast; linarith)
              (by simp only [nodeAt_false, nodeAt_true]; push_cast; linarith)]
            simp only [nodeAt_false, nodeAt_true]; push_cast; norm_num; try ring
        · simp only [nodeAt_false, nodeAt_true]; push_cast; linarith
        · simp only [nodeAt_false, nodeAt_true]; push_cast; linarith
    · refine ⟨_, _, rfl, ?_, ?_, ?_⟩
      · intro n hn
        interval_cases n
        · rw [bspline2_right (by simp only [nodeAt_false, nodeAt_true]; push_cast; linarith)
            (by simp only [nodeAt_false, nodeAt_true]; push_cast; linarith)]
          simp only [nodeAt_false, nodeAt_true]; push_cast; norm_num; try ring
        · rw [bspline2_mid (by simp only [nodeAt_false, nodeAt_true]; push_cast; linarith)
            (by simp only [nodeAt_false, nodeAt_true]; push_cast; linarith)]
          simp only [nodeAt_false, nodeAt_true]; push_cast; norm_num; try ring
        · rw [bspline2_left (by simp only [nodeAt_false, nodeAt_true]; push_cast; linarith)
            (by simp only [nodeAt_false, nodeAt_true]; push_cast; linarith)]
          simp only [nodeAt_false, nodeAt_true]; push_cast; norm_num; try ring
      · simp only [nodeAt_false, nodeAt_true]; push_cast; linarith
      · simp only [nodeAt_false, nodeAt_true]; push_cast; linarith
  · cases st
    · refine ⟨_, _, rfl, ?_, ?_, ?_⟩
      · intro n _
        rw [shape_bspline 3 (by norm_num) (by norm_num)]
        congr 1; simp only [nodeAt_false, nodeAt_true]; push_cast; ring
      · simp only [nodeAt_false, nodeAt_true]; push_cast; linarith
      · simp only [nodeAt_false, nodeAt_true]; push_cast; linarith
    · by_cases h : di < 1/2
      · simp only [order, orderBase, if_pos h]
        refine ⟨_, _, rfl, ?_, ?_, ?_⟩
        · intro n _
          rw [shape_bspline 3 (by norm_num) (by norm_num)]
          congr 1; simp only [nodeAt_false, nodeAt_true]; push_cast; ring
        · simp only [nodeAt_false, nodeAt_true]; push_cast; linarith
        · simp only [nodeAt_false, nodeAt_true]; push_cast; linarith
      · simp only [order, orderBase, if_neg h]
        rw [not_lt] at h
        refine ⟨_, _, rfl, ?_, ?_, ?_⟩
        · intro n _
          rw [shape_bspline 3 (by norm_num) (by norm_num)]
          congr 1; simp only [nodeAt_false, nodeAt_true]; push_cast; ring
        · simp only [nodeAt_false, nodeAt_true]; push_cast; linarith
        · simp only [nodeAt_false, nodeAt_true]; push_cast; linarith
  · cases st
    · by_cases h : di < 1/2
      · simp only [order, orderBase, if_pos h]
        refine ⟨_, _, rfl, ?_, ?_, ?_⟩
        · intro n _
          rw [shape_bspline 4 (by norm_num) (by norm_num)]
          congr 1; simp only [nodeAt_false, nodeAt_true]; push_cast; ring
        · simp only [nodeAt_false, nodeAt_true]; push_cast; linarith
        · simp only [nodeAt_false, nodeAt_true]; push_cast; linarith
      · simp only [order, orderBase, if_neg h]
        rw [not_lt] at h
        refine ⟨_, _, rfl, ?_, ?_, ?_⟩
        · intro n _
          rw [shape_bspline 4 (by norm_num) (by norm_num)]
          congr 1; simp only [nodeAt_false, nodeAt_true]; push_cast; ring
        · simp only [nodeAt_false, nodeAt_true]; push_cast; linarith
        · simp only [nodeAt_false, nodeAt_true]; push_cast; linarith
    · refine ⟨_, _, rfl, ?_, ?_, ?_⟩
      · intro n _
        rw [shape_bspline 4 (by norm_num) (by norm_num)]
        congr 1; simp only [nodeAt_false, nodeAt_true]; push_cast; ring
      · simp only [nodeAt_false, nodeAt_true]; push_cast; linarith
      · simp only [nodeAt_false, nodeAt_true]; push_cast; linarith
  · cases st
    · refine ⟨_, _, rfl, ?_, ?_, ?_⟩
      · intro n _
        rw [shape_bspline 5 (by norm_num) (by norm_num)]
        congr 1; simp only [nodeAt_false, nodeAt_true]; push_cast; ring
      · simp only [nodeAt_false, nodeAt_true]; push_cast; linarith
      · simp only [nodeAt_false, nodeAt_true]; push_cast; linarith
    · by_cases h : di < 1/2
      · simp only [order, orderBase, if_pos h]
        refine ⟨_, _, rfl, ?_, ?_, ?_⟩
        · intro n _
          rw [shape_bspline 5 (by norm_num) (by norm_num)]
          congr 1; simp only [nodeAt_false, nodeAt_true]; push_cast; ring
        · simp only [nodeAt_false, nodeAt_true]; push_cast; linarith
        · simp only [nodeAt_false, nodeAt_true]; push_cast; linarith
      · simp only [order, orderBase, if_neg h]
        rw [not_lt] at h
        refine ⟨_, _, rfl, ?_, ?_, ?_⟩
        · intro n _
          rw [shape_bspline 5 (by norm_num) (by norm_num)]
          congr 1; simp only [nodeAt_false, nodeAt_true]; push_cast; ring
        · simp only [nodeAt_false, nodeAt_true]; push_cast; linarith
        · simp only [nodeAt_false, nodeAt_true]; push_cast; linarith
  · cases st
    · by_cases h : di < 1/2
      · simp only [order, orderBase, if_pos h]
        refine ⟨_, _, rfl, ?_, ?_, ?_⟩
        · intro n _
          rw [shape_bspline 6 (by norm_num) (by norm_num)]
          congr 1; simp only [nodeAt_false, nodeAt_true]; push_cast; ring
        · simp only [nodeAt_false, nodeAt_true]; push_cast; linarith
        · simp only [nodeAt_false, nodeAt_true]; push_cast; linarith
      · simp only [order, orderBase, if_neg h]
        rw [not_lt] at h
        refine ⟨_, _, rfl, ?_, ?_, ?_⟩
        · intro n _
          rw [shape_bspline 6 (by norm_num) (by norm_num)]
          congr 1; simp only [nodeAt_false, nodeAt_true]; push_cast; ring
        · simp only [nodeAt_false, nodeAt_true]; push_cast; linarith
        · simp only [nodeAt_false, nodeAt_true]; push_cast; linarith
    · refine ⟨_, _, rfl, ?_, ?_, ?_⟩
      · intro n _
        rw [shape_bspline 6 (by norm_num) (by norm_num)]
        congr 1; simp only [nodeAt_false, nodeAt_true]; push_cast; ring
      · simp only [nodeAt_false, nodeAt_true]; push_cast; linarith
      · simp only [nodeAt_false, nodeAt_true]; push_cast; linarith
  · cases st
    · refine ⟨_, _, rfl, ?_, ?_, ?_⟩
      · intro n _
        rw [shape_bspline 7 (by norm_num) (by norm_num)]
        congr 1; simp only [nodeAt_false, nodeAt_true]; push_cast; ring
      · simp only [nodeAt_false, nodeAt_true]; push_cast; linarith
      · simp only [nodeAt_false, nodeAt_true]; push_cast; linarith
    · by_cases h : di < 1/2
      · simp only [order, orderBase, if_pos h]
        refine ⟨_, _, rfl, ?_, ?_, ?_⟩
        · intro n _
          rw [shape_bspline 7 (by norm_num) (by norm_num)]
          congr 1; simp only [nodeAt_false, nodeAt_true]; push_cast; ring
        · simp only [nodeAt_false, nodeAt_true]; push_cast; linarith
        · simp only [nodeAt_false, nodeAt_true]; push_cast; linarith
      · simp only [order, orderBase, if_neg h]
        rw [not_lt] at h
        refine ⟨_, _, rfl, ?_, ?_, ?_⟩
        · intro n _
          rw [shape_bspline 7 (by norm_num) (by norm_num)]
          congr 1; simp only [nodeAt_false, nodeAt_true]; push_cast; ring
        · simp only [nodeAt_false, nodeAt_true]; push_cast; linarith
        · simp only [nodeAt_false, nodeAt_true]; push_cast; linarith
  · cases st
    · by_cases h : di < 1/2
      · simp only [order, orderBase, if_pos h]
        refine ⟨_, _, rfl, ?_, ?_, ?_⟩
        · intro n _
          rw [shape_bspline 8 (by norm_num) (by norm_num)]
          congr 1; simp only [nodeAt_false, nodeAt_true]; push_cast; ring
        · simp only [nodeAt_false, nodeAt_true]; push_cast; linarith
        · simp only [nodeAt_false, nodeAt_true]; push_cast; linarith
      · simp only [order, orderBase, if_neg h]
        rw [not_lt] at h
        refine ⟨_, _, rfl, ?_, ?_, ?_⟩
        · intro n _
          rw [shape_bspline 8 (by norm_num) (by norm_num)]
          congr 1; simp only [nodeAt_false, nodeAt_true]; push_cast; ring
        · simp only [nodeAt_false, nodeAt_true]; push_cast; linarith
        · simp only [nodeAt_false, nodeAt_true]; push_cast; linarith
    · refine ⟨_, _, rfl, ?_, ?_, ?_⟩
      · intro n _
        rw [shape_bspline 8 (by norm_num) (by norm_num)]
        congr 1; simp only [nodeAt_false, nodeAt_true]; push_cast; ring
      · simp only [nodeAt_false, nodeAt_true]; push_cast; linarith
      · simp only [nodeAt_false, nodeAt_true]; push_cast; linarith
  · cases st
    · refine ⟨_, _, rfl, ?_, ?_, ?_⟩
      · intro n _
        rw [shape_bspline 9 (by norm_num) (by norm_num)]
        congr 1; simp only [nodeAt_false, nodeAt_true]; push_cast; ring
      · simp only [nodeAt_false, nodeAt_true]; push_cast; linarith
      · simp only [nodeAt_false, nodeAt_true]; push_cast; linarith
    · by_cases h : di < 1/2
      · simp only [order, orderBase, if_pos h]
        refine ⟨_, _, rfl, ?_, ?_, ?_⟩
        · intro n _
          rw [shape_bspline 9 (by norm_num) (by norm_num)]
          congr 1; simp only [nodeAt_false, nodeAt_true]; push_cast; ring
        · simp only [nodeAt_false, nodeAt_true]; push_cast; linarith
        · simp only [nodeAt_false, nodeAt_true]; push_cast; linarith
      · simp only [order, orderBase, if_neg h]
        rw [not_lt] at h
        refine ⟨_, _, rfl, ?_, ?_, ?_⟩
        · intro n _
          rw [shape_bspline 9 (by norm_num) (by norm_num)]
          congr 1; simp only [nodeAt_false, nodeAt_true]; push_cast; ring
        · simp only [nodeAt_false, nodeAt_true]; push_cast; linarith
        · simp only [nodeAt_false, nodeAt_true]; push_cast; linarith
  · cases st
    · by_cases h : di < 1/2
      · simp only [order, orderBase, if_pos h]
        refine ⟨_, _, rfl, ?_, ?_, ?_⟩
        · intro n _
          rw [shape_bspline 10 (by norm_num) (by norm_num)]
          congr 1; simp only [nodeAt_false, nodeAt_true]; push_cast; ring
        · simp only [nodeAt_false, nodeAt_true]; push_cast; linarith
        · simp only [nodeAt_false, nodeAt_true]; push_cast; linarith
      · simp only [order, orderBase, if_neg h]
        rw [not_lt] at h
        refine ⟨_, _, rfl, ?_, ?_, ?_⟩
        · intro n _
          rw [shape_bspline 10 (by norm_num) (by norm_num)]
          congr 1; simp only [nodeAt_false, nodeAt_true]; push_cast; ring
        · simp only [nodeAt_false, nodeAt_true]; push_cast; linarith
        · simp only [nodeAt_false, nodeAt_true]; push_cast; linarith
    · refine ⟨_, _, rfl, ?_, ?_, ?_⟩
      · intro n _
        rw [shape_bspline 10 (by norm_num) (by norm_num)]
        congr 1; simp only [nodeAt_false, nodeAt_true]; push_cast; ring
      · simp only [nodeAt_false, nodeAt_true]; push_cast; linarith
      · simp only [nodeAt_false, nodeAt_true]; push_cast; linarith
  · cases st
    · refine ⟨_, _, rfl, ?_, ?_, ?_⟩
      · intro n _
        rw [shape_bspline 11 (by norm_num) (by norm_num)]
        congr 1; simp only [nodeAt_false, nodeAt_true]; push_cast; ring
      · simp only [nodeAt_false, nodeAt_true]; push_cast; linarith
      · simp only [nodeAt_false, nodeAt_true]; push_cast; linarith
    · by_cases h : di < 1/2
      · simp only [order, orderBase, if_pos h]
        refine ⟨_, _, rfl, ?_, ?_, ?_⟩
        · intro n _
          rw [shape_bspline 11 (by norm_num) (by norm_num)]
          congr 1; simp only [nodeAt_false, nodeAt_true]; push_cast; ring
        · simp only [nodeAt_false, nodeAt_true]; push_cast; linarith
        · simp only [nodeAt_false, nodeAt_true]; push_cast; linarith
      · simp only [order, orderBase, if_neg h]
        rw [not_lt] at h
        refine ⟨_, _, rfl, ?_, ?_, ?_⟩
        · intro n _
          rw [shape_bspline 11 (by norm_num) (by norm_num)]
          congr 1; simp only [nodeAt_false, nodeAt_true]; push_cast; ring
        · simp only [nodeAt_false, nodeAt_true]; push_cast; linarith
        · simp only [nodeAt_false, nodeAt_true]; push_cast; linarith

end Entity.Shapes
