import Mathlib.Algebra.Order.Field.Basic
import Mathlib.Algebra.BigOperators.Group.Finset.Basic
import Mathlib.Algebra.BigOperators.Ring.Finset
import Mathlib.Algebra.BigOperators.Field
import Mathlib.Algebra.BigOperators.Intervals
import Mathlib.Tactic.Ring
import Mathlib.Tactic.FieldSimp
import Mathlib.Tactic.Linarith
import Mathlib.Tactic.Positivity
import Mathlib.Tactic.LinearCombination

/-!
# Centred cardinal B-splines

The specification of the particle shapes: the centred cardinal B-spline of degree `n`, by the
recurrence of Cox and de Boor, and its general theory (all degrees): support, sign, partition of
unity, centre of mass.  Nothing here refers to the code.
-/

namespace Entity.Shapes

open Finset

variable {K : Type} [Field K] [LinearOrder K] [IsStrictOrderedRing K]

/-- The centred cardinal B-spline of degree `n`. -/
def bspline : Nat → K → K
  | 0, x => if -(1/2) ≤ x ∧ x < 1/2 then 1 else 0
  | n + 1, x =>
    ((x + ((n : K) + 2) / 2) * bspline n (x + 1/2) +
      (((n : K) + 2) / 2 - x) * bspline n (x - 1/2)) / ((n : K) + 1)

theorem bspline_succ (n : Nat) (x : K) : bspline (n + 1) x =
    ((x + ((n : K) + 2) / 2) * bspline n (x + 1/2) +
      (((n : K) + 2) / 2 - x) * bspline n (x - 1/2)) / ((n : K) + 1) := rfl

theorem bspline_lo (n : Nat) : ∀ x : K, x < -(((n : K) + 1) / 2) → bspline n x = 0 := by
  induction n with
  | zero => intro x h; simp only [bspline]; rw [if_neg]; rintro ⟨h1, _⟩; push_cast at h; linarith
  | succ n ih =>
    intro x h
    push_cast at h
    simp only [bspline]
    rw [ih _ (by linarith), ih _ (by linarith)]; simp

theorem bspline_hi (n : Nat) : ∀ x : K, ((n : K) + 1) / 2 ≤ x → bspline n x = 0 := by
  induction n with
  | zero => intro x h; simp only [bspline]; rw [if_neg]; rintro ⟨_, h1⟩; push_cast at h; linarith
  | succ n ih =>
    intro x h
    push_cast at h
    simp only [bspline]
    rw [ih _ (by linarith), ih _ (by linarith)]; simp

/-- From degree one on the spline vanishes at the left end of its support. -/
theorem bspline_left (n : Nat) (hn : 1 ≤ n) : bspline n (-(((n : K) + 1) / 2)) = 0 := by
  obtain ⟨m, rfl⟩ : ∃ m, n = m + 1 := ⟨n - 1, by omega⟩
  simp only [bspline]
  rw [bspline_lo m (_ - 1/2) (by push_cast; linarith)]
  have : (-((((m + 1 : Nat) : K) + 1) / 2) + ((m : K) + 2) / 2) = 0 := by push_cast; ring
  rw [this]; simp

theorem bspline_nonneg (n : Nat) : ∀ x : K, 0 ≤ bspline n x := by
  induction n with
  | zero => intro x; simp only [bspline]; split_ifs <;> norm_num
  | succ n ih =>
    intro x
    rcases lt_or_ge x (-((((n + 1 : Nat) : K) + 1) / 2)) with h | h
    · exact (bspline_lo _ _ h).ge
    rcases le_or_gt ((((n + 1 : Nat) : K) + 1) / 2) x with h' | h'
    · exact (bspline_hi _ _ h').ge
    push_cast at h h'
    simp only [bspline]
    have h1 := ih (x + 1/2)
    have h2 := ih (x - 1/2)
    have a1 : 0 ≤ x + ((n : K) + 2) / 2 := by linarith
    have a2 : 0 ≤ ((n : K) + 2) / 2 - x := by linarith
    positivity

theorem bspline_even_succ (n : Nat) : ∀ x : K, bspline (n + 1) (-x) = bspline (n + 1) x := by
  induction n with
  | zero =>
    intro x
    simp only [bspline, Nat.cast_zero]
    rcases lt_trichotomy x 0 with h | h | h
    · rcases lt_or_ge x (-1) with h' | h'
      · rw [if_neg (by rintro ⟨_, _⟩; linarith), if_neg (by rintro ⟨_, _⟩; linarith),
          if_neg (by rintro ⟨_, _⟩; linarith), if_neg (by rintro ⟨_, _⟩; linarith)]; ring
      rcases eq_or_lt_of_le h' with e | h''
      · subst e; norm_num
      · rw [if_neg (by rintro ⟨_, _⟩; linarith), if_pos ⟨by linarith, by linarith⟩,
          if_pos ⟨by linarith, by linarith⟩, if_neg (by rintro ⟨_, _⟩; linarith)]; ring
    · subst h; norm_num
    · rcases lt_or_ge 1 x with h' | h'
      · rw [if_neg (by rintro ⟨_, _⟩; linarith), if_neg (by rintro ⟨_, _⟩; linarith),
          if_neg (by rintro ⟨_, _⟩; linarith), if_neg (by rintro ⟨_, _⟩; linarith)]; ring
      rcases eq_or_lt_of_le h' with e | h''
      · subst e; norm_num
      · rw [if_pos ⟨by linarith, by linarith⟩, if_neg (by rintro ⟨_, _⟩; linarith),
          if_neg (by rintro ⟨_, _⟩; linarith), if_pos ⟨by linarith, by linarith⟩]; ring
  | succ n ih =>
    intro x
    rw [bspline_succ _ (-x), bspline_succ _ x]
    rw [show -x + 1/2 = -(x - 1/2) by ring, show -x - 1/2 = -(x + 1/2) by ring, ih, ih]
    ring

/-- One step of the recurrence, with the argument written as `t + k` from the left end. -/
theorem bspline_step (n : Nat) (t k : K) :
    bspline (n + 1) (t + k - ((n : K) + 2) / 2) =
      ((t + k) * bspline n (t + k - ((n : K) + 1) / 2) +
        ((n : K) + 2 - k - t) * bspline n (t + (k - 1) - ((n : K) + 1) / 2)) / ((n : K) + 1) := by
  rw [bspline]
  rw [show t + k - ((n : K) + 2) / 2 + 1 / 2 = t + k - ((n : K) + 1) / 2 by ring,
    show t + k - ((n : K) + 2) / 2 - 1 / 2 = t + (k - 1) - ((n : K) + 1) / 2 by ring]
  ring

/-- The `n + 1` splines that do not vanish at a point add up to one. -/
theorem bspline_sum (n : Nat) (t : K) (h0 : 0 ≤ t) (h1 : t < 1) :
    ∑ k ∈ range (n + 1), bspline n (t + (k : K) - ((n : K) + 1) / 2) = 1 := by
  induction n with
  | zero =>
    simp only [zero_add, range_one, sum_singleton, bspline, Nat.cast_zero]
    rw [if_pos ⟨by linarith, by linarith⟩]
  | succ n ih =>
    have hn : ((n : K) + 1) ≠ 0 := by positivity
    have e : ∀ k : Nat, bspline (n + 1) (t + (k : K) - (((n + 1 : Nat) : K) + 1) / 2) =
        ((t + k) * bspline n (t + k - ((n : K) + 1) / 2) +
        ((n : K) + 2 - k - t) * bspline n (t + ((k : K) - 1) - ((n : K) + 1) / 2)) /
          ((n : K) + 1) := by
      intro k; rw [← bspline_step]; congr 1; push_cast; ring
    simp only [e]
    rw [← sum_div, sum_add_distrib]
    rw [sum_range_succ (fun k : Nat => (t + (k : K)) * _), bspline_hi n (t + ((n + 1 : Nat) : K) - _)
      (by push_cast; linarith)]
    rw [sum_range_succ' (fun k : Nat => ((n : K) + 2 - k - t) * _),
      bspline_lo n (t + (((0 : Nat) : K) - 1) - _) (by push_cast; linarith)]
    rw [mul_zero, mul_zero, add_zero, add_zero, ← sum_add_distrib]
    rw [div_eq_iff hn, one_mul]
    refine Eq.trans ?_ (show ((n : K) + 1) *
      ∑ k ∈ range (n + 1), bspline n (t + (k : K) - ((n : K) + 1) / 2) = (n : K) + 1 by
        rw [ih, mul_one])
    rw [mul_sum]
    apply sum_congr rfl
    intro k _
    push_cast
    rw [show t + ((k : K) + 1 - 1) - ((n : K) + 1) / 2 = t + k - ((n : K) + 1) / 2 by ring]
    ring

/-- Their centre is at the point (degree at least one). -/
theorem bspline_mean (n : Nat) (t : K) (h0 : 0 ≤ t) (h1 : t < 1) :
    ∑ k ∈ range (n + 2), (t + (k : K) - ((n : K) + 2) / 2) *
      bspline (n + 1) (t + (k : K) - ((n : K) + 2) / 2) = 0 := by
  induction n with
  | zero =>
    simp only [zero_add, sum_range_succ, range_zero, sum_empty, bspline, Nat.cast_zero,
      Nat.cast_one]
    rw [if_pos ⟨by linarith, by linarith⟩, if_neg (by rintro ⟨_, _⟩; linarith),
      if_neg (by rintro ⟨_, _⟩; linarith), if_pos ⟨by linarith, by linarith⟩]
    ring
  | succ n ih =>
    have hn : ((n : K) + 2) ≠ 0 := by positivity
    have hs := bspline_sum (n + 1) t h0 h1
    have e : ∀ k : Nat, bspline (n + 1 + 1) (t + (k : K) - (((n + 1 : Nat) : K) + 2) / 2) =
        ((t + k) * bspline (n + 1) (t + k - ((n : K) + 2) / 2) +
        ((n : K) + 3 - k - t) * bspline (n + 1) (t + ((k : K) - 1) - ((n : K) + 2) / 2)) /
          ((n : K) + 2) := by
      intro k
      rw [bspline_step (n + 1) t k]; push_cast
      rw [show (n : K) + 1 + 1 = n + 2 by ring, show (n : K) + 1 + 2 = n + 3 by ring]
    simp only [e]
    have e2 : ∀ k : Nat, (t + (k : K) - (((n + 1 : Nat) : K) + 2) / 2) *
        (((t + k) * bspline (n + 1) (t + k - ((n : K) + 2) / 2) +
        ((n : K) + 3 - k - t) * bspline (n + 1) (t + ((k : K) - 1) - ((n : K) + 2) / 2)) /
          ((n : K) + 2)) =
        ((t + (k : K) - ((n : K) + 3) / 2) * (t + k) *
            bspline (n + 1) (t + k - ((n : K) + 2) / 2) +
          (t + (k : K) - ((n : K) + 3) / 2) * ((n : K) + 3 - k - t) *
            bspline (n + 1) (t + ((k : K) - 1) - ((n : K) + 2) / 2)) / ((n : K) + 2) := by
      intro k; push_cast; ring
    simp only [e2]
    rw [← sum_div, sum_add_distrib]
    rw [sum_range_succ (fun k : Nat => (t + (k : K) - ((n : K) + 3) / 2) * (t + k) * _),
      bspline_hi (n + 1) (t + ((n + 1 + 1 : Nat) : K) - _) (by push_cast; linarith)]
    rw [sum_range_succ' (fun k : Nat => (t + (k : K) - ((n : K) + 3) / 2) * ((n : K) + 3 - k - t) * _),
      bspline_lo (n + 1) (t + (((0 : Nat) : K) - 1) - _) (by push_cast; linarith)]
    rw [mul_zero, mul_zero, add_zero, add_zero, ← sum_add_distrib]
    rw [div_eq_iff hn, zero_mul]
    have e3 : ∀ k : Nat, (t + (k : K) - ((n : K) + 3) / 2) * (t + k) *
          bspline (n + 1) (t + k - ((n : K) + 2) / 2) +
        (t + ((k + 1 : Nat) : K) - ((n : K) + 3) / 2) * ((n : K) + 3 - ((k + 1 : Nat) : K) - t) *
          bspline (n + 1) (t + (((k + 1 : Nat) : K) - 1) - ((n : K) + 2) / 2) =
        ((n : K) + 1) * ((t + (k : K) - ((n : K) + 2) / 2) *
          bspline (n + 1) (t + (k : K) - ((n : K) + 2) / 2)) := by
      intro k
      push_cast
      rw [show t + ((k : K) + 1 - 1) - ((n : K) + 2) / 2 = t + k - ((n : K) + 2) / 2 by ring]
      ring
    rw [sum_congr rfl (fun k _ => e3 k), ← mul_sum, ih, mul_zero]

end Entity.Shapes
