import Verif.Lemmas.Shapes

/-!
# C31: shape weights

The specification `bspline` (Lemmas/BSpline.lean) is the centred cardinal B-spline, given by the
recurrence of Cox and de Boor; it does not mention the code.
-/

namespace Entity.Shapes

open Finset

variable {K : Type} [Field K] [LinearOrder K] [IsStrictOrderedRing K]

/-- **C31.**  The functions `S1` ... `S11` of the code are the cardinal B-splines of degrees
1 ... 11, at every distance. -/
theorem C31_shape_is_bspline (O : Nat) (h1 : 1 ≤ O) (h2 : O ≤ 11) (x : K) :
    shape O |x| = bspline O x :=
  shape_bspline O h1 h2 x

/-- **C31.**  For the orders 1 ... 11, staggered nodes or not, every cell and every offset in the
closed unit interval, the stencil is defined; its weights are non-negative and add up to one; their
centre is the position of the particle; each weight is the B-spline of the distance to its node, and
the B-spline vanishes at every node that is not in the stencil. -/
theorem C31_weights (st : Bool) (O : Nat) (h1 : 1 ≤ O) (h2 : O ≤ 11) (i : Int) (di : K)
    (d0 : 0 ≤ di) (d1 : di ≤ 1) : ∃ iMin S, order st O i di = .ok (iMin, S) ∧
      (∀ n ≤ O, 0 ≤ S n) ∧
      ∑ n ∈ range (O + 1), S n = 1 ∧
      ∑ n ∈ range (O + 1), S n * ((iMin : K) + n + if st then 1/2 else 0) = i + di ∧
      (∀ n ≤ O, S n = bspline O (i + di - ((iMin : K) + n + if st then 1/2 else 0))) ∧
      (∀ m : Int, m < iMin ∨ iMin + O < m →
        bspline O ((i : K) + di - ((m : K) + if st then 1/2 else 0)) = 0) := by
  obtain ⟨iMin, S, e, s, l, u⟩ := order_spec st O h1 h2 i di d0 d1
  have hn : ∀ n : Nat, (i : K) + di - nodeAt st (iMin + (n : Int)) =
      (i : K) + di - nodeAt st iMin - n := by
    intro n; unfold nodeAt; push_cast; ring
  have hS : ∀ n ≤ O, S n = bspline O ((i : K) + di - nodeAt st iMin - n) := by
    intro n h; rw [s n h, hn]
  refine ⟨iMin, S, e, ?_, ?_, ?_, ?_, ?_⟩
  · intro n h; rw [s n h]; exact bspline_nonneg _ _
  · rw [← window_sum O h1 _ l u]
    exact sum_congr rfl fun n h => hS n (by simp at h; omega)
  · have w := window_mean O h1 _ l u
    have w1 := window_sum O h1 _ l u
    rw [sum_congr rfl fun n h => by rw [hS n (by simp at h; omega)]]
    have : ∀ n : Nat, bspline O ((i : K) + di - nodeAt st iMin - n) *
        ((iMin : K) + n + if st then 1/2 else 0) =
        (i + di) * bspline O ((i : K) + di - nodeAt st iMin - n) -
        ((i : K) + di - nodeAt st iMin - n) * bspline O ((i : K) + di - nodeAt st iMin - n) := by
      intro n; unfold nodeAt; ring
    rw [sum_congr rfl fun n _ => this n, sum_sub_distrib, w, ← mul_sum, w1]; ring
  · intro n h; rw [s n h]; unfold nodeAt; congr 1; push_cast; ring
  · intro m h
    have := window_out O h1 _ l u (m - iMin) (by omega)
    refine Eq.trans ?_ this
    unfold nodeAt; congr 1; push_cast; ring

/-- Order 0 and orders above 11 are refused. -/
theorem C31_other_orders (st : Bool) (O : Nat) (h : O = 0 ∨ 11 < O) (i : Int) (di : K) :
    order st O i di = .err := by
  rcases h with rfl | h
  · cases st <;> rfl
  · match O, h with
    | n + 12, _ => cases st <;> rfl

/-- Order 5, staggered, offset 1/4 in cell 7: the stencil starts at cell 4 and has six weights. -/
example : (match order true 5 7 (1/4 : ℚ) with
    | .ok (m, S) => decide (m = 4 ∧ (List.range 6).map S =
        [1/122880, 3119/122880, 6719/20480, 31927/61440, 15349/122880, 81/40960])
    | _ => false) = true := by
  decide +kernel

end Entity.Shapes
