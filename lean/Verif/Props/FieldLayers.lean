import Verif.Spec.FieldBC
import Verif.Lemmas.FieldBC
import Mathlib.Data.Rat.Floor
import Mathlib.Algebra.Order.Field.Rat
import Mathlib.Tactic.Linarith

/-!
# C110: which cells the matching condition acts on
-/

namespace Entity.FieldBC

open Entity Entity.Kernel Entity.Ranks Entity.MeshBox

section
variable {R : Type} [Field R] [LinearOrder R] [IsStrictOrderedRing R] [FloorRing R]

theorem matchRange_none {ng : Nat} {P : Bool} {ext : R × R} {ds : R} {a : Axis R}
    (h : ¬ Overlaps a.ext (boundaryLayer ext ds P)) (he : a.ext.1 ≤ a.ext.2) (hds : 0 < ds) :
    matchRange ng P ext ds a = none := by
  have hl : clampHi a.ext (.at (matchLayer ext ds P).2.1) ≤ clampLo a.ext (.at (matchLayer ext ds P).1) := by
    simp only [Overlaps, boundaryLayer, not_and_or, not_lt] at h
    simp only [clampHi, clampLo, matchLayer]
    cases P <;> simp only [Bool.false_eq_true, if_false, if_true] at h ⊢ <;>
      rcases h with h | h
    · rw [min_eq_right (h.trans he), max_eq_left h]
      exact le_min he (le_max_left _ _)
    · rw [max_eq_right (he.trans h), min_eq_left h]
      exact max_le he (min_le_left _ _)
    · rw [min_eq_right (h.trans he), max_eq_left h]
      exact le_min he (le_max_left _ _)
    · rw [max_eq_right (he.trans h), min_eq_left h]
      exact max_le he (min_le_left _ _)
  have : intersects [a.ext] [(.at (matchLayer ext ds P).1, .at (matchLayer ext ds P).2.1)] = .ok false := by
    simp only [intersects, intersection, Outcome.errorIf, List.length_singleton, ne_eq,
      not_true_eq_false, if_false, boxLoop, boxEntry, isAll, xMin, List.append_nil,
      Bool.false_eq_true]
    simp only [pure, bind, Outcome.bind, List.all_cons, List.all_nil, Bool.and_true,
      Outcome.ok.injEq, Bool.not_eq_false', Bool.or_eq_true, decide_eq_true_eq]
    rcases hl.lt_or_eq with h | h
    · exact .inl h
    · exact .inr h.symm
  simp only [matchRange, this]

theorem matchRange_some {ng : Nat} {P : Bool} {ext : R × R} {ds : R} {a : Axis R}
    (h : Overlaps a.ext (boundaryLayer ext ds P)) (he : a.ext.1 < a.ext.2) (hds : 0 < ds) :
    matchRange ng P ext ds a = some
      ((if P = true then max ⌊(max a.ext.1 (boundaryLayer ext ds P).1 - a.ext.1) / a.dx⌋ 0 + ng
        else ⌊(max a.ext.1 (boundaryLayer ext ds P).1 - a.ext.1) / a.dx⌋),
       (if P = true then ⌈(min a.ext.2 (boundaryLayer ext ds P).2 - a.ext.1) / a.dx⌉ + 2 * ng
        else min ⌈(min a.ext.2 (boundaryLayer ext ds P).2 - a.ext.1) / a.dx⌉ a.n + ng)) := by
  obtain ⟨h1, h2⟩ := h
  have e1 : (matchLayer ext ds P).1 = (boundaryLayer ext ds P).1 := by
    unfold matchLayer boundaryLayer; split <;> rfl
  have e2 : (matchLayer ext ds P).2.1 = (boundaryLayer ext ds P).2 := by
    unfold matchLayer boundaryLayer; split <;> rfl
  have hb : (boundaryLayer ext ds P).1 < (boundaryLayer ext ds P).2 := by
    unfold boundaryLayer; split <;> simp <;> linarith
  have c1 : clampLo a.ext (.at (matchLayer ext ds P).1) = max a.ext.1 (boundaryLayer ext ds P).1 := by
    rw [clampLo, e1]; exact min_eq_right (max_le he.le h2.le)
  have c2 : clampHi a.ext (.at (matchLayer ext ds P).2.1) = min a.ext.2 (boundaryLayer ext ds P).2 := by
    rw [clampHi, e2]; exact max_eq_right (le_min he.le h1.le)
  have hlt : max a.ext.1 (boundaryLayer ext ds P).1 < min a.ext.2 (boundaryLayer ext ds P).2 :=
    max_lt (lt_min he h1) (lt_min h2 hb)
  have : intersects [a.ext] [(.at (matchLayer ext ds P).1, .at (matchLayer ext ds P).2.1)] = .ok true := by
    simp only [intersects, intersection, Outcome.errorIf, List.length_singleton, ne_eq,
      not_true_eq_false, if_false, boxLoop, boxEntry, isAll, xMin, List.append_nil,
      Bool.false_eq_true, c1, c2]
    simp only [pure, bind, Outcome.bind, List.all_cons, List.all_nil, Bool.and_true,
      Outcome.ok.injEq, Bool.not_eq_true', Bool.or_eq_false_iff, decide_eq_false_iff_not, gt_iff_lt]
    exact ⟨hlt.not_gt, hlt.ne⟩
  simp only [matchRange, this, rangeEntry, isAll, c1, c2, toCode, matchGhosts]
  cases P <;> simp

variable {ng : Nat} {P : Bool} {ext : R × R} {ds : R} {a : Axis R}

/-- **C110**: in every subdomain an active cell is matched exactly if it overlaps the layer of the given
thickness at that end of the grid. -/
theorem C110_active (hdx : 0 < a.dx) (hext : a.ext.2 = a.ext.1 + a.n * a.dx) (hlo : ext.1 ≤ a.ext.1)
    (hhi : a.ext.2 ≤ ext.2) (hds : 0 < ds) {i : Int} (h0 : (ng : Int) ≤ i) (h1 : i < a.n + ng) :
    Visits (matchRange ng P ext ds a) i ↔
      Overlaps (cellSpan ng a.ext.1 a.dx i) (boundaryLayer ext ds P) := by
  have hn : (1 : R) ≤ a.n := by
    have : 1 ≤ a.n := by omega
    exact_mod_cast this
  have he : a.ext.1 < a.ext.2 := by rw [hext]; nlinarith
  have hi0 : (0 : R) ≤ (i : R) - ng := by
    have : (0 : R) ≤ ((i - ng : Int) : R) := by exact_mod_cast (by omega : (0 : Int) ≤ i - ng)
    simpa using this
  have hi1 : (i : R) - ng + 1 ≤ a.n := by
    have : ((i - ng + 1 : Int) : R) ≤ ((a.n : Int) : R) := by
      exact_mod_cast (by omega : i - ng + 1 ≤ (a.n : Int))
    simpa using this
  have hc0 : a.ext.1 ≤ (cellSpan ng a.ext.1 a.dx i).1 := by simp only [cellSpan]; nlinarith
  have hc1 : (cellSpan ng a.ext.1 a.dx i).2 ≤ a.ext.2 := by simp only [cellSpan]; rw [hext]; nlinarith
  by_cases ho : Overlaps a.ext (boundaryLayer ext ds P)
  · rw [matchRange_some ho he hds]
    simp only [Visits, Option.some.injEq, exists_eq_left', Overlaps]
    cases P
    · simp only [Bool.false_eq_true, if_false, boundaryLayer] at ho ⊢
      rw [max_eq_left hlo, sub_self, zero_div, Int.floor_zero]
      have : (i < min ⌈(min a.ext.2 (ext.1 + ds) - a.ext.1) / a.dx⌉ ↑a.n + ↑ng) ↔
          (cellSpan ng a.ext.1 a.dx i).1 < ext.1 + ds := by
        have e : i < min ⌈(min a.ext.2 (ext.1 + ds) - a.ext.1) / a.dx⌉ ↑a.n + ↑ng ↔
            i - ng < ⌈(min a.ext.2 (ext.1 + ds) - a.ext.1) / a.dx⌉ := by omega
        rw [e, Int.lt_ceil, lt_div_iff₀ hdx, lt_sub_iff_add_lt, lt_min_iff]
        simp only [cellSpan]
        push_cast
        constructor
        · rintro ⟨-, h⟩; linarith
        · intro h
          refine ⟨?_, by linarith⟩
          rw [hext]; nlinarith
      rw [this]
      refine ⟨fun h => ⟨h.2, ?_⟩, fun h => ⟨by omega, h.1⟩⟩
      simp only [cellSpan]; nlinarith
    · simp only [if_true, boundaryLayer] at ho ⊢
      rw [min_eq_left hhi, hext, add_sub_cancel_left, mul_div_cancel_right₀ _ hdx.ne', Int.ceil_natCast]
      have : (max ⌊(max a.ext.1 (ext.2 - ds) - a.ext.1) / a.dx⌋ 0 + ↑ng ≤ i) ↔
          ext.2 - ds < (cellSpan ng a.ext.1 a.dx i).2 := by
        have e : max ⌊(max a.ext.1 (ext.2 - ds) - a.ext.1) / a.dx⌋ 0 + ↑ng ≤ i ↔
            ⌊(max a.ext.1 (ext.2 - ds) - a.ext.1) / a.dx⌋ < i - ng + 1 := by omega
        rw [e, Int.floor_lt, div_lt_iff₀ hdx, sub_lt_iff_lt_add, max_lt_iff]
        simp only [cellSpan]
        push_cast
        constructor
        · rintro ⟨-, h⟩; linarith
        · intro h
          refine ⟨?_, by linarith⟩
          nlinarith
      rw [this]
      refine ⟨fun h => ⟨?_, h.1⟩, fun h => ⟨h.2, by omega⟩⟩
      have : (cellSpan ng a.ext.1 a.dx i).1 < (cellSpan ng a.ext.1 a.dx i).2 := by
        simp only [cellSpan]; nlinarith
      linarith
  · rw [matchRange_none ho he.le hds]
    simp only [Visits, reduceCtorEq, false_and, exists_false, false_iff]
    rintro ⟨h3, h4⟩
    exact ho ⟨lt_of_le_of_lt hc0 h3, lt_of_lt_of_le h4 hc1⟩

/-- **C110**: a subdomain at the boundary matches all its ghost cells beyond the boundary.  The full claim
would be that a ghost cell is matched exactly if the cell it is a copy of is; at the ends between
subdomains that is false (`C110_counterexample`). -/
theorem C110_ghosts_partial (hdx : 0 < a.dx) (hn : 0 < a.n) (hext : a.ext.2 = a.ext.1 + a.n * a.dx)
    (hlo : ext.1 ≤ a.ext.1) (hhi : a.ext.2 ≤ ext.2)
    (hat : if P = true then a.ext.2 = ext.2 else a.ext.1 = ext.1) (hds : 0 < ds) {i : Int}
    (hi : if P = true then a.n + ng ≤ i ∧ i < a.n + 2 * ng else 0 ≤ i ∧ i < ng) :
    Visits (matchRange ng P ext ds a) i := by
  have hn : (1 : R) ≤ a.n := by exact_mod_cast hn
  have he : a.ext.1 < a.ext.2 := by rw [hext]; nlinarith
  have ho : Overlaps a.ext (boundaryLayer ext ds P) := by
    cases P <;> simp only [Bool.false_eq_true, if_false, if_true, Overlaps, boundaryLayer] at hat ⊢ <;>
      constructor <;> linarith
  rw [matchRange_some ho he hds]
  simp only [Visits, Option.some.injEq, exists_eq_left']
  cases P
  · simp only [Bool.false_eq_true, if_false, boundaryLayer] at hat hi ⊢
    rw [max_eq_left hlo, sub_self, zero_div, Int.floor_zero]
    have : 0 ≤ ⌈(min a.ext.2 (ext.1 + ds) - a.ext.1) / a.dx⌉ := by
      apply Int.ceil_nonneg
      apply div_nonneg _ hdx.le
      rw [sub_nonneg, le_min_iff]
      constructor <;> linarith
    omega
  · simp only [if_true, boundaryLayer] at hat hi ⊢
    rw [min_eq_left hhi]
    have h2 : ⌈(a.ext.2 - a.ext.1) / a.dx⌉ = a.n := by
      rw [hext, add_sub_cancel_left, mul_div_cancel_right₀ _ hdx.ne', Int.ceil_natCast]
    have h3 : ⌊(max a.ext.1 (ext.2 - ds) - a.ext.1) / a.dx⌋ ≤ a.n := by
      have : (max a.ext.1 (ext.2 - ds) - a.ext.1) / a.dx ≤ a.n := by
        rw [div_le_iff₀ hdx, sub_le_iff_le_add, max_le_iff]
        constructor <;> nlinarith
      have := Int.floor_mono this
      simpa using this
    omega

/-- A layer that ends in the middle of a cell of the second of two subdomains: cells of `[4, 8]`. -/
example : ∀ i : Int, 2 ≤ i → i < 6 →
    (Visits (matchRange (R := ℚ) 2 false (0, 8) (11/2) ⟨(4, 8), 1, 4⟩) i ↔ i = 2 ∨ i = 3) := by
  intro i h0 h1
  rw [C110_active (by norm_num) (by norm_num) (by norm_num) (by norm_num) (by norm_num)
    (by exact_mod_cast h0) (by push_cast; omega)]
  obtain rfl | rfl | rfl | rfl : i = 2 ∨ i = 3 ∨ i = 4 ∨ i = 5 := by omega
  all_goals simp only [Overlaps, cellSpan, boundaryLayer]; norm_num

end

/-- **C110** fails for the copies of a cell in the ghost cells of a neighbour: two subdomains `[0, 4]` and
`[4, 8]` with two ghost cells and a layer of thickness 6 at the lower end.  The cell `[4, 5]` is active in
the second subdomain (index 2) and matched there; its copy in the first (index 6) is not matched.  The
condition is applied after the exchange of ghost cells, so the two copies differ afterwards. -/
theorem C110_counterexample :
    cellSpan 2 (4 : ℚ) 1 2 = cellSpan 2 0 1 6 ∧
    Visits (matchRange (R := ℚ) 2 false (0, 8) 6 ⟨(4, 8), 1, 4⟩) 2 ∧
    ¬ Visits (matchRange (R := ℚ) 2 false (0, 8) 6 ⟨(0, 4), 1, 4⟩) 6 := by
  refine ⟨by simp only [cellSpan]; norm_num, ?_, ?_⟩
  · exact ⟨(0, 4), by decide +kernel, by decide, by decide⟩
  · rintro ⟨q, hq, h1, h2⟩
    have : matchRange (R := ℚ) 2 false (0, 8) 6 ⟨(0, 4), 1, 4⟩ = some (0, 6) := by decide +kernel
    rw [this] at hq
    cases hq
    exact absurd h2 (by decide)

end Entity.FieldBC
