import Verif.Props.Kernels
import Verif.Spec.Filter
import Mathlib.Algebra.BigOperators.Ring.List
import Mathlib.Algebra.BigOperators.Field
import Mathlib.Data.Finset.Card
import Mathlib.Algebra.CharZero.Defs
import Mathlib.Tactic.NormNum
import Mathlib.Tactic.Ring

/-!
# The filter without walls as a weighted sum; sums over the box
-/

namespace Entity.Filter

open Entity Entity.Topology Entity.Kernel Entity.Ranks Entity.FieldSolver Entity.Decomp

variable {K : Type} [Field K] {m : Meta} {dN : List (List Nat)}

/-- Offsets and weights of the filter as coded. -/
def weights : Nat → List (List Int × K)
  | 1 => [([0], 1/2), ([-1], 1/4), ([1], 1/4)]
  | 2 => [([0, 0], 1/4), ([-1, 0], 1/8), ([1, 0], 1/8), ([0, -1], 1/8), ([0, 1], 1/8),
      ([-1, -1], 1/16), ([1, 1], 1/16), ([-1, 1], 1/16), ([1, -1], 1/16)]
  | 3 => [([0, 0, 0], 1/8), ([-1, 0, 0], 1/16), ([1, 0, 0], 1/16), ([0, -1, 0], 1/16),
      ([0, 1, 0], 1/16), ([0, 0, -1], 1/16), ([0, 0, 1], 1/16),
      ([-1, -1, 0], 1/32), ([1, 1, 0], 1/32), ([-1, 1, 0], 1/32), ([1, -1, 0], 1/32),
      ([0, -1, -1], 1/32), ([0, 1, 1], 1/32), ([0, 0, -1], 1/32), ([0, 0, 1], 1/32),
      ([-1, 0, -1], 1/32), ([1, 0, 1], 1/32), ([-1, 0, 1], 1/32), ([1, 0, -1], 1/32),
      ([-1, -1, -1], 1/64), ([1, 1, 1], 1/64), ([-1, 1, 1], 1/64), ([1, -1, -1], 1/64),
      ([-1, -1, 1], 1/64), ([1, 1, -1], 1/64), ([-1, 1, -1], 1/64), ([1, -1, 1], 1/64)]
  | _ => []

/-- The weighted sum around a position. -/
def wsum (ws : List (List Int × K)) (f : List Int → K) (p : List Int) : K :=
  (ws.map (fun w => w.2 * f (List.zipWith (· + ·) p w.1))).sum

theorem weights_dim {D : Nat} (hD : D ∈ [1, 2, 3]) {w : List Int × K} (hw : w ∈ weights D) :
    w.1.length = D ∧ ∀ x ∈ w.1, (-1 : Int) ≤ x ∧ x ≤ 1 := by
  simp only [List.mem_cons, List.not_mem_nil, or_false] at hD
  have key : ∀ o ∈ (weights D : List (List Int × K)).map (·.1), o.length = D ∧
      ∀ x ∈ o, (-1 : Int) ≤ x ∧ x ≤ 1 := by
    rcases hD with rfl | rfl | rfl <;>
    simp only [weights, List.map_cons, List.map_nil] <;> decide
  exact key _ (List.mem_map_of_mem hw)

theorem weights_sum [CharZero K] {D : Nat} (hD : D ∈ [1, 2, 3]) :
    ((weights D : List (List Int × K)).map (·.2)).sum = 1 := by
  simp only [List.mem_cons, List.not_mem_nil, or_false] at hD
  rcases hD with rfl | rfl | rfl <;>
  simp only [weights, List.map_cons, List.map_nil, List.sum_cons, List.sum_nil] <;> norm_num

/-- What the filter body stores. -/
theorem plainFilter_eval {D : Nat} (hD : D ∈ [1, 2, 3]) (v : Mem K) {k : Nat} (hk : k < 3) :
    runBody (plainFilter D) v ⟨1, k, here D⟩ =
      ((weights D).map (fun w => w.2 * v ⟨2, k, w.1⟩)).sum := by
  simp only [List.mem_cons, List.not_mem_nil, or_false] at hD
  rcases hD with rfl | rfl | rfl
  · have : runBody (plainFilter 1) v ⟨1, k, here 1⟩ = (interior1 k : Ex K).eval v := by
      obtain rfl | rfl | rfl : k = 0 ∨ k = 1 ∨ k = 2 := by omega
      all_goals kernel_rfl
    rw [this]
    simp only [interior1, inv, bf, bfL, eval_hadd, eval_hmul, eval_lit, eval_ld, weights,
      List.map_cons, List.map_nil, List.sum_cons, List.sum_nil]
    push_cast; ring
  · have : runBody (plainFilter 2) v ⟨1, k, here 2⟩ = (interior2 k : Ex K).eval v := by
      obtain rfl | rfl | rfl : k = 0 ∨ k = 1 ∨ k = 2 := by omega
      all_goals kernel_rfl
    rw [this]
    simp only [interior2, inv, bf, bfL, eval_hadd, eval_hmul, eval_lit, eval_ld, weights,
      List.map_cons, List.map_nil, List.sum_cons, List.sum_nil]
    push_cast; ring
  · have : runBody (plainFilter 3) v ⟨1, k, here 3⟩ = (interior3 k : Ex K).eval v := by
      obtain rfl | rfl | rfl : k = 0 ∨ k = 1 ∨ k = 2 := by omega
      all_goals kernel_rfl
    rw [this]
    simp only [interior3, inv, bf, bfL, eval_hadd, eval_hmul, eval_lit, eval_ld, weights,
      List.map_cons, List.map_nil, List.sum_cons, List.sum_nil]
    push_cast; ring

/-- What a filter pass makes of the global current. -/
theorem filterG {N : List Nat} (hD : N.length ∈ [1, 2, 3]) (g : GMem K) {k : Nat} (hk : k < 3)
    (p : List Int) :
    globalStep N (plainFilter N.length) (copyG g) 1 k p =
      wsum (weights N.length) (fun q => g 1 k (wrap N q)) p := by
  unfold globalStep
  rw [plainFilter_eval hD _ hk]
  unfold wsum
  congr 1
  apply List.map_congr_left
  intro w _
  simp [GMem.unroll, Loc.at, copyG, hk]

theorem filterG_unroll {N : List Nat} (hD : N.length ∈ [1, 2, 3]) (g : GMem K) {k : Nat} (hk : k < 3)
    (p : List Int) :
    globalStep N (plainFilter N.length) (copyG g) 1 k (wrap N p) =
      wsum (weights N.length) (fun q => g 1 k (wrap N q)) p := by
  rw [filterG hD g hk]
  unfold wsum
  simp only [wrap_add]

/-! ## Sums over the box -/

theorem wsum_uniform [CharZero K] {D : Nat} (hD : D ∈ [1, 2, 3]) (u : K) (p : List Int) :
    wsum (weights D) (fun _ => u) p = u := by
  unfold wsum
  rw [List.sum_map_mul_right, weights_sum hD, one_mul]

theorem add_neg_pos {D : Nat} {p o : List Int} (hp : p.length = D) (ho : o.length = D) :
    List.zipWith (· + ·) (List.zipWith (· + ·) p o) (o.map (- ·)) = p := by
  apply List.ext_getElem
  · simp [hp, ho]
  · intro i h1 h2
    simp

/-- The active cells are permuted by a shift of the box. -/
theorem sum_shift (h : Built m dN) {ng : Nat} (hw : Wide dN ng)
    {A : Finset (Nat × List Int)} (hA : ∀ q j, (q, j) ∈ A ↔ Active m ng q j) {o : List Int}
    (ho : o.length = dN.length) (f : List Int → K) :
    ∑ c ∈ A, f (wrap (dN.map List.sum)
        (List.zipWith (· + ·) ((globalPos m (dN.map List.sum) ng c.1 c.2).getD []) o)) =
      ∑ c ∈ A, f ((globalPos m (dN.map List.sum) ng c.1 c.2).getD []) := by
  classical
  have key : ∀ c : Nat × List Int, ∃ b : Nat × List Int, c ∈ A → b ∈ A ∧
      globalPos m (dN.map List.sum) ng b.1 b.2 = some (wrap (dN.map List.sum)
        (List.zipWith (· + ·) ((globalPos m (dN.map List.sum) ng c.1 c.2).getD []) o)) := by
    intro c
    by_cases hc : c ∈ A
    · have ha := (hA c.1 c.2).1 hc
      obtain ⟨p, hp⟩ := globalPos_isSome (dN.map List.sum) (active_inArray ha)
      obtain ⟨hpl, hpw⟩ := globalPos_wrapped h (active_lt ha) (active_length h (active_inArray ha)) hp
      obtain ⟨r, i, hi, hip⟩ := cover h hw
        (p := wrap (dN.map List.sum) (List.zipWith (· + ·) p o))
        (by simp [wrap, hpl, ho]) (wrap_wrap _ _)
      exact ⟨(r, i), fun _ => ⟨(hA r i).2 hi, by rw [hp]; exact hip⟩⟩
    · exact ⟨c, fun h => absurd h hc⟩
  choose φ hφ using key
  have hmaps : Set.MapsTo φ A A := fun c hc => (hφ c hc).1
  have hinj : Set.InjOn φ A := by
    intro c hc c' hc' he
    have ha := (hA c.1 c.2).1 hc
    have ha' := (hA c'.1 c'.2).1 hc'
    obtain ⟨p, hp⟩ := globalPos_isSome (dN.map List.sum) (active_inArray ha)
    obtain ⟨p', hp'⟩ := globalPos_isSome (dN.map List.sum) (active_inArray ha')
    obtain ⟨hpl, hpw⟩ := globalPos_wrapped h (active_lt ha) (active_length h (active_inArray ha)) hp
    obtain ⟨hpl', hpw'⟩ := globalPos_wrapped h (active_lt ha') (active_length h (active_inArray ha')) hp'
    have e := (hφ c hc).2
    rw [he, (hφ c' hc').2, hp, hp'] at e
    simp only [Option.getD_some, Option.some.injEq] at e
    have e2 := congrArg (fun q => wrap (dN.map List.sum) (List.zipWith (· + ·) q (o.map (- ·)))) e
    simp only [wrap_add, add_neg_pos hpl ho, add_neg_pos hpl' ho, hpw, hpw'] at e2
    obtain ⟨e3, e4⟩ := active_image_unique h ha ha' (by rw [hp, hp', e2])
    exact Prod.ext e3 e4
  have hsurj : Set.SurjOn φ A A := Finset.surjOn_of_injOn_of_card_le φ hmaps hinj le_rfl
  refine Finset.sum_nbij φ hmaps hinj hsurj fun c hc => ?_
  rw [(hφ c hc).2, Option.getD_some]

theorem exists_activeCells (h : Built m dN) (ng : Nat) :
    ∃ A : Finset (Nat × List Int), ∀ q j, (q, j) ∈ A ↔ Active m ng q j := by
  classical
  obtain ⟨T, hT⟩ := exists_arrayCells h ng
  refine ⟨T.filter (fun c => Active m ng c.1 c.2), fun q j => ?_⟩
  rw [Finset.mem_filter, hT]
  exact ⟨fun h => h.2, fun h => ⟨active_inArray h, h⟩⟩

end Entity.Filter
