import Verif.Lemmas.FieldSolver
import Verif.Spec.Fields
import Mathlib.Tactic.Ring
import Mathlib.Tactic.LinearCombination

/-!
# Divergence of the magnetic field under the Faraday update
-/

namespace Entity.FieldSolver

open Entity.Kernel Entity.Ranks

variable {K : Type}

/-- A body with offsets applied at all cells of an unbounded memory. -/
def stepAll [Add K] [Sub K] [Mul K] [Div K] [Neg K] (D : Nat) (as : List (Assign K)) (v : Mem K) : Mem K :=
  fun l => runBody as (fun l' => v (l'.at l.idx)) ⟨l.arr, l.comp, here D⟩

section
variable [Field K] (k k2 : K) (c : Coeffs K) (w : Mem K)

theorem far1_b1 : runBody (faraday1 k c) w ⟨0, 3, [0]⟩ = w ⟨0, 3, [0]⟩ := by kernel_rfl

theorem far2_b1 : runBody (faraday2 k k2 c) w ⟨0, 3, [0, 0]⟩ = w ⟨0, 3, [0, 0]⟩ + k * (
    - (1 - 2 * c.betayx - 3 * c.deltay) * (w ⟨0, 2, [0, 1]⟩ - w ⟨0, 2, [0, 0]⟩)
    - c.deltay * (w ⟨0, 2, [0, 2]⟩ - w ⟨0, 2, [0, -1]⟩)
    - c.betayx * (w ⟨0, 2, [1, 1]⟩ - w ⟨0, 2, [1, 0]⟩)
    - c.betayx * (w ⟨0, 2, [-1, 1]⟩ - w ⟨0, 2, [-1, 0]⟩)) := by kernel_rfl

theorem far2_b2 : runBody (faraday2 k k2 c) w ⟨0, 4, [0, 0]⟩ = w ⟨0, 4, [0, 0]⟩ + k * (
    (1 - 2 * c.betaxy - 3 * c.deltax) * (w ⟨0, 2, [1, 0]⟩ - w ⟨0, 2, [0, 0]⟩)
    + c.deltax * (w ⟨0, 2, [2, 0]⟩ - w ⟨0, 2, [-1, 0]⟩)
    + c.betaxy * (w ⟨0, 2, [1, 1]⟩ - w ⟨0, 2, [0, 1]⟩)
    + c.betaxy * (w ⟨0, 2, [1, -1]⟩ - w ⟨0, 2, [0, -1]⟩)) := by kernel_rfl

theorem far3_b1 : runBody (faraday3 k c) w ⟨0, 3, [0, 0, 0]⟩ = w ⟨0, 3, [0, 0, 0]⟩ + k * (
    (1 - 2 * c.betazx - 2 * c.betazy - 3 * c.deltaz) * (w ⟨0, 1, [0, 0, 1]⟩ - w ⟨0, 1, [0, 0, 0]⟩)
    + c.deltaz * (w ⟨0, 1, [0, 0, 2]⟩ - w ⟨0, 1, [0, 0, -1]⟩)
    + c.betazx * (w ⟨0, 1, [1, 0, 1]⟩ - w ⟨0, 1, [1, 0, 0]⟩)
    + c.betazx * (w ⟨0, 1, [-1, 0, 1]⟩ - w ⟨0, 1, [-1, 0, 0]⟩)
    + c.betazy * (w ⟨0, 1, [0, 1, 1]⟩ - w ⟨0, 1, [0, 1, 0]⟩)
    + c.betazy * (w ⟨0, 1, [0, -1, 1]⟩ - w ⟨0, 1, [0, -1, 0]⟩)
    - (1 - 2 * c.betayx - 2 * c.betayz - 3 * c.deltay) * (w ⟨0, 2, [0, 1, 0]⟩ - w ⟨0, 2, [0, 0, 0]⟩)
    - c.deltay * (w ⟨0, 2, [0, 2, 0]⟩ - w ⟨0, 2, [0, -1, 0]⟩)
    - c.betayx * (w ⟨0, 2, [1, 1, 0]⟩ - w ⟨0, 2, [1, 0, 0]⟩)
    - c.betayx * (w ⟨0, 2, [-1, 1, 0]⟩ - w ⟨0, 2, [-1, 0, 0]⟩)
    - c.betayz * (w ⟨0, 2, [0, 1, 1]⟩ - w ⟨0, 2, [0, 0, 1]⟩)
    - c.betayz * (w ⟨0, 2, [0, 1, -1]⟩ - w ⟨0, 2, [0, 0, -1]⟩)) := by kernel_rfl

theorem far3_b2 : runBody (faraday3 k c) w ⟨0, 4, [0, 0, 0]⟩ = w ⟨0, 4, [0, 0, 0]⟩ + k * (
    (1 - 2 * c.betaxy - 2 * c.betaxz - 3 * c.deltax) * (w ⟨0, 2, [1, 0, 0]⟩ - w ⟨0, 2, [0, 0, 0]⟩)
    + c.deltax * (w ⟨0, 2, [2, 0, 0]⟩ - w ⟨0, 2, [-1, 0, 0]⟩)
    + c.betaxy * (w ⟨0, 2, [1, 1, 0]⟩ - w ⟨0, 2, [0, 1, 0]⟩)
    + c.betaxy * (w ⟨0, 2, [1, -1, 0]⟩ - w ⟨0, 2, [0, -1, 0]⟩)
    + c.betaxz * (w ⟨0, 2, [1, 0, 1]⟩ - w ⟨0, 2, [0, 0, 1]⟩)
    + c.betaxz * (w ⟨0, 2, [1, 0, -1]⟩ - w ⟨0, 2, [0, 0, -1]⟩)
    - (1 - 2 * c.betazx - 2 * c.betazy - 3 * c.deltaz) * (w ⟨0, 0, [0, 0, 1]⟩ - w ⟨0, 0, [0, 0, 0]⟩)
    - c.deltaz * (w ⟨0, 0, [0, 0, 2]⟩ - w ⟨0, 0, [0, 0, -1]⟩)
    - c.betazx * (w ⟨0, 0, [1, 0, 1]⟩ - w ⟨0, 0, [1, 0, 0]⟩)
    - c.betazx * (w ⟨0, 0, [-1, 0, 1]⟩ - w ⟨0, 0, [-1, 0, 0]⟩)
    - c.betazy * (w ⟨0, 0, [0, 1, 1]⟩ - w ⟨0, 0, [0, 1, 0]⟩)
    - c.betazy * (w ⟨0, 0, [0, -1, 1]⟩ - w ⟨0, 0, [0, -1, 0]⟩)) := by kernel_rfl

theorem far3_b3 : runBody (faraday3 k c) w ⟨0, 5, [0, 0, 0]⟩ = w ⟨0, 5, [0, 0, 0]⟩ + k * (
    (1 - 2 * c.betayx - 2 * c.betayz - 3 * c.deltay) * (w ⟨0, 0, [0, 1, 0]⟩ - w ⟨0, 0, [0, 0, 0]⟩)
    + c.deltay * (w ⟨0, 0, [0, 2, 0]⟩ - w ⟨0, 0, [0, -1, 0]⟩)
    + c.betayx * (w ⟨0, 0, [1, 1, 0]⟩ - w ⟨0, 0, [1, 0, 0]⟩)
    + c.betayx * (w ⟨0, 0, [-1, 1, 0]⟩ - w ⟨0, 0, [-1, 0, 0]⟩)
    + c.betayz * (w ⟨0, 0, [0, 1, 1]⟩ - w ⟨0, 0, [0, 0, 1]⟩)
    + c.betayz * (w ⟨0, 0, [0, 1, -1]⟩ - w ⟨0, 0, [0, 0, -1]⟩)
    - (1 - 2 * c.betaxy - 2 * c.betaxz - 3 * c.deltax) * (w ⟨0, 1, [1, 0, 0]⟩ - w ⟨0, 1, [0, 0, 0]⟩)
    - c.deltax * (w ⟨0, 1, [2, 0, 0]⟩ - w ⟨0, 1, [-1, 0, 0]⟩)
    - c.betaxy * (w ⟨0, 1, [1, 1, 0]⟩ - w ⟨0, 1, [0, 1, 0]⟩)
    - c.betaxy * (w ⟨0, 1, [1, -1, 0]⟩ - w ⟨0, 1, [0, -1, 0]⟩)
    - c.betaxz * (w ⟨0, 1, [1, 0, 1]⟩ - w ⟨0, 1, [0, 0, 1]⟩)
    - c.betaxz * (w ⟨0, 1, [1, 0, -1]⟩ - w ⟨0, 1, [0, 0, -1]⟩)) := by kernel_rfl
end

section
variable [Field K] (c : Coeffs K)

theorem divExt1 (F : Nat → List Int → K) : divExt 1 c F =
    (1 - 3 * c.deltax) * (F 0 [1] - F 0 [0]) + c.deltax * (F 0 [2] - F 0 [-1]) := by
  simp [divExt, extDiff, off, Coeffs.delta, List.range_succ]

theorem divExt2 (F : Nat → List Int → K) : divExt 2 c F =
    ((1 - 2 * c.betaxy - 3 * c.deltax) * (F 0 [1, 0] - F 0 [0, 0]) +
      c.deltax * (F 0 [2, 0] - F 0 [-1, 0]) +
      c.betaxy * ((F 0 [1, 1] - F 0 [0, 1]) + (F 0 [1, -1] - F 0 [0, -1]))) +
    ((1 - 2 * c.betayx - 3 * c.deltay) * (F 1 [0, 1] - F 1 [0, 0]) +
      c.deltay * (F 1 [0, 2] - F 1 [0, -1]) +
      c.betayx * ((F 1 [1, 1] - F 1 [1, 0]) + (F 1 [-1, 1] - F 1 [-1, 0]))) := by
  simp [divExt, extDiff, off, Coeffs.delta, Coeffs.beta, List.range_succ]

theorem divExt3 (F : Nat → List Int → K) : divExt 3 c F =
    ((1 - 2 * (c.betaxy + c.betaxz) - 3 * c.deltax) * (F 0 [1, 0, 0] - F 0 [0, 0, 0]) +
      c.deltax * (F 0 [2, 0, 0] - F 0 [-1, 0, 0]) +
      (c.betaxy * ((F 0 [1, 1, 0] - F 0 [0, 1, 0]) + (F 0 [1, -1, 0] - F 0 [0, -1, 0])) +
       c.betaxz * ((F 0 [1, 0, 1] - F 0 [0, 0, 1]) + (F 0 [1, 0, -1] - F 0 [0, 0, -1])))) +
    (((1 - 2 * (c.betayx + c.betayz) - 3 * c.deltay) * (F 1 [0, 1, 0] - F 1 [0, 0, 0]) +
      c.deltay * (F 1 [0, 2, 0] - F 1 [0, -1, 0]) +
      (c.betayx * ((F 1 [1, 1, 0] - F 1 [1, 0, 0]) + (F 1 [-1, 1, 0] - F 1 [-1, 0, 0])) +
       c.betayz * ((F 1 [0, 1, 1] - F 1 [0, 0, 1]) + (F 1 [0, 1, -1] - F 1 [0, 0, -1])))) +
    ((1 - 2 * (c.betazx + c.betazy) - 3 * c.deltaz) * (F 2 [0, 0, 1] - F 2 [0, 0, 0]) +
      c.deltaz * (F 2 [0, 0, 2] - F 2 [0, 0, -1]) +
      (c.betazx * ((F 2 [1, 0, 1] - F 2 [1, 0, 0]) + (F 2 [-1, 0, 1] - F 2 [-1, 0, 0])) +
       c.betazy * ((F 2 [0, 1, 1] - F 2 [0, 1, 0]) + (F 2 [0, -1, 1] - F 2 [0, -1, 0]))))) := by
  simp [divExt, extDiff, off, Coeffs.delta, Coeffs.beta, List.range_succ]

/-- The divergence before and after, everywhere on an unbounded grid. -/
theorem faraday_div {D : Nat} (hD : D ∈ [1, 2, 3]) (dT dx : K) (v : Mem K) {p : List Int}
    (hp : p.length = D) :
    divExt D c (magnetic (stepAll D (faraday D dT dx c) v) p) = divExt D c (magnetic v p) := by
  simp only [List.mem_cons, List.not_mem_nil, or_false] at hD
  rcases hD with rfl | rfl | rfl
  · match p, hp with
    | [x], _ =>
      rw [divExt1, divExt1]
      simp only [magnetic, stepAll, faraday, here, List.replicate, far1_b1, Loc.at,
        List.zipWith_cons_cons, List.zipWith_nil_right, Nat.add_zero, Nat.reduceAdd]
      norm_num
  · match p, hp with
    | [x, y], _ =>
      rw [divExt2, divExt2]
      simp only [magnetic, stepAll, faraday, here, List.replicate, far2_b1, far2_b2, Loc.at,
        List.zipWith_cons_cons, List.zipWith_nil_right, Nat.add_zero, Nat.reduceAdd, add_assoc]
      norm_num
      ring
  · match p, hp with
    | [x, y, z], _ =>
      rw [divExt3, divExt3]
      simp only [magnetic, stepAll, faraday, here, List.replicate, far3_b1, far3_b2, far3_b3, Loc.at,
        List.zipWith_cons_cons, List.zipWith_nil_right, Nat.add_zero, Nat.reduceAdd, add_assoc]
      norm_num
      ring
end

end Entity.FieldSolver
