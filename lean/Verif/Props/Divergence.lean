import Verif.Model.Divergence
import Verif.Lemmas.KernelOwn
import Mathlib.Algebra.BigOperators.Intervals
import Mathlib.Tactic.Ring
import Mathlib.Tactic.FieldSimp
import Mathlib.Tactic.NormNum

/-!
# C121: the divergence written to the output obeys Gauss's law
-/

namespace Entity.Divergence

open Entity.Kernel Finset

variable {K : Type} [Field K]

/-! ## Specification -/

/-- The flux of the electric field through the face where its component `k` with indices `i` is: field
times volume element there. -/
def flux (ng : Nat) (sq : List K → K) (m : Mem K) (k : Nat) (i : List Int) : K :=
  m ⟨em, k, i⟩ * sq (i.mapIdx fun d j => coord ng j + if d = k then 1/2 else 0)

/-- The volume of a cell: the volume element at its centre. -/
def vol (ng : Nat) (sq : List K → K) (i : List Int) : K := sq (i.map fun j => coord ng j + 1/2)

/-! ## Lemmas -/

def own (l : Loc) : Option (List Int) := if l.arr = buff then some l.idx else none

theorem owned (ng : Nat) (sq : List K → K) (bi : Nat) (cells : List (List Int)) :
    OwnedL cells own (body ng sq bi) := by
  intro t _ a ha
  have ls : ∀ a b : Ex K, (a - b).loads = a.loads ++ b.loads := fun _ _ => rfl
  have la : ∀ a b : Ex K, (a + b).loads = a.loads ++ b.loads := fun _ _ => rfl
  have ld : ∀ a b : Ex K, (a / b).loads = a.loads ++ b.loads := fun _ _ => rfl
  have lt : ∀ k i x, (term sq k i x).loads = [⟨em, k, i⟩] := fun _ _ _ => rfl
  have ll : ∀ c : K, (Ex.lit c).loads = [] := fun _ => rfl
  have key : own a.dst = some t ∧ ∀ l ∈ a.rhs.loads, l.arr = em := by
    rcases t with _ | ⟨i1, _ | ⟨i2, _ | ⟨i3, _ | ⟨i4, t⟩⟩⟩⟩ <;>
      simp only [body, List.mem_singleton, List.not_mem_nil] at ha
    all_goals
      subst ha
      refine ⟨rfl, ?_⟩
      intro l hl
      simp only [ls, la, ld, lt, ll, List.mem_append, List.mem_singleton, List.not_mem_nil, or_false] at hl
      rcases hl with hl | hl
      all_goals first
        | (rw [hl])
        | (rcases hl with hl | hl <;> first | (rw [hl]) | (rcases hl with hl | hl <;> first | (rw [hl]) |
            (rcases hl with hl | hl <;> first | (rw [hl]) | (rcases hl with hl | hl <;> rw [hl]))))
  refine ⟨key.1, ?_⟩
  intro l hl u _ hu
  have := key.2 l hl
  simp [own, this, em, buff] at hu

theorem coord_sub (ng : Nat) (i : Int) : (coord ng (i - 1) : K) = coord ng i - 1 := by
  unfold coord; push_cast; ring

theorem half_sub [CharZero K] (c : K) : c - 1 + 1 / 2 = c - 1 / 2 := by ring

theorem launched {ng : Nat} {sq : List K → K} {bi : Nat} {cells : List (List Int)} {m m' : Mem K}
    (h : Launch cells (body ng sq bi) m m') {t : List Int} (ht : t ∈ cells) :
    m' ⟨buff, bi, t⟩ = runBody (body ng sq bi t) m ⟨buff, bi, t⟩ := by
  rw [launch_ownedL (owned ng sq bi cells) h]
  simp [resultL, own, ht]

theorem cell1 [CharZero K] {ng : Nat} {sq : List K → K} {bi : Nat} {cells : List (List Int)} {m m' : Mem K}
    (h : Launch cells (body ng sq bi) m m') {i : Int} (ht : [i] ∈ cells) :
    m' ⟨buff, bi, [i]⟩ = (flux ng sq m 0 [i] - flux ng sq m 0 [i - 1]) / sq [coord ng i] := by
  rw [launched h ht]
  simp only [body, runBody, store, if_true]
  simp only [flux, List.mapIdx_cons, List.mapIdx_nil, if_true, coord_sub, half_sub]
  rfl

theorem cell2 [CharZero K] {ng : Nat} {sq : List K → K} {bi : Nat} {cells : List (List Int)} {m m' : Mem K}
    (h : Launch cells (body ng sq bi) m m') {i j : Int} (ht : [i, j] ∈ cells) :
    m' ⟨buff, bi, [i, j]⟩ = (flux ng sq m 0 [i, j] - flux ng sq m 0 [i - 1, j] +
      flux ng sq m 1 [i, j] - flux ng sq m 1 [i, j - 1]) / vol ng sq [i, j] := by
  rw [launched h ht]
  simp only [body, runBody, store, if_true]
  simp only [flux, vol, List.mapIdx_cons, List.mapIdx_nil, List.map_cons, List.map_nil, if_true,
    coord_sub, half_sub, zero_ne_one, one_ne_zero, if_false, add_zero, zero_add]
  rfl

theorem cell3 [CharZero K] {ng : Nat} {sq : List K → K} {bi : Nat} {cells : List (List Int)} {m m' : Mem K}
    (h : Launch cells (body ng sq bi) m m') {i j k : Int} (ht : [i, j, k] ∈ cells) :
    m' ⟨buff, bi, [i, j, k]⟩ = (flux ng sq m 0 [i, j, k] - flux ng sq m 0 [i - 1, j, k] +
      flux ng sq m 1 [i, j, k] - flux ng sq m 1 [i, j - 1, k] +
      flux ng sq m 2 [i, j, k] - flux ng sq m 2 [i, j, k - 1]) / vol ng sq [i, j, k] := by
  rw [launched h ht]
  simp only [body, runBody, store, if_true]
  simp only [flux, vol, List.mapIdx_cons, List.mapIdx_nil, List.map_cons, List.map_nil, if_true,
    coord_sub, half_sub, zero_ne_one, one_ne_zero, if_false, add_zero, zero_add, OfNat.ofNat_ne_zero,
    OfNat.ofNat_ne_one, Nat.reduceAdd, OfNat.zero_ne_ofNat, OfNat.one_ne_ofNat]
  rfl

/-- Differences along a row add up to the difference of the ends. -/
theorem row (f : Int → K) (a : Int) (n : Nat) :
    ∑ i ∈ range n, (f (a + i) - f (a + i - 1)) = f (a + n - 1) - f (a - 1) := by
  have := Finset.sum_range_sub (fun i : Nat => f (a + (i : Int) - 1)) n
  simp only [Nat.cast_zero, add_zero] at this
  rw [← this]
  refine Finset.sum_congr rfl fun i _ => ?_
  push_cast
  congr 2
  ring

/-! ## Theorems -/

/-- **C121 (2D).** Written divergence times cell volume, summed over any block of cells, is the flux of
the electric field out of the block. -/
theorem C121_gauss2 [CharZero K] {ng : Nat} {sq : List K → K} {bi : Nat} {cells : List (List Int)}
    {m m' : Mem K} (h : Launch cells (body ng sq bi) m m') (a b : Int) (n1 n2 : Nat)
    (hc : ∀ i < n1, ∀ j < n2, [a + i, b + j] ∈ cells)
    (hv : ∀ i < n1, ∀ j < n2, vol ng sq [a + i, b + j] ≠ 0) :
    ∑ i ∈ range n1, ∑ j ∈ range n2, m' ⟨buff, bi, [a + i, b + j]⟩ * vol ng sq [a + i, b + j] =
      ∑ j ∈ range n2, (flux ng sq m 0 [a + n1 - 1, b + j] - flux ng sq m 0 [a - 1, b + j]) +
      ∑ i ∈ range n1, (flux ng sq m 1 [a + i, b + n2 - 1] - flux ng sq m 1 [a + i, b - 1]) := by
  have h1 : ∀ i ∈ range n1, ∀ j ∈ range n2,
      m' ⟨buff, bi, [a + i, b + j]⟩ * vol ng sq [a + i, b + j] =
      (flux ng sq m 0 [a + i, b + j] - flux ng sq m 0 [a + i - 1, b + j]) +
      (flux ng sq m 1 [a + i, b + j] - flux ng sq m 1 [a + i, b + j - 1]) := by
    intro i hi j hj
    rw [mem_range] at hi hj
    rw [cell2 h (hc i hi j hj), div_mul_cancel₀ _ (hv i hi j hj)]
    ring
  rw [Finset.sum_congr rfl fun i hi => Finset.sum_congr rfl (h1 i hi)]
  simp only [Finset.sum_add_distrib]
  congr 1
  · rw [Finset.sum_comm]
    exact Finset.sum_congr rfl fun j _ => row (fun i => flux ng sq m 0 [i, b + j]) a n1
  · exact Finset.sum_congr rfl fun i _ => row (fun j => flux ng sq m 1 [a + i, j]) b n2

/-- **C121 (3D).** -/
theorem C121_gauss3 [CharZero K] {ng : Nat} {sq : List K → K} {bi : Nat} {cells : List (List Int)}
    {m m' : Mem K} (h : Launch cells (body ng sq bi) m m') (a b c : Int) (n1 n2 n3 : Nat)
    (hc : ∀ i < n1, ∀ j < n2, ∀ k < n3, [a + i, b + j, c + k] ∈ cells)
    (hv : ∀ i < n1, ∀ j < n2, ∀ k < n3, vol ng sq [a + i, b + j, c + k] ≠ 0) :
    ∑ i ∈ range n1, ∑ j ∈ range n2, ∑ k ∈ range n3,
        m' ⟨buff, bi, [a + i, b + j, c + k]⟩ * vol ng sq [a + i, b + j, c + k] =
      ∑ j ∈ range n2, ∑ k ∈ range n3,
        (flux ng sq m 0 [a + n1 - 1, b + j, c + k] - flux ng sq m 0 [a - 1, b + j, c + k]) +
      ∑ i ∈ range n1, ∑ k ∈ range n3,
        (flux ng sq m 1 [a + i, b + n2 - 1, c + k] - flux ng sq m 1 [a + i, b - 1, c + k]) +
      ∑ i ∈ range n1, ∑ j ∈ range n2,
        (flux ng sq m 2 [a + i, b + j, c + n3 - 1] - flux ng sq m 2 [a + i, b + j, c - 1]) := by
  have h1 : ∀ i ∈ range n1, ∀ j ∈ range n2, ∀ k ∈ range n3,
      m' ⟨buff, bi, [a + i, b + j, c + k]⟩ * vol ng sq [a + i, b + j, c + k] =
      (flux ng sq m 0 [a + i, b + j, c + k] - flux ng sq m 0 [a + i - 1, b + j, c + k]) +
      (flux ng sq m 1 [a + i, b + j, c + k] - flux ng sq m 1 [a + i, b + j - 1, c + k]) +
      (flux ng sq m 2 [a + i, b + j, c + k] - flux ng sq m 2 [a + i, b + j, c + k - 1]) := by
    intro i hi j hj k hk
    rw [mem_range] at hi hj hk
    rw [cell3 h (hc i hi j hj k hk), div_mul_cancel₀ _ (hv i hi j hj k hk)]
    ring
  rw [Finset.sum_congr rfl fun i hi => Finset.sum_congr rfl fun j hj => Finset.sum_congr rfl (h1 i hi j hj)]
  simp only [Finset.sum_add_distrib]
  congr 1
  · congr 1
    · rw [Finset.sum_comm]
      refine Finset.sum_congr rfl fun j _ => ?_
      rw [Finset.sum_comm]
      exact Finset.sum_congr rfl fun k _ => row (fun i => flux ng sq m 0 [i, b + j, c + k]) a n1
    · refine Finset.sum_congr rfl fun i _ => ?_
      rw [Finset.sum_comm]
      exact Finset.sum_congr rfl fun k _ => row (fun j => flux ng sq m 1 [a + i, j, c + k]) b n2
  · refine Finset.sum_congr rfl fun i _ => ?_
    exact Finset.sum_congr rfl fun j _ => row (fun k => flux ng sq m 2 [a + i, b + j, k]) c n3

/-- **C121 (1D, partial).** In one dimension the volume to be used is the one at the lower edge of the cell
(no metric of the code uses this branch). -/
theorem C121_gauss1_partial [CharZero K] {ng : Nat} {sq : List K → K} {bi : Nat} {cells : List (List Int)}
    {m m' : Mem K} (h : Launch cells (body ng sq bi) m m') (a : Int) (n1 : Nat)
    (hc : ∀ i < n1, [a + (i : Int)] ∈ cells) (hv : ∀ i < n1, sq [coord ng (a + (i : Int))] ≠ 0) :
    ∑ i ∈ range n1, m' ⟨buff, bi, [a + i]⟩ * sq [coord ng (a + i)] =
      flux ng sq m 0 [a + n1 - 1] - flux ng sq m 0 [a - 1] := by
  rw [← row (fun i => flux ng sq m 0 [i]) a n1]
  refine Finset.sum_congr rfl fun i hi => ?_
  rw [mem_range] at hi
  rw [cell1 h (hc i hi), div_mul_cancel₀ _ (hv i hi)]

/-- **C121 (place, counterexample).** The fluxes that are added up are those out of the cell *around the
lower corner* of the cell whose volume is divided by.  So the written numbers are not the densities there:
with volume element `x` and a field with flux `x`, whose divergence at `x` is `1 / x`, the number written
for the cell with lower corner 1 is 2/3, neither the divergence at the corner nor (in general) a cell
average of it, which 1D gives. -/
theorem C121_place_counterexample : ∃ (sq : List ℚ → ℚ) (m : Mem ℚ),
    (∀ i j : Int, flux 0 sq m 0 [i, j] = coord 0 i + 1/2 ∧ flux 0 sq m 1 [i, j] = 0) ∧
    (∀ i : Int, flux 0 sq m 0 [i] = coord 0 i + 1/2) ∧
    (∀ m', Launch [[1, 1]] (body 0 sq 0) m m' → m' ⟨buff, 0, [1, 1]⟩ = 2/3) ∧
    (∀ m', Launch [[1]] (body 0 sq 0) m m' → m' ⟨buff, 0, [1]⟩ = 1) := by
  refine ⟨fun x => x.headD 0, fun l => if l.comp = 0 then 1 else 0, ?_, ?_, ?_, ?_⟩
  · intro i j
    simp [flux]
  · intro i; simp [flux]
  · intro m' h
    rw [cell2 h (by simp)]
    simp [flux, vol, coord]
    norm_num
  · intro m' h
    rw [cell1 h (by simp)]
    simp [flux, coord]

/-- A block of 2 × 3 cells with volume element `1 + x`: the hypotheses of `C121_gauss2` hold, and there is
a run. -/
example : ∃ m', Launch [[2, 2], [2, 3], [2, 4], [3, 2], [3, 3], [3, 4]]
      (body (K := ℚ) 2 (fun x => 1 + x.headD 0) 0) (fun l => l.comp + 1) m' ∧
    (∀ i : Nat, i < 2 → ∀ j : Nat, j < 3 → [2 + (i : Int), 2 + (j : Int)] ∈
      ([[2, 2], [2, 3], [2, 4], [3, 2], [3, 3], [3, 4]] : List (List Int))) ∧
    (∀ i : Nat, i < 2 → ∀ j : Nat, j < 3 → vol (K := ℚ) 2 (fun x => 1 + x.headD 0) [2 + (i : Int), 2 + (j : Int)] ≠ 0) := by
  obtain ⟨m', h⟩ := launch_exists [[2, 2], [2, 3], [2, 4], [3, 2], [3, 3], [3, 4]]
      (body (K := ℚ) 2 (fun x => 1 + x.headD 0) 0) (fun l => l.comp + 1)
  exact ⟨m', h, by decide, by decide +kernel⟩

end Entity.Divergence
