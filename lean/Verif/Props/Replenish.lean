import Verif.Model.Atmosphere
import Mathlib.Tactic.Linarith
import Mathlib.Tactic.FieldSimp
import Mathlib.Tactic.NormNum
import Mathlib.Data.Rat.Floor

/-!
# C173: spatial distributions that replenish the density
-/

namespace Entity.Atmosphere

variable {K : Type} [Field K] [LinearOrder K] [IsStrictOrderedRing K] [FloorRing K]

/-- Specification: the place with coordinates `y`, in units of cells, is in the active cell `c`. -/
def InCell (y : List K) (c : List Nat) : Prop :=
  List.Forall₂ (fun (t : K) (i : Nat) => (i : K) ≤ t ∧ t < i + 1) y c

/-- Specification: `v` tops up a density `ρ` to the target `t`, in units of `m`, if more than a tenth of
the target is missing. -/
def TopsUp (ρ t m v : K) : Prop :=
  (ρ < 9 / 10 * t → ρ + v * m = t) ∧ (9 / 10 * t ≤ ρ → v = 0)

theorem cellIndex_in (NG : Nat) {y : List K} {c : List Nat} (h : InCell y c) :
    cellIndex NG y = .ok (c.map fun i => ((i + NG : Nat) : Int)) := by
  have h1 : y.any (fun t => decide (t ≤ -1)) = false ∧
      (y.map fun t => max ⌊t⌋ 0 + (NG : Int)) = c.map fun i => ((i + NG : Nat) : Int) := by
    induction h with
    | nil => exact ⟨rfl, rfl⟩
    | @cons t i y c hd _ ih =>
      have hi : (0 : K) ≤ (i : K) := Nat.cast_nonneg i
      have hf : ⌊t⌋ = (i : Int) := Int.floor_eq_iff.2 (by push_cast; exact hd)
      refine ⟨?_, ?_⟩
      · rw [List.any_cons, ih.1, Bool.or_false, decide_eq_false_iff_not]
        have := hd.1
        intro h'
        linarith
      · rw [List.map_cons, List.map_cons, ih.2, hf, max_eq_left (Int.natCast_nonneg i)]
        push_cast
        rfl
  unfold cellIndex
  rw [h1.1, h1.2]
  rfl

theorem topsUp_if {ρ t m : K} (hm : m ≠ 0) : TopsUp ρ t m (if 9 / 10 * t > ρ then (t - ρ) / m else 0) := by
  constructor
  · intro h
    rw [if_pos h]
    field_simp
    ring
  · intro h
    rw [if_neg (not_lt.2 h)]

/-- **C173**, uniform target: anywhere in an active cell, the distribution tops up the density of that cell
and lies between zero and one. -/
theorem C173_uniform (NG : Nat) (toCd : List K → List K) (dens : List Int → K) (t : K) (x : List K)
    (c : List Nat) (hc : InCell (toCd x) c) (ht : 0 < t)
    (hρ : 0 ≤ dens (c.map fun i => ((i + NG : Nat) : Int))) :
    ∃ v, replenishUniform NG toCd dens t x = .ok v ∧ 0 ≤ v ∧ v ≤ 1 ∧
      TopsUp (dens (c.map fun i => ((i + NG : Nat) : Int))) t t v := by
  refine ⟨_, ?_, ?_, ?_, topsUp_if ht.ne'⟩
  · unfold replenishUniform
    rw [cellIndex_in NG hc]
    rfl
  · split_ifs with h
    · exact div_nonneg (by linarith) ht.le
    · exact le_rfl
  · split_ifs with h
    · rw [div_le_one ht]; linarith
    · exact zero_le_one

/-- **C173**, variable target `t` that does not exceed `m`. -/
theorem C173_variable (NG : Nat) (toCd : List K → List K) (dens : List Int → K)
    (target : List K → Outcome K) (t m : K) (x : List K) (c : List Nat) (hc : InCell (toCd x) c)
    (ht : target x = .ok t) (hm : 0 < m) (htm : t ≤ m)
    (hρ : 0 ≤ dens (c.map fun i => ((i + NG : Nat) : Int))) :
    ∃ v, replenish NG toCd dens target m x = .ok v ∧ 0 ≤ v ∧ v ≤ 1 ∧
      TopsUp (dens (c.map fun i => ((i + NG : Nat) : Int))) t m v := by
  refine ⟨_, ?_, ?_, ?_, topsUp_if hm.ne'⟩
  · unfold replenish
    rw [cellIndex_in NG hc, Outcome.bind_ok, ht, Outcome.bind_ok]
    rfl
  · split_ifs with h
    · refine div_nonneg ?_ hm.le
      by_cases h0 : 0 ≤ t <;> linarith
    · exact le_rfl
  · split_ifs with h
    · rw [div_le_one hm]; linarith
    · exact zero_le_one

/-- Non-vacuity: a place in cell (3, 0), with density one half and target two. -/
example : InCell ([7 / 2, 1 / 4] : List ℚ) [3, 0] ∧
    (∃ v, replenishUniform 2 id (fun i => if i = [5, 2] then 1 / 2 else 2) 2 ([7 / 2, 1 / 4] : List ℚ) = .ok v ∧
      v = 3 / 4) := by
  have h : InCell ([7 / 2, 1 / 4] : List ℚ) [3, 0] := by
    refine .cons ?_ (.cons ?_ .nil) <;> norm_num
  refine ⟨h, ?_⟩
  obtain ⟨v, h1, _, _, h2, _⟩ := C173_uniform 2 id (fun i => if i = [5, 2] then 1 / 2 else 2) 2 _ _ h
    (by norm_num) (by norm_num)
  refine ⟨v, h1, ?_⟩
  have := h2 (by norm_num)
  norm_num at this
  linarith

end Entity.Atmosphere
