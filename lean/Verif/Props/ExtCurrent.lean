import Verif.Lemmas.Ampere
import Mathlib.Tactic.FieldSimp
import Mathlib.Tactic.Ring

/-!
# C176: external currents
-/

namespace Entity.FieldSolver

open Entity Entity.Kernel

variable {K : Type} [Field K]

/-- Specification: position in the box of component `c` of the current in active cell `i`: half a cell
ahead along its own axis. -/
def edge (dx : K) (xmin : List K) (c : Nat) (i : List Nat) : List K :=
  (List.range i.length).map fun a =>
    xmin.getD a 0 + dx * (if a = c then (i.getD a 0 : K) + 1 / 2 else (i.getD a 0 : K))

theorem extPos_eq (NG : Nat) (dx : K) (xmin : List K) (c : Nat) (i : List Nat) (h : xmin.length = i.length) :
    extPos (NG : Int) dx xmin c (i.map fun (n : Nat) => ((n + NG : Nat) : Int)) = edge dx xmin c i := by
  unfold extPos edge
  apply List.ext_getElem
  · simp [h]
  · intro a h1 h2
    have ha : a < i.length := by simpa using h2
    have hx : a < xmin.length := by omega
    simp only [List.getElem_mapIdx, List.getElem_zipWith, List.getElem_map, List.getElem_range]
    simp only [List.getD_eq_getElem?_getD, List.getElem?_eq_getElem ha, List.getElem?_eq_getElem hx,
      Option.getD_some]
    push_cast
    split_ifs <;> ring

/-- **C176**: with an external current `ext`, the electric field in active cell `i` receives `coeff` times
the current of the particles plus `ppc0` times the external current at the place of the component; the
current left in the array, in physical units, is the sum of the two. -/
theorem C176_external_current {D : Nat} (hD : D ∈ [1, 2, 3]) (NG : Nat) (dx coeff ppc0 : K) (h0 : ppc0 ≠ 0)
    (xmin : List K) (ext : Nat → List K → K) (i : List Nat) (hi : i.length = D) (hx : xmin.length = D)
    (w : Mem K) (c : Nat) (hc : c < 3) :
    let t : List Int := i.map fun (n : Nat) => ((n + NG : Nat) : Int)
    let w' := runBody (extCurrent NG dx xmin ppc0 ext t ++ currentsAmpere D coeff ppc0) w
    w' ⟨0, c, here D⟩ =
      w ⟨0, c, here D⟩ + coeff * (w ⟨1, c, here D⟩ + ppc0 * ext c (edge dx xmin c i)) ∧
    w' ⟨1, c, here D⟩ = w ⟨1, c, here D⟩ / ppc0 + ext c (edge dx xmin c i) := by
  intro t w'
  have ht : t.length = D := by simp [t, hi]
  have hp : ∀ c, extPos (NG : Int) dx xmin c t = edge dx xmin c i := fun c =>
    extPos_eq NG dx xmin c i (by rw [hx, hi])
  have hw : w' = runBody (extCurrent NG dx xmin ppc0 ext t ++ currentsAmpere D coeff ppc0) w := rfl
  clear_value w'
  subst hw
  unfold extCurrent currentsAmpere
  rw [ht, hp, hp, hp]
  clear_value t
  simp only [List.mem_cons, List.not_mem_nil, or_false] at hD
  obtain rfl | rfl | rfl : c = 0 ∨ c = 1 ∨ c = 2 := by omega
  all_goals
    refine ⟨?_, ?_⟩
    all_goals
      simp [runBody, plusEq, store, Ex.eval, ebL, jcL, jc, Em.toNat, Cc.toNat]
      field_simp
      try ring

/-- Non-vacuity: a current along the first axis that grows along it, in the second cell of a line. -/
example : edge (1 / 2 : ℚ) [3] 0 [1] = [15 / 4] ∧
    runBody (extCurrent (2 : Int) (1 / 2 : ℚ) [3] 4 (fun c x => if c = 0 then x.sum else 0) [3] ++
      currentsAmpere 1 (1 / 8) 4) (fun _ => 1) ⟨0, 0, [0]⟩ = 3 := by
  refine ⟨?_, ?_⟩ <;> decide +kernel

end Entity.FieldSolver
