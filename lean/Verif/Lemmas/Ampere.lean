import Verif.Lemmas.Faraday

/-!
# Divergence of the electric field under the Ampere update
-/

namespace Entity.FieldSolver

open Entity.Kernel Entity.Ranks

variable {K : Type} [Field K]

section
variable (k k2 : K) (w : Mem K)

theorem amp1_e1 : runBody (ampere1 k) w ⟨0, 0, [0]⟩ = w ⟨0, 0, [0]⟩ := by kernel_rfl
theorem amp1_e2 : runBody (ampere1 k) w ⟨0, 1, [0]⟩ =
    w ⟨0, 1, [0]⟩ + k * (w ⟨0, 5, [-1]⟩ - w ⟨0, 5, [0]⟩) := by kernel_rfl
theorem amp1_e3 : runBody (ampere1 k) w ⟨0, 2, [0]⟩ =
    w ⟨0, 2, [0]⟩ + k * (w ⟨0, 4, [0]⟩ - w ⟨0, 4, [-1]⟩) := by kernel_rfl

theorem amp2_e1 : runBody (ampere2 k k2) w ⟨0, 0, [0, 0]⟩ =
    w ⟨0, 0, [0, 0]⟩ + k * (w ⟨0, 5, [0, 0]⟩ - w ⟨0, 5, [0, -1]⟩) := by kernel_rfl
theorem amp2_e2 : runBody (ampere2 k k2) w ⟨0, 1, [0, 0]⟩ =
    w ⟨0, 1, [0, 0]⟩ + k * (w ⟨0, 5, [-1, 0]⟩ - w ⟨0, 5, [0, 0]⟩) := by kernel_rfl
theorem amp2_e3 : runBody (ampere2 k k2) w ⟨0, 2, [0, 0]⟩ =
    w ⟨0, 2, [0, 0]⟩ + k2 * (w ⟨0, 3, [0, -1]⟩ - w ⟨0, 3, [0, 0]⟩ +
      w ⟨0, 4, [0, 0]⟩ - w ⟨0, 4, [-1, 0]⟩) := by kernel_rfl

theorem amp3_e1 : runBody (ampere3 k) w ⟨0, 0, [0, 0, 0]⟩ =
    w ⟨0, 0, [0, 0, 0]⟩ + k * (w ⟨0, 4, [0, 0, -1]⟩ - w ⟨0, 4, [0, 0, 0]⟩ +
      w ⟨0, 5, [0, 0, 0]⟩ - w ⟨0, 5, [0, -1, 0]⟩) := by kernel_rfl
theorem amp3_e2 : runBody (ampere3 k) w ⟨0, 1, [0, 0, 0]⟩ =
    w ⟨0, 1, [0, 0, 0]⟩ + k * (w ⟨0, 5, [-1, 0, 0]⟩ - w ⟨0, 5, [0, 0, 0]⟩ +
      w ⟨0, 3, [0, 0, 0]⟩ - w ⟨0, 3, [0, 0, -1]⟩) := by kernel_rfl
theorem amp3_e3 : runBody (ampere3 k) w ⟨0, 2, [0, 0, 0]⟩ =
    w ⟨0, 2, [0, 0, 0]⟩ + k * (w ⟨0, 3, [0, -1, 0]⟩ - w ⟨0, 3, [0, 0, 0]⟩ +
      w ⟨0, 4, [0, 0, 0]⟩ - w ⟨0, 4, [-1, 0, 0]⟩) := by kernel_rfl
end

theorem divDown1 (F : Nat → List Int → K) : divDown 1 F = F 0 [0] - F 0 [-1] := by
  simp [divDown, off, List.range_succ]

theorem divDown2 (F : Nat → List Int → K) : divDown 2 F =
    (F 0 [0, 0] - F 0 [-1, 0]) + (F 1 [0, 0] - F 1 [0, -1]) := by
  simp [divDown, off, List.range_succ]

theorem divDown3 (F : Nat → List Int → K) : divDown 3 F =
    (F 0 [0, 0, 0] - F 0 [-1, 0, 0]) + ((F 1 [0, 0, 0] - F 1 [0, -1, 0]) +
      (F 2 [0, 0, 0] - F 2 [0, 0, -1])) := by
  simp [divDown, off, List.range_succ]

/-- The divergence of the electric field before and after the Ampere update. -/
theorem ampere_div {D : Nat} (hD : D ∈ [1, 2, 3]) (dT dx : K) (v : Mem K) {p : List Int}
    (hp : p.length = D) :
    divDown D (electric (stepAll D (ampere D dT dx) v) p) = divDown D (electric v p) := by
  simp only [List.mem_cons, List.not_mem_nil, or_false] at hD
  rcases hD with rfl | rfl | rfl
  · match p, hp with
    | [x], _ =>
      rw [divDown1, divDown1]
      simp only [electric, stepAll, ampere, here, List.replicate, amp1_e1, Loc.at,
        List.zipWith_cons_cons, List.zipWith_nil_left, add_zero]
  · match p, hp with
    | [x, y], _ =>
      rw [divDown2, divDown2]
      simp only [electric, stepAll, ampere, here, List.replicate, amp2_e1, amp2_e2, Loc.at,
        List.zipWith_cons_cons, List.zipWith_nil_left, add_zero]
      ring
  · match p, hp with
    | [x, y, z], _ =>
      rw [divDown3, divDown3]
      simp only [electric, stepAll, ampere, here, List.replicate, amp3_e1, amp3_e2, amp3_e3, Loc.at,
        List.zipWith_cons_cons, List.zipWith_nil_left, add_zero]
      ring

theorem cur_e {D : Nat} (hD : D ∈ [1, 2, 3]) (coeff ppc0 : K) (w : Mem K) {c : Nat} (hc : c < 3) :
    runBody (currentsAmpere D coeff ppc0) w ⟨0, c, here D⟩ =
      w ⟨0, c, here D⟩ + w ⟨1, c, here D⟩ * coeff := by
  simp only [List.mem_cons, List.not_mem_nil, or_false] at hD
  obtain rfl | rfl | rfl : c = 0 ∨ c = 1 ∨ c = 2 := by omega
  all_goals rcases hD with rfl | rfl | rfl <;> kernel_rfl

theorem cur_j {D : Nat} (hD : D ∈ [1, 2, 3]) (coeff ppc0 : K) (w : Mem K) {c : Nat} (hc : c < 3) :
    runBody (currentsAmpere D coeff ppc0) w ⟨1, c, here D⟩ = w ⟨1, c, here D⟩ / ppc0 := by
  simp only [List.mem_cons, List.not_mem_nil, or_false] at hD
  obtain rfl | rfl | rfl : c = 0 ∨ c = 1 ∨ c = 2 := by omega
  all_goals rcases hD with rfl | rfl | rfl <;> kernel_rfl

theorem here_add {p : List Int} {D : Nat} (hp : p.length = D) : List.zipWith (· + ·) p (here D) = p := by
  rw [← hp]; exact here_at p

/-- The divergence of the electric field before and after the addition of the current. -/
theorem current_div {D : Nat} (hD : D ∈ [1, 2, 3]) (coeff ppc0 : K) (v : Mem K) {p : List Int}
    (hp : p.length = D) :
    divDown D (electric (stepAll D (currentsAmpere D coeff ppc0) v) p) =
      divDown D (electric v p) + coeff * divDown D (current v p) := by
  have key : ∀ c, c < 3 → ∀ o : List Int, o.length = D →
      electric (stepAll D (currentsAmpere D coeff ppc0) v) p c o =
        electric v p c o + current v p c o * coeff := by
    intro c hc o ho
    unfold electric stepAll
    rw [cur_e hD _ _ _ hc]
    simp only [Loc.at]
    rw [here_add (by simp [hp, ho])]
    rfl
  have hD' := hD
  simp only [List.mem_cons, List.not_mem_nil, or_false] at hD'
  rcases hD' with rfl | rfl | rfl
  · simp only [divDown1]
    rw [key 0 (by decide) _ (by decide), key 0 (by decide) _ (by decide)]; ring
  · simp only [divDown2]
    rw [key 0 (by decide) _ (by decide), key 0 (by decide) _ (by decide),
      key 1 (by decide) _ (by decide), key 1 (by decide) _ (by decide)]; ring
  · simp only [divDown3]
    rw [key 0 (by decide) _ (by decide), key 0 (by decide) _ (by decide),
      key 1 (by decide) _ (by decide), key 1 (by decide) _ (by decide),
      key 2 (by decide) _ (by decide), key 2 (by decide) _ (by decide)]; ring

end Entity.FieldSolver
