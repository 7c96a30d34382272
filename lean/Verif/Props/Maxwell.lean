import Verif.Lemmas.Ampere
import Verif.Spec.Maxwell
import Verif.Props.Filter
import Mathlib.Tactic.FieldSimp

/-!
# C83: the field solver advances Maxwell's equations
-/

namespace Entity.FieldSolver

open Entity Entity.Topology Entity.Kernel Entity.Ranks Entity.Filter

variable {K : Type} [Field K] {m : Meta} {dN : List (List Nat)}

/-! ## Lemmas -/

section
variable (k k2 : K) (c : Coeffs K) (w : Mem K)

theorem far1_b2 : runBody (faraday1 k c) w ⟨0, 4, [0]⟩ = w ⟨0, 4, [0]⟩ + k * (
    (1 - 3 * c.deltax) * (w ⟨0, 2, [1]⟩ - w ⟨0, 2, [0]⟩)
    + c.deltax * (w ⟨0, 2, [2]⟩ - w ⟨0, 2, [-1]⟩)) := by kernel_rfl

theorem far1_b3 : runBody (faraday1 k c) w ⟨0, 5, [0]⟩ = w ⟨0, 5, [0]⟩ + k * (
    - (1 - 3 * c.deltax) * (w ⟨0, 1, [1]⟩ - w ⟨0, 1, [0]⟩)
    - c.deltax * (w ⟨0, 1, [2]⟩ - w ⟨0, 1, [-1]⟩)) := by kernel_rfl

theorem far2_b3 : runBody (faraday2 k k2 c) w ⟨0, 5, [0, 0]⟩ = w ⟨0, 5, [0, 0]⟩ + k2 * (
    (1 - 2 * c.betayx - 3 * c.deltay) * (w ⟨0, 0, [0, 1]⟩ - w ⟨0, 0, [0, 0]⟩)
    + c.deltay * (w ⟨0, 0, [0, 2]⟩ - w ⟨0, 0, [0, -1]⟩)
    + c.betayx * (w ⟨0, 0, [1, 1]⟩ - w ⟨0, 0, [1, 0]⟩)
    + c.betayx * (w ⟨0, 0, [-1, 1]⟩ - w ⟨0, 0, [-1, 0]⟩)
    - (1 - 2 * c.betaxy - 3 * c.deltax) * (w ⟨0, 1, [1, 0]⟩ - w ⟨0, 1, [0, 0]⟩)
    - c.deltax * (w ⟨0, 1, [2, 0]⟩ - w ⟨0, 1, [-1, 0]⟩)
    - c.betaxy * (w ⟨0, 1, [1, 1]⟩ - w ⟨0, 1, [0, 1]⟩)
    - c.betaxy * (w ⟨0, 1, [1, -1]⟩ - w ⟨0, 1, [0, -1]⟩)) := by kernel_rfl
end

/-- The body of the Faraday kernel. -/
theorem faraday_eval {D : Nat} (hD : D ∈ [1, 2, 3]) (dT : K) {dx : K} (hdx : dx ≠ 0) (k : Coeffs K)
    (w : Mem K) {a : Nat} (ha : a < 3) :
    phys D dx (fun c o => runBody (faraday D dT dx k) w ⟨0, 3 + c, o⟩) a (here D) =
      phys D dx (fun c o => w ⟨0, 3 + c, o⟩) a (here D) -
        dT / dx * curlUp D k (phys D dx (fun c o => w ⟨0, c, o⟩)) a := by
  simp only [List.mem_cons, List.not_mem_nil, or_false] at hD
  obtain rfl | rfl | rfl : a = 0 ∨ a = 1 ∨ a = 2 := by omega
  all_goals
    rcases hD with rfl | rfl | rfl <;>
    simp [phys, curlUp, dUp, extDiff, off, here, faraday, solverCoeffs, Coeffs.delta, Coeffs.beta,
      List.range_succ, far1_b1, far1_b2, far1_b3, far2_b1, far2_b2, far2_b3, far3_b1, far3_b2, far3_b3]
    <;> field_simp <;> ring

/-- The body of the Ampere kernel. -/
theorem ampere_eval {D : Nat} (hD : D ∈ [1, 2, 3]) (dT : K) {dx : K} (hdx : dx ≠ 0)
    (w : Mem K) {a : Nat} (ha : a < 3) :
    phys D dx (fun c o => runBody (ampere D dT dx) w ⟨0, c, o⟩) a (here D) =
      phys D dx (fun c o => w ⟨0, c, o⟩) a (here D) +
        dT / dx * curlDown D (phys D dx (fun c o => w ⟨0, 3 + c, o⟩)) a := by
  simp only [List.mem_cons, List.not_mem_nil, or_false] at hD
  obtain rfl | rfl | rfl : a = 0 ∨ a = 1 ∨ a = 2 := by omega
  all_goals
    rcases hD with rfl | rfl | rfl <;>
    simp [phys, curlDown, dDown, off, here, ampere, solverCoeffs, 
      amp1_e1, amp1_e2, amp1_e3, amp2_e1, amp2_e2, amp2_e3, amp3_e1, amp3_e2, amp3_e3]
    <;> field_simp <;> ring

/-! ## C83 -/

/-- **C83 (Faraday's law).** The magnetic update, with its halo exchange, on every active cell of every
rank of a periodic box: for each component, physical B becomes B - (dT / dx) curl E (with the extended
differences of the coefficients `k`); E and J do not change in active cells. -/
theorem C83_faraday (h : Built m dN) (hp : AllPeriodic m) (hD : dN.length ∈ [1, 2, 3]) {ng : Nat}
    (hng : 2 ≤ ng) (hw : Wide dN ng) {dT dx : K} (hdx : dx ≠ 0) {k : Coeffs K} {M M' : MMem K}
    (hd : Does m dN.length ng (.faraday dT dx k) M M') {r : Nat} {i : List Int} (hi : Active m ng r i)
    {a : Nat} (ha : a < 3) :
    phys dN.length dx (magnetic (M' r) i) a (here dN.length) =
        phys dN.length dx (magnetic (M r) i) a (here dN.length) -
          dT / dx * curlUp dN.length k (phys dN.length dx (electric (M r) i)) a ∧
      M' r ⟨0, a, i⟩ = M r ⟨0, a, i⟩ ∧ M' r ⟨1, a, i⟩ = M r ⟨1, a, i⟩ := by
  obtain ⟨M1, hl, hc⟩ := hd
  have hil := active_length h (active_inArray hi)
  have hwr := fun {b c : Nat} (hs : selB b c = false) => launchAll_other (f := fun _ _ => faraday dN.length dT dx k) h
    (fun _ _ _ => faraday_own hD _ _ _) hl (active_lt hi) hs i
  refine ⟨?_, ?_, ?_⟩
  · have key : ∀ c, M' r ⟨0, 3 + c, List.zipWith (· + ·) i (here dN.length)⟩ =
        runBody (faraday dN.length dT dx k) (fun l => M r (l.at i)) ⟨0, 3 + c, here dN.length⟩ := by
      intro c
      rw [here_add hil, comm_active h hp hD hw hc hi,
        launchAll_active (f := fun _ _ => faraday dN.length dT dx k) h
          (fun _ _ _ => ⟨faraday_own hD _ _ _, (faraday_reach hD hng _ _ _).dimd⟩) hl hi]
    have e := faraday_eval hD dT hdx k (fun l => M r (l.at i)) ha
    refine Eq.trans ?_ e
    simp only [phys, magnetic]
    rw [key a]
  · rw [comm_active h hp hD hw hc hi, hwr (by simp [selB, ha])]
  · rw [comm_active h hp hD hw hc hi, hwr (by simp [selB])]

/-- **C83 (Ampere's law).** The electric update with the current: physical E becomes
E + (dT / dx) curl B + coeff J, the current is divided by `ppc0`, B does not change. -/
theorem C83_ampere (h : Built m dN) (hp : AllPeriodic m) (hD : dN.length ∈ [1, 2, 3]) {ng : Nat}
    (hng : 2 ≤ ng) (hw : Wide dN ng) {dT dx : K} (hdx : dx ≠ 0) {coeff ppc0 : K} {M M' : MMem K}
    (hd : Does m dN.length ng (.electric dT dx (some (coeff, ppc0))) M M') {r : Nat} {i : List Int}
    (hi : Active m ng r i) {a : Nat} (ha : a < 3) :
    phys dN.length dx (electric (M' r) i) a (here dN.length) =
        phys dN.length dx (electric (M r) i) a (here dN.length) +
          dT / dx * curlDown dN.length (phys dN.length dx (magnetic (M r) i)) a +
          coeff * phys dN.length dx (current (M r) i) a (here dN.length) ∧
      M' r ⟨0, 3 + a, i⟩ = M r ⟨0, 3 + a, i⟩ ∧ M' r ⟨1, a, i⟩ = M r ⟨1, a, i⟩ / ppc0 := by
  obtain ⟨M1, M2, hl, hl2, hc⟩ := hd
  have hl2 : LaunchAll m ng (fun _ t => atCell (currentsAmpere dN.length coeff ppc0) t) M1 M2 := hl2
  have hil := active_length h (active_inArray hi)
  have hwr := fun {b c : Nat} (hs : selE b c = false) => launchAll_other (f := fun _ _ => ampere dN.length dT dx) h
    (fun _ _ _ => ampere_own hD _ _) hl (active_lt hi) hs i
  have hwr2 := fun {b c : Nat} (hs : selEJ b c = false) =>
    launchAll_other (f := fun _ _ => currentsAmpere dN.length coeff ppc0) h
    (fun _ _ _ => currentsAmpere_own hD _ _) hl2 (active_lt hi) hs i
  have k2 : ∀ b c, M2 r ⟨b, c, i⟩ = runBody (currentsAmpere dN.length coeff ppc0)
      (fun l => M1 r (l.at i)) ⟨b, c, here dN.length⟩ := fun b c =>
    launchAll_active (f := fun _ _ => currentsAmpere dN.length coeff ppc0) h
      (fun _ _ _ => ⟨currentsAmpere_own hD _ _, (currentsAmpere_reach0 hD _ _).dimd⟩) hl2 hi b c
  refine ⟨?_, ?_, ?_⟩
  · have key : ∀ c, c < 3 → M' r ⟨0, c, List.zipWith (· + ·) i (here dN.length)⟩ =
        runBody (ampere dN.length dT dx) (fun l => M r (l.at i)) ⟨0, c, here dN.length⟩ +
          M r ⟨1, c, List.zipWith (· + ·) i (here dN.length)⟩ * coeff := by
      intro c hc3
      rw [here_add hil, comm_active h hp hD hw hc hi, k2, cur_e hD _ _ _ hc3]
      simp only [Loc.at, here_add hil]
      rw [launchAll_active (f := fun _ _ => ampere dN.length dT dx) h
          (fun _ _ _ => ⟨ampere_own hD _ _, (ampere_reach hD (by omega) _ _).dimd⟩) hl hi,
        hwr (by simp [selE])]
      rfl
    have e := ampere_eval hD dT hdx (fun l => M r (l.at i)) ha
    refine Eq.trans ?_ (congrArg (· + coeff * phys dN.length dx (current (M r) i) a (here dN.length)) e)
    simp only [phys, electric, current]
    rw [key a ha]
    split <;> ring
  · rw [comm_active h hp hD hw hc hi, hwr2 (by simp [selEJ, selE, selJ]), hwr (by simp [selE])]
  · rw [comm_active h hp hD hw hc hi, k2, cur_j hD _ _ _ ha]
    simp only [Loc.at, here_add hil]
    rw [hwr (by simp [selE])]

/-- **C83 (Ampere's law without deposit).** -/
theorem C83_ampere_vacuum (h : Built m dN) (hp : AllPeriodic m) (hD : dN.length ∈ [1, 2, 3]) {ng : Nat}
    (hng : 2 ≤ ng) (hw : Wide dN ng) {dT dx : K} (hdx : dx ≠ 0) {M M' : MMem K}
    (hd : Does m dN.length ng (.electric dT dx none) M M') {r : Nat} {i : List Int}
    (hi : Active m ng r i) {a : Nat} (ha : a < 3) :
    phys dN.length dx (electric (M' r) i) a (here dN.length) =
        phys dN.length dx (electric (M r) i) a (here dN.length) +
          dT / dx * curlDown dN.length (phys dN.length dx (magnetic (M r) i)) a ∧
      M' r ⟨0, 3 + a, i⟩ = M r ⟨0, 3 + a, i⟩ ∧ M' r ⟨1, a, i⟩ = M r ⟨1, a, i⟩ := by
  obtain ⟨M1, M2, hl, rfl, hc⟩ := hd
  have hil := active_length h (active_inArray hi)
  have hwr := fun {b c : Nat} (hs : selE b c = false) => launchAll_other (f := fun _ _ => ampere dN.length dT dx) h
    (fun _ _ _ => ampere_own hD _ _) hl (active_lt hi) hs i
  refine ⟨?_, ?_, ?_⟩
  · have key : ∀ c, M' r ⟨0, c, List.zipWith (· + ·) i (here dN.length)⟩ =
        runBody (ampere dN.length dT dx) (fun l => M r (l.at i)) ⟨0, c, here dN.length⟩ := by
      intro c
      rw [here_add hil, comm_active h hp hD hw hc hi,
        launchAll_active (f := fun _ _ => ampere dN.length dT dx) h
          (fun _ _ _ => ⟨ampere_own hD _ _, (ampere_reach hD (by omega) _ _).dimd⟩) hl hi]
    have e := ampere_eval hD dT hdx (fun l => M r (l.at i)) ha
    refine Eq.trans ?_ e
    simp only [phys, electric]
    rw [key a]
  · rw [comm_active h hp hD hw hc hi, hwr (by simp [selE])]
  · rw [comm_active h hp hD hw hc hi, hwr (by simp [selE])]

/-- The hypotheses of C83 can be met on a periodic 2 × 1 decomposition, from any fields. -/
example (M : MMem ℚ) : ∃ M1 M2, Does perMeta 2 2 (.faraday (1/20) (1/10) .yee) M M1 ∧
    Does perMeta 2 2 (.electric (1/20) (1/10) (some (-1/3, 4))) M1 M2 ∧ Active perMeta 2 1 [2, 3] := by
  have hp : AllPeriodic perMeta := ⟨rfl, by decide⟩
  have hw : Wide [[5, 6], [7]] 2 := by unfold Wide; decide
  obtain ⟨_, h'⟩ := exists_runs (K := ℚ) perMeta_built hp (by decide) hw
    [.faraday (1/20) (1/10) .yee, .electric (1/20) (1/10) (some (-1/3, 4))] M
  cases h' with
  | cons h1 h2 => cases h2 with
    | cons h2 _ => exact ⟨_, _, h1, h2, ⟨1, [1, 0], [5, 0], [6, 7]⟩, by decide +kernel, by
        refine .cons ?_ (.cons ?_ .nil) <;> decide⟩

/-- In a plane wave along x1 with B2 = 1 in one cell only, E3 grows there and shrinks in the next. -/
example : curlDown 1 (fun c o => if c = 1 ∧ o = [0] then (1 : ℚ) else 0) 2 = 1 ∧
    curlDown 1 (fun c o => if c = 1 ∧ o = [-1] then (1 : ℚ) else 0) 2 = -1 := by decide +kernel

end Entity.FieldSolver
