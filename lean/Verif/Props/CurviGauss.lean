import Verif.Lemmas.CurviGaussSR
import Verif.Lemmas.CurviRuns

/-!
# C96: Gauss's law on curvilinear grids (special relativity)
-/

namespace Entity.Curvi

open Entity.Kernel Entity.FieldSolver

variable {K : Type} [Field K]

theorem kappa_eq {p : StepPrm K} (hn0 : p.n0 ≠ 0) : kappa p = -(p.dt * p.q0 / p.B0) := by
  simp only [kappa]; field_simp

/-- A charge that changes by minus the net current. -/
theorem sum_charge (Js : List (Option (Cc → Int → Int → K))) (d : (Cc → Int → Int → K) → K)
    (ρ : Nat → K) (hρ : ∀ (k : Nat) (hk : k < Js.length), ρ (k + 1) = ρ k - d (jOf Js[k])) :
    (Js.map (fun J => d (jOf J))).sum = ρ 0 - ρ Js.length := by
  induction Js generalizing ρ with
  | nil => simp
  | cons J Js ih =>
    rw [List.map_cons, List.sum_cons, ih (fun k => ρ (k + 1))
      (fun k hk => hρ (k + 1) (by simpa using hk)), List.length_cons]
    have := hρ 0 (by simp)
    simp only [List.getElem_cons_zero] at this
    rw [this]; ring

theorem list_sum_mul (c : K) {σ : Type} (d : σ → K) (ss : List σ) :
    (ss.map (fun s => c * d s)).sum = c * (ss.map d).sum := by
  induction ss with
  | nil => simp
  | cons s ss ih => simp only [List.map_cons, List.sum_cons, ih]; ring

/-- **C96** (off the axis).  Curvilinear grid, SR engine, any number of steps, any schedule: if the
charge `ρ` around a node changes in each step by minus the net deposited current, the electric flux out of the
dual cell minus `dt q0 / B0` times the charge is the same at the end as at the beginning. -/
theorem C96_sr [CharZero K] {M : CMetric K} {g : CGrid} (hM : Polar M g) {p : StepPrm K}
    (hn0 : p.n0 ≠ 0) {a b : Int} (ha : g.i1min ≤ a) (hb : b ≤ g.i1max)
    (Js : List (Option (Cc → Int → Int → K))) {m m' : Mem K}
    (h : Seq (Js.map (srStep M g p a b)) m m') (ρ : Nat → Int → Int → K)
    (hρ : ∀ (k : Nat) (hk : k < Js.length) i1 i2,
      ρ (k + 1) i1 i2 = ρ k i1 i2 - divJ (jOf Js[k]) i1 i2)
    (i1 i2 : Int) (h1 : a < i1) (h1' : i1 < b) (h2 : g.i2min < i2) (h2' : i2 < g.i2max) :
    divE M g emA m' i1 i2 - p.dt * p.q0 / p.B0 * ρ Js.length i1 i2 =
      divE M g emA m i1 i2 - p.dt * p.q0 / p.B0 * ρ 0 i1 i2 := by
  have e := seq_sum (step := srStep M g p a b) (q := fun m => divE M g emA m i1 i2)
    (d := fun J => kappa p * divJ (jOf J) i1 i2)
    (fun J m m' h => srStep_divE hM ha hb J h ⟨⟨h1, h1'⟩, h2, h2'⟩) Js h
  have e' := sum_charge Js (fun J => divJ J i1 i2) (fun k => ρ k i1 i2) (fun k hk => hρ k hk i1 i2)
  rw [list_sum_mul (kappa p) (fun J => divJ (jOf J) i1 i2), e', kappa_eq hn0] at e
  rw [e]; ring

/-- **C96** at the poles.  The same for the half cells at the axis, provided no current flows *along*
the axis (`J1 = 0` in the rows on the axis) — in particular in vacuum.  Missing: currents along the
axis, see the counterexample. -/
theorem C96_sr_caps_partial [CharZero K] {M : CMetric K} {g : CGrid} (hM : Polar M g) {p : StepPrm K}
    (hn0 : p.n0 ≠ 0) {a b : Int} (ha : g.i1min ≤ a) (hb : b ≤ g.i1max) (hg : 0 ≤ g.ng) (hn : 0 < g.n2)
    (Js : List (Option (Cc → Int → Int → K))) {m m' : Mem K}
    (h : Seq (Js.map (srStep M g p a b)) m m') (ρlo ρhi : Nat → Int → K)
    (hlo : ∀ (k : Nat) (hk : k < Js.length) i1, ρlo (k + 1) i1 = ρlo k i1 - divJLo g (jOf Js[k]) i1)
    (hhi : ∀ (k : Nat) (hk : k < Js.length) i1, ρhi (k + 1) i1 = ρhi k i1 - divJHi g (jOf Js[k]) i1)
    (hax : ∀ J ∈ Js, ∀ i1, jOf J .jx1 i1 g.i2min = 0 ∧ jOf J .jx1 i1 g.i2max = 0)
    (i1 : Int) (h1 : a < i1) (h1' : i1 < b) :
    (g.axisLo = true → divELo M g emA m' i1 - p.dt * p.q0 / p.B0 * ρlo Js.length i1 =
      divELo M g emA m i1 - p.dt * p.q0 / p.B0 * ρlo 0 i1) ∧
    (g.axisHi = true → divEHi M g emA m' i1 - p.dt * p.q0 / p.B0 * ρhi Js.length i1 =
      divEHi M g emA m i1 - p.dt * p.q0 / p.B0 * ρhi 0 i1) := by
  constructor
  · intro hx
    have e := seq_sum (step := srStep M g p a b) (q := fun m => divELo M g emA m i1)
      (d := fun J => kappa p *
        (1 / 2 * (jOf J .jx1 i1 g.i2min - jOf J .jx1 (i1 - 1) g.i2min) + jOf J .jx2 i1 g.i2min))
      (fun J m m' h => srStep_divELo hM ha hb hx hn J h h1 h1') Js h
    have e' := sum_charge Js (fun J => divJLo g J i1) (fun k => ρlo k i1) (fun k hk => hlo k hk i1)
    rw [list_sum_mul (kappa p) (fun J =>
      1 / 2 * (jOf J .jx1 i1 g.i2min - jOf J .jx1 (i1 - 1) g.i2min) + jOf J .jx2 i1 g.i2min),
      kappa_eq hn0, List.map_congr_left (g := fun J => divJLo g (jOf J) i1) ?_, e'] at e
    · rw [e]; ring
    · intro J hJ
      simp only [divJLo, (hax J hJ _).1]; ring
  · intro hx
    have e := seq_sum (step := srStep M g p a b) (q := fun m => divEHi M g emA m i1)
      (d := fun J => kappa p *
        (1 / 2 * (jOf J .jx1 i1 g.i2max - jOf J .jx1 (i1 - 1) g.i2max) - jOf J .jx2 i1 (g.i2max - 1)))
      (fun J m m' h => srStep_divEHi hM ha hb hg hx hn J h h1 h1') Js h
    have e' := sum_charge Js (fun J => divJHi g J i1) (fun k => ρhi k i1) (fun k hk => hhi k hk i1)
    rw [list_sum_mul (kappa p) (fun J =>
      1 / 2 * (jOf J .jx1 i1 g.i2max - jOf J .jx1 (i1 - 1) g.i2max) - jOf J .jx2 i1 (g.i2max - 1)),
      kappa_eq hn0, List.map_congr_left (g := fun J => divJHi g (jOf J) i1) ?_, e'] at e
    · rw [e]; ring
    · intro J hJ
      simp only [divJHi, (hax J hJ _).2]; ring

/-- The current of one unit of charge carried around a loop that touches the axis: onto the axis at
node `i1`, along the axis to `i1 + 1`, off the axis and back. -/
def axisLoop (g : CGrid) (i1 : Int) : Cc → Int → Int → K
  | .jx1, k1, k2 => if k1 = i1 ∧ k2 = g.i2min then 1 else if k1 = i1 ∧ k2 = g.i2min + 1 then -1 else 0
  | .jx2, k1, k2 => if k1 = i1 ∧ k2 = g.i2min then -1 else if k1 = i1 + 1 ∧ k2 = g.i2min then 1 else 0
  | .jx3, _, _ => 0

/-- At the poles Gauss's law fails with currents along the axis, on every grid and in every metric: a
charge carried around a closed loop that touches the axis — no charge has changed anywhere — leaves the
spurious flux `dt q0 / (2 B0)` in the polar half cell (the kernel weights `J1` on the axis with ½ but
the current `J2` that arrives there with 1). -/
theorem C96_axis_current_counterexample [CharZero K] {M : CMetric K} {g : CGrid} (hM : Polar M g)
    {p : StepPrm K} (hn0 : p.n0 ≠ 0) {a b : Int} (ha : g.i1min ≤ a) (hb : b ≤ g.i1max)
    (hx : g.axisLo = true) (hn : 1 < g.n2) (i1 : Int) (h1 : a < i1) (h1' : i1 < b) {m m' : Mem K}
    (h : srStep M g p a b (some (axisLoop g i1)) m m') :
    ((∀ k1 k2, g.i2min < k2 → divJ (axisLoop (K := K) g i1) k1 k2 = 0) ∧
      ∀ k1, divJLo (K := K) g (axisLoop g i1) k1 = 0) ∧
    divELo M g emA m' i1 = divELo M g emA m i1 + p.dt * p.q0 / p.B0 / 2 := by
  refine ⟨⟨?_, ?_⟩, ?_⟩
  · intro k1 k2 hk
    have q1 : k2 ≠ g.i2min := by omega
    simp only [divJ, axisLoop, q1, and_false, if_false]
    by_cases e2 : k2 = g.i2min + 1
    · subst e2
      have q2 : g.i2min + 1 - 1 = g.i2min := by omega
      simp only [and_true, q2]
      by_cases e1 : k1 = i1
      · subst e1; simp
      · by_cases e3 : k1 = i1 + 1
        · subst e3; simp
        · have : k1 - 1 ≠ i1 := by omega
          simp [e1, e3, this]
    · have q3 : k2 - 1 ≠ g.i2min := by omega
      simp [e2, q3]
  · intro k1
    simp only [divJLo, axisLoop, and_true]
    by_cases e1 : k1 = i1
    · subst e1
      have : k1 - 1 ≠ k1 := by omega
      simp
    · by_cases e3 : k1 = i1 + 1
      · subst e3; simp
      · have : k1 - 1 ≠ i1 := by omega
        simp [e1, e3, this]
  · rw [srStep_divELo hM ha hb hx (by omega) _ h h1 h1', kappa_eq hn0]
    have q : ¬ (i1 - 1 = i1) := by omega
    have q2 : g.i2min ≠ g.i2min + 1 := by omega
    simp only [jOf, Option.getD_some, axisLoop, and_self, if_true, q, false_and, if_false]
    ring

/-- Hypotheses of C96: a metric with two axes, a run of three steps, a current that is not divergence
free. -/
example (m : Mem ℚ) : Polar toyMetric toyGrid ∧
    (∃ m', Seq ([some (axisLoop toyGrid 3), none, some (fun _ i1 i2 => (i1 * i2 : ℚ))].map
      (srStep toyMetric toyGrid ⟨1, 1, 1, 1, 1⟩ 2 6)) m m') ∧
    divJ (fun _ i1 i2 => (i1 * i2 : ℚ)) 3 4 ≠ 0 := by
  refine ⟨toyPolar, seq_exists ?_ m, by norm_num [divJ]⟩
  intro r hr
  simp only [List.mem_map] at hr
  obtain ⟨J, -, rfl⟩ := hr
  exact srStep_exists _ _ _ _ _ _

end Entity.Curvi
