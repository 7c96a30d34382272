import Verif.Lemmas.CurviRuns
import Mathlib.Algebra.Order.Field.Rat

/-!
# C95: magnetic flux on curvilinear grids
-/

namespace Entity.Curvi

open Entity.Kernel Entity.FieldSolver

variable {K : Type} [Field K]

/-- **C95** (special relativity).  On a curvilinear grid — any metric whose coordinates are singular on
the polar axis only — the magnetic flux out of every cell is the same after any number of time steps,
whatever the currents, the time step and the order in which the cells are processed.  The cells include
those next to the axis.  Columns: those (`a ≤ i1`, `i1 + 1 < b`) whose radial faces no boundary
condition other than the axis writes. -/
theorem C95_sr {M : CMetric K} {g : CGrid} (hM : Polar M g) {p : StepPrm K} {a b : Int}
    (ha : g.i1min ≤ a) (hb : b ≤ g.i1max) (Js : List (Option (Cc → Int → Int → K))) {m m' : Mem K}
    (h : Seq (Js.map (srStep M g p a b)) m m') (i1 i2 : Int) (h1 : a ≤ i1) (h1' : i1 + 1 < b)
    (h2 : g.i2min ≤ i2) (h2' : i2 < g.i2max) (hup : i2 + 1 < g.i2max ∨ g.axisHi = true) :
    divB M g emA m' i1 i2 = divB M g emA m i1 i2 := by
  refine seq_all (P := SameB M g a b emA) (fun _ _ _ _ => rfl) (fun _ _ _ => SameB.trans) ?_ h
    i1 i2 ⟨⟨h1, h1'⟩, h2, h2', hup⟩
  intro r hr
  simp only [List.mem_map] at hr
  obtain ⟨J, -, rfl⟩ := hr
  exact fun m m' h => srStep_sameB hM ha hb J h

/-- **C95** (general relativity).  The same for the GR engine: any metric, any number of calls of
`step_forward` from step number `k` on (the first step of a simulation, `k = 0`, includes the
preparation of the fields), with or without currents. -/
theorem C95_gr {M : CMetric K} {g : CGrid} (hM : Polar M g) {p : StepPrm K} {a b : Int}
    (ha : g.i1min ≤ a) (hb : b ≤ g.i1max) (k : Nat) (Js : List (Option (Cc → Int → Int → K)))
    {m m' : Mem K}
    (h : Seq ((Js.zipIdx k).map (fun Jk => grStep M g p a b Jk.2 Jk.1)) m m')
    (i1 i2 : Int) (h1 : a ≤ i1) (h1' : i1 + 1 < b)
    (h2 : g.i2min ≤ i2) (h2' : i2 < g.i2max) (hup : i2 + 1 < g.i2max ∨ g.axisHi = true) :
    divB M g emA m' i1 i2 = divB M g emA m i1 i2 := by
  refine seq_sameB (M := M) (g := g) (a := a) (b := b) (A := emA) ?_ h i1 i2
    ⟨⟨h1, h1'⟩, h2, h2', hup⟩
  intro r hr
  simp only [List.mem_map] at hr
  obtain ⟨⟨J, n⟩, -, rfl⟩ := hr
  intro m m' h
  simp only [grStep] at h
  split at h
  · obtain ⟨m1, e1, m2, e2, rfl⟩ := h
    exact (grInit_sameB hM ha hb e1).trans (grMain_sameB hM ha hb e2)
  · obtain ⟨m2, e2, rfl⟩ := h
    exact grMain_sameB hM ha hb e2

/-- The hypotheses of C95 are met by a grid of 4 × 3 cells between two axes, and whatever the initial
fields, the currents and the parameters, there is a run of several steps. -/
example (p : StepPrm ℚ) (Js : List (Option (Cc → Int → Int → ℚ))) (m : Mem ℚ) :
    Polar toyMetric toyGrid ∧ (∃ m', Seq (Js.map (srStep toyMetric toyGrid p 2 6)) m m') ∧
    (∃ m', Seq ((Js.zipIdx 0).map (fun Jk => grStep toyMetric toyGrid p 2 6 Jk.2 Jk.1)) m m') := by
  refine ⟨toyPolar, seq_exists ?_ m, seq_exists ?_ m⟩
  · intro r hr
    simp only [List.mem_map] at hr
    obtain ⟨J, -, rfl⟩ := hr
    exact srStep_exists _ _ _ _ _ _
  · intro r hr
    simp only [List.mem_map] at hr
    obtain ⟨J, -, rfl⟩ := hr
    exact grStep_exists _ _ _ _ _ _ _

/-- The flux through single faces does change: `Faraday` with `E_φ = 1` at one node. -/
example : runBody (faradaySR toyMetric toyGrid (1 : ℚ) [3, 3])
    (fun l => if l = fL emA .ex3 3 3 then 1 else 0) (fL emA .bx1 3 3) ≠ 0 := by
  decide +kernel

end Entity.Curvi
