import Verif.Lemmas.GRScheme
import Verif.Lemmas.CurviRuns
import Verif.Model.Push

/-!
# C126-C128: the time stepping of the fields on curvilinear grids
-/

namespace Entity.GRScheme

open Entity.Kernel Entity.FieldSolver Entity.Curvi Entity.Push

variable {K : Type} [Field K] [CharZero K] {M : CMetric K} {g : CGrid} {p : StepPrm K} {a b : Int}
  {m m' : Mem K}

/-- The arrays hold the fields `s` in the cells that are at least `k` cells away from the edges of the
columns `a ≤ i1 < b`: `em` the later ones, `em0` the earlier ones, `cur` the last current. -/
structure Holds (g : CGrid) (a b : Int) (k : Nat) (s : Fields K) (m : Mem K) : Prop where
  D : ∀ i1 i2, Inner g a b k i1 i2 → m (fL emA .ex1 i1 i2) = s.D.x i1 i2 ∧
    m (fL emA .ex2 i1 i2) = s.D.y i1 i2 ∧ m (fL emA .ex3 i1 i2) = s.D.z i1 i2
  B : ∀ i1 i2, Inner g a b k i1 i2 → m (fL emA .bx1 i1 i2) = s.B.x i1 i2 ∧
    m (fL emA .bx2 i1 i2) = s.B.y i1 i2 ∧ m (fL emA .bx3 i1 i2) = s.B.z i1 i2
  D0 : ∀ i1 i2, Inner g a b k i1 i2 → m (fL em0A .ex1 i1 i2) = s.D0.x i1 i2 ∧
    m (fL em0A .ex2 i1 i2) = s.D0.y i1 i2 ∧ m (fL em0A .ex3 i1 i2) = s.D0.z i1 i2
  B0 : ∀ i1 i2, Inner g a b k i1 i2 → m (fL em0A .bx1 i1 i2) = s.B0.x i1 i2 ∧
    m (fL em0A .bx2 i1 i2) = s.B0.y i1 i2 ∧ m (fL em0A .bx3 i1 i2) = s.B0.z i1 i2
  J : ∀ i1 i2, Inner g a b k i1 i2 → m (jL curA .jx1 i1 i2) = s.J.x i1 i2 ∧
    m (jL curA .jx2 i1 i2) = s.J.y i1 i2 ∧ m (jL curA .jx3 i1 i2) = s.J.z i1 i2

/-! ## C126: general relativity -/

/-- **C126 (a step).** The GR engine away from the boundaries, in a step other than the first, with the
currents `J` deposited: if `em` holds `D` at `n` and `B` at `n - ½`, `em0` the same a step earlier and
`cur` the current at `n - ½`, then afterwards `em` holds

* `B(n+½) = B(n-½) - dt curl E(n)`, `E(n) = α D(n) + β × B(n)`,
* `D(n+1) = D(n) + dt curl H(n+½) - dt q0/B0 J(n+½)/√h`, `H(n+½) = α B(n+½) - β × D(n+½)`,

where `B(n)` and `D(n+½)` are obtained by the same laws from the means of the two known levels
(`Bcentred`, `Dcentred`), `em0` holds what `em` held, and `cur` holds `J`.  For every metric, all fields,
any order of the threads, whatever the boundary conditions do at the edges. -/
theorem C126_step (ha : g.i1min ≤ a) (hb : b ≤ g.i1max) {s : Fields K} {k n : Nat} (hk : 1 ≤ k) (hn : n ≠ 0)
    {J : Cc → Int → Int → K} (hs : Holds g a b k s m) (h : grStep M g p a b n (some J) m m') :
    Holds g a b (k + 6) ⟨Dnext M g p s (some (ofJ J)), Bnext M g p s, s.D, s.B, ofJ J⟩ m' := by
  obtain ⟨k, rfl⟩ : ∃ k', k = k' + 1 := ⟨k - 1, by omega⟩
  rw [grStep, if_neg hn] at h
  obtain ⟨m1, h1, rfl⟩ := h
  obtain ⟨e1, e2, e3, e4, e5⟩ := grMain_ag ha hb hs.D hs.B hs.D0 hs.B0 hs.J h1
  exact ⟨e1, e2, e3, e4, e5 J rfl⟩

/-- **C126 (vacuum).** The same without deposition: the laws without current; nothing is claimed about
the current arrays. -/
theorem C126_vacuum (ha : g.i1min ≤ a) (hb : b ≤ g.i1max) {s : Fields K} {k n : Nat} (hk : 1 ≤ k)
    (hn : n ≠ 0) (hs : Holds g a b k s m) (h : grStep M g p a b n none m m') (i1 i2 : Int)
    (hi : Inner g a b (k + 6) i1 i2) :
    (m' (fL emA .ex1 i1 i2) = (Dnext M g p s none).x i1 i2 ∧
      m' (fL emA .ex2 i1 i2) = (Dnext M g p s none).y i1 i2 ∧
      m' (fL emA .ex3 i1 i2) = (Dnext M g p s none).z i1 i2) ∧
    (m' (fL emA .bx1 i1 i2) = (Bnext M g p s).x i1 i2 ∧
      m' (fL emA .bx2 i1 i2) = (Bnext M g p s).y i1 i2 ∧
      m' (fL emA .bx3 i1 i2) = (Bnext M g p s).z i1 i2) := by
  obtain ⟨k, rfl⟩ : ∃ k', k = k' + 1 := ⟨k - 1, by omega⟩
  rw [grStep, if_neg hn] at h
  obtain ⟨m1, h1, rfl⟩ := h
  obtain ⟨e1, e2, -⟩ := grMain_ag ha hb hs.D hs.B hs.D0 hs.B0 hs.J h1
  exact ⟨e1 i1 i2 hi, e2 i1 i2 hi⟩

/-- The constitutive relations used above are `E = α D + β × B` and `H = α B - β × D` with `β = (β¹, 0, 0)`:
where the metric and the fields are uniform, they are exactly that, indices lowered with the matrix
`h₁₁, h₂₂, h₃₃, h₁₃` and the cross product multiplied by `√h`. -/
theorem C126_constitutive (α β sh w h11 h22 h33 h13 pa : K) (hw : w ≠ 0) (d c : V3 K) (i j : Int) :
    let M : CMetric K := ⟨fun _ _ => h11, fun _ _ => h22, fun _ _ => h33, fun _ _ => h13, fun _ _ => sh,
      fun _ _ => w, fun _ _ => α, fun _ _ => β, fun _ => pa⟩
    let low : V3 K → V3 K := fun v => ⟨h11 * v.x + h13 * v.z, h22 * v.y, h13 * v.x + h33 * v.z⟩
    let D : Lat K := ⟨fun _ _ => d.x, fun _ _ => d.y, fun _ _ => d.z⟩
    let B : Lat K := ⟨fun _ _ => c.x, fun _ _ => c.y, fun _ _ => c.z⟩
    let cr : V3 K → V3 K := V3.cross ⟨β, 0, 0⟩
    ((Efield M g D B).x i j = α * (low d).x + sh * (cr c).x ∧
      (Efield M g D B).y i j = α * (low d).y + sh * (cr c).y ∧
      (Efield M g D B).z i j = α * (low d).z + sh * (cr c).z) ∧
    ((Hfield M g D B).x i j = α * (low c).x - sh * (cr d).x ∧
      (Hfield M g D B).y i j = α * (low c).y - sh * (cr d).y ∧
      (Hfield M g D B).z i j = α * (low c).z - sh * (cr d).z) := by
  simp only [Efield, Hfield, wmean, shift, V3.cross]
  refine ⟨⟨?_, ?_, ?_⟩, ?_, ?_, ?_⟩ <;> field_simp <;> ring

/-! ## C127: the first step -/

/-- **C127 (what the first step does).** In the first call of `step_forward`, from `D` and `B` (in the
comments of the code: both at `-½`), the fields are first advanced to `B(½)` and `D(1)` (`firstFields`) and
then by another step: the result holds `B(3/2)` and `D(2)`. -/
theorem C127_first (ha : g.i1min ≤ a) (hb : b ≤ g.i1max) {s : Fields K} {J : Cc → Int → Int → K} {J0 : Lat K}
    (hs : Holds g a b 1 s m) (hJ : J0 = rd m cur0A 0) (h : grStep M g p a b 0 (some J) m m') :
    Holds g a b 13 ⟨Dnext M g p (firstFields M g p s.D s.B J0) (some (ofJ J)),
      Bnext M g p (firstFields M g p s.D s.B J0), (firstFields M g p s.D s.B J0).D,
      (firstFields M g p s.D s.B J0).B, ofJ J⟩ m' := by
  rw [grStep, if_pos rfl] at h
  obtain ⟨m1, h1, m2, h2, rfl⟩ := h
  subst hJ
  obtain ⟨e1, e2, e3, e4, e5⟩ := grInit_ag (k := 0) ha hb hs.D hs.B (ag_rd g a b cur0A 0 1 m) h1
  obtain ⟨f1, f2, f3, f4, f5⟩ := grMain_ag (k := 6) ha hb e1 e2 e3 e4 e5 h2
  exact ⟨f1, f2, f3, f4, f5 J rfl⟩

/-- Flat space in Cartesian coordinates. -/
def flat : CMetric K := ⟨fun _ _ => 1, fun _ _ => 1, fun _ _ => 1, fun _ _ => 0, fun _ _ => 1, fun _ _ => 1,
  fun _ _ => 1, fun _ _ => 0, fun _ => 1⟩

/-- Fields whose curls are constant: `D₃ = B₃ = x₁`, so that `∂B₂/∂t = 1` and `∂D₂/∂t = -1`; `B₂ = tB` and
`D₂ = -tD` tell how long `B` and `D` have been evolved. -/
def clock (t : K) : Lat K := ⟨fun _ _ => 0, fun _ _ => t, fun i _ => (i : K)⟩

theorem clock_E (t u : K) : curlE flat g (Efield flat g (clock t) (clock u)) =
    ⟨fun _ _ => 0, fun _ _ => -1, fun _ _ => 0⟩ := by
  ext i j <;> simp [curlE, Efield, wmean, shift, flat, clock]

theorem clock_H (t u : K) : curlH flat g (Hfield flat g (clock t) (clock u)) =
    ⟨fun _ _ => 0, fun _ _ => -1, fun _ _ => 0⟩ := by
  ext i j <;> simp [curlH, Hfield, wmean, shift, flat, clock]

theorem clock_mid (t u : K) : Lat.mid (clock t) (clock u) = clock ((t + u) / 2) := by
  ext i j <;> simp [Lat.mid, clock]

theorem clock_add (t c : K) : (clock t).addMul c ⟨fun _ _ => 0, fun _ _ => -1, fun _ _ => 0⟩ =
    clock (t - c) := by
  ext i j <;> simp [Lat.addMul, clock]; ring

/-- The clock's fields after a step. -/
theorem clock_next (tD tB tD0 tB0 : K) (J : Lat K) :
    Bnext flat g p ⟨clock tD, clock tB, clock tD0, clock tB0, J⟩ = clock (tB + p.correction * p.dt) ∧
    Dnext flat g p ⟨clock tD, clock tB, clock tD0, clock tB0, J⟩ none = clock (tD - p.correction * p.dt) := by
  have hB : Bnext flat g p ⟨clock tD, clock tB, clock tD0, clock tB0, J⟩ =
      clock (tB + p.correction * p.dt) := by
    simp only [Bnext, Bcentred, clock_mid, clock_E, clock_add, sub_neg_eq_add]
  refine ⟨hB, ?_⟩
  rw [Dnext, hB]
  simp only [Dcentred, Bcentred, source, Option.map_none, clock_mid, clock_E, clock_H, clock_add]

/-- **C127 (later steps).** In a flat space, with fields whose curls are constant in space and time and no
currents, a call of `step_forward` other than the first advances both fields by exactly one time step `dt`
(times the correction factor): `B₂` grows by `dt` and `D₂` by `-dt`. -/
theorem C127_later_partial (ha : g.i1min ≤ a) (hb : b ≤ g.i1max) {n k : Nat} (hk : 1 ≤ k) (hn : n ≠ 0)
    {tD tB tD0 tB0 : K} {J : Lat K}
    (hs : Holds g a b k ⟨clock (-tD), clock tB, clock (-tD0), clock tB0, J⟩ m)
    (h : grStep flat g p a b n none m m') (i1 i2 : Int) (hi : Inner g a b (k + 6) i1 i2) :
    m' (fL emA .bx2 i1 i2) = tB + p.correction * p.dt ∧
    m' (fL emA .ex2 i1 i2) = -(tD + p.correction * p.dt) := by
  obtain ⟨e1, e2⟩ := C126_vacuum ha hb hk hn hs h i1 i2 hi
  rw [(clock_next ..).1] at e2
  rw [(clock_next ..).2] at e1
  exact ⟨e2.2.1, e1.2.1.trans (by simp only [clock]; ring)⟩

/-- **C127 fails in the first step.** The same fields, evolved for `tB` and `tD` before the first call of
`step_forward`: that single call, in which the particles are pushed once and after which the time of the
simulation is `dt`, advances `B` by `2 dt` and `D` by `5/2 dt`. -/
theorem C127_first_counterexample (ha : g.i1min ≤ a) (hb : b ≤ g.i1max) {tD tB : K} {D0 B0 J : Lat K}
    (hs : Holds g a b 1 ⟨clock (-tD), clock tB, D0, B0, J⟩ m)
    (h : grStep flat g p a b 0 none m m') (i1 i2 : Int) (hi : Inner g a b 13 i1 i2) :
    m' (fL emA .bx2 i1 i2) = tB + 2 * (p.correction * p.dt) ∧
    m' (fL emA .ex2 i1 i2) = -(tD + 5 / 2 * (p.correction * p.dt)) := by
  rw [grStep, if_pos rfl] at h
  obtain ⟨m1, h1, m2, h2, rfl⟩ := h
  obtain ⟨e1, e2, e3, e4, e5⟩ := grInit_ag (k := 0) ha hb hs.D hs.B (ag_rd g a b cur0A 0 1 m) h1
  obtain ⟨f1, f2, -⟩ := grMain_ag (k := 6) ha hb e1 e2 e3 e4 e5 h2
  have hf : firstFields flat g p (clock (-tD)) (clock tB) (rd m cur0A 0) =
      ⟨clock (-tD - 3 / 2 * (p.correction * p.dt)), clock (tB + p.correction * p.dt),
        clock (-tD - 1 / 2 * (p.correction * p.dt)), clock tB, rd m cur0A 0⟩ := by
    simp only [firstFields, clock_E, clock_H, clock_add, sub_neg_eq_add]
    congr 2
    ring
  simp only [hf, (clock_next ..).1] at f2
  simp only [hf, Option.map_none, (clock_next ..).2] at f1
  refine ⟨(f2 i1 i2 hi).2.1.trans ?_, (f1 i1 i2 hi).2.1.trans ?_⟩ <;> simp only [clock] <;> ring

/-! ## C128: special relativity on curvilinear grids -/

/-- **C128.** The SR engine on a curvilinear grid, away from the boundaries: a step takes `E` at `n` and
`B` at `n - ½` (say) to `B - dt curl E` and then `E + dt curl B - dt q0/B0 J/√h`, covariant components in
the curls, for any diagonal metric, all fields and currents, any order of the threads; the factor `n0` by
which the code divides the currents cancels. -/
theorem C128_step (ha : g.i1min ≤ a) (hb : b ≤ g.i1max) (hn : p.n0 ≠ 0) {k : Nat} (hk : 1 ≤ k)
    {J : Option (Cc → Int → Int → K)} {E B : Lat K}
    (hE : ∀ i1 i2, Inner g a b k i1 i2 → m (fL emA .ex1 i1 i2) = E.x i1 i2 ∧
      m (fL emA .ex2 i1 i2) = E.y i1 i2 ∧ m (fL emA .ex3 i1 i2) = E.z i1 i2)
    (hB : ∀ i1 i2, Inner g a b k i1 i2 → m (fL emA .bx1 i1 i2) = B.x i1 i2 ∧
      m (fL emA .bx2 i1 i2) = B.y i1 i2 ∧ m (fL emA .bx3 i1 i2) = B.z i1 i2)
    (h : srStep M g p a b J m m') (i1 i2 : Int) (hi : Inner g a b (k + 3) i1 i2) :
    (m' (fL emA .ex1 i1 i2) = (EnextSR M g p E B (J.map ofJ)).x i1 i2 ∧
      m' (fL emA .ex2 i1 i2) = (EnextSR M g p E B (J.map ofJ)).y i1 i2 ∧
      m' (fL emA .ex3 i1 i2) = (EnextSR M g p E B (J.map ofJ)).z i1 i2) ∧
    (m' (fL emA .bx1 i1 i2) = (BnextSR M g p E B).x i1 i2 ∧
      m' (fL emA .bx2 i1 i2) = (BnextSR M g p E B).y i1 i2 ∧
      m' (fL emA .bx3 i1 i2) = (BnextSR M g p E B).z i1 i2) := by
  obtain ⟨k, rfl⟩ : ∃ k', k = k' + 1 := ⟨k - 1, by omega⟩
  obtain ⟨e1, e2⟩ := srStep_ag ha hb hn hE hB h
  exact ⟨e1 i1 i2 hi, e2 i1 i2 hi⟩

/-! ## Instances -/

/-- A grid of 40 × 40 cells between two axes; its columns 2 to 41 have cells 13 away from all edges, any
memory `Holds` the fields one reads from it, and steps of both engines exist. -/
example (m : Mem ℚ) (p : StepPrm ℚ) (n : Nat) (J : Option (Cc → Int → Int → ℚ)) :
    let g : CGrid := ⟨2, 40, 40, true, true⟩
    Inner g 2 42 13 20 20 ∧
    Holds g 2 42 1 ⟨rd m emA 0, rd m emA 3, rd m em0A 0, rd m em0A 3, rd m curA 0⟩ m ∧
    (∃ m', grStep toyMetric g p 2 42 n J m m') ∧ ∃ m', srStep toyMetric g p 2 42 J m m' := by
  refine ⟨by norm_num [Inner, CGrid.i2min, CGrid.i2max], ⟨?_, ?_, ?_, ?_, ?_⟩, grStep_exists .., srStep_exists ..⟩ <;>
    exact fun _ _ _ => ⟨rfl, rfl, rfl⟩

end Entity.GRScheme
