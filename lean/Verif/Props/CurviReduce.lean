import Verif.Lemmas.CurviAt
import Verif.Lemmas.CurviRuns

/-!
# C99: without gravity the GR solver is the SR solver
# C100: the auxiliary electric field at the border of a subdomain
-/

namespace Entity.Curvi

open Entity.Kernel Entity.FieldSolver

variable {K : Type} [Field K] {M : CMetric K} {g : CGrid} {p : StepPrm K} {fr : K}
  {m m1 m2 ms : Mem K}

/-- Lapse one, no shift, no cross term. -/
def NoGravity (M : CMetric K) : Prop :=
  ∀ x y, M.alpha x y = 1 ∧ M.beta1 x y = 0 ∧ M.h13 x y = 0

theorem NoGravity.diag (h : NoGravity M) : Diagonal M := fun x y => ⟨(h x y).2.2, (h x y).2.1⟩

/-- **C99**, Faraday: lapse one and no shift.  `ComputeAuxE` followed by the main Faraday push of the GR
engine (`B0 = B - dt curl E`) gives in every cell the magnetic field that the SR engine computes from the
same fields; on the axis the polar component is zero instead of unchanged. -/
theorem C99_faraday (hM : NoGravity M) (h1 : grAuxE M g .D_B0 m m1) (h2 : grFaraday M g p fr .main m1 m2)
    (hs : srFaraday M g p fr m ms) (i1 i2 : Int) (q1 : g.i1min ≤ i1) (q1' : i1 + 1 < g.i1max)
    (q2 : g.i2min ≤ i2) (q2' : i2 < g.i2max) (hup : i2 + 1 < g.i2max ∨ g.axisHi = true) :
    m2 (fL em0A .bx1 i1 i2) = ms (fL emA .bx1 i1 i2) ∧
    m2 (fL em0A .bx3 i1 i2) = ms (fL emA .bx3 i1 i2) ∧
    m2 (fL em0A .bx2 i1 i2) =
      (if i2 = g.i2min ∧ g.axisLo = true then 0 else ms (fL emA .bx2 i1 i2)) := by
  have ha : ∀ x y, M.alpha x y = 1 := fun x y => (hM x y).1
  have hc : [i1, i2] ∈ rangeActive g := mem_active.2 ⟨⟨q1, by omega⟩, q2, q2'⟩
  obtain ⟨a1, a2, a3⟩ := auxE_flat hM.diag (by decide) (by decide) h1
    (mem_rangeAxisGR (i1 := i1) (i2 := i2) (by omega) (by omega) q2 (.inl q2'))
  obtain ⟨-, b2, b3⟩ := auxE_flat hM.diag (by decide) (by decide) h1
    (mem_rangeAxisGR (i1 := i1 + 1) (i2 := i2) (by omega) (by omega) q2 (.inl q2'))
  obtain ⟨c1, -, c3⟩ := auxE_flat hM.diag (by decide) (by decide) h1
    (mem_rangeAxisGR (i1 := i1) (i2 := i2 + 1) (by omega) (by omega) (by omega) (by
      rcases hup with h | h
      · exact .inl h
      · rcases lt_or_eq_of_le (show i2 + 1 ≤ g.i2max by omega) with h' | h'
        · exact .inl h'
        · exact .inr ⟨h', h⟩))
  have k : ∀ c, m1 (fL emA c i1 i2) = m (fL emA c i1 i2) := fun c =>
    grAuxE_arr (by decide) h1 _ _
  obtain ⟨s1, s2, s3⟩ := faradaySR_at hs hc
  obtain ⟨e1, e2⟩ := faradayGR_at (by decide) h2 hc
  have e3 := faradayGR_bx3 (by decide) h2 hc
  simp only [ha, one_mul, coord_succ] at a1 a2 a3 b2 b3 c1 c3
  refine ⟨?_, ?_, ?_⟩
  · rw [e1, s1, a3, c3, k]
  · rw [e3, s3, a1, a2, b2, c1, k]
  · rw [e2, s2]
    by_cases hx : i2 = g.i2min ∧ g.axisLo = true
    · rw [if_pos hx, if_pos hx]
    · rw [if_neg hx, if_neg hx, a3, b3, k, if_pos (by
        by_cases h : i2 = g.i2min
        · right; cases hl : g.axisLo
          · rfl
          · exact absurd ⟨h, hl⟩ hx
        · exact .inl h)]

/-- **C99**, Ampere: `ComputeAuxH` from fields whose magnetic part is in both time levels, followed by the
main Ampere push, gives off the axis what the SR engine computes. -/
theorem C99_ampere_partial [CharZero K] (hM : NoGravity M) (hB : ∀ c i1 i2, m (fL em0A c i1 i2) = m (fL emA c i1 i2))
    (h1 : grAuxH M g .D_B0 m m1)
    (h2 : grAmpere M g p fr .main m1 m2) (hs : srAmpere M g p fr m ms) (i1 i2 : Int)
    (q1 : g.i1min ≤ i1) (q1' : i1 < g.i1max) (q2 : g.i2min < i2) (q2' : i2 < g.i2max)
    (c : Em) (hc : c = .ex1 ∨ c = .ex2 ∨ c = .ex3) :
    m2 (fL em0A c i1 i2) = ms (fL emA c i1 i2) := by
  have ha : ∀ x y, M.alpha x y = 1 := fun x y => (hM x y).1
  have hr := offAxis_mid (g := g) q2 q2'
  obtain ⟨a1, a2, a3⟩ := auxH_flat hM.diag (by decide) (by decide) h1
    (mem_rangeAxisGR (i1 := i1) (i2 := i2) (by omega) (by omega) (by omega) (.inl q2'))
  obtain ⟨-, b2, b3⟩ := auxH_flat hM.diag (by decide) (by decide) h1
    (mem_rangeAxisGR (i1 := i1 - 1) (i2 := i2) (by omega) (by omega) (by omega) (.inl q2'))
  obtain ⟨c1, -, c3⟩ := auxH_flat hM.diag (by decide) (by decide) h1
    (mem_rangeAxisGR (i1 := i1) (i2 := i2 - 1) (by omega) (by omega) (by omega) (.inl (by omega)))
  have k : ∀ c, m1 (fL emA c i1 i2) = m (fL emA c i1 i2) := fun c =>
    grAuxH_arr (by decide) h1 _ _
  obtain ⟨s1, s2, s3⟩ := ampereSR_at hs (mem_rangeAxisSR (i1 := i1) (i2 := i2) q1 q1' (by omega)
    (.inl q2')) hr
  obtain ⟨e1, e2, e3⟩ := ampereGR_at (by decide) (by decide) h2
    (mem_rangeAmpereGR.2 ⟨⟨q1, q1'⟩, by omega, by omega⟩) hr
  simp only [ha, one_mul, coord_pred, pred_half, hB] at a1 a2 a3 b2 b3 c1 c3
  rcases hc with rfl | rfl | rfl
  · rw [e1, s1, a3, c3, k]
  · rw [e2, s2, a3, b3, k]
  · rw [e3, s3, a1, a2, b2, c1, k]; ring

/-- On the axis the two engines differ: the SR engine advances the radial field by the circulation around
the pole, the GR engine takes that of the next row. -/
theorem C99_axis_counterexample (h1 : grAuxH M g .D_B0 m m1)
    (h2 : grAmpere M g p fr .main m1 m2) (hs : srAmpere M g p fr m ms) (i1 : Int)
    (q1 : g.i1min ≤ i1) (q1' : i1 < g.i1max) (hx : g.axisLo = true) (hn : 0 < g.n2) :
    m2 (fL em0A .ex1 i1 g.i2min) = m (fL emA .ex1 i1 (g.i2min + 1)) ∧
    ms (fL emA .ex1 i1 g.i2min) = m (fL emA .ex1 i1 g.i2min) +
      1 / M.polarArea (coord g i1 + 1 / 2) * (fr * p.correction * p.dt) *
        (M.h33 (coord g i1 + 1 / 2) (1 / 2) * m (fL emA .bx3 i1 g.i2min)) := by
  have hlt : g.i2min < g.i2max := by simp [CGrid.i2min, CGrid.i2max]; omega
  constructor
  · have k : m1 (fL emA .ex1 i1 (g.i2min + 1)) = m (fL emA .ex1 i1 (g.i2min + 1)) :=
      grAuxH_arr (by decide) h1 _ _
    rw [← k, launch_at (ampereGR_local _ M g (din := emA) (dout := em0A) (h := auxA) (by decide)
      (by decide) _) h2 (l := fL em0A .ex1 i1 g.i2min) (mem_rangeAmpereGR.2 ⟨⟨q1, q1'⟩, by omega, by omega⟩)]
    simp [fL, ampereGR, hx, runBody, store, f, Em.toNat]
  · rw [launch_at (ampereSR_local _ M g _) hs (l := fL emA .ex1 i1 g.i2min)
      (mem_rangeAxisSR q1 q1' le_rfl (.inl hlt))]
    simp [fL, ampereSR, hx, runBody, store, plusEq, f, Em.toNat, half, emA, coord_i2min]

/-- A metric without gravity, and executions of the calls. -/
def toyFlat : CMetric ℚ :=
  { toyMetric with h13 := fun _ _ => 0, beta1 := fun _ _ => 0, alpha := fun _ _ => 1 }

example : NoGravity toyFlat ∧ ∀ m : Mem ℚ, ∃ m1 m2 ms,
    grAuxE toyFlat toyGrid .D_B0 m m1 ∧ grFaraday toyFlat toyGrid ⟨1, 1, 1, 1, 1⟩ 1 .main m1 m2 ∧
    srFaraday toyFlat toyGrid ⟨1, 1, 1, 1, 1⟩ 1 m ms := by
  refine ⟨fun x y => ⟨rfl, rfl, rfl⟩, fun m => ?_⟩
  obtain ⟨m1, h1⟩ := launch_exists (rangeAxisGR toyGrid) (auxE toyFlat toyGrid emA em0A) m
  obtain ⟨m2, h2⟩ := launch_exists (rangeActive toyGrid)
    (faradayGR toyFlat toyGrid emA em0A auxA (1 * 1 * 1)) m1
  obtain ⟨ms, hs⟩ := launch_exists (rangeActive toyGrid) (faradaySR toyFlat toyGrid (1 * 1 * 1)) m
  exact ⟨m1, m2, ms, h1, h2, hs⟩

/-! ## C100 -/

/-- The part of a radially divided grid from column `k` on.  Cell `i1` of the part is cell `i1 + k` of the
whole. -/
def rightPart (g : CGrid) (k : Nat) : CGrid := { g with n1 := g.n1 - k }

/-- The metric of that part: its code coordinate starts at the border. -/
def shifted (M : CMetric K) (k : Nat) : CMetric K where
  h11 := fun x y => M.h11 (x + k) y
  h22 := fun x y => M.h22 (x + k) y
  h33 := fun x y => M.h33 (x + k) y
  h13 := fun x y => M.h13 (x + k) y
  sqrtDet := fun x y => M.sqrtDet (x + k) y
  sqrtDetT := fun x y => M.sqrtDetT (x + k) y
  alpha := fun x y => M.alpha (x + k) y
  beta1 := fun x y => M.beta1 (x + k) y
  polarArea := fun x => M.polarArea (x + k)

/-- The part has the fields of the whole, in its active cells and in its first ghost column. -/
def SamePart (g : CGrid) (k : Nat) (m mr : Mem K) : Prop :=
  ∀ A ∈ [emA, em0A], ∀ c i1 i2, g.i1min - 1 ≤ i1 → mr (fL A c i1 i2) = m (fL A c (i1 + k) i2)

theorem coord_part (g : CGrid) (k : Nat) (i : Int) :
    (coord g (i + k) : K) = coord (rightPart g k) i + k := by
  simp [coord, rightPart]; ring

/-- **C100.**  The first two calls of a GR step (average of the two time levels, auxiliary electric field)
in the part of a divided grid give what they give in the whole, if the metric has no cross term.  Missing
(see the counterexample): metrics with cross term. -/
theorem C100_divided_partial (hM : ∀ x y, M.h13 x y = 0) (k : Nat) (hk : k < g.n1) {m' mr mr1 mr' : Mem K}
    (h0 : SamePart g k m mr)
    (h1 : grTimeAvgDB g m m1) (h2 : grAuxE M g .D0_B m1 m')
    (r1 : grTimeAvgDB (rightPart g k) mr mr1) (r2 : grAuxE (shifted M k) (rightPart g k) .D0_B mr1 mr')
    (c : Em) (hc : c = .ex1 ∨ c = .ex2 ∨ c = .ex3) (i1 i2 : Int) (q1 : g.i1min ≤ i1)
    (q1' : i1 < (rightPart g k).i1max) (q2 : g.i2min ≤ i2) (q2' : i2 < g.i2max) :
    mr' (fL auxA c i1 i2) = m' (fL auxA c (i1 + k) i2) := by
  have hmax : (rightPart g k).i1max + k = g.i1max := by
    simp only [rightPart, CGrid.i1max]; omega
  have hkk : (0 : Int) ≤ k := by omega
  have act : [i1, i2] ∈ rangeActive (rightPart g k) := mem_active.2 ⟨⟨q1, q1'⟩, q2, q2'⟩
  have act' : [i1 + k, i2] ∈ rangeActive g := mem_active.2 ⟨⟨by omega, by omega⟩, q2, q2'⟩
  have cr : [i1, i2] ∈ rangeAxisGR (rightPart g k) :=
    mem_rangeAxisGR (by simp only [rightPart, CGrid.i1min] at *; omega) q1' q2 (.inl q2')
  have cw : [i1 + k, i2] ∈ rangeAxisGR g := mem_rangeAxisGR (by omega) (by omega) q2 (.inl q2')
  have kD : ∀ c, mr1 (fL em0A c i1 i2) = m1 (fL em0A c (i1 + k) i2) := by
    intro c
    rw [timeAvgDB_at r1 act, timeAvgDB_at h1 act', h0 em0A (by simp) c i1 i2 (by omega),
      h0 emA (by simp) c i1 i2 (by omega)]
  have kB : ∀ c i, g.i1min - 1 ≤ i → mr1 (fL emA c i i2) = m1 (fL emA c (i + k) i2) := by
    intro c i hi
    rw [show mr1 (fL emA c i i2) = mr (fL emA c i i2) from grTimeAvgDB_arr (by decide) r1 _ _,
      show m1 (fL emA c (i + k) i2) = m (fL emA c (i + k) i2) from grTimeAvgDB_arr (by decide) h1 _ _,
      h0 emA (by simp) c i i2 hi]
  have kB0 := fun c => kB c i1 (by omega)
  have kBm := fun c => kB c (i1 - 1) (by omega)
  have e1 : i1 - 1 + k = i1 + k - 1 := by ring
  have e2 : ∀ i, (coord (rightPart g k) i : K) = coord g i := fun i => rfl
  have e3 : (coord g (i1 + k) : K) = coord g i1 + k := coord_part g k i1
  have s1 : ∀ x : K, x - 1 / 2 + k = x + k - 1 / 2 := fun x => by ring
  have s2 : ∀ x : K, x + 1 / 2 + k = x + k + 1 / 2 := fun x => by ring
  simp only [e1] at kBm
  simp only [fL] at kD kB0 kBm
  rcases hc with rfl | rfl | rfl
  · rw [launch_at (auxE_local _ _ _ (by decide) (by decide)) r2 (l := fL auxA .ex1 i1 i2) cr,
      launch_at (auxE_local _ _ _ (by decide) (by decide)) h2 (l := fL auxA .ex1 (i1 + k) i2) cw]
    simp [-one_div, fL, auxE, runBody, store, f, wavg, half, hM, shifted, e2, e3, s1, s2, kD,
      kB0, kBm]
  · have d := kD .ex2
    have b0 := kB0 .bx3
    have bm := kBm .bx3
    simp only [Em.toNat] at d b0 bm
    rw [launch_at (auxE_local _ _ _ (by decide) (by decide)) r2 (l := fL auxA .ex2 i1 i2) cr,
      launch_at (auxE_local _ _ _ (by decide) (by decide)) h2 (l := fL auxA .ex2 (i1 + k) i2) cw]
    simp [-one_div, fL, auxE, runBody, store, f, wavg, half, hM, shifted, e2, e3, s1, s2,
      Em.toNat]
    rw [d, b0, bm]
  · have d := kD .ex3
    have b0 := kB0 .bx2
    have bm := kBm .bx2
    simp only [Em.toNat] at d b0 bm
    rw [launch_at (auxE_local _ _ _ (by decide) (by decide)) r2 (l := fL auxA .ex3 i1 i2) cr,
      launch_at (auxE_local _ _ _ (by decide) (by decide)) h2 (l := fL auxA .ex3 (i1 + k) i2) cw]
    simp [-one_div, fL, auxE, runBody, store, f, wavg, half, hM, shifted, e2, e3, s1, s2,
      Em.toNat]
    rw [d, b0, bm]

/-- Four columns, divided in the middle. -/
def dividedGrid : CGrid := ⟨2, 4, 2, false, false⟩

/-- With a cross term (Kerr-Schild) the auxiliary field next to the border depends on the division: the
average is taken in active cells only, and the first active column of the part reads the ghost column. -/
theorem C100_counterexample : ∃ m m1 m' mr mr1 mr' : Mem ℚ,
    SamePart dividedGrid 2 m mr ∧
    grTimeAvgDB dividedGrid m m1 ∧ grAuxE toyMetric dividedGrid .D0_B m1 m' ∧
    grTimeAvgDB (rightPart dividedGrid 2) mr mr1 ∧
    grAuxE (shifted toyMetric 2) (rightPart dividedGrid 2) .D0_B mr1 mr' ∧
    mr' (fL auxA .ex3 2 3) ≠ m' (fL auxA .ex3 4 3) := by
  let m : Mem ℚ := fun l => if l.arr = em0A then 1 else 0
  let mr : Mem ℚ := m
  refine ⟨m, _, _, mr, _, _, ?_, (launch_iff (timeAvgDB_local _)).2 rfl,
    (launch_iff (auxE_local _ _ _ (by decide) (by decide))).2 rfl,
    (launch_iff (timeAvgDB_local _)).2 rfl,
    (launch_iff (auxE_local _ _ _ (by decide) (by decide))).2 rfl, ?_⟩
  · intro A hA c i1 i2 _; rfl
  · decide +kernel

end Entity.Curvi
