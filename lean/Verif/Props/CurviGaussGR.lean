import Verif.Lemmas.CurviFlat
import Verif.Lemmas.CurviRuns
import Verif.Props.CurviGauss

/-!
# C97: Gauss's law in the GR engine
-/

namespace Entity.Curvi

open Entity.Kernel Entity.FieldSolver

variable {K : Type} [Field K]

/-- **C97** (off the axis).  GR engine, any metric, any number of calls of `step_forward` from step number
`k` on, any schedule: the flux of `D` out of the dual cell around a node minus `dt q0 / B0` times the charge
is conserved, if the charge changes by minus the net deposited current.  The first step of a simulation
(`k = 0`) is covered for nodes not next to the lower axis (missing there, and at the poles: see the
counterexample). -/
theorem C97_gr_partial [CharZero K] {M : CMetric K} {g : CGrid} (hM : Polar M g) {p : StepPrm K}
    {a b : Int} (ha : g.i1min ≤ a) (hb : b ≤ g.i1max) (k : Nat)
    (Js : List (Option (Cc → Int → Int → K))) {m m' : Mem K}
    (h : Seq ((Js.zipIdx k).map (fun Jk => grStep M g p a b Jk.2 Jk.1)) m m')
    (ρ : Nat → Int → Int → K)
    (hρ : ∀ (n : Nat) (hn : n < Js.length) i1 i2,
      ρ (n + 1) i1 i2 = ρ n i1 i2 - divJ (jOf Js[n]) i1 i2)
    (i1 i2 : Int) (h1 : a < i1) (h1' : i1 < b) (h2 : g.i2min < i2) (h2' : i2 < g.i2max)
    (hk : k ≠ 0 ∨ g.axisLo = false ∨ g.i2min + 1 < i2) :
    divE M g emA m' i1 i2 - p.dt * p.q0 / p.B0 * ρ Js.length i1 i2 =
      divE M g emA m i1 i2 - p.dt * p.q0 / p.B0 * ρ 0 i1 i2 := by
  have e : divE M g emA m' i1 i2 = divE M g emA m i1 i2 +
      kappaGR p * (Js.map (fun J => divJ (jOf J) i1 i2)).sum := by
    clear hρ
    induction Js generalizing m k with
    | nil => simp only [List.zipIdx_nil, List.map_nil, seq_nil] at h; subst h; simp
    | cons J Js ih =>
      rw [List.zipIdx_cons, List.map_cons] at h
      obtain ⟨m1, h3, h4⟩ := h
      rw [ih (k + 1) h4 (.inl (by omega)), grStep_divE hM ha hb k J h3 ⟨⟨h1, h1'⟩, h2, h2'⟩ hk,
        List.map_cons, List.sum_cons]
      ring
  rw [sum_charge Js (fun J => divJ J i1 i2) (fun n => ρ n i1 i2) (fun n hn => hρ n hn i1 i2)] at e
  rw [e, kappaGR]; ring

/-- At the poles: in every step after the first the radial field on the axis is replaced by the one in the
neighbouring row (plus half the current over the area of the cap): it does not follow from its own past
and the magnetic circulation around the cap. -/
theorem C97_axis_copied {M : CMetric K} {g : CGrid} {p : StepPrm K} {a b : Int} (ha : g.i1min ≤ a)
    (hb : b ≤ g.i1max) (hx : g.axisLo = true) (hn : 1 < g.n2) {step : Nat} (hs : step ≠ 0)
    (J : Option (Cc → Int → Int → K)) {m m' : Mem K} (h : grStep M g p a b step J m m') {i1 : Int}
    (q1 : a ≤ i1) (q2 : i1 < b) :
    m' (fL emA .ex1 i1 g.i2min) = m (fL emA .ex1 i1 (g.i2min + 1)) -
      p.dt * p.q0 / p.B0 * (1 / 2 * jOf J .jx1 i1 g.i2min) / M.polarArea (coord g i1 + 1 / 2) := by
  simp only [grStep, hs, if_false, List.nil_append] at h
  obtain ⟨m1, h1, rfl⟩ := h
  rw [grMain_axis ha hb hx hn J h1 q1 q2, kappaGR]; ring

/-- A metric without shift and cross term whose `h11` depends on the polar coordinate. -/
def toyStatic : CMetric ℚ :=
  { toyMetric with h13 := fun _ _ => 0, beta1 := fun _ _ => 0, alpha := fun _ _ => 1
                   h11 := fun _ y => 1 + y * y }

/-- A static radial electric field between columns 3 and 4: covariant `E1 = 1` at all latitudes. -/
def staticField : Mem ℚ := fun l =>
  if l.arr = emA ∧ l.comp = Em.ex1.toNat then
    match l.idx with
    | [i1, i2] => if i1 = 3 then 1 / (1 + (i2 - 2 : ℚ) * (i2 - 2)) else 0
    | _ => 0
  else 0

theorem toyStaticPolar : Polar toyStatic toyGrid :=
  ⟨toyPolar.face1, toyPolar.face2, fun h x => ⟨(toyPolar.lo h x).1, (toyPolar.lo h x).2.1, rfl⟩,
    fun h x => ⟨(toyPolar.hi h x).1, (toyPolar.hi h x).2.1, rfl⟩, toyPolar.cap⟩

/-- Gauss's law fails at the poles of the GR engine: an electrostatic field (no magnetic field, no
currents, curl-free covariant `E`, whatever the time step) loses flux in the polar cell within one
step. -/
theorem C97_pole_counterexample (p : StepPrm ℚ) (m' : Mem ℚ)
    (h : grStep toyStatic toyGrid p 2 6 1 none staticField m') :
    divELo toyStatic toyGrid emA staticField 3 = 13 / 4 ∧
    divELo toyStatic toyGrid emA m' 3 = 13 / 8 := by
  refine ⟨by norm_num [divELo, toyStatic, toyMetric, toyGrid, staticField, fL, coord, CGrid.i2min, Em.toNat,
    emA], ?_⟩
  simp only [grStep, one_ne_zero, if_false, List.nil_append] at h
  obtain ⟨m1, h1, rfl⟩ := h
  have hst := grMain_static (M := toyStatic) (g := toyGrid) (a := 2) (b := 6) (fun _ _ => ⟨rfl, rfl⟩)
    toyStaticPolar (by decide) (by decide) rfl (by decide) h1 (i1 := 3) (by decide) (by decide)
    (fun k _ _ => by simp [staticField, fL, emA, Em.toNat])
    (fun k _ _ => by simp [staticField, fL, emA, Em.toNat])
    (fun k k1 k2 => by
      obtain rfl | rfl : k = 2 ∨ k = 3 := by omega
      · norm_num [staticField, fL, emA, Em.toNat]
      · norm_num [staticField, fL, emA, Em.toNat, toyStatic, toyGrid, CGrid.i2min])
  simp only [divELo]
  rw [hst.1 3 (by decide) le_rfl, hst.1 (3 - 1) le_rfl (by decide), hst.2]
  norm_num [toyStatic, toyMetric, toyGrid, staticField, fL, coord, CGrid.i2min, Em.toNat, emA]

/-- Runs exist, and the hypotheses are met (steps 1, 2, 3 with currents that are not divergence free). -/
example (p : StepPrm ℚ) (m : Mem ℚ) :
    (∃ m', grStep toyStatic toyGrid p 2 6 1 none staticField m') ∧
    ∃ m', Seq (([none, some (fun (_ : Cc) (i1 i2 : Int) => (i1 * i2 : ℚ)), none].zipIdx 1).map
      (fun Jk => grStep toyMetric toyGrid p 2 6 Jk.2 Jk.1)) m m' := by
  refine ⟨grStep_exists _ _ _ _ _ _ _ _, seq_exists ?_ m⟩
  intro r hr
  simp only [List.mem_map] at hr
  obtain ⟨J, -, rfl⟩ := hr
  exact grStep_exists _ _ _ _ _ _ _

end Entity.Curvi
