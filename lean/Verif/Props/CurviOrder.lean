import Verif.Lemmas.KernelSeq
import Verif.Lemmas.CurviRuns

/-!
# C98: the curvilinear field kernels do not depend on the schedule
-/

namespace Entity.Curvi

open Entity.Kernel Entity.FieldSolver

variable {K : Type} [Add K] [Sub K] [Mul K] [Div K] [Neg K] [Zero K] [One K] [NatCast K] [IntCast K]

/-- Every initial state has exactly one outcome. -/
def Deterministic (r : Rel K) : Prop := ∀ m, ∃ m', r m m' ∧ ∀ m'', r m m'' → m'' = m'

theorem det_local {cells : List (List Int)} {wr : Nat → Nat → Bool} {body : List Int → List (Assign K)}
    (h : Local cells wr body) : Deterministic (Launch cells body) := fun m =>
  ⟨_, (launch_iff h).2 rfl, fun _ h' => (launch_iff h).1 h'⟩

theorem det_seq {rs : List (Rel K)} (h : ∀ r ∈ rs, Deterministic r) : Deterministic (Seq rs) := by
  induction rs with
  | nil => exact fun m => ⟨m, rfl, fun _ h => h⟩
  | cons r rs ih =>
    intro m
    obtain ⟨m1, h1, u1⟩ := h r List.mem_cons_self m
    obtain ⟨m2, h2, u2⟩ := ih (fun r hr => h r (List.mem_cons_of_mem _ hr)) m1
    refine ⟨m2, ⟨m1, h1, h2⟩, ?_⟩
    rintro m'' ⟨m1', h1', h2'⟩
    rw [u1 m1' h1'] at h2'
    exact u2 m'' h2'

/-- **C98.**  On curvilinear grids every field kernel of the SR engine (Faraday, Ampere, currents, axis
boundary condition) and of the GR engine (auxiliary fields, Faraday, the main Ampere push, currents, time
averages) turns every state into one and the same state, however its threads are interleaved.
Missing (see the counterexample): the Ampere pushes of the GR engine that work in place. -/
theorem C98_schedule_partial (M : CMetric K) (g : CGrid) (p : StepPrm K) (fr : K) :
    (Deterministic (srFaraday M g p fr) ∧ Deterministic (srAmpere M g p fr) ∧
      Deterministic (srCurrents M g p)) ∧
    (∀ A sE sB, Deterministic (axisBC (K := K) g A sE sB)) ∧
    (∀ k, Deterministic (grAuxE M g k)) ∧ (∀ k, Deterministic (grAuxH M g k)) ∧
    (∀ k, Deterministic (grFaraday M g p fr k)) ∧ Deterministic (grAmpere M g p fr .main) ∧
    Deterministic (grCurrents M g p curA) ∧ Deterministic (grCurrents M g p cur0A) ∧
    Deterministic (grTimeAvgDB (K := K) g) ∧ Deterministic (grTimeAvgJ (K := K) g) := by
  refine ⟨⟨det_local (faradaySR_local _ _ _ _), det_local (ampereSR_local _ _ _ _),
    det_local (currentsSR_local _ _ _ _ _)⟩, ?_, ?_, ?_, ?_,
    det_local (ampereGR_local _ M g (din := emA) (dout := em0A) (h := auxA) (by decide) (by decide) _),
    det_local (currentsGR_local _ M g (df := em0A) (jA := curA) (by decide) _),
    det_local (currentsGR_local _ M g (df := em0A) (jA := cur0A) (by decide) _),
    det_local (timeAvgDB_local _), det_local (timeAvgJ_local _)⟩
  · intro A sE sB
    refine det_seq ?_
    intro r hr m
    simp only [List.mem_cons, List.not_mem_nil, or_false] at hr
    rcases hr with rfl | rfl
    · by_cases hx : g.axisLo = true
      · simp only [if_pos hx]
        exact ⟨_, (launch_own_iff (axis_owned _ false A _ sE sB)).2 rfl,
          fun _ h => launch_own (axis_owned _ false A _ sE sB) h⟩
      · simp only [if_neg hx]; exact ⟨m, rfl, fun _ h => h⟩
    · by_cases hx : g.axisHi = true
      · simp only [if_pos hx]
        exact ⟨_, (launch_own_iff (axis_owned _ true A _ sE sB)).2 rfl,
          fun _ h => launch_own (axis_owned _ true A _ sE sB) h⟩
      · simp only [if_neg hx]; exact ⟨m, rfl, fun _ h => h⟩
  · intro k; cases k
    · exact det_local (auxE_local _ M g (df := em0A) (bf := emA) (by decide) (by decide))
    · exact det_local (auxE_local _ M g (df := emA) (bf := em0A) (by decide) (by decide))
  · intro k; cases k
    · exact det_local (auxH_local _ M g (df := emA) (bf := em0A) (by decide) (by decide))
    · exact det_local (auxH_local _ M g (df := em0A) (bf := em0A) (by decide) (by decide))
  · intro k; cases k
    · exact det_local (faradayGR_local _ M g (bin := em0A) (bout := em0A) (e := auxA) (by decide) _)
    · exact det_local (faradayGR_local _ M g (bin := emA) (bout := em0A) (e := auxA) (by decide) _)

/-- **C98**, the in-place pushes: whatever the interleaving, everything but the rows on the axes is
determined. -/
theorem C98_in_place_partial (M : CMetric K) (g : CGrid) (p : StepPrm K) (fr : K) (k : GrAmpere)
    {m m1 m2 : Mem K} (h1 : grAmpere M g p fr k m m1) (h2 : grAmpere M g p fr k m m2)
    (a c : Nat) (i1 i2 : Int) (hlo : ¬ (i2 = g.i2min ∧ g.axisLo = true))
    (hhi : ¬ (i2 = g.i2max ∧ g.axisHi = true)) :
    m1 ⟨a, c, [i1, i2]⟩ = m2 ⟨a, c, [i1, i2]⟩ := by
  have key : ∀ din dout : Nat, auxA ≠ dout →
      Launch (rangeAmpereGR g) (ampereGR M g din dout auxA (fr * p.correction * p.dt)) m m1 →
      Launch (rangeAmpereGR g) (ampereGR M g din dout auxA (fr * p.correction * p.dt)) m m2 →
      m1 ⟨a, c, [i1, i2]⟩ = m2 ⟨a, c, [i1, i2]⟩ := by
    intro din dout hd h1 h2
    have l1 := launch_on (ampereGR_on _ M g (din := din) hd _) h1
    have l2 := launch_on (ampereGR_on _ M g (din := din) hd _) h2
    by_cases hc : [i1, i2] ∈ rangeAmpereGR g
    · rw [l1.1 ⟨a, c, [i1, i2]⟩ hc (.inr ⟨i1, i2, rfl, hlo, hhi⟩),
        l2.1 ⟨a, c, [i1, i2]⟩ hc (.inr ⟨i1, i2, rfl, hlo, hhi⟩)]
    · rw [l1.2 _ (.inl hc), l2.2 _ (.inl hc)]
  cases k
  · exact key emA emA (by decide) h1 h2
  · exact key em0A em0A (by decide) h1 h2
  · exact key emA em0A (by decide) h1 h2

/-- One column of two cells above the axis. -/
def raceGrid : CGrid := ⟨2, 1, 2, true, false⟩

/-- The in-place Ampere pushes of the GR engine are a data race: the thread on the axis copies the radial
field of the next row, which the thread of that row updates.  Two executions from the same state leave
different fields on the axis. -/
theorem C98_race_counterexample : ∃ m m1 m2 : Mem ℚ,
    grAmpere toyMetric raceGrid ⟨1, 1, 1, 1, 1⟩ 1 .aux m m1 ∧
    grAmpere toyMetric raceGrid ⟨1, 1, 1, 1, 1⟩ 1 .aux m m2 ∧
    m1 (fL em0A .ex1 2 2) = 0 ∧ m2 (fL em0A .ex1 2 2) = 2 / 5 := by
  let m : Mem ℚ := fun l => if l = fL auxA .bx3 2 3 then 1 else 0
  refine ⟨m, _, _, launch_seq (cs := [[2, 2], [2, 3], [2, 4]]) _ m (by decide) ?_,
    launch_seq (cs := [[2, 4], [2, 3], [2, 2]]) _ m (by decide) ?_, by decide +kernel, by decide +kernel⟩
  · have : rangeAmpereGR raceGrid = [[2, 2], [2, 3], [2, 4]] := by decide
    rw [this]; exact fun _ => Iff.rfl
  · have : rangeAmpereGR raceGrid = [[2, 2], [2, 3], [2, 4]] := by decide
    rw [this]; intro t; simp only [List.mem_cons, List.not_mem_nil, or_false]; tauto

end Entity.Curvi
