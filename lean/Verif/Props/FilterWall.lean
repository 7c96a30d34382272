import Verif.Lemmas.FilterWall
import Verif.Props.Filter

/-!
# C169: what the current filter does at a conducting wall

One pass of the filter at and next to a conducting wall, in one, two and three dimensions, is the
filter `(1/4, 1/2, 1/4)` along all axes, applied to suitably continued currents.
-/

namespace Entity.Filter

open Entity.Kernel Entity.FieldSolver

variable {K : Type} [Field K] [CharZero K]

/-- **C169 (normal current).**  In the two layers of cells at a conducting wall, away from other walls,
one pass leaves the component normal to the wall as the filter along all axes makes it from the
current continued evenly across the wall.  Missing: corners of walls, and the upper one of two walls
across the same axis, where it is false (`C169_both_counterexample`, `C169_corner_counterexample`). -/
theorem C169_normal_partial {c : Cfg} {D a : Nat} (hD : D ∈ [1, 2, 3]) (ha : a < D) {upper : Bool}
    (hw : WallAt c a upper) {cells : List (List Int)} (hc : ∀ t ∈ cells, t.length = D) {M M' : Mem K}
    (h : Launch cells ((FieldKernel.filter c).body D) (copyToBuffer M) M') {t : List Int}
    (ht : t ∈ cells) (hn : OffOthers c a t)
    (hta : t[a]? = some (wallLayer c a upper) ∨ t[a]? = some (nextLayer c a upper)) :
    M' ⟨1, a, t⟩ =
      smoothAll D (mirrored a upper (wallLayer c a upper) fun q => M ⟨1, a, q⟩) t :=
  (FieldKernel.launch_at (.filter c) hD hc h ht 1 a).trans
    (wall_normal hD ha hw M (hc t ht) hn hta)

/-- **C169 (tangential currents).**  A component along the wall is not changed in the layer of cells at
the wall; in the layer next to it, one pass leaves what the filter along all axes makes from the
current without the layer at the wall: nothing spreads from the wall into the box.  Missing: as
before; and at an upper wall the layer left alone is one cell in front of the wall (C78). -/
theorem C169_tangential_partial {c : Cfg} {D a : Nat} (hD : D ∈ [1, 2, 3]) (ha : a < D)
    {upper : Bool} (hw : WallAt c a upper) {cells : List (List Int)}
    (hc : ∀ t ∈ cells, t.length = D) {M M' : Mem K}
    (h : Launch cells ((FieldKernel.filter c).body D) (copyToBuffer M) M') {t : List Int}
    (ht : t ∈ cells) (hn : OffOthers c a t) {k : Nat} (hk : k < 3) (hka : k ≠ a) :
    (t[a]? = some (wallLayer c a upper) → M' ⟨1, k, t⟩ = M ⟨1, k, t⟩) ∧
    (t[a]? = some (nextLayer c a upper) → M' ⟨1, k, t⟩ =
      smoothAll D (without a (wallLayer c a upper) fun q => M ⟨1, k, q⟩) t) :=
  ⟨fun hta => (FieldKernel.launch_at (.filter c) hD hc h ht 1 k).trans
      (wall_tangential hD ha hw M (hc t ht) hn hta hk hka),
    fun hta => (FieldKernel.launch_at (.filter c) hD hc h ht 1 k).trans
      (wall_next hD ha hw M (hc t ht) hn hta hk hka)⟩

/-- **C169 (two walls across an axis).**  With conductors at both ends, the current in the last cell
takes a quarter of what is stored behind the upper wall; continued evenly, it would take nothing. -/
theorem C169_both_counterexample : ∃ M M' : Mem ℚ,
    Launch [[2], [3], [4], [5], [6]] ((FieldKernel.filter (wallCfg true true)).body 1)
      (copyToBuffer M) M' ∧ wallLayer (wallCfg true true) 0 true = 6 ∧
    M' ⟨1, 0, [6]⟩ = 1 / 4 ∧
    smoothAll 1 (mirrored 0 true 6 fun q => M ⟨1, 0, q⟩) [6] = 0 := by
  obtain ⟨M1, e1, v1, _⟩ := C36_schedule_independent (FieldKernel.filter (wallCfg true true)) (D := 1)
    (by simp [FieldKernel.Dims]) (cells := [[2], [3], [4], [5], [6]]) (by decide)
    (copyToBuffer (spike 0 [7]))
  refine ⟨_, M1, (e1 M1).2 rfl, by decide, ?_, by decide +kernel⟩
  rw [v1 [6] (by decide)]; decide +kernel

/-- **C169 (corner).**  In the corner of two conducting walls the first component lies along the second
wall, and would have to be left alone; it is filtered. -/
theorem C169_corner_counterexample : ∃ M M' : Mem ℚ,
    Launch [[2, 2]] ((FieldKernel.filter cornerCfg).body 2) (copyToBuffer M) M' ∧
    WallAt cornerCfg 1 false ∧ wallLayer cornerCfg 1 false = 2 ∧
    M ⟨1, 0, [2, 2]⟩ = 0 ∧ M' ⟨1, 0, [2, 2]⟩ = 3 / 16 := by
  obtain ⟨M1, e1, v1, _⟩ := C36_schedule_independent (FieldKernel.filter cornerCfg) (D := 2)
    (by simp [FieldKernel.Dims]) (cells := [[2, 2]]) (by decide) (copyToBuffer (spike 0 [2, 1]))
  refine ⟨_, M1, (e1 M1).2 rfl, by simp [WallAt, cornerCfg], by decide, by decide +kernel, ?_⟩
  rw [v1 [2, 2] (by decide)]; decide +kernel

/-- A box with one conducting wall, at the upper end of the third axis. -/
def ceilingCfg : Cfg :=
  ⟨false, false, fun a => if a = 2 then (false, true) else (false, false), 2, fun _ => 5⟩

theorem ceiling_off (t : List Int) : OffOthers ceilingCfg 2 t := by
  intro b hb i _
  simp [ceilingCfg, hb]

/-- The hypotheses of C169 hold in three dimensions; a current normal to the wall in the cell at the wall
keeps 3/4 of 1/4 there. -/
example : ∃ M' : Mem ℚ, Launch [[4, 4, 6], [4, 4, 5]] ((FieldKernel.filter ceilingCfg).body 3)
    (copyToBuffer (spike 2 [4, 4, 6])) M' ∧ M' ⟨1, 2, [4, 4, 6]⟩ = 3 / 16 ∧
    M' ⟨1, 2, [4, 4, 5]⟩ = 1 / 16 ∧ M' ⟨1, 0, [4, 4, 5]⟩ = 0 := by
  obtain ⟨M1, e1, _, _⟩ := C36_schedule_independent (FieldKernel.filter ceilingCfg) (D := 3)
    (by simp [FieldKernel.Dims]) (cells := [[4, 4, 6], [4, 4, 5]]) (by decide)
    (copyToBuffer (spike 2 [4, 4, 6]))
  have hw : WallAt ceilingCfg 2 true := by simp [WallAt, ceilingCfg]
  have hl := (e1 M1).2 rfl
  refine ⟨M1, hl, ?_, ?_, ?_⟩
  · rw [C169_normal_partial (by decide) (by decide) hw (by decide) hl (by decide) (ceiling_off _)
      (.inl (by decide))]
    decide +kernel
  · rw [C169_normal_partial (by decide) (by decide) hw (by decide) hl (by decide) (ceiling_off _)
      (.inr (by decide))]
    decide +kernel
  · rw [(C169_tangential_partial (by decide) (by decide) hw (by decide) hl (by decide) (ceiling_off _)
      (by decide) (by decide)).2 (by decide)]
    decide +kernel

end Entity.Filter
