import Verif.Spec.FieldBC
import Verif.Lemmas.Horizon
import Mathlib.Analysis.SpecificLimits.Basic

/-!
# C113: horizon; C114: absorption of currents; C115: polar axis
-/

namespace Entity.FieldBC

open Entity Entity.Kernel Entity.Ranks

section
variable {K : Type} [Field K] {M : Mesh} {a nf : Nat} {setE setB : Bool}

/-- **C113**: with two ghost cells, after the condition at the horizon every tagged component is constant
along the radius from the innermost ghost cell to the `nf + 1`-th cell after the first active one
(`nf` is the number of filter passes), with the value of that last cell. -/
theorem C113_copy (hng : M.ng = 2) {m m' : Mem K} (h : horizon M a nf setE setB m m') {c : Nat}
    (hc : (setE = true ∧ c < 3) ∨ (setB = true ∧ 3 ≤ c ∧ c < 6)) {i1 i2 : Int} (h0 : 0 ≤ i1)
    (h1 : i1 ≤ M.iMin + 1 + nf) (h2 : M.iMin ≤ i2) (h3 : i2 ≤ M.iMax 1) :
    m' ⟨a, c, [i1, i2]⟩ = m ⟨a, c, [M.iMin + 1 + nf, i2]⟩ := by
  obtain ⟨e1, e2⟩ := horizon_effect (by omega) h
  by_cases hi : i1 ≤ 2 + nf
  · exact e1 c (mem_tagged.mpr hc) i1 i2 h0 hi h2 h3
  · obtain rfl : i1 = M.iMin + 1 + nf := by simp only [Mesh.iMin] at h1 ⊢; omega
    apply e2
    rintro ⟨-, -, k1, k2, hk, -, hk2, -, -⟩
    simp only [List.cons.injEq] at hk
    omega

/-- **C113** for any number of ghost cells, as far as it holds: the first `3 + nf` cells of the array.
Missing with three or more ghost cells: the cells between these and the one that is copied
(`C113_counterexample`). -/
theorem C113_copy_partial (hng : 2 ≤ M.ng) {m m' : Mem K} (h : horizon M a nf setE setB m m') {c : Nat}
    (hc : (setE = true ∧ c < 3) ∨ (setB = true ∧ 3 ≤ c ∧ c < 6)) {i1 i2 : Int} (h0 : 0 ≤ i1)
    (h1 : i1 ≤ 2 + nf) (h2 : M.iMin ≤ i2) (h3 : i2 ≤ M.iMax 1) :
    m' ⟨a, c, [i1, i2]⟩ = m ⟨a, c, [M.iMin + 1 + nf, i2]⟩ :=
  (horizon_effect hng h).1 c (mem_tagged.mpr hc) i1 i2 h0 h1 h2 h3

/-- **C113**: nothing else changes: other arrays, components that are not tagged, cells further out and
rows outside the active ones (and the row on the upper axis). -/
theorem C113_frame (hng : 2 ≤ M.ng) {m m' : Mem K} (h : horizon M a nf setE setB m m') (l : Loc)
    (hl : l.arr ≠ a ∨ ¬ ((setE = true ∧ l.comp < 3) ∨ (setB = true ∧ 3 ≤ l.comp ∧ l.comp < 6)) ∨
      2 + nf < l.idx.getD 0 0 ∨ l.idx.getD 1 0 < M.iMin ∨ M.iMax 1 < l.idx.getD 1 0) : m' l = m l := by
  apply (horizon_effect hng h).2
  rintro ⟨h1, h2, i1, i2, h3, h4, h5, h6, h7⟩
  rw [h3] at hl
  simp only [List.getD_cons_zero, List.getD_cons_succ] at hl
  rcases hl with hl | hl | hl | hl | hl
  · exact hl h1
  · exact hl (mem_tagged.mp h2)
  all_goals omega

/-- The condition is deterministic although the threads run in any order. -/
theorem C113_deterministic (hng : 2 ≤ M.ng) (m : Mem K) : ∃! m', horizon M a nf setE setB m m' := by
  obtain ⟨m', hm'⟩ := launch_exists (box [(M.iMin, M.iMax 1 + 1)])
    (horizonBody a M.ng M.iMin nf setE setB) m
  refine ⟨m', hm', fun m'' h'' => ?_⟩
  obtain ⟨e1, e2⟩ := horizon_effect hng hm'
  obtain ⟨f1, f2⟩ := horizon_effect (m' := m'') hng h''
  funext l
  by_cases hl : l.arr = a ∧ l.comp ∈ tagged setE setB ∧ ∃ i1 i2 : Int, l.idx = [i1, i2] ∧ 0 ≤ i1 ∧
      i1 ≤ 2 + nf ∧ M.iMin ≤ i2 ∧ i2 ≤ M.iMax 1
  · obtain ⟨h1, h2, i1, i2, h3, h4, h5, h6, h7⟩ := hl
    obtain ⟨la, lc, li⟩ := l
    simp only at h1 h2 h3
    subst h1 h3
    rw [e1 lc h2 i1 i2 h4 h5 h6 h7, f1 lc h2 i1 i2 h4 h5 h6 h7]
  · rw [e2 l hl, f2 l hl]

end

/-- **C113** fails with three ghost cells (particle shapes of order 3 and more): without filters the first
active cell (index 3) keeps its value between the copied cell (index 4) and the ghost cells. -/
theorem C113_counterexample : ∀ m', horizon (K := ℚ) ⟨3, [8, 8]⟩ 0 0 true true
      (fun l => if l.idx.getD 0 0 = 4 then 1 else 0) m' →
    m' ⟨0, 0, [2, 5]⟩ = 1 ∧ m' ⟨0, 0, [3, 5]⟩ = 0 ∧ m' ⟨0, 0, [4, 5]⟩ = 1 := by
  intro m' h
  refine ⟨?_, ?_, ?_⟩
  · rw [C113_copy_partial (by decide) h (.inl ⟨rfl, by decide⟩) (by decide) (by decide) (by decide) (by decide)]
    decide +kernel
  · rw [C113_frame (by decide) h _ (.inr (.inr (.inl (by decide))))]
    decide +kernel
  · rw [C113_frame (by decide) h _ (.inr (.inr (.inl (by decide))))]
    decide +kernel

/-- The same field with two ghost cells and two filter passes: the cells 0 to 5 are equal. -/
example (m' : Mem ℚ) (h : horizon ⟨2, [8, 8]⟩ 0 2 true true (fun l => ((l.idx.getD 0 0 : Int) : ℚ)) m') :
    m' ⟨0, 4, [0, 3]⟩ = 5 ∧ m' ⟨0, 4, [4, 3]⟩ = 5 ∧ m' ⟨0, 4, [6, 3]⟩ = 6 := by
  refine ⟨?_, ?_, ?_⟩
  · rw [C113_copy rfl h (.inr ⟨rfl, by decide, by decide⟩) (by decide) (by decide) (by decide) (by decide)]
    decide +kernel
  · rw [C113_copy rfl h (.inr ⟨rfl, by decide, by decide⟩) (by decide) (by decide) (by decide) (by decide)]
    decide +kernel
  · rw [C113_frame (by decide) h _ (.inr (.inr (.inl (by decide))))]
    decide +kernel

/-! ## C114 -/

/-- **C114**: in the absorbing layer all three components of the current in a cell are multiplied by the same
factor `tanh(4 d / ds)`, where `d` is the distance of the cell's lower edge from the edge of the grid; the
factor is in `[0, 1)` and zero at the edge of the grid, so currents are never amplified. -/
theorem C114_value {a ng : Nat} {conv1 : ℝ → ℝ} {edge ds : ℝ} (hds : 0 < ds) {r : List (Int × Int)}
    {m m' : Mem ℝ} (h : absorbCurrents a ng conv1 edge ds r m m') {t : List Int} (ht : t ∈ box r) :
    ∃ s : ℝ, s = Real.tanh (4 * |conv1 ((t.getD 0 0 : ℝ) - ng) - edge| / ds) ∧ 0 ≤ s ∧ s < 1 ∧
      (conv1 ((t.getD 0 0 : ℝ) - ng) = edge → s = 0) ∧
      ∀ c < 3, m' ⟨a, c, t⟩ = s * m ⟨a, c, t⟩ ∧ |m' ⟨a, c, t⟩| ≤ |m ⟨a, c, t⟩| := by
  obtain ⟨h1, -⟩ := launch_here (sel := [0, 1, 2]) (by decide) absorbAt_here h
  have e : |conv1 ((t.getD 0 0 - (ng : Int) : Int) : ℝ) - edge| / (1 / 4 * ds) =
      4 * |conv1 ((t.getD 0 0 : ℝ) - ng) - edge| / ds := by
    push_cast
    field_simp
  have hpos : 0 ≤ 4 * |conv1 ((t.getD 0 0 : ℝ) - ng) - edge| / ds := by positivity
  have h0 : 0 ≤ Real.tanh (4 * |conv1 ((t.getD 0 0 : ℝ) - ng) - edge| / ds) := by
    rw [Real.tanh_eq_sinh_div_cosh]
    exact div_nonneg (Real.sinh_nonneg_iff.mpr hpos) (Real.cosh_pos _).le
  refine ⟨_, rfl, h0, Real.tanh_lt_one _, fun he => by rw [he]; simp, fun c hc => ?_⟩
  have hv : m' ⟨a, c, t⟩ = Real.tanh (4 * |conv1 ((t.getD 0 0 : ℝ) - ng) - edge| / ds) * m ⟨a, c, t⟩ := by
    rw [h1 t ht c (by simp; omega) _ rfl]
    change m ⟨a, c, t⟩ * _ = _
    rw [← e, mul_comm]
    rfl
  refine ⟨hv, ?_⟩
  rw [hv, abs_mul, abs_of_nonneg h0]
  exact mul_le_of_le_one_left (abs_nonneg _) (Real.tanh_lt_one _).le

/-- **C114**: nothing else changes. -/
theorem C114_frame {a ng : Nat} {conv1 : ℝ → ℝ} {edge ds : ℝ} {r : List (Int × Int)}
    {m m' : Mem ℝ} (h : absorbCurrents a ng conv1 edge ds r m m') (l : Loc)
    (hl : l.arr ≠ a ∨ 3 ≤ l.comp ∨ l.idx ∉ box r) : m' l = m l := by
  apply (launch_here (sel := [0, 1, 2]) (by decide) absorbAt_here h).2
  rintro ⟨h1, h2, h3, -⟩
  simp only [List.mem_cons, List.not_mem_nil, or_false] at h2
  rcases hl with hl | hl | hl
  · exact hl h1
  · omega
  · exact hl h3

/-- A layer of thickness 4 at radius 10: at radius 9 the factor is `tanh 1`. -/
example (m' : Mem ℝ) (h : absorbCurrents 5 2 id 10 4 [(8, 14), (0, 8)] (fun _ => 3) m') :
    m' ⟨5, 2, [11, 4]⟩ = Real.tanh 1 * 3 := by
  obtain ⟨s, hs, -, -, -, hv⟩ := C114_value (by norm_num) h (t := [11, 4]) (by
    rw [mem_box_iff]
    refine ⟨rfl, fun d hd => ?_⟩
    obtain rfl | rfl : d = 0 ∨ d = 1 := by simp at hd; omega
    · decide
    · decide)
  rw [(hv 2 (by decide)).1, hs]
  congr 2
  norm_num

/-! ## C115 -/

section
variable {K : Type} [Field K]

open Entity.Curvi Entity.FieldSolver

/-- On and next to a polar axis: `node k` and `mid k` are the rows of values on and between the nodes,
counted from the axis outwards (`k < 0` beyond the axis).  The azimuthal electric and the polar magnetic
field vanish on the axis; across it the polar components are odd, the others even. -/
structure AxisSym (m : Mem K) (a : Nat) (i1 : Int) (setE setB : Bool) (node mid : Int → Int) : Prop where
  e3_zero : setE = true → m ⟨a, 2, [i1, node 0]⟩ = 0
  e3_even : setE = true → m ⟨a, 2, [i1, node (-1)]⟩ = m ⟨a, 2, [i1, node 1]⟩
  e2_odd : setE = true → m ⟨a, 1, [i1, mid (-1)]⟩ = -m ⟨a, 1, [i1, mid 0]⟩
  b2_zero : setB = true → m ⟨a, 4, [i1, node 0]⟩ = 0
  b2_odd : setB = true → m ⟨a, 4, [i1, node (-1)]⟩ = -m ⟨a, 4, [i1, node 1]⟩
  b1_even : setB = true → m ⟨a, 3, [i1, mid (-1)]⟩ = m ⟨a, 3, [i1, mid 0]⟩
  b3_even : setB = true → m ⟨a, 5, [i1, mid (-1)]⟩ = m ⟨a, 5, [i1, mid 0]⟩

private theorem z1 (e : Int) : (e = e - 1) = False := by simp; omega
private theorem z2 (e : Int) : (e + 1 = e - 1) = False := by simp; omega
private theorem z3 (e : Int) : e + -1 = e - 1 := by omega
private theorem z4 (e : Int) : e - -1 = e + 1 := by omega
private theorem z5 (e : Int) : e - 1 - -1 = e := by omega
private theorem z6 (e : Int) : (e - 1 = e) = False := by simp
private theorem z7 (e : Int) : (e - 1 = e + 1) = False := by simp; omega
private theorem z8 (e : Int) : (e = e + 1) = False := by simp
private theorem z9 (e : Int) : (e + 1 = e) = False := by simp

theorem mem_rangeAll1 {g : CGrid} {i1 : Int} (h0 : 0 ≤ i1) (h1 : i1 < g.n1 + 2 * g.ng) (hg : 0 ≤ g.ng) :
    [i1] ∈ rangeAll1 g := by
  simp only [rangeAll1, List.mem_map, List.mem_range]
  exact ⟨i1.toNat, by omega, by simp; omega⟩

/-- **C115** (lower axis): in every column, ghost columns included, the fields are symmetric about the axis.
Missing: the radial electric field beyond the axis, which is not set (`C115_counterexample`), and ghost rows
further out than the first. -/
theorem C115_lower_partial {g : CGrid} {a : Nat} {setE setB : Bool} (hg : 0 ≤ g.ng) {m m' : Mem K}
    (h : Launch (rangeAll1 g) (axisBody false a g.i2min setE setB) m m') {i1 : Int} (h0 : 0 ≤ i1)
    (h1 : i1 < g.n1 + 2 * g.ng) :
    AxisSym m' a i1 setE setB (fun k => g.i2min + k) (fun k => g.i2min + k) := by
  have hr := launch_own (axis_owned _ false a g.i2min setE setB) h
  have hin := mem_rangeAll1 h0 h1 hg
  have hv : ∀ c i2, m' ⟨a, c, [i1, i2]⟩ =
      runBody (axisBody false a g.i2min setE setB [i1]) m ⟨a, c, [i1, i2]⟩ := by
    intro c i2
    rw [hr]
    exact if_pos hin
  cases setE <;> cases setB <;> constructor <;> intro hs <;> first
    | exact absurd hs Bool.false_ne_true
    | (simp only [hv]; simp [axisBody, runBody, store, fL, f, Em.toNat, Ex.eval, z1, z2, z3, z4, z5, z6, z7, z8, z9]; done)

/-- **C115** (upper axis), with the same restrictions. -/
theorem C115_upper_partial {g : CGrid} {a : Nat} {setE setB : Bool} (hg : 0 ≤ g.ng) {m m' : Mem K}
    (h : Launch (rangeAll1 g) (axisBody true a g.i2max setE setB) m m') {i1 : Int} (h0 : 0 ≤ i1)
    (h1 : i1 < g.n1 + 2 * g.ng) :
    AxisSym m' a i1 setE setB (fun k => g.i2max - k) (fun k => g.i2max - 1 - k) := by
  have hr := launch_own (axis_owned _ true a g.i2max setE setB) h
  have hin := mem_rangeAll1 h0 h1 hg
  have hv : ∀ c i2, m' ⟨a, c, [i1, i2]⟩ =
      runBody (axisBody true a g.i2max setE setB [i1]) m ⟨a, c, [i1, i2]⟩ := by
    intro c i2
    rw [hr]
    exact if_pos hin
  cases setE <;> cases setB <;> constructor <;> intro hs <;> first
    | exact absurd hs Bool.false_ne_true
    | (simp only [hv]; simp [axisBody, runBody, store, fL, f, Em.toNat, Ex.eval, z1, z2, z3, z4, z5, z6, z7, z8, z9]; done)

/-- **C115**: nothing changes in the active rows off the axis, and the radial electric field changes
nowhere. -/
theorem C115_frame {g : CGrid} {a : Nat} {P setE setB : Bool} {m m' : Mem K}
    (h : Launch (rangeAll1 g) (axisBody P a (if P = true then g.i2max else g.i2min) setE setB) m m')
    (l : Loc) (hl : l.arr ≠ a ∨ l.comp = 0 ∨ ∃ i1 i2, l.idx = [i1, i2] ∧ g.i2min ≤ i2 ∧ i2 ≤ g.i2max ∧
      i2 ≠ if P = true then g.i2max else g.i2min) : m' l = m l := by
  have hr := launch_own (axis_owned _ P a _ setE setB) h
  rw [hr]
  simp only [resultOwn]
  split
  · rw [runBody_other]
    obtain ⟨la, lc, li⟩ := l
    intro x hx hxl
    match hi : own1 li with
    | [] => simp only [hi, axisBody, List.not_mem_nil] at hx
    | [i1] =>
      simp only [hi, axisBody] at hx
      cases P <;> cases setE <;> cases setB <;>
        simp only [Bool.false_eq_true, if_true, if_false, List.mem_cons, List.not_mem_nil,
          or_false, List.mem_append, reduceCtorEq] at hx <;>
        (try simp only [false_or] at hx) <;>
        (rcases hx with hx | hx <;> skip) <;>
        (first
          | (rcases hx with rfl | rfl | rfl | rfl <;> skip)
          | (rcases hx with rfl | rfl | rfl <;> skip)
          | (rcases hx with rfl | rfl <;> skip)
          | subst hx
          | skip) <;>
        simp only [fL, Em.toNat, Loc.mk.injEq] at hxl <;>
        (obtain ⟨rfl, rfl, rfl⟩ := hxl) <;>
        simp at hl <;> omega
    | _ :: _ :: _ =>
      have := congrArg List.length hi
      simp [own1] at this
      omega
  · rfl

end

/-- **C115** fails for the radial electric field: its row beyond the axis keeps whatever it had. -/
theorem C115_counterexample : ∀ m', Launch (Curvi.rangeAll1 ⟨2, 4, 4, true, true⟩)
      (Curvi.axisBody (K := ℚ) false 0 2 true true) (fun l => if l.idx = [3, 1] then 7 else 1) m' →
    m' ⟨0, 0, [3, 1]⟩ = 7 ∧ m' ⟨0, 0, [3, 3]⟩ = 1 := by
  intro m' h
  have h' := C115_frame (g := ⟨2, 4, 4, true, true⟩) (P := false) h
  exact ⟨by rw [h' _ (.inr (.inl rfl))]; decide +kernel, by rw [h' _ (.inr (.inl rfl))]; decide +kernel⟩

/-- A field that is changed by the condition. -/
example : ∃ m', Launch (Curvi.rangeAll1 ⟨2, 4, 4, true, true⟩)
      (Curvi.axisBody (K := ℚ) false 0 2 true true) (fun l => if l.idx = [3, 2] then 7 else 1) m' ∧
    m' ⟨0, 2, [3, 2]⟩ = 0 ∧ m' ⟨0, 1, [3, 1]⟩ = -m' ⟨0, 1, [3, 2]⟩ := by
  obtain ⟨m', h⟩ := launch_exists (Curvi.rangeAll1 ⟨2, 4, 4, true, true⟩)
    (Curvi.axisBody (K := ℚ) false 0 2 true true) (fun l => if l.idx = [3, 2] then 7 else 1)
  have := C115_lower_partial (g := ⟨2, 4, 4, true, true⟩) (by decide) h (i1 := 3) (by decide) (by decide)
  exact ⟨m', h, this.e3_zero rfl, this.e2_odd rfl⟩

end Entity.FieldBC
