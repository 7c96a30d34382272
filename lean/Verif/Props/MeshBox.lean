import Verif.Model.MeshBox
import Mathlib.Data.List.Forall2
import Mathlib.Order.Interval.Set.Basic
import Mathlib.Algebra.Order.Field.Rat
import Mathlib.Data.Rat.Floor
import Mathlib.Tactic.Linarith
import Mathlib.Tactic.FieldSimp
import Mathlib.Tactic.NormNum

/-!
# C55: box intersection; C85: the cells of a box
-/

namespace Entity.Props.MeshBox

open Entity Entity.MeshBox

variable {K : Type} [Field K] [LinearOrder K]

/-- `x` lies above a lower bound. -/
def Above : Bnd K → K → Prop
  | .min, _ => True
  | .max, _ => False
  | .at a, x => a < x

/-- `x` lies below an upper bound. -/
def Below : Bnd K → K → Prop
  | .max, _ => True
  | .min, _ => False
  | .at b, x => x < b

/-- `x` lies strictly inside both the extent and the box. -/
def Overlap (e : K × K) (b : Bnd K × Bnd K) (x : K) : Prop :=
  e.1 < x ∧ x < e.2 ∧ Above b.1 x ∧ Below b.2 x

/-- A box side that is bounded below but not above: the case mishandled by `Intersection`. -/
def HalfOpenUp (b : Bnd K × Bnd K) : Prop := b.1 ≠ .min ∧ b.2 = .max

theorem lo_iff (e : K × K) (b : Bnd K) (x : K) (hx : x < e.2) :
    clampLo e b < x ↔ e.1 < x ∧ Above b x := by
  cases b with
  | min => simp [clampLo, Above, min_lt_iff, hx.le.not_gt, not_lt.2 hx.le]
  | max => simp [clampLo, Above, not_lt.2 hx.le]
  | «at» a => simp [clampLo, Above, min_lt_iff, not_lt.2 hx.le]

theorem hi_iff (e : K × K) (b : Bnd K) (x : K) (hx : e.1 < x) :
    x < clampHi e b ↔ x < e.2 ∧ Below b x := by
  cases b with
  | min => simp [clampHi, Below, not_lt.2 hx.le]
  | max => simp [clampHi, Below, lt_max_iff, not_lt.2 hx.le]
  | «at» a => simp [clampHi, Below, lt_max_iff, not_lt.2 hx.le]

theorem clampHi_le (e : K × K) (he : e.1 ≤ e.2) (b : Bnd K) : clampHi e b ≤ e.2 := by
  cases b <;> simp [clampHi, he]

theorem le_clampLo (e : K × K) (he : e.1 ≤ e.2) (b : Bnd K) : e.1 ≤ clampLo e b := by
  cases b <;> simp [clampLo, he]

theorem clampLo_le (e : K × K) (b : Bnd K) : clampLo e b ≤ e.2 := by
  cases b <;> simp [clampLo]

theorem le_clampHi (e : K × K) (b : Bnd K) : e.1 ≤ clampHi e b := by
  cases b <;> simp [clampHi]

theorem between_iff (e : K × K) (he : e.1 ≤ e.2) (b : Bnd K × Bnd K) (x : K) :
    (clampLo e b.1 < x ∧ x < clampHi e b.2) ↔ Overlap e b x := by
  constructor
  · rintro ⟨h1, h2⟩
    have hx2 : x < e.2 := lt_of_lt_of_le h2 (clampHi_le e he b.2)
    have hx1 : e.1 < x := lt_of_le_of_lt (le_clampLo e he b.1) h1
    exact ⟨hx1, hx2, ((lo_iff e b.1 x hx2).1 h1).2, ((hi_iff e b.2 x hx1).1 h2).2⟩
  · rintro ⟨h1, h2, h3, h4⟩
    exact ⟨(lo_iff e b.1 x h2).2 ⟨h1, h3⟩, (hi_iff e b.2 x h1).2 ⟨h2, h4⟩⟩

theorem boxEntry_eq (e : K × K) (he : e.1 ≤ e.2) (b : Bnd K × Bnd K) (hb : ¬ HalfOpenUp b) :
    boxEntry e b = [(clampLo e b.1, clampHi e b.2)] := by
  obtain ⟨b1, b2⟩ := b
  cases b1 <;> cases b2 <;>
    simp_all [boxEntry, isAll, xMin, clampLo, clampHi, HalfOpenUp]

/-- **C55**: the intersection of the grid extent with a box has one interval per axis, inside the
extent, and a point is strictly inside that interval exactly if it is strictly inside both the
extent and the box.  Proved for boxes in which no axis is bounded below and unbounded above; see
`C55_counterexample` for the others. -/
theorem C55_intersection_partial (ext : List (K × K)) (hext : ∀ e ∈ ext, e.1 ≤ e.2)
    (box : List (Bnd K × Bnd K)) (hlen : box.length = ext.length)
    (hbox : ∀ b ∈ box, ¬ HalfOpenUp b) :
    ∃ r, intersection ext box = .ok r ∧ r.length = ext.length ∧
      ∀ (k : Nat) (e : K × K) (b : Bnd K × Bnd K) (i : K × K), ext[k]? = some e →
        box[k]? = some b → r[k]? = some i →
        e.1 ≤ i.1 ∧ i.1 ≤ e.2 ∧ e.1 ≤ i.2 ∧ i.2 ≤ e.2 ∧
        ∀ x, (i.1 < x ∧ x < i.2) ↔ Overlap e b x := by
  refine ⟨boxLoop ext box, by simp [intersection, Outcome.errorIf, hlen], ?_⟩
  have key : ∀ (ext : List (K × K)) (box : List (Bnd K × Bnd K)), (∀ e ∈ ext, e.1 ≤ e.2) →
      box.length = ext.length → (∀ b ∈ box, ¬ HalfOpenUp b) →
      boxLoop ext box = List.zipWith (fun e b => (clampLo e b.1, clampHi e b.2)) ext box := by
    intro ext
    induction ext with
    | nil => intro box _ h _; cases box <;> simp_all [boxLoop]
    | cons e es ih =>
      intro box he hl hb
      match box with
      | [] => simp at hl
      | b :: bs =>
        rw [boxLoop, boxEntry_eq e (he e (by simp)) b (hb b (by simp)), List.zipWith_cons_cons,
          ih bs (fun e h => he e (List.mem_cons_of_mem _ h)) (by simpa using hl)
            (fun b h => hb b (List.mem_cons_of_mem _ h))]
        rfl
  rw [key ext box hext hlen hbox]
  refine ⟨by simp [hlen], ?_⟩
  intro k e b i he hb hi
  rw [List.getElem?_zipWith, he, hb] at hi
  simp only [Option.some.injEq] at hi
  subst hi
  have hee := hext e (List.mem_of_getElem? he)
  exact ⟨le_clampLo e hee _, clampLo_le e _, le_clampHi e _, clampHi_le e hee _,
    between_iff e hee b⟩

/-- **C55**: and a mesh is said to meet a box exactly if they overlap along every axis. -/
theorem C55_intersects_partial [DenselyOrdered K] (ext : List (K × K))
    (hext : ∀ e ∈ ext, e.1 ≤ e.2) (box : List (Bnd K × Bnd K)) (hlen : box.length = ext.length)
    (hbox : ∀ b ∈ box, ¬ HalfOpenUp b) :
    ∃ v, intersects ext box = .ok v ∧
      (v = true ↔ ∀ (k : Nat) (e : K × K) (b : Bnd K × Bnd K), ext[k]? = some e →
        box[k]? = some b → ∃ x, Overlap e b x) := by
  obtain ⟨r, hr, hrl, hri⟩ := C55_intersection_partial ext hext box hlen hbox
  refine ⟨r.all fun i => !(decide (i.1 > i.2) || decide (i.1 = i.2)), by
    simp only [intersects, Outcome.errorIf, hlen, ne_eq, not_true_eq_false, if_false,
      Outcome.bind_ok, hr, Outcome.pure_eq], ?_⟩
  rw [List.all_eq_true]
  constructor
  · intro h k e b he hb
    have hk : k < r.length := by
      rw [hrl]; exact (List.getElem?_eq_some_iff.1 he).1
    have hi := List.getElem?_eq_getElem hk
    have := h _ (List.getElem_mem hk)
    simp only [Bool.not_eq_true', Bool.or_eq_false_iff, decide_eq_false_iff_not, not_lt] at this
    obtain ⟨x, hx⟩ := exists_between (lt_of_le_of_ne this.1 this.2)
    exact ⟨x, ((hri k e b _ he hb hi).2.2.2.2 x).1 hx⟩
  · intro h i hi
    obtain ⟨k, hk, rfl⟩ := List.getElem_of_mem hi
    have he := List.getElem?_eq_getElem (l := ext) (i := k) (by omega)
    have hb := List.getElem?_eq_getElem (l := box) (i := k) (by omega)
    obtain ⟨x, hx⟩ := h k _ _ he hb
    have := ((hri k _ _ _ he hb (List.getElem?_eq_getElem hk)).2.2.2.2 x).2 hx
    have hlt := this.1.trans this.2
    simp [not_lt.2 hlt.le, hlt.ne]

/-- **C55**, violated for a box bounded below and unbounded above: the intersection of the extent
`[0, 10]` with `[5, ∞)` has no interval at all; a box `[20, ∞)` that lies outside is said to meet
the mesh; in two dimensions the only interval returned belongs to the second axis. -/
theorem C55_counterexample :
    intersection [((0 : ℚ), 10)] [(.at 5, .max)] = .ok [] ∧
    intersects [((0 : ℚ), 10)] [(.at 20, .max)] = .ok true ∧
    intersection [((0 : ℚ), 10), (0, 4)] [(.at 5, .max), (.at 1, .at 2)] = .ok [(1, 2)] := by
  decide +kernel

/-! Concrete cases. -/

example : intersection [((0 : ℚ), 10), (-1, 1), (2, 3)]
      [(.at (-5), .at 5), (.min, .max), (.min, .at (5 / 2))]
    = .ok [(0, 5), (-1, 1), (2, 5 / 2)] ∧
    intersects [((0 : ℚ), 10)] [(.at 10, .at 12)] = .ok false ∧
    (∀ b ∈ [((.at (-5), .at 5) : Bnd ℚ × Bnd ℚ), (.min, .max), (.min, .at (5 / 2))],
      ¬ HalfOpenUp b) := by
  refine ⟨by decide +kernel, by decide +kernel, ?_⟩
  simp [HalfOpenUp]

/-! ## C85 -/

variable [IsStrictOrderedRing K] [FloorRing K]

theorem toCode_lt (e : K × K) (dx : K) (hdx : 0 < dx) (x y : K) :
    toCode e dx x < y ↔ x < e.1 + y * dx := by
  unfold toCode
  rw [div_lt_iff₀ hdx]
  constructor <;> intro h <;> linarith

theorem lt_toCode (e : K × K) (dx : K) (hdx : 0 < dx) (x y : K) :
    y < toCode e dx x ↔ e.1 + y * dx < x := by
  unfold toCode
  rw [lt_div_iff₀ hdx]
  constructor <;> intro h <;> linarith

/-- **C85** along one axis: without ghost cells, an active cell `i` is in the range of a box exactly
if some point is strictly inside the cell and the box, provided the box is not empty; and the range
contains no other cells. -/
theorem range_axis (ng : Nat) (a : Axis K) (hdx : 0 < a.dx) (hext : a.ext.2 = a.ext.1 + a.n * a.dx)
    (b : Bnd K × Bnd K) (hne : ∃ x, Overlap a.ext b x) (i : Int) :
    ((rangeEntry ng a.ext a.dx a.n (false, false) b).1 ≤ i + ng ∧
      i + ng < (rangeEntry ng a.ext a.dx a.n (false, false) b).2) ↔
    0 ≤ i ∧ i < a.n ∧ ∃ x, Overlap a.ext b x ∧ a.ext.1 + i * a.dx < x ∧
      x < a.ext.1 + (i + 1) * a.dx := by
  obtain ⟨x0, hx0⟩ := hne
  have he : a.ext.1 ≤ a.ext.2 := (hx0.1.trans hx0.2.1).le
  have hlohi : clampLo a.ext b.1 < clampHi a.ext b.2 := by
    have := (between_iff a.ext he b x0).2 hx0
    exact this.1.trans this.2
  have inside : ∀ i : Int, (∃ x, Overlap a.ext b x ∧ a.ext.1 + i * a.dx < x ∧
      x < a.ext.1 + (i + 1) * a.dx) ↔
      toCode a.ext a.dx (clampLo a.ext b.1) < i + 1 ∧
        (i : K) < toCode a.ext a.dx (clampHi a.ext b.2) := by
    intro i
    rw [toCode_lt _ _ hdx, lt_toCode _ _ hdx]
    constructor
    · rintro ⟨x, hx, h1, h2⟩
      have := (between_iff a.ext he b x).2 hx
      exact ⟨this.1.trans h2, h1.trans this.2⟩
    · rintro ⟨h1, h2⟩
      have h3 : a.ext.1 + (i : K) * a.dx < a.ext.1 + ((i : K) + 1) * a.dx := by
        have : ((i : K) + 1) * a.dx = i * a.dx + a.dx := by ring
        rw [this]; linarith
      obtain ⟨x, hxl, hxr⟩ := exists_between (a₁ := Max.max (clampLo a.ext b.1) (a.ext.1 + i * a.dx))
        (a₂ := Min.min (clampHi a.ext b.2) (a.ext.1 + (i + 1) * a.dx))
        (by rw [max_lt_iff, lt_min_iff, lt_min_iff]; exact ⟨⟨hlohi, h1⟩, h2, h3⟩)
      rw [max_lt_iff] at hxl
      rw [lt_min_iff] at hxr
      exact ⟨x, (between_iff a.ext he b x).1 ⟨hxl.1, hxr.1⟩, hxl.2, hxr.2⟩
  rw [inside]
  have hfl : toCode a.ext a.dx (clampLo a.ext b.1) < i + 1 ↔
      ⌊toCode a.ext a.dx (clampLo a.ext b.1)⌋ ≤ i := by
    rw [← Int.lt_add_one_iff, Int.floor_lt]
    push_cast; rfl
  have hce : (i : K) < toCode a.ext a.dx (clampHi a.ext b.2) ↔
      i < ⌈toCode a.ext a.dx (clampHi a.ext b.2)⌉ := Int.lt_ceil.symm
  rw [hfl, hce]
  unfold rangeEntry
  by_cases hall : isAll b = true
  · have hb : b = (.min, .max) := by
      obtain ⟨b1, b2⟩ := b
      cases b1 <;> cases b2 <;> simp [isAll] at hall ⊢
    rw [if_pos hall]
    have e1 : clampLo a.ext b.1 = a.ext.1 := by rw [hb]; simp [clampLo, he]
    have e2 : clampHi a.ext b.2 = a.ext.2 := by rw [hb]; simp [clampHi, he]
    have e3 : toCode a.ext a.dx a.ext.1 = 0 := by simp [toCode]
    have e4 : toCode a.ext a.dx a.ext.2 = a.n := by
      rw [toCode, hext, add_sub_cancel_left, mul_div_assoc, div_self hdx.ne', mul_one]
    rw [e1, e2, e3, e4, Int.floor_zero, Int.ceil_natCast]
    simp only [Bool.false_eq_true, if_false]
    omega
  · rw [if_neg hall]
    simp only [Bool.false_eq_true, if_false]
    omega

/-- **C85**: for any box that meets the mesh, the index range returned without ghost cells contains
along every axis exactly the active cells that overlap the box.  Proved for boxes not bounded below
and unbounded above (the others are affected by the intersection test, C55). -/
theorem C85_cells_of_box_partial (ng : Nat) (axes : List (Axis K))
    (haxes : ∀ a ∈ axes, 0 < a.dx ∧ a.ext.2 = a.ext.1 + a.n * a.dx)
    (box : List (Bnd K × Bnd K)) (hlen : box.length = axes.length)
    (hbox : ∀ b ∈ box, ¬ HalfOpenUp b)
    (hmeet : ∀ (k : Nat) (a : Axis K) (b : Bnd K × Bnd K), axes[k]? = some a → box[k]? = some b →
      ∃ x, Overlap a.ext b x) :
    ∃ r, extentToRange ng axes box (List.replicate axes.length (false, false)) = .ok r ∧
      r.length = axes.length ∧
      ∀ (k : Nat) (a : Axis K) (b : Bnd K × Bnd K) (lh : Int × Int), axes[k]? = some a →
        box[k]? = some b → r[k]? = some lh →
        ∀ i : Int, (lh.1 ≤ i + ng ∧ i + ng < lh.2) ↔
          0 ≤ i ∧ i < a.n ∧ ∃ x, Overlap a.ext b x ∧ a.ext.1 + i * a.dx < x ∧
            x < a.ext.1 + (i + 1) * a.dx := by
  have hext : ∀ e ∈ axes.map (·.ext), e.1 ≤ e.2 := by
    intro e he
    obtain ⟨a, ha, rfl⟩ := List.mem_map.1 he
    obtain ⟨h1, h2⟩ := haxes a ha
    rw [h2]
    have : (0 : K) ≤ a.n * a.dx := mul_nonneg (Nat.cast_nonneg _) h1.le
    linarith
  obtain ⟨v, hv, hvi⟩ := C55_intersects_partial (axes.map (·.ext)) hext box (by simpa using hlen) hbox
  have hvt : v = true := hvi.2 fun k e b he hb => by
    rw [List.getElem?_map] at he
    obtain ⟨a, ha, rfl⟩ := Option.map_eq_some_iff.1 he
    exact hmeet k a b ha hb
  refine ⟨rangeLoop ng axes (List.replicate axes.length (false, false)) box, ?_, ?_⟩
  · simp [extentToRange, Outcome.errorIf, hlen, hv, hvt]
  have key : ∀ (axes : List (Axis K)) (box : List (Bnd K × Bnd K)), box.length = axes.length →
      rangeLoop ng axes (List.replicate axes.length (false, false)) box
        = List.zipWith (fun a b => rangeEntry ng a.ext a.dx a.n (false, false) b) axes box := by
    intro axes
    induction axes with
    | nil => intro box h; cases box <;> simp_all [rangeLoop]
    | cons a as ih =>
      intro box h
      match box with
      | [] => simp at h
      | b :: bs =>
        rw [List.length_cons, List.replicate_succ, rangeLoop, List.zipWith_cons_cons,
          ih bs (by simpa using h)]
  rw [key axes box hlen]
  refine ⟨by simp [hlen], ?_⟩
  intro k a b lh ha hb hlh i
  rw [List.getElem?_zipWith, ha, hb] at hlh
  simp only [Option.some.injEq] at hlh
  subst hlh
  obtain ⟨h1, h2⟩ := haxes a (List.mem_of_getElem? ha)
  exact range_axis ng a h1 h2 b (hmeet k a b ha hb) i

/-- **C85**: a box that does not meet the mesh gives the empty range along every axis (the other
direction of the claim). -/
theorem C85_disjoint_partial (ng : Nat) (axes : List (Axis K))
    (haxes : ∀ a ∈ axes, 0 < a.dx ∧ a.ext.2 = a.ext.1 + a.n * a.dx)
    (box : List (Bnd K × Bnd K)) (hlen : box.length = axes.length)
    (hbox : ∀ b ∈ box, ¬ HalfOpenUp b) (incl : List (Bool × Bool))
    (hincl : incl.length = axes.length) (k : Nat) (a : Axis K) (b : Bnd K × Bnd K)
    (ha : axes[k]? = some a) (hb : box[k]? = some b) (hno : ∀ x, ¬ Overlap a.ext b x) :
    extentToRange ng axes box incl = .ok (List.replicate axes.length (0, 0)) := by
  have hext : ∀ e ∈ axes.map (·.ext), e.1 ≤ e.2 := by
    intro e he
    obtain ⟨a, ha, rfl⟩ := List.mem_map.1 he
    obtain ⟨h1, h2⟩ := haxes a ha
    rw [h2]
    have : (0 : K) ≤ a.n * a.dx := mul_nonneg (Nat.cast_nonneg _) h1.le
    linarith
  obtain ⟨v, hv, hvi⟩ := C55_intersects_partial (axes.map (·.ext)) hext box (by simpa using hlen) hbox
  have hvf : v = false := by
    cases v with
    | false => rfl
    | true =>
      obtain ⟨x, hx⟩ := hvi.1 rfl k a.ext b (by rw [List.getElem?_map, ha]; rfl) hb
      exact absurd hx (hno x)
  simp [extentToRange, Outcome.errorIf, hlen, hincl, hv, hvf, List.map_const']

/-- A concrete mesh and box: cells of size 1/2 over `[0, 4]` and `[1, 3]`. -/
example : extentToRange 2 [⟨((0 : ℚ), 4), 1 / 2, 8⟩, ⟨(1, 3), 1 / 2, 4⟩]
      [(.at (3 / 4), .at 2), (.min, .at 2)] (List.replicate 2 (false, false))
    = .ok [(3, 6), (2, 4)] := by decide +kernel

/-- **C85**, violated with ghost cells for a box bounded below, unbounded above and outside of the
mesh: ghost cells are selected. -/
theorem C85_counterexample :
    extentToRange 2 [⟨((0 : ℚ), 4), 1 / 2, 8⟩] [(.at 100, .max)] [(true, true)]
      = .ok [(8, 12)] := by decide +kernel

end Entity.Props.MeshBox
