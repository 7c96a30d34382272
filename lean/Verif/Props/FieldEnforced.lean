import Verif.Spec.FieldBC
import Verif.Lemmas.FieldBC
import Verif.Props.FieldBC
import Mathlib.Data.Rat.Floor
import Mathlib.Algebra.Order.Field.Rat
import Mathlib.Tactic.Linarith

/-!
# C111: fields enforced in the atmosphere; C112: fixed fields
-/

namespace Entity.FieldBC

open Entity Entity.Kernel Entity.Ranks Entity.MeshBox

/-! ## C111 -/

theorem bufferCells_eq (f : Nat) : bufferCells f = max (f + 2) 5 := by
  unfold bufferCells; split <;> omega

section
variable {R : Type} [Field R] [LinearOrder R] [IsStrictOrderedRing R] [FloorRing R]

theorem atmRange_eq {ng n f : Nat} {P : Bool} {x0 dx : R} (hdx : 0 < dx) (hb : bufferCells f ≤ n) :
    atmRange ng n f P x0 dx =
      if P = true then ((n : Int) - bufferCells f + ng, (n : Int) + 2 * ng)
      else (0, (bufferCells f : Int) + ng) := by
  have hd : ∀ k : R, (x0 + k * dx - x0) / dx = k := fun k => by
    rw [add_sub_cancel_left, mul_div_cancel_right₀ _ hdx.ne']
  have hb' : (bufferCells f : R) ≤ n := by exact_mod_cast hb
  have hb0 : (0 : R) ≤ bufferCells f := Nat.cast_nonneg _
  have hn0 : (0 : R) ≤ n := Nat.cast_nonneg _
  cases P
  · simp only [atmRange, atmCells, Bool.false_eq_true, if_false, rangeEntry, isAll, clampLo, clampHi,
      toCode, if_true, Nat.cast_zero, zero_mul, add_zero, max_self]
    have e1 : min (x0 + (n : R) * dx) x0 = x0 := min_eq_right (by nlinarith)
    have e2 : min (x0 + (n : R) * dx) (x0 + (bufferCells f : R) * dx) = x0 + (bufferCells f : R) * dx :=
      min_eq_right (by nlinarith)
    have e3 : max x0 (x0 + (bufferCells f : R) * dx) = x0 + (bufferCells f : R) * dx :=
      max_eq_right (by nlinarith)
    rw [e1, sub_self, zero_div, Int.floor_zero, e2, e3, hd, Int.ceil_natCast,
      min_eq_left (by exact_mod_cast hb)]
  · simp only [atmRange, atmCells, if_true, rangeEntry, isAll, clampLo, clampHi,
      toCode, Bool.false_eq_true, if_false, min_self]
    have hk : ((n - bufferCells f : ℕ) : R) ≤ n := by exact_mod_cast Nat.sub_le _ _
    have hk0 : (0 : R) ≤ ((n - bufferCells f : ℕ) : R) := Nat.cast_nonneg _
    have e1 : max x0 (x0 + ((n - bufferCells f : ℕ) : R) * dx) =
        x0 + ((n - bufferCells f : ℕ) : R) * dx := max_eq_right (by nlinarith)
    have e2 : min (x0 + (n : R) * dx) (x0 + ((n - bufferCells f : ℕ) : R) * dx) =
        x0 + ((n - bufferCells f : ℕ) : R) * dx := min_eq_right (by nlinarith)
    have e3 : max x0 (x0 + (n : R) * dx) = x0 + (n : R) * dx := max_eq_right (by nlinarith)
    rw [e1, e2, e3, hd, hd, Int.ceil_natCast, Int.floor_natCast, max_eq_left (by positivity),
      Nat.cast_sub hb]
    push_cast
    rfl

end

section
variable {S : Setter} {M : Mesh} {o : Nat} {setE setB : Bool} {f : Nat} {x0 dx : ℝ}

/-- The index is in the array, ghost cells included. -/
def InArray (M : Mesh) (t : List Int) : Prop :=
  t.length = M.n.length ∧ ∀ d < M.n.length, 0 ≤ t.getD d 0 ∧ t.getD d 0 < M.n.getD d 0 + 2 * M.ng

/-- The range of `AtmosphereFieldsIn` on an undivided grid: everything across the axis of the boundary. -/
noncomputable def atmBox (M : Mesh) (o f : Nat) (P : Bool) (x0 dx : ℝ) : List (Int × Int) :=
  M.n.mapIdx fun (d n : Nat) =>
    if d = o then atmRange M.ng n f P x0 dx else (0, (n : Int) + 2 * M.ng)

theorem mem_atmBox (hdx : 0 < dx) {P : Bool} {t : List Int} (ho : o < M.n.length)
    (hb : bufferCells f ≤ M.n.getD o 0) (ht : InArray M t) :
    t ∈ box (atmBox M o f P x0 dx) ↔ if P = true then
        (M.n.getD o 0 : Int) - bufferCells f + M.ng ≤ t.getD o 0
      else t.getD o 0 < (bufferCells f : Int) + M.ng := by
  have hg : ∀ d < M.n.length, (atmBox M o f P x0 dx).getD d (0, 0) =
      if d = o then atmRange M.ng (M.n.getD d 0) f P x0 dx
      else (0, (M.n.getD d 0 : Int) + 2 * M.ng) := by
    intro d hd
    simp [atmBox, List.getD_eq_getElem?_getD, List.getElem?_eq_getElem hd]
  have hr := atmRange_eq (R := ℝ) (ng := M.ng) (n := M.n.getD o 0) (f := f) (P := P) (x0 := x0) hdx hb
  have hl : (atmBox M o f P x0 dx).length = M.n.length := by simp [atmBox]
  rw [mem_box_iff, hl]
  constructor
  · rintro ⟨-, h⟩
    have h2 := h o ho
    rw [hg o ho, if_pos rfl, hr] at h2
    cases P
    · simpa using h2.2
    · simpa using h2.1
  · intro h
    refine ⟨ht.1, fun d hd => ?_⟩
    have h2 := ht.2 d hd
    rw [hg d hd]
    by_cases hdo : d = o
    · subst hdo
      rw [if_pos rfl, hr]
      cases P
      · simp only [Bool.false_eq_true, if_false] at h ⊢; exact ⟨h2.1, h⟩
      · simp only [if_true] at h ⊢; exact ⟨h, h2.2⟩
    · rw [if_neg hdo]; exact h2

theorem site_half (ng c : Nat) (t : List Int) (a : Nat) :
    site ng c t a = ((t.getD a 0 : Int) : ℝ) - ng + if halfAlong c a = true then 1 / 2 else 0 := by
  have : halfAlong c a = true ↔ ((c < 3 ∧ a = c) ∨ (3 ≤ c ∧ a ≠ c - 3)) := by
    unfold halfAlong
    split
    · rename_i h; simp only [beq_iff_eq]; omega
    · rename_i h; simp only [bne_iff_ne]; omega
  simp only [site, this]

/-- **C111** at an upper end: every component at or beyond the surface of the atmosphere gets the value
the problem generator gives for its position, every other component keeps its value.  The surface is
`max (filters + 2) 5` cells from the end. -/
theorem C111_upper (hdx : 0 < dx) (ho : o < M.n.length) (hb : max (f + 2) 5 ≤ M.n.getD o 0)
    {m m' : Mem ℝ} (h : atmosphere S M.ng o true setE setB (atmBox M o f true x0 dx) m m')
    {t : List Int} (ht : InArray M t) {c : Nat}
    (hc : (setE = true ∧ c < 3) ∨ (setB = true ∧ 3 ≤ c ∧ c < 6)) {g : List ℝ → ℝ}
    (hg : S.fset c = some g) :
    m' ⟨0, c, t⟩ = if (M.n.getD o 0 : ℝ) - (max (f + 2) 5 : ℕ) ≤ site M.ng c t o
      then S.toU c (sites M.ng c t) (g (S.conv (sites M.ng c t))) else m ⟨0, c, t⟩ := by
  rw [← bufferCells_eq] at hb ⊢
  obtain ⟨h1, h2⟩ := launch_here (tagged_nodup setE setB)
    (enforcedAt_here (S := S) (ng := M.ng) (o := o)) h
  have hmem := mem_atmBox (x0 := x0) hdx (P := true) ho hb ht
  simp only [if_true] at hmem
  have hs : (M.n.getD o 0 : ℝ) - bufferCells f ≤ site M.ng c t o ↔
      (M.n.getD o 0 : Int) - bufferCells f + M.ng ≤ t.getD o 0 := by
    rw [site_half]
    constructor
    · intro h
      by_contra hlt
      have : t.getD o 0 + 1 ≤ (M.n.getD o 0 : Int) - bufferCells f + M.ng := by omega
      have : ((t.getD o 0 : Int) : ℝ) + 1 ≤ (M.n.getD o 0 : ℝ) - bufferCells f + M.ng := by
        exact_mod_cast this
      split_ifs at h <;> linarith
    · intro h
      have : (M.n.getD o 0 : ℝ) - bufferCells f + M.ng ≤ ((t.getD o 0 : Int) : ℝ) := by exact_mod_cast h
      split_ifs <;> linarith
  by_cases hin : (M.n.getD o 0 : Int) - bufferCells f + M.ng ≤ t.getD o 0
  · rw [if_pos (hs.mpr hin)]
    have hr : (atmBox M o f true x0 dx).getD o (0, 0) =
        ((M.n.getD o 0 : Int) - bufferCells f + M.ng, (M.n.getD o 0 : Int) + 2 * M.ng) := by
      have := atmRange_eq (R := ℝ) (ng := M.ng) (n := M.n.getD o 0) (f := f) (P := true) (x0 := x0) hdx hb
      simp [atmBox, List.getD_eq_getElem?_getD, List.getElem?_eq_getElem ho] at this ⊢
      exact this
    refine h1 t (hmem.mpr hin) c (mem_tagged.mpr hc) (t, .lit _) ?_
    have he : atmEdge M.ng true ((atmBox M o f true x0 dx).getD o (0, 0)) ≤ t.getD o 0 := by
      rw [hr]; simp only [atmEdge, if_true]; omega
    unfold enforcedAt
    rw [if_neg (by simp only [if_true, he]; simp)]
    simp only [Setter.target, hg, Option.map_some, pos_eq_sites]
  · rw [if_neg (mt hs.mp hin)]
    exact h2 _ fun hl => hin (hmem.mp hl.2.2.1)

/-- **C111** at a lower end, as far as it holds: the components up to the node one cell *before* the surface
get the prescribed values, the others keep theirs.  Missing: the components between that node and the surface,
and those on the surface (`C111_counterexample`). -/
theorem C111_lower_partial (hdx : 0 < dx) (ho : o < M.n.length) (hb : max (f + 2) 5 ≤ M.n.getD o 0)
    {m m' : Mem ℝ} (h : atmosphere S M.ng o false setE setB (atmBox M o f false x0 dx) m m')
    {t : List Int} (ht : InArray M t) {c : Nat}
    (hc : (setE = true ∧ c < 3) ∨ (setB = true ∧ 3 ≤ c ∧ c < 6)) {g : List ℝ → ℝ}
    (hg : S.fset c = some g) :
    m' ⟨0, c, t⟩ = if site M.ng c t o ≤ (max (f + 2) 5 : ℕ) - 1
      then S.toU c (sites M.ng c t) (g (S.conv (sites M.ng c t))) else m ⟨0, c, t⟩ := by
  rw [← bufferCells_eq] at hb ⊢
  obtain ⟨h1, h2⟩ := launch_here (tagged_nodup setE setB)
    (enforcedAt_here (S := S) (ng := M.ng) (o := o)) h
  have hmem := mem_atmBox (x0 := x0) hdx (P := false) ho hb ht
  simp only [Bool.false_eq_true, if_false] at hmem
  have hr : (atmBox M o f false x0 dx).getD o (0, 0) = (0, (bufferCells f : Int) + M.ng) := by
    have := atmRange_eq (R := ℝ) (ng := M.ng) (n := M.n.getD o 0) (f := f) (P := false) (x0 := x0) hdx hb
    simp [atmBox, List.getD_eq_getElem?_getD, List.getElem?_eq_getElem ho] at this ⊢
    exact this
  have he : atmEdge M.ng false ((atmBox M o f false x0 dx).getD o (0, 0)) =
      (bufferCells f : Int) + M.ng - 1 := by
    rw [hr]; simp only [atmEdge, Bool.false_eq_true, if_false]; omega
  have hs : site M.ng c t o ≤ (bufferCells f : ℝ) - 1 ↔ t.getD o 0 < (bufferCells f : Int) + M.ng ∧
      ¬ (halfAlong c o = true ∧ ¬ t.getD o 0 < (bufferCells f : Int) + M.ng - 1) := by
    rw [site_half]
    constructor
    · intro h
      have h' : ((t.getD o 0 : Int) : ℝ) ≤ (bufferCells f : ℝ) + M.ng - 1 := by
        split_ifs at h <;> linarith
      have h'' : t.getD o 0 ≤ (bufferCells f : Int) + M.ng - 1 := by exact_mod_cast h'
      refine ⟨by omega, fun hh => ?_⟩
      have : t.getD o 0 = (bufferCells f : Int) + M.ng - 1 := by omega
      rw [if_pos hh.1, this] at h
      push_cast at h
      linarith
    · rintro ⟨ha, hb⟩
      by_cases hh : halfAlong c o = true
      · have : t.getD o 0 + 1 ≤ (bufferCells f : Int) + M.ng - 1 := by
          by_contra hcon; exact hb ⟨hh, by omega⟩
        have : ((t.getD o 0 : Int) : ℝ) + 1 ≤ (bufferCells f : ℝ) + M.ng - 1 := by exact_mod_cast this
        rw [if_pos hh]; linarith
      · have : t.getD o 0 ≤ (bufferCells f : Int) + M.ng - 1 := by omega
        have : ((t.getD o 0 : Int) : ℝ) ≤ (bufferCells f : ℝ) + M.ng - 1 := by exact_mod_cast this
        rw [if_neg hh]; linarith
  by_cases hin : t.getD o 0 < (bufferCells f : Int) + M.ng ∧
      ¬ (halfAlong c o = true ∧ ¬ t.getD o 0 < (bufferCells f : Int) + M.ng - 1)
  · rw [if_pos (hs.mpr hin)]
    refine h1 t (hmem.mpr hin.1) c (mem_tagged.mpr hc) (t, .lit _) ?_
    unfold enforcedAt
    rw [he, if_neg (by simpa using hin.2)]
    simp only [Setter.target, hg, Option.map_some, pos_eq_sites]
  · rw [if_neg (mt hs.mp hin)]
    refine h2 _ fun hl => hin ⟨hmem.mp hl.2.2.1, fun hh => ?_⟩
    have := hl.2.2.2
    simp only [enforcedAt] at this
    rw [he, if_pos (by simpa using hh)] at this
    simp at this

/-- **C111**: components the problem generator does not provide or that are not tagged, and other arrays,
do not change. -/
theorem C111_frame {P : Bool} {r : List (Int × Int)} {ng : Nat}
    {m m' : Mem ℝ} (h : atmosphere S ng o P setE setB r m m') (l : Loc)
    (hl : l.arr ≠ 0 ∨ S.fset l.comp = none ∨
      ¬ ((setE = true ∧ l.comp < 3) ∨ (setB = true ∧ 3 ≤ l.comp ∧ l.comp < 6))) : m' l = m l := by
  apply (launch_here (tagged_nodup setE setB) (enforcedAt_here (S := S) (ng := ng) (o := o)) h).2
  rintro ⟨h1, h2, h3, h4⟩
  rcases hl with hl | hl | hl
  · exact hl h1
  · simp only [enforcedAt, Setter.target, hl, Option.map_none] at h4
    simp at h4
  · exact hl (mem_tagged.mp h2)

end

/-- A field setter for the examples: all components, equal to one. -/
def unitSetter : Setter := ⟨id, id, fun _ _ v => v, fun _ => some fun _ => 1⟩

theorem atmosphere_exists (S : Setter) (ng o : Nat) (P setE setB : Bool) (r : List (Int × Int))
    (m : Mem ℝ) : ∃ m', atmosphere S ng o P setE setB r m m' := by
  exact launch_exists _ _ _

/-- **C111** fails at a lower end: in one dimension with 10 cells and no filters the surface is 5 cells
from either end.  The tangential electric field on the surface is set at the upper end (node 5) and not at
the lower end (node 5), and neither is the one half a cell below it. -/
theorem C111_counterexample :
    (∀ m', atmosphere unitSetter 2 0 true true true (atmBox ⟨2, [10]⟩ 0 0 true 0 1) (fun _ => 0) m' →
      m' ⟨0, 1, [7]⟩ = 1 ∧ m' ⟨0, 0, [7]⟩ = 1) ∧
    (∀ m', atmosphere unitSetter 2 0 false true true (atmBox ⟨2, [10]⟩ 0 0 false 0 1) (fun _ => 0) m' →
      m' ⟨0, 1, [7]⟩ = 0 ∧ m' ⟨0, 0, [6]⟩ = 0) ∧
    site 2 1 [7] 0 = 5 ∧ site 2 0 [6] 0 = 9 / 2 := by
  have h7 : InArray ⟨2, [10]⟩ [7] := ⟨rfl, fun d hd => by
    obtain rfl : d = 0 := by simp at hd; omega
    decide⟩
  have h6 : InArray ⟨2, [10]⟩ [6] := ⟨rfl, fun d hd => by
    obtain rfl : d = 0 := by simp at hd; omega
    decide⟩
  have s1 : site 2 1 [7] 0 = 5 := by simp [site]; norm_num
  have s0 : site 2 0 [6] 0 = 9 / 2 := by simp [site]; norm_num
  have s2 : site 2 0 [7] 0 = 11 / 2 := by simp [site]; norm_num
  refine ⟨fun m' h => ⟨?_, ?_⟩, fun m' h => ⟨?_, ?_⟩, s1, s0⟩
  · rw [C111_upper (M := ⟨2, [10]⟩) (o := 0) (f := 0) one_pos (by decide) (by decide) h h7
      (.inl ⟨rfl, by decide⟩) rfl]
    simp only [s1]; rw [if_pos (by norm_num)]; rfl
  · rw [C111_upper (M := ⟨2, [10]⟩) (o := 0) (f := 0) one_pos (by decide) (by decide) h h7
      (.inl ⟨rfl, by decide⟩) rfl]
    simp only [s2]; rw [if_pos (by norm_num)]; rfl
  · rw [C111_lower_partial (M := ⟨2, [10]⟩) (o := 0) (f := 0) one_pos (by decide) (by decide) h h7
      (.inl ⟨rfl, by decide⟩) rfl]
    simp only [s1]; rw [if_neg (by norm_num)]
  · rw [C111_lower_partial (M := ⟨2, [10]⟩) (o := 0) (f := 0) one_pos (by decide) (by decide) h h6
      (.inl ⟨rfl, by decide⟩) rfl]
    simp only [s0]; rw [if_neg (by norm_num)]

/-- The launches of the counterexample exist. -/
example : ∃ m', atmosphere unitSetter 2 0 false true true (atmBox ⟨2, [10]⟩ 0 0 false 0 1) (fun _ => 0) m' :=
  atmosphere_exists _ _ _ _ _ _ _ _

/-! ## C112 -/

section
variable {K : Type} [Field K] {M : Mesh} {o : Nat} {P setE setB : Bool} {val : Nat → Option K}

theorem mem_fixedRange (ho : o < M.n.length) {t : List Int} (ht : InArray M t) :
    t ∈ box (fixedRange M o P) ↔
      if P = true then M.iMax o ≤ t.getD o 0 else t.getD o 0 < M.iMin := by
  have hg : ∀ d < M.n.length, (fixedRange M o P).getD d (0, 0) =
      if d = o then (if P = true then ((M.n.getD d 0 : Int) + M.ng, (M.n.getD d 0 : Int) + 2 * M.ng)
        else (0, (M.ng : Int))) else (0, (M.n.getD d 0 : Int) + 2 * M.ng) := by
    intro d hd
    simp [fixedRange, List.getD_eq_getElem?_getD, List.getElem?_eq_getElem hd]
  have hl : (fixedRange M o P).length = M.n.length := by simp [fixedRange]
  rw [mem_box_iff, hl]
  have hoo := ht.2 o ho
  constructor
  · rintro ⟨-, h⟩
    have h2 := h o ho
    rw [hg o ho, if_pos rfl] at h2
    cases P
    · simpa [Mesh.iMin] using h2.2
    · simpa [Mesh.iMax] using h2.1
  · intro h
    refine ⟨ht.1, fun d hd => ?_⟩
    have h2 := ht.2 d hd
    rw [hg d hd]
    by_cases hdo : d = o
    · subst hdo
      rw [if_pos rfl]
      cases P
      · simp only [Bool.false_eq_true, if_false, Mesh.iMin] at h ⊢; exact ⟨h2.1, h⟩
      · simp only [if_true, Mesh.iMax] at h ⊢; exact ⟨h, h2.2⟩
    · rw [if_neg hdo]; exact h2

/-- What the condition does to every component of every cell. -/
theorem fixed_effect (ho : o < M.n.length) {m m' : Mem K} (h : fixed M o P setE setB val m m')
    {t : List Int} (ht : InArray M t) {c : Nat}
    (hc : (setE = true ∧ c < 3) ∨ (setB = true ∧ 3 ≤ c ∧ c < 6)) {v : K} (hv : val c = some v) :
    m' ⟨0, c, t⟩ = if (if P = true then M.iMax o ≤ t.getD o 0 else t.getD o 0 < M.iMin)
      then v else m ⟨0, c, t⟩ := by
  obtain ⟨h1, h2⟩ := launch_here (g := fun t c => (val c).map fun v => (t, .lit v))
    (tagged_nodup setE setB) (fun t c p hp => by
      simp only [Option.map_eq_some_iff] at hp
      obtain ⟨w, -, rfl⟩ := hp
      exact ⟨rfl, fun l hl => by cases hl⟩) h
  have hm := mem_fixedRange (P := P) ho ht
  by_cases hin : (if P = true then M.iMax o ≤ t.getD o 0 else t.getD o 0 < M.iMin)
  · rw [if_pos hin]
    exact h1 t (hm.mpr hin) c (mem_tagged.mpr hc) (t, .lit v) (by simp [hv])
  · rw [if_neg hin]
    exact h2 _ fun hl => hin (hm.mp hl.2.2.1)

/-- **C112** at an upper end: every component on or beyond the boundary gets the fixed value, every other
component keeps its value. -/
theorem C112_upper (ho : o < M.n.length) {m m' : Mem K} (h : fixed M o true setE setB val m m')
    {t : List Int} (ht : InArray M t) {c : Nat}
    (hc : (setE = true ∧ c < 3) ∨ (setB = true ∧ 3 ≤ c ∧ c < 6)) {v : K} (hv : val c = some v) :
    m' ⟨0, c, t⟩ = if (M.n.getD o 0 : ℝ) ≤ site M.ng c t o then v else m ⟨0, c, t⟩ := by
  rw [fixed_effect ho h ht hc hv]
  have : (if true = true then M.iMax o ≤ t.getD o 0 else t.getD o 0 < M.iMin) ↔
      (M.n.getD o 0 : ℝ) ≤ site M.ng c t o := by
    simp only [if_true, Mesh.iMax]
    rw [site_half]
    constructor
    · intro h
      have : (M.n.getD o 0 : ℝ) + M.ng ≤ ((t.getD o 0 : Int) : ℝ) := by exact_mod_cast h
      split_ifs <;> linarith
    · intro h
      by_contra hlt
      have : t.getD o 0 + 1 ≤ (M.n.getD o 0 : Int) + M.ng := by omega
      have : ((t.getD o 0 : Int) : ℝ) + 1 ≤ (M.n.getD o 0 : ℝ) + M.ng := by exact_mod_cast this
      split_ifs at h <;> linarith
  exact if_congr this rfl rfl

/-- **C112** at a lower end, as far as it holds: the components strictly beyond the boundary get the fixed
value, the others keep theirs.  Missing: the components on the boundary (`C112_counterexample`). -/
theorem C112_lower_partial (ho : o < M.n.length) {m m' : Mem K} (h : fixed M o false setE setB val m m')
    {t : List Int} (ht : InArray M t) {c : Nat}
    (hc : (setE = true ∧ c < 3) ∨ (setB = true ∧ 3 ≤ c ∧ c < 6)) {v : K} (hv : val c = some v) :
    m' ⟨0, c, t⟩ = if site M.ng c t o < 0 then v else m ⟨0, c, t⟩ := by
  rw [fixed_effect ho h ht hc hv]
  have : (if false = true then M.iMax o ≤ t.getD o 0 else t.getD o 0 < M.iMin) ↔
      site M.ng c t o < 0 := by
    simp only [Bool.false_eq_true, if_false, Mesh.iMin]
    rw [site_half]
    constructor
    · intro h
      have : t.getD o 0 + 1 ≤ (M.ng : Int) := by omega
      have : ((t.getD o 0 : Int) : ℝ) + 1 ≤ M.ng := by exact_mod_cast this
      split_ifs <;> linarith
    · intro h
      by_contra hlt
      have : (M.ng : Int) ≤ t.getD o 0 := by omega
      have : (M.ng : ℝ) ≤ ((t.getD o 0 : Int) : ℝ) := by exact_mod_cast this
      split_ifs at h <;> linarith
  exact if_congr this rfl rfl

/-- **C112**: components for which the problem generator gives no value, or that are not tagged, and other
arrays do not change. -/
theorem C112_frame {m m' : Mem K} (h : fixed M o P setE setB val m m') (l : Loc)
    (hl : l.arr ≠ 0 ∨ val l.comp = none ∨
      ¬ ((setE = true ∧ l.comp < 3) ∨ (setB = true ∧ 3 ≤ l.comp ∧ l.comp < 6))) : m' l = m l := by
  apply (launch_here (g := fun t c => (val c).map fun v => (t, .lit v))
    (tagged_nodup setE setB) (fun t c p hp => by
      simp only [Option.map_eq_some_iff] at hp
      obtain ⟨w, -, rfl⟩ := hp
      exact ⟨rfl, fun l hl => by cases hl⟩) h).2
  rintro ⟨h1, h2, h3, h4⟩
  rcases hl with hl | hl | hl
  · exact hl h1
  · simp [hl] at h4
  · exact hl (mem_tagged.mp h2)

end

/-- **C112** fails at a lower end: the tangential electric field on the boundary node (index 2) is left
alone there, while at the upper end the one on the boundary node (index 12) is fixed. -/
theorem C112_counterexample :
    (∀ m', fixed ⟨2, [10]⟩ 0 false true true (fun _ => some (1 : ℚ)) (fun _ => 0) m' → m' ⟨0, 1, [2]⟩ = 0) ∧
    (∀ m', fixed ⟨2, [10]⟩ 0 true true true (fun _ => some (1 : ℚ)) (fun _ => 0) m' → m' ⟨0, 1, [12]⟩ = 1) ∧
    site 2 1 [2] 0 = 0 ∧ site 2 1 [12] 0 = 10 := by
  refine ⟨fun m' h => ?_, fun m' h => ?_, by simp [site], by simp [site]; norm_num⟩
  · rw [fixed_effect (M := ⟨2, [10]⟩) (o := 0) (by decide) h (t := [2]) ⟨rfl, fun d hd => by
      obtain rfl : d = 0 := by simp at hd; omega
      decide⟩ (.inl ⟨rfl, by decide⟩) rfl]
    decide
  · rw [fixed_effect (M := ⟨2, [10]⟩) (o := 0) (by decide) h (t := [12]) ⟨rfl, fun d hd => by
      obtain rfl : d = 0 := by simp at hd; omega
      decide⟩ (.inl ⟨rfl, by decide⟩) rfl]
    decide

/-- The launches of the counterexample exist. -/
example : ∃ m', fixed ⟨2, [10]⟩ 0 false true true (fun _ => some (1 : ℚ)) (fun _ => 0) m' :=
  launch_exists _ _ _

end Entity.FieldBC
