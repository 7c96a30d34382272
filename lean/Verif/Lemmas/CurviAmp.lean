import Verif.Lemmas.CurviStep
import Mathlib.Algebra.CharZero.Defs
import Mathlib.Algebra.BigOperators.Group.List.Basic

/-!
# Electric flux: the Ampere and current kernels of the SR engine
-/

namespace Entity.Curvi

open Entity.Kernel Entity.FieldSolver

variable {K : Type} [Field K]

section kernels
variable {M : CMetric K} {g : CGrid} {coeff inv_n0 : K} {cells : List (List Int)} {m m' : Mem K}

/-- Rows that are not on an axis. -/
def OffAxis (g : CGrid) (i2 : Int) : Prop :=
  ¬ (i2 = g.i2min ∧ g.axisLo = true) ∧ ¬ (i2 = g.i2max ∧ g.axisHi = true)

theorem ampereSR_flux1 (h : Launch cells (ampereSR M g coeff) m m') {i1 i2 : Int}
    (hc : [i1, i2] ∈ cells) (hr : OffAxis g i2) (hs : M.sqrtDet (coord g i1 + 1 / 2) (coord g i2) ≠ 0) :
    M.sqrtDet (coord g i1 + 1 / 2) (coord g i2) * m' (fL emA .ex1 i1 i2) =
      M.sqrtDet (coord g i1 + 1 / 2) (coord g i2) * m (fL emA .ex1 i1 i2) + coeff *
        (M.h33 (coord g i1 + 1 / 2) (coord g i2 + 1 / 2) * m (fL emA .bx3 i1 i2) -
          M.h33 (coord g i1 + 1 / 2) (coord g i2 - 1 / 2) * m (fL emA .bx3 i1 (i2 - 1))) := by
  rw [launch_at (ampereSR_local _ M g coeff) h (l := fL emA .ex1 i1 i2) hc]
  simp only [fL, ampereSR]
  rw [if_neg hr.1, if_neg hr.2]
  simp [runBody, store, plusEq, f, fL, emA, Em.toNat, half]; field_simp

theorem ampereSR_flux2 (h : Launch cells (ampereSR M g coeff) m m') {i1 i2 : Int}
    (hc : [i1, i2] ∈ cells) (hr : ¬ (i2 = g.i2max ∧ g.axisHi = true) ∨ (i2 = g.i2min ∧ g.axisLo = true))
    (hs : M.sqrtDet (coord g i1) (coord g i2 + 1 / 2) ≠ 0) :
    M.sqrtDet (coord g i1) (coord g i2 + 1 / 2) * m' (fL emA .ex2 i1 i2) =
      M.sqrtDet (coord g i1) (coord g i2 + 1 / 2) * m (fL emA .ex2 i1 i2) + coeff *
        (M.h33 (coord g i1 - 1 / 2) (coord g i2 + 1 / 2) * m (fL emA .bx3 (i1 - 1) i2) -
          M.h33 (coord g i1 + 1 / 2) (coord g i2 + 1 / 2) * m (fL emA .bx3 i1 i2)) := by
  rw [launch_at (ampereSR_local _ M g coeff) h (l := fL emA .ex2 i1 i2) hc]
  simp only [fL, ampereSR]
  split
  · simp [runBody, store, plusEq, f, fL, emA, Em.toNat, half]; field_simp
  · rename_i hx
    rw [if_neg (hr.resolve_right hx)]
    simp [runBody, store, plusEq, f, fL, emA, Em.toNat, half]; field_simp

theorem ampereSR_lo (h : Launch cells (ampereSR M g coeff) m m') {i1 : Int}
    (hc : [i1, g.i2min] ∈ cells) (hx : g.axisLo = true) (hs : M.polarArea (coord g i1 + 1 / 2) ≠ 0) :
    M.polarArea (coord g i1 + 1 / 2) * m' (fL emA .ex1 i1 g.i2min) =
      M.polarArea (coord g i1 + 1 / 2) * m (fL emA .ex1 i1 g.i2min) + coeff *
        (M.h33 (coord g i1 + 1 / 2) (coord g g.i2min + 1 / 2) * m (fL emA .bx3 i1 g.i2min)) := by
  rw [launch_at (ampereSR_local _ M g coeff) h (l := fL emA .ex1 i1 g.i2min) hc]
  simp only [fL, ampereSR]
  rw [if_pos ⟨trivial, hx⟩]
  simp [runBody, store, plusEq, f, fL, emA, Em.toNat, half]; field_simp

theorem ampereSR_hi (h : Launch cells (ampereSR M g coeff) m m') {i1 : Int} (hn : 0 < g.n2)
    (hc : [i1, g.i2max] ∈ cells) (hx : g.axisHi = true) (hs : M.polarArea (coord g i1 + 1 / 2) ≠ 0) :
    M.polarArea (coord g i1 + 1 / 2) * m' (fL emA .ex1 i1 g.i2max) =
      M.polarArea (coord g i1 + 1 / 2) * m (fL emA .ex1 i1 g.i2max) - coeff *
        (M.h33 (coord g i1 + 1 / 2) (coord g g.i2max - 1 / 2) * m (fL emA .bx3 i1 g.i2max)) := by
  rw [launch_at (ampereSR_local _ M g coeff) h (l := fL emA .ex1 i1 g.i2max) hc]
  simp only [fL, ampereSR]
  rw [if_neg (by rintro ⟨h, -⟩; simp only [CGrid.i2min, CGrid.i2max] at h; omega), if_pos ⟨trivial, hx⟩]
  simp [runBody, store, plusEq, f, fL, emA, Em.toNat, half]; field_simp; ring

theorem currentsSR_flux1 (h : Launch cells (currentsSR M g coeff inv_n0) m m') {i1 i2 : Int}
    (hc : [i1, i2] ∈ cells) (hr : OffAxis g i2) (hs : M.sqrtDet (coord g i1 + 1 / 2) (coord g i2) ≠ 0) :
    M.sqrtDet (coord g i1 + 1 / 2) (coord g i2) * m' (fL emA .ex1 i1 i2) =
      M.sqrtDet (coord g i1 + 1 / 2) (coord g i2) * m (fL emA .ex1 i1 i2) +
        coeff * inv_n0 * m (jL curA .jx1 i1 i2) := by
  rw [launch_at (currentsSR_local _ M g coeff inv_n0) h (l := fL emA .ex1 i1 i2) hc]
  simp only [fL, currentsSR]
  rw [if_neg hr.1, if_neg hr.2]
  simp [runBody, store, plusEq, timesEq, f, fL, j, jL, emA, curA, Em.toNat, Cc.toNat, half]; field_simp

theorem currentsSR_flux2 (h : Launch cells (currentsSR M g coeff inv_n0) m m') {i1 i2 : Int}
    (hc : [i1, i2] ∈ cells) (hr : ¬ (i2 = g.i2max ∧ g.axisHi = true) ∨ (i2 = g.i2min ∧ g.axisLo = true))
    (hs : M.sqrtDet (coord g i1) (coord g i2 + 1 / 2) ≠ 0) :
    M.sqrtDet (coord g i1) (coord g i2 + 1 / 2) * m' (fL emA .ex2 i1 i2) =
      M.sqrtDet (coord g i1) (coord g i2 + 1 / 2) * m (fL emA .ex2 i1 i2) +
        coeff * inv_n0 * m (jL curA .jx2 i1 i2) := by
  rw [launch_at (currentsSR_local _ M g coeff inv_n0) h (l := fL emA .ex2 i1 i2) hc]
  simp only [fL, currentsSR]
  split
  · simp [runBody, store, plusEq, timesEq, f, fL, j, jL, emA, curA, Em.toNat, Cc.toNat, half]; field_simp
  · rename_i hx
    rw [if_neg (hr.resolve_right hx)]
    simp [runBody, store, plusEq, timesEq, f, fL, j, jL, emA, curA, Em.toNat, Cc.toNat, half]; field_simp

theorem currentsSR_cap (h : Launch cells (currentsSR M g coeff inv_n0) m m') {i1 i2 : Int}
    (hc : [i1, i2] ∈ cells) (hr : (i2 = g.i2min ∧ g.axisLo = true) ∨ (i2 = g.i2max ∧ g.axisHi = true))
    (hs : M.polarArea (coord g i1 + 1 / 2) ≠ 0) :
    M.polarArea (coord g i1 + 1 / 2) * m' (fL emA .ex1 i1 i2) =
      M.polarArea (coord g i1 + 1 / 2) * m (fL emA .ex1 i1 i2) +
        coeff * inv_n0 * (1 / 2 * m (jL curA .jx1 i1 i2)) := by
  rw [launch_at (currentsSR_local _ M g coeff inv_n0) h (l := fL emA .ex1 i1 i2) hc]
  simp only [fL, currentsSR]
  split
  · simp [runBody, store, plusEq, timesEq, f, fL, j, jL, emA, curA, Em.toNat, Cc.toNat, half]; field_simp
  · rename_i hx
    rw [if_pos (hr.resolve_left hx)]
    simp [runBody, store, plusEq, timesEq, f, fL, j, jL, emA, curA, Em.toNat, Cc.toNat, half]; field_simp

end kernels

/-! ## Flux out of the dual cells -/

section flux
variable {M : CMetric K} {g : CGrid} {coeff inv_n0 : K} {m m' : Mem K}

/-- Nodes whose flux is followed. -/
def Node (g : CGrid) (a b i1 i2 : Int) : Prop := (a < i1 ∧ i1 < b) ∧ g.i2min < i2 ∧ i2 < g.i2max

theorem mem_rangeAxisSR {i1 i2 : Int} (h1 : g.i1min ≤ i1) (h1' : i1 < g.i1max) (h2 : g.i2min ≤ i2)
    (h2' : i2 < g.i2max ∨ i2 = g.i2max ∧ g.axisHi = true) : [i1, i2] ∈ rangeAxisSR g := by
  unfold rangeAxisSR
  split
  · rw [mem_box]; omega
  · rename_i hx
    rw [mem_active]
    rcases h2' with h | h
    · omega
    · exact absurd h.2 hx

theorem offAxis_mid {i2 : Int} (h2 : g.i2min < i2) (h2' : i2 < g.i2max) : OffAxis g i2 :=
  ⟨by omega, by omega⟩

theorem pred_half [CharZero K] (x : K) : x - 1 + 1 / 2 = x - 1 / 2 := by ring

theorem ampereSR_divE [CharZero K] (hM : Polar M g) (h : Launch (rangeAxisSR g) (ampereSR M g coeff) m m')
    {i1 i2 : Int} (h1 : g.i1min < i1) (h1' : i1 < g.i1max) (h2 : g.i2min < i2) (h2' : i2 < g.i2max) :
    divE M g emA m' i1 i2 = divE M g emA m i1 i2 := by
  have hr := offAxis_mid (g := g) h2 h2'
  have e1 := ampereSR_flux1 h (mem_rangeAxisSR h1.le h1' h2.le (.inl h2')) hr
    (hM.face2 i1 i2 h2.le h2' (.inl (by omega)))
  have e2 := ampereSR_flux1 h (mem_rangeAxisSR (i1 := i1 - 1) (by omega) (by omega) h2.le (.inl h2')) hr
    (hM.face2 (i1 - 1) i2 h2.le h2' (.inl (by omega)))
  have e3 := ampereSR_flux2 h (mem_rangeAxisSR h1.le h1' h2.le (.inl h2')) (.inl hr.2)
    (hM.face1 i1 i2 h2.le h2')
  have e4 := ampereSR_flux2 h (mem_rangeAxisSR (i2 := i2 - 1) h1.le h1' (by omega) (.inl (by omega)))
    (.inl (by omega)) (hM.face1 i1 (i2 - 1) (by omega) (by omega))
  simp only [divE]
  rw [coord_pred, pred_half] at e2 e4
  linear_combination e1 - e2 + e3 - e4

theorem ampereSR_divELo [CharZero K] (hM : Polar M g) (hx : g.axisLo = true) (hn : 0 < g.n2)
    (h : Launch (rangeAxisSR g) (ampereSR M g coeff) m m')
    {i1 : Int} (h1 : g.i1min < i1) (h1' : i1 < g.i1max) :
    divELo M g emA m' i1 = divELo M g emA m i1 := by
  have hlt : g.i2min < g.i2max := by simp [CGrid.i2min, CGrid.i2max, hn]
  have e1 := ampereSR_lo h (mem_rangeAxisSR h1.le h1' le_rfl (.inl hlt)) hx (hM.cap i1)
  have e2 := ampereSR_lo h (mem_rangeAxisSR (i1 := i1 - 1) (by omega) (by omega) le_rfl (.inl hlt)) hx
    (hM.cap (i1 - 1))
  have e3 := ampereSR_flux2 h (mem_rangeAxisSR h1.le h1' le_rfl (.inl hlt)) (.inr ⟨rfl, hx⟩)
    (hM.face1 i1 _ le_rfl hlt)
  simp only [divELo]
  rw [coord_pred, pred_half] at e2
  rw [coord_i2min, zero_add] at e1 e2 e3
  linear_combination e1 - e2 + e3

theorem ampereSR_divEHi [CharZero K] (hM : Polar M g) (hx : g.axisHi = true) (hn : 0 < g.n2)
    (h : Launch (rangeAxisSR g) (ampereSR M g coeff) m m')
    {i1 : Int} (h1 : g.i1min < i1) (h1' : i1 < g.i1max)
    (hb : m (fL emA .bx3 i1 g.i2max) = m (fL emA .bx3 i1 (g.i2max - 1)))
    (hb' : m (fL emA .bx3 (i1 - 1) g.i2max) = m (fL emA .bx3 (i1 - 1) (g.i2max - 1))) :
    divEHi M g emA m' i1 = divEHi M g emA m i1 := by
  have hlt : g.i2min < g.i2max := by simp [CGrid.i2min, CGrid.i2max, hn]
  have e1 := ampereSR_hi h hn (mem_rangeAxisSR h1.le h1' hlt.le (.inr ⟨rfl, hx⟩)) hx (hM.cap i1)
  have e2 := ampereSR_hi h hn (mem_rangeAxisSR (i1 := i1 - 1) (by omega) (by omega) hlt.le
    (.inr ⟨rfl, hx⟩)) hx (hM.cap (i1 - 1))
  have e3 := ampereSR_flux2 h (mem_rangeAxisSR (i2 := g.i2max - 1) h1.le h1' (by omega) (.inl (by omega)))
    (.inl (by omega)) (hM.face1 i1 _ (by omega) (by omega))
  simp only [divEHi]
  rw [hb] at e1
  rw [hb'] at e2
  rw [coord_pred, pred_half] at e2 e3
  rw [coord_i2max] at e1 e2 e3
  linear_combination e1 - e2 - e3

theorem currentsSR_divE [CharZero K] (hM : Polar M g)
    (h : Launch (rangeAxisSR g) (currentsSR M g coeff inv_n0) m m')
    {i1 i2 : Int} (h1 : g.i1min < i1) (h1' : i1 < g.i1max) (h2 : g.i2min < i2) (h2' : i2 < g.i2max) :
    divE M g emA m' i1 i2 = divE M g emA m i1 i2 +
      coeff * inv_n0 * divJ (fun c i1 i2 => m (jL curA c i1 i2)) i1 i2 := by
  have hr := offAxis_mid (g := g) h2 h2'
  have e1 := currentsSR_flux1 h (mem_rangeAxisSR h1.le h1' h2.le (.inl h2')) hr
    (hM.face2 i1 i2 h2.le h2' (.inl (by omega)))
  have e2 := currentsSR_flux1 h (mem_rangeAxisSR (i1 := i1 - 1) (by omega) (by omega) h2.le (.inl h2')) hr
    (hM.face2 (i1 - 1) i2 h2.le h2' (.inl (by omega)))
  have e3 := currentsSR_flux2 h (mem_rangeAxisSR h1.le h1' h2.le (.inl h2')) (.inl hr.2)
    (hM.face1 i1 i2 h2.le h2')
  have e4 := currentsSR_flux2 h (mem_rangeAxisSR (i2 := i2 - 1) h1.le h1' (by omega) (.inl (by omega)))
    (.inl (by omega)) (hM.face1 i1 (i2 - 1) (by omega) (by omega))
  simp only [divE, divJ]
  rw [coord_pred, pred_half] at e2 e4
  linear_combination e1 - e2 + e3 - e4

theorem currentsSR_divELo [CharZero K] (hM : Polar M g) (hx : g.axisLo = true) (hn : 0 < g.n2)
    (h : Launch (rangeAxisSR g) (currentsSR M g coeff inv_n0) m m')
    {i1 : Int} (h1 : g.i1min < i1) (h1' : i1 < g.i1max) :
    divELo M g emA m' i1 = divELo M g emA m i1 + coeff * inv_n0 *
      (1 / 2 * (m (jL curA .jx1 i1 g.i2min) - m (jL curA .jx1 (i1 - 1) g.i2min)) +
        m (jL curA .jx2 i1 g.i2min)) := by
  have hlt : g.i2min < g.i2max := by simp [CGrid.i2min, CGrid.i2max, hn]
  have e1 := currentsSR_cap h (mem_rangeAxisSR h1.le h1' le_rfl (.inl hlt)) (.inl ⟨rfl, hx⟩) (hM.cap i1)
  have e2 := currentsSR_cap h (mem_rangeAxisSR (i1 := i1 - 1) (by omega) (by omega) le_rfl (.inl hlt))
    (.inl ⟨rfl, hx⟩) (hM.cap (i1 - 1))
  have e3 := currentsSR_flux2 h (mem_rangeAxisSR h1.le h1' le_rfl (.inl hlt)) (.inr ⟨rfl, hx⟩)
    (hM.face1 i1 _ le_rfl hlt)
  simp only [divELo]
  rw [coord_pred, pred_half] at e2
  rw [coord_i2min, zero_add] at e3
  linear_combination e1 - e2 + e3

theorem currentsSR_divEHi [CharZero K] (hM : Polar M g) (hx : g.axisHi = true) (hn : 0 < g.n2)
    (h : Launch (rangeAxisSR g) (currentsSR M g coeff inv_n0) m m')
    {i1 : Int} (h1 : g.i1min < i1) (h1' : i1 < g.i1max) :
    divEHi M g emA m' i1 = divEHi M g emA m i1 + coeff * inv_n0 *
      (1 / 2 * (m (jL curA .jx1 i1 g.i2max) - m (jL curA .jx1 (i1 - 1) g.i2max)) -
        m (jL curA .jx2 i1 (g.i2max - 1))) := by
  have hlt : g.i2min < g.i2max := by simp [CGrid.i2min, CGrid.i2max, hn]
  have e1 := currentsSR_cap h (mem_rangeAxisSR h1.le h1' hlt.le (.inr ⟨rfl, hx⟩)) (.inr ⟨rfl, hx⟩)
    (hM.cap i1)
  have e2 := currentsSR_cap h (mem_rangeAxisSR (i1 := i1 - 1) (by omega) (by omega) hlt.le
    (.inr ⟨rfl, hx⟩)) (.inr ⟨rfl, hx⟩) (hM.cap (i1 - 1))
  have e3 := currentsSR_flux2 h (mem_rangeAxisSR (i2 := g.i2max - 1) h1.le h1' (by omega)
    (.inl (by omega))) (.inl (by omega)) (hM.face1 i1 _ (by omega) (by omega))
  simp only [divEHi]
  rw [coord_pred, pred_half] at e2 e3
  rw [coord_i2max] at e3
  linear_combination e1 - e2 - e3

end flux

end Entity.Curvi
