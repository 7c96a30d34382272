import Verif.Lemmas.CurviFlat

/-!
# The values left by the curvilinear kernels in one cell
-/

namespace Entity.Curvi

open Entity.Kernel Entity.FieldSolver

variable {K : Type} [Field K] {M : CMetric K} {g : CGrid} {m : Mem K}

section
variable {cells : List (List Int)} {coeff : K} {i1 i2 : Int} {m' : Mem K}

theorem faradayGR_at {bin bout e : Nat} (he : e ≠ bout)
    (h : Launch cells (faradayGR M g bin bout e coeff) m m') (hc : [i1, i2] ∈ cells) :
    m' (fL bout .bx1 i1 i2) = m (fL bin .bx1 i1 i2) +
      coeff * (1 / M.sqrtDet (coord g i1) (coord g i2 + 1 / 2)) *
        (m (fL e .ex3 i1 i2) - m (fL e .ex3 i1 (i2 + 1))) ∧
    m' (fL bout .bx2 i1 i2) = if i2 = g.i2min ∧ g.axisLo = true then 0 else m (fL bin .bx2 i1 i2) +
      coeff * (1 / M.sqrtDet (coord g i1 + 1 / 2) (coord g i2)) *
        (m (fL e .ex3 (i1 + 1) i2) - m (fL e .ex3 i1 i2)) := by
  constructor
  · rw [launch_at (faradayGR_local _ M g he coeff) h (l := fL bout .bx1 i1 i2) hc]
    simp only [fL, faradayGR, List.cons_append, List.nil_append]
    split <;> simp [runBody, store, f, fL, Em.toNat, half, he]
  · rw [launch_at (faradayGR_local _ M g he coeff) h (l := fL bout .bx2 i1 i2) hc]
    simp only [fL, faradayGR, List.cons_append, List.nil_append]
    split <;> simp [runBody, store, f, fL, Em.toNat, half, he]

theorem faradaySR_at (h : Launch cells (faradaySR M g coeff) m m') (hc : [i1, i2] ∈ cells) :
    m' (fL emA .bx1 i1 i2) = m (fL emA .bx1 i1 i2) +
      coeff * (1 / M.sqrtDet (coord g i1) (coord g i2 + 1 / 2)) *
        (M.h33 (coord g i1) (coord g i2) * m (fL emA .ex3 i1 i2) -
          M.h33 (coord g i1) (coord g i2 + 1) * m (fL emA .ex3 i1 (i2 + 1))) ∧
    m' (fL emA .bx2 i1 i2) = m (fL emA .bx2 i1 i2) + (if i2 ≠ g.i2min ∨ g.axisLo = false then
      coeff * (1 / M.sqrtDet (coord g i1 + 1 / 2) (coord g i2)) *
        (M.h33 (coord g i1 + 1) (coord g i2) * m (fL emA .ex3 (i1 + 1) i2) -
          M.h33 (coord g i1) (coord g i2) * m (fL emA .ex3 i1 i2)) else 0) ∧
    m' (fL emA .bx3 i1 i2) = m (fL emA .bx3 i1 i2) +
      coeff * (1 / M.sqrtDet (coord g i1 + 1 / 2) (coord g i2 + 1 / 2)) *
        (M.h11 (coord g i1 + 1 / 2) (coord g i2 + 1) * m (fL emA .ex1 i1 (i2 + 1)) -
          M.h11 (coord g i1 + 1 / 2) (coord g i2) * m (fL emA .ex1 i1 i2) +
          M.h22 (coord g i1) (coord g i2 + 1 / 2) * m (fL emA .ex2 i1 i2) -
          M.h22 (coord g i1 + 1) (coord g i2 + 1 / 2) * m (fL emA .ex2 (i1 + 1) i2)) := by
  refine ⟨?_, ?_, ?_⟩
  · rw [launch_at (faradaySR_local _ M g coeff) h (l := fL emA .bx1 i1 i2) hc]
    simp only [fL, faradaySR, List.cons_append, List.nil_append]
    split <;> simp [runBody, store, plusEq, f, fL, emA, Em.toNat, half]
  · rw [launch_at (faradaySR_local _ M g coeff) h (l := fL emA .bx2 i1 i2) hc]
    simp only [fL, faradaySR, List.cons_append, List.nil_append]
    split <;> simp [runBody, store, plusEq, f, fL, emA, Em.toNat, half]
  · rw [launch_at (faradaySR_local _ M g coeff) h (l := fL emA .bx3 i1 i2) hc]
    simp only [fL, faradaySR, List.cons_append, List.nil_append]
    split <;> simp [runBody, store, plusEq, f, fL, emA, Em.toNat, half]

theorem ampereGR_at {din dout e : Nat} (hd : din ≠ dout) (he : e ≠ dout)
    (h : Launch cells (ampereGR M g din dout e coeff) m m') (hc : [i1, i2] ∈ cells) (hr : OffAxis g i2) :
    m' (fL dout .ex1 i1 i2) = m (fL din .ex1 i1 i2) +
      coeff * (1 / M.sqrtDet (coord g i1 + 1 / 2) (coord g i2)) *
        (m (fL e .bx3 i1 i2) - m (fL e .bx3 i1 (i2 - 1))) ∧
    m' (fL dout .ex2 i1 i2) = m (fL din .ex2 i1 i2) +
      coeff * (1 / M.sqrtDet (coord g i1) (coord g i2 + 1 / 2)) *
        (m (fL e .bx3 (i1 - 1) i2) - m (fL e .bx3 i1 i2)) ∧
    m' (fL dout .ex3 i1 i2) = m (fL din .ex3 i1 i2) +
      coeff * (1 / M.sqrtDet (coord g i1) (coord g i2)) *
        ((m (fL e .bx1 i1 (i2 - 1)) - m (fL e .bx1 i1 i2)) +
          (m (fL e .bx2 i1 i2) - m (fL e .bx2 (i1 - 1) i2))) := by
  refine ⟨?_, ?_, ?_⟩
  · rw [launch_at (ampereGR_local _ M g hd he coeff) h (l := fL dout .ex1 i1 i2) hc]
    simp only [fL, ampereGR]; rw [if_neg hr.1, if_neg hr.2]
    simp [runBody, store, f, fL, Em.toNat, half, he]
  · rw [launch_at (ampereGR_local _ M g hd he coeff) h (l := fL dout .ex2 i1 i2) hc]
    simp only [fL, ampereGR]; rw [if_neg hr.1, if_neg hr.2]
    simp [runBody, store, f, fL, Em.toNat, half, he]
  · rw [launch_at (ampereGR_local _ M g hd he coeff) h (l := fL dout .ex3 i1 i2) hc]
    simp only [fL, ampereGR]; rw [if_neg hr.1, if_neg hr.2]
    simp [runBody, store, f, fL, Em.toNat, half, he]

theorem ampereSR_at (h : Launch cells (ampereSR M g coeff) m m') (hc : [i1, i2] ∈ cells)
    (hr : OffAxis g i2) :
    m' (fL emA .ex1 i1 i2) = m (fL emA .ex1 i1 i2) +
      coeff * (1 / M.sqrtDet (coord g i1 + 1 / 2) (coord g i2)) *
        (M.h33 (coord g i1 + 1 / 2) (coord g i2 + 1 / 2) * m (fL emA .bx3 i1 i2) -
          M.h33 (coord g i1 + 1 / 2) (coord g i2 - 1 / 2) * m (fL emA .bx3 i1 (i2 - 1))) ∧
    m' (fL emA .ex2 i1 i2) = m (fL emA .ex2 i1 i2) +
      coeff * (1 / M.sqrtDet (coord g i1) (coord g i2 + 1 / 2)) *
        (M.h33 (coord g i1 - 1 / 2) (coord g i2 + 1 / 2) * m (fL emA .bx3 (i1 - 1) i2) -
          M.h33 (coord g i1 + 1 / 2) (coord g i2 + 1 / 2) * m (fL emA .bx3 i1 i2)) ∧
    m' (fL emA .ex3 i1 i2) = m (fL emA .ex3 i1 i2) +
      coeff * (1 / M.sqrtDet (coord g i1) (coord g i2)) *
        (M.h11 (coord g i1) (coord g i2 - 1 / 2) * m (fL emA .bx1 i1 (i2 - 1)) -
          M.h11 (coord g i1) (coord g i2 + 1 / 2) * m (fL emA .bx1 i1 i2) +
          M.h22 (coord g i1 + 1 / 2) (coord g i2) * m (fL emA .bx2 i1 i2) -
          M.h22 (coord g i1 - 1 / 2) (coord g i2) * m (fL emA .bx2 (i1 - 1) i2)) := by
  refine ⟨?_, ?_, ?_⟩
  · rw [launch_at (ampereSR_local _ M g coeff) h (l := fL emA .ex1 i1 i2) hc]
    simp only [fL, ampereSR]; rw [if_neg hr.1, if_neg hr.2]
    simp [runBody, store, plusEq, f, fL, emA, Em.toNat, half]
  · rw [launch_at (ampereSR_local _ M g coeff) h (l := fL emA .ex2 i1 i2) hc]
    simp only [fL, ampereSR]; rw [if_neg hr.1, if_neg hr.2]
    simp [runBody, store, plusEq, f, fL, emA, Em.toNat, half]
  · rw [launch_at (ampereSR_local _ M g coeff) h (l := fL emA .ex3 i1 i2) hc]
    simp only [fL, ampereSR]; rw [if_neg hr.1, if_neg hr.2]
    simp [runBody, store, plusEq, f, fL, emA, Em.toNat, half]
end

theorem timeAvgDB_at {cells : List (List Int)} {m' : Mem K} (h : Launch cells timeAvgDB m m') {i1 i2 : Int}
    (hc : [i1, i2] ∈ cells) (c : Em) :
    m' (fL em0A c i1 i2) = 1 / 2 * (m (fL em0A c i1 i2) + m (fL emA c i1 i2)) := by
  rw [launch_at (timeAvgDB_local _) h (l := fL em0A c i1 i2) hc]
  cases c <;> simp [fL, timeAvgDB, runBody, store, f, emA, em0A, Em.toNat, half]

end Entity.Curvi
