import Verif.Model.Kernel

/-!
# Divergence of the electric field on curvilinear grids

Models the branches of `ComputeDivergence_kernel` (src/kernels/divergences.hpp:45-121) for metrics that are
not Cartesian (the Cartesian branches are `Entity.FieldSolver.divergence`).  `sq` is `metric.sqrt_det_h` at
a position in code units; components 0, 1, 2 of array `em` are the electric field.
-/

namespace Entity.Divergence

open Entity.Kernel

variable {K : Type} [Field K]

/-- The array of the fields. -/
def em : Nat := 0

/-- The array of the buffer. -/
def buff : Nat := 9

/-- `COORD(i)` (src/global/global.h: indices without ghost cells). -/
def coord (ng : Nat) (i : Int) : K := ((i - (ng : Int) : Int) : K)

/-- `fields(i, em::ex{k+1}) * metric.sqrt_det_h(x)`. -/
def term (sq : List K → K) (k : Nat) (i : List Int) (x : List K) : Ex K := .ld ⟨em, k, i⟩ * .lit (sq x)

/-- `operator()` (divergences.hpp:50-55, 72-79, 98-114). -/
def body (ng : Nat) (sq : List K → K) (bi : Nat) : List Int → List (Assign K)
  | [i1] =>
    let c1 := coord ng i1
    [⟨⟨buff, bi, [i1]⟩,
      (term sq 0 [i1] [c1 + 1/2] - term sq 0 [i1 - 1] [c1 - 1/2]) / .lit (sq [c1])⟩]
  | [i1, i2] =>
    let c1 := coord ng i1
    let c2 := coord ng i2
    [⟨⟨buff, bi, [i1, i2]⟩,
      (term sq 0 [i1, i2] [c1 + 1/2, c2] - term sq 0 [i1 - 1, i2] [c1 - 1/2, c2] +
        term sq 1 [i1, i2] [c1, c2 + 1/2] - term sq 1 [i1, i2 - 1] [c1, c2 - 1/2]) /
      .lit (sq [c1 + 1/2, c2 + 1/2])⟩]
  | [i1, i2, i3] =>
    let c1 := coord ng i1
    let c2 := coord ng i2
    let c3 := coord ng i3
    [⟨⟨buff, bi, [i1, i2, i3]⟩,
      (term sq 0 [i1, i2, i3] [c1 + 1/2, c2, c3] - term sq 0 [i1 - 1, i2, i3] [c1 - 1/2, c2, c3] +
        term sq 1 [i1, i2, i3] [c1, c2 + 1/2, c3] - term sq 1 [i1, i2 - 1, i3] [c1, c2 - 1/2, c3] +
        term sq 2 [i1, i2, i3] [c1, c2, c3 + 1/2] - term sq 2 [i1, i2, i3 - 1] [c1, c2, c3 - 1/2]) /
      .lit (sq [c1 + 1/2, c2 + 1/2, c3 + 1/2])⟩]
  | _ => []

end Entity.Divergence
