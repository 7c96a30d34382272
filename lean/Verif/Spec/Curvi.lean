import Verif.Model.Curvi

/-!
# Fluxes on a staggered curvilinear grid

`g` fixes the numbering (cell `i` starts at code coordinate `i - ng`), `M.sqrtDet` is the square root of
the determinant of the spatial metric, `M.polarArea` the area of the polar cap between the axis and the
first half cell.  `A` is the array that holds the fields.
-/

namespace Entity.Curvi

open Entity.Kernel Entity.FieldSolver

variable {K : Type} [Field K]

/-- The net magnetic flux out of the cell `[i1, i1+1] × [i2, i2+1]`: the radial field sits on the faces
`x1 = i1`, the polar one on the faces `x2 = i2`. -/
def divB (M : CMetric K) (g : CGrid) (A : Nat) (m : Mem K) (i1 i2 : Int) : K :=
  M.sqrtDet (coord g (i1 + 1)) (coord g i2 + 1 / 2) * m (fL A .bx1 (i1 + 1) i2)
    - M.sqrtDet (coord g i1) (coord g i2 + 1 / 2) * m (fL A .bx1 i1 i2)
    + (M.sqrtDet (coord g i1 + 1 / 2) (coord g (i2 + 1)) * m (fL A .bx2 i1 (i2 + 1))
    - M.sqrtDet (coord g i1 + 1 / 2) (coord g i2) * m (fL A .bx2 i1 i2))

/-- The net electric flux out of the dual cell `[i1-½, i1+½] × [i2-½, i2+½]` around the node
`(i1, i2)`, away from the axis. -/
def divE (M : CMetric K) (g : CGrid) (A : Nat) (m : Mem K) (i1 i2 : Int) : K :=
  M.sqrtDet (coord g i1 + 1 / 2) (coord g i2) * m (fL A .ex1 i1 i2)
    - M.sqrtDet (coord g i1 - 1 / 2) (coord g i2) * m (fL A .ex1 (i1 - 1) i2)
    + (M.sqrtDet (coord g i1) (coord g i2 + 1 / 2) * m (fL A .ex2 i1 i2)
    - M.sqrtDet (coord g i1) (coord g i2 - 1 / 2) * m (fL A .ex2 i1 (i2 - 1)))

/-- The same for the half cell `[i1-½, i1+½] × [0, ½]` at the lower axis (row `i2min`). -/
def divELo (M : CMetric K) (g : CGrid) (A : Nat) (m : Mem K) (i1 : Int) : K :=
  M.polarArea (coord g i1 + 1 / 2) * m (fL A .ex1 i1 g.i2min)
    - M.polarArea (coord g i1 - 1 / 2) * m (fL A .ex1 (i1 - 1) g.i2min)
    + M.sqrtDet (coord g i1) (1 / 2) * m (fL A .ex2 i1 g.i2min)

/-- The same for the half cell `[i1-½, i1+½] × [n2-½, n2]` at the upper axis (row `i2max`). -/
def divEHi (M : CMetric K) (g : CGrid) (A : Nat) (m : Mem K) (i1 : Int) : K :=
  M.polarArea (coord g i1 + 1 / 2) * m (fL A .ex1 i1 g.i2max)
    - M.polarArea (coord g i1 - 1 / 2) * m (fL A .ex1 (i1 - 1) g.i2max)
    - M.sqrtDet (coord g i1) ((g.n2 : K) - 1 / 2) * m (fL A .ex2 i1 (g.i2max - 1))

/-- Net current out of the dual cell around a node. -/
def divJ (J : Cc → Int → Int → K) (i1 i2 : Int) : K :=
  J .jx1 i1 i2 - J .jx1 (i1 - 1) i2 + (J .jx2 i1 i2 - J .jx2 i1 (i2 - 1))

/-- The same for the half cells at the lower and at the upper axis: nothing flows through the axis. -/
def divJLo (g : CGrid) (J : Cc → Int → Int → K) (i1 : Int) : K :=
  J .jx1 i1 g.i2min - J .jx1 (i1 - 1) g.i2min + J .jx2 i1 g.i2min
def divJHi (g : CGrid) (J : Cc → Int → Int → K) (i1 : Int) : K :=
  J .jx1 i1 g.i2max - J .jx1 (i1 - 1) g.i2max - J .jx2 i1 (g.i2max - 1)

/-- The currents of a step; none if deposition is disabled. -/
def jOf (J : Option (Cc → Int → Int → K)) : Cc → Int → Int → K := J.getD (fun _ _ _ => 0)

/-- A metric whose coordinates are singular exactly on the polar axis: the volume element is non-zero
at the points of the staggered grid off the axis, and on the axis the volume element, the length of the
circles around it (`h33`) and the cross term `h13` vanish.  (Columns `a-1 … b`.) -/
structure Polar (M : CMetric K) (g : CGrid) : Prop where
  /-- faces of constant `x1` -/
  face1 : ∀ i1 i2 : Int, g.i2min ≤ i2 → i2 < g.i2max →
    M.sqrtDet (coord g i1) (coord g i2 + 1 / 2) ≠ 0
  /-- faces of constant `x2` -/
  face2 : ∀ i1 i2 : Int, g.i2min ≤ i2 → i2 < g.i2max → (i2 ≠ g.i2min ∨ g.axisLo = false) →
    M.sqrtDet (coord g i1 + 1 / 2) (coord g i2) ≠ 0
  /-- lower axis -/
  lo : g.axisLo = true → ∀ x : K, M.sqrtDet x 0 = 0 ∧ M.h33 x 0 = 0 ∧ M.h13 x 0 = 0
  /-- upper axis -/
  hi : g.axisHi = true → ∀ x : K, M.sqrtDet x g.n2 = 0 ∧ M.h33 x g.n2 = 0 ∧ M.h13 x g.n2 = 0
  /-- polar caps -/
  cap : ∀ i1 : Int, M.polarArea (coord g i1 + 1 / 2) ≠ 0

end Entity.Curvi
