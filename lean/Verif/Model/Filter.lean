import Verif.Model.FieldSolver

/-!
# Current filter (src/kernels/digital_filter.hpp, src/engines/srpic/currents.h)

`buffer` is array 2, `array` (the current) is array 1.  Index arguments `i1 + a` become the offset
`a`; the branches depend on the cell `t`.  The constants `INV_k` are `1 / k` (utils/numeric.h).
The 3D spherical kernel raises an error and is not modelled.
-/

namespace Entity.Filter

open Entity.Kernel Entity.FieldSolver

variable {K : Type} [Zero K] [One K] [NatCast K] [Mul K] [Div K]

/-- Members of the kernel (digital_filter.hpp:62-98): polar axes and conducting walls below and above
along each axis of the grid, and the sizes. -/
structure Cfg where
  axisMin : Bool
  axisMax : Bool
  /-- `is_conductor_i1min`, `is_conductor_i1max`, and so on. -/
  cond : Nat → Bool × Bool
  ng : Nat
  size : Nat → Nat

/-- `i1_min`. -/
def Cfg.imin (c : Cfg) : Int := c.ng
/-- `i1_max`, `i2_max`, `i3_max`. -/
def Cfg.imax (c : Cfg) (a : Nat) : Int := c.size a + c.ng

/-- `is_conductor_i1min and i1 == i1_min or is_conductor_i1max and i1 == i1_max - 1`. -/
def Cfg.atWall (c : Cfg) (a : Nat) (i : Int) : Bool :=
  ((c.cond a).1 && i == c.imin) || ((c.cond a).2 && i == c.imax a - 1)

/-- `is_conductor_i1min and i1 == i1_min + 1 or is_conductor_i1max and i1 == i1_max - 2`. -/
def Cfg.nextWall (c : Cfg) (a : Nat) (i : Int) : Bool :=
  ((c.cond a).1 && i == c.imin + 1) || ((c.cond a).2 && i == c.imax a - 2)

/-- `i1side - i1` (`i1side = is_conductor_i1min ? (i1 + 1) : (i1 - 1)`). -/
def Cfg.side (c : Cfg) (a : Nat) : Int := if (c.cond a).1 then 1 else -1

/-- `INV_k`. -/
def inv (k : Nat) : Ex K := .lit (1 / (k : K))
/-- `THREE * INV_4`. -/
def threeQuarters : Ex K := .lit (3 * (1 / 4))

/-- `FILTER2D_IN_I1` (digital_filter.hpp:20-22). -/
def f2I1 (c : Nat) (i j : Int) : Ex K :=
  inv 2 * bf c [i, j] + inv 4 * (bf c [i - 1, j] + bf c [i + 1, j])

/-- `FILTER2D_IN_I2` (digital_filter.hpp:24-26). -/
def f2I2 (c : Nat) (i j : Int) : Ex K :=
  inv 2 * bf c [i, j] + inv 4 * (bf c [i, j - 1] + bf c [i, j + 1])

/-- `FILTER3D_IN_I1_I2` (digital_filter.hpp:28-35). -/
def f3I1I2 (c : Nat) (i j k : Int) : Ex K :=
  inv 4 * bf c [i, j, k] +
    inv 8 * (bf c [i - 1, j, k] + bf c [i + 1, j, k] + bf c [i, j - 1, k] + bf c [i, j + 1, k]) +
    inv 16 * (bf c [i - 1, j - 1, k] + bf c [i + 1, j + 1, k] + bf c [i - 1, j + 1, k] +
      bf c [i + 1, j - 1, k])

/-- `FILTER3D_IN_I2_I3` (digital_filter.hpp:37-44). -/
def f3I2I3 (c : Nat) (i j k : Int) : Ex K :=
  inv 4 * bf c [i, j, k] +
    inv 8 * (bf c [i, j - 1, k] + bf c [i, j + 1, k] + bf c [i, j, k - 1] + bf c [i, j, k + 1]) +
    inv 16 * (bf c [i, j - 1, k - 1] + bf c [i, j + 1, k + 1] + bf c [i, j - 1, k + 1] +
      bf c [i, j + 1, k - 1])

/-- `FILTER3D_IN_I1_I3` (digital_filter.hpp:46-53). -/
def f3I1I3 (c : Nat) (i j k : Int) : Ex K :=
  inv 4 * bf c [i, j, k] +
    inv 8 * (bf c [i - 1, j, k] + bf c [i + 1, j, k] + bf c [i, j, k - 1] + bf c [i, j, k + 1]) +
    inv 16 * (bf c [i - 1, j, k - 1] + bf c [i + 1, j, k + 1] + bf c [i - 1, j, k + 1] +
      bf c [i + 1, j, k - 1])

/-- `array(i1, c)` and so on. -/
def arr (D c : Nat) : Loc := ⟨1, c, here D⟩

/-- Interior, 1D (digital_filter.hpp:121-126). -/
def interior1 (c : Nat) : Ex K := inv 2 * bf c [0] + inv 4 * (bf c [-1] + bf c [1])

/-- Interior, 2D (digital_filter.hpp:183-194, 267-278). -/
def interior2 (c : Nat) : Ex K :=
  inv 4 * bf c [0, 0] +
    inv 8 * (bf c [-1, 0] + bf c [1, 0] + bf c [0, -1] + bf c [0, 1]) +
    inv 16 * (bf c [-1, -1] + bf c [1, 1] + bf c [-1, 1] + bf c [1, -1])

/-- Interior, 3D (digital_filter.hpp:346-379), as written: the group with weight 1/32 contains the
neighbours along x3 a second time and lacks two of the diagonal neighbours in the x2-x3 plane. -/
def interior3 (c : Nat) : Ex K :=
  inv 8 * bf c [0, 0, 0] +
    inv 16 * (bf c [-1, 0, 0] + bf c [1, 0, 0] + bf c [0, -1, 0] + bf c [0, 1, 0] +
      bf c [0, 0, -1] + bf c [0, 0, 1]) +
    inv 32 * (bf c [-1, -1, 0] + bf c [1, 1, 0] + bf c [-1, 1, 0] + bf c [1, -1, 0] +
      bf c [0, -1, -1] + bf c [0, 1, 1] + bf c [0, 0, -1] + bf c [0, 0, 1] +
      bf c [-1, 0, -1] + bf c [1, 0, 1] + bf c [-1, 0, 1] + bf c [1, 0, -1]) +
    inv 64 * (bf c [-1, -1, -1] + bf c [1, 1, 1] + bf c [-1, 1, 1] + bf c [1, -1, -1] +
      bf c [-1, -1, 1] + bf c [1, 1, -1] + bf c [-1, 1, -1] + bf c [1, -1, 1])

/-- `DigitalFilter_kernel::operator()`, 1D Cartesian (digital_filter.hpp:100-130). -/
def filter1 (c : Cfg) (i1 : Int) : List (Assign K) :=
  if c.atWall 0 i1 then
    [ arr 1 0 :=. threeQuarters * bf 0 [0] + inv 4 * bf 0 [c.side 0] ]
  else if c.nextWall 0 i1 then
    [ arr 1 0 :=. inv 2 * bf 0 [0] + inv 4 * (bf 0 [-1] + bf 0 [1]),
      arr 1 1 :=. inv 2 * bf 1 [0] + inv 4 * bf 1 [c.side 0],
      arr 1 2 :=. inv 2 * bf 2 [0] + inv 4 * bf 2 [c.side 0] ]
  else [ arr 1 0 :=. interior1 0, arr 1 1 :=. interior1 1, arr 1 2 :=. interior1 2 ]

/-- `DigitalFilter_kernel::operator()`, 2D Cartesian (digital_filter.hpp:132-195). -/
def filter2 (c : Cfg) (i1 i2 : Int) : List (Assign K) :=
  let s1 := c.side 0
  let s2 := c.side 1
  if c.atWall 0 i1 then
    [ arr 2 0 :=. threeQuarters * f2I2 0 0 0 + inv 4 * f2I2 0 s1 0 ]
  else if c.nextWall 0 i1 then
    [ arr 2 0 :=. inv 2 * f2I2 0 0 0 + inv 4 * (f2I2 0 (-1) 0 + f2I2 0 1 0),
      arr 2 1 :=. inv 2 * f2I2 1 0 0 + inv 4 * f2I2 1 s1 0,
      arr 2 2 :=. inv 2 * f2I2 2 0 0 + inv 4 * f2I2 2 s1 0 ]
  else if c.atWall 1 i2 then
    [ arr 2 1 :=. threeQuarters * f2I1 1 0 0 + inv 4 * f2I1 1 0 s2 ]
  else if c.nextWall 1 i2 then
    [ arr 2 0 :=. inv 2 * f2I1 0 0 0 + inv 4 * f2I1 0 0 s2,
      arr 2 1 :=. inv 2 * f2I1 1 0 0 + inv 4 * (f2I1 1 0 (-1) + f2I1 1 0 1),
      arr 2 2 :=. inv 2 * f2I1 2 0 0 + inv 4 * f2I1 2 0 s2 ]
  else [ arr 2 0 :=. interior2 0, arr 2 1 :=. interior2 1, arr 2 2 :=. interior2 2 ]

/-- `DigitalFilter_kernel::operator()`, 2D spherical (digital_filter.hpp:196-279).  The temporaries
`cur_00`, `cur_0p1`, `cur_0m1` are substituted. -/
def filter2sph (c : Cfg) (i2 : Int) : List (Assign K) :=
  if c.axisMin && i2 == c.imin then
    [ arr 2 0 :=. inv 2 * f2I1 0 0 0 + inv 2 * f2I1 0 0 1,
      arr 2 2 :=. .lit 0,
      arr 2 1 :=. inv 4 * (f2I1 1 0 0 + f2I1 1 0 1) ]
  else if c.axisMin && i2 == c.imin + 1 then
    [ arr 2 0 :=. inv 2 * f2I1 0 0 0 + inv 4 * (f2I1 0 0 1 + f2I1 0 0 (-1)),
      arr 2 2 :=. inv 2 * f2I1 2 0 0 + inv 4 * f2I1 2 0 1,
      arr 2 1 :=. inv 2 * f2I1 1 0 0 + inv 4 * (f2I1 1 0 (-1) + f2I1 1 0 1) ]
  else if c.axisMax && i2 == c.imax 1 - 1 then
    [ arr 2 0 :=. inv 2 * f2I1 0 0 0 + inv 4 * (f2I1 0 0 (-1) + f2I1 0 0 1),
      arr 2 2 :=. inv 2 * f2I1 2 0 0 + inv 4 * f2I1 2 0 (-1),
      arr 2 1 :=. inv 4 * (f2I1 1 0 0 + f2I1 1 0 (-1)) ]
  else if c.axisMax && i2 == c.imax 1 then
    [ arr 2 0 :=. inv 2 * f2I1 0 0 0 + inv 2 * f2I1 0 0 (-1),
      arr 2 2 :=. .lit 0 ]
  else [ arr 2 0 :=. interior2 0, arr 2 1 :=. interior2 1, arr 2 2 :=. interior2 2 ]

/-- `DigitalFilter_kernel::operator()`, 3D Cartesian (digital_filter.hpp:289-381). -/
def filter3 (c : Cfg) (i1 i2 i3 : Int) : List (Assign K) :=
  let s1 := c.side 0
  let s2 := c.side 1
  let s3 := c.side 2
  if c.atWall 0 i1 then
    [ arr 3 0 :=. threeQuarters * f3I2I3 0 0 0 0 + inv 4 * f3I2I3 0 s1 0 0 ]
  else if c.nextWall 0 i1 then
    [ arr 3 0 :=. inv 2 * f3I2I3 0 0 0 0 + inv 4 * (f3I2I3 0 (-1) 0 0 + f3I2I3 0 1 0 0),
      arr 3 1 :=. inv 2 * f3I2I3 1 0 0 0 + inv 4 * f3I2I3 1 s1 0 0,
      arr 3 2 :=. inv 2 * f3I2I3 2 0 0 0 + inv 4 * f3I2I3 2 s1 0 0 ]
  else if c.atWall 1 i2 then
    [ arr 3 1 :=. threeQuarters * f3I1I3 1 0 0 0 + inv 4 * f3I1I3 1 0 s2 0 ]
  else if c.nextWall 1 i2 then
    [ arr 3 0 :=. inv 2 * f3I1I3 0 0 0 0 + inv 4 * f3I1I3 0 0 s2 0,
      arr 3 1 :=. inv 2 * f3I1I3 1 0 0 0 + inv 4 * (f3I1I3 1 0 (-1) 0 + f3I1I3 1 0 1 0),
      arr 3 2 :=. inv 2 * f3I1I3 2 0 0 0 + inv 4 * f3I1I3 2 0 s2 0 ]
  else if c.atWall 2 i3 then
    [ arr 3 2 :=. threeQuarters * f3I1I2 2 0 0 0 + inv 4 * f3I1I2 2 0 0 s3 ]
  else if c.nextWall 2 i3 then
    [ arr 3 0 :=. inv 2 * f3I1I2 0 0 0 0 + inv 4 * f3I1I2 0 0 0 s3,
      arr 3 1 :=. inv 2 * f3I1I2 1 0 0 0 + inv 4 * f3I1I2 1 0 0 s3,
      arr 3 2 :=. inv 2 * f3I1I2 2 0 0 0 + inv 4 * (f3I1I2 2 0 0 (-1) + f3I1I2 2 0 0 1) ]
  else [ arr 3 0 :=. interior3 0, arr 3 1 :=. interior3 1, arr 3 2 :=. interior3 2 ]

/-- The body of the Cartesian filter at cell `t` (with offsets). -/
def filterCart (c : Cfg) (t : List Int) : List (Assign K) :=
  match t with
  | [i1] => filter1 c i1
  | [i1, i2] => filter2 c i1 i2
  | [i1, i2, i3] => filter3 c i1 i2 i3
  | _ => []

/-- The body of the spherical filter at cell `t` (with offsets). -/
def filterSph (c : Cfg) (t : List Int) : List (Assign K) :=
  match t with
  | [_, i2] => filter2sph c i2
  | _ => []

/-- `Kokkos::deep_copy(domain.fields.buff, domain.fields.cur)` (currents.h:109). -/
def copyToBuffer (m : Mem K) : Mem K := fun l => if l.arr = 2 ∧ l.comp < 3 then m { l with arr := 1 } else m l

end Entity.Filter
