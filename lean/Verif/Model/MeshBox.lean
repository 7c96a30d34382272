import Verif.Model.Base
import Mathlib.Algebra.Order.Floor.Ring
import Mathlib.Algebra.Order.Field.Basic

/-!
# Boxes and cell ranges (src/framework/domain/mesh.h)
-/

namespace Entity.MeshBox

open Entity

/-- A bound of a box: a number, `Range::Min` (minus infinity) or `Range::Max` (infinity)
(src/global/global.h:355-362). -/
inductive Bnd (K : Type) where
  | min
  | max
  | at (x : K)
  deriving DecidableEq

variable {K : Type} [Field K] [LinearOrder K]

/-- `b == Range::All` (mesh.h:81, 161). -/
def isAll : Bnd K × Bnd K → Bool
  | (.min, .max) => true
  | _ => false

/-- `std::min(e.second, std::max(e.first, b))` (mesh.h:88-89, 167-168) with the infinities worked
out. -/
def clampLo (e : K × K) : Bnd K → K
  | .min => Min.min e.2 e.1
  | .max => e.2
  | .at x => Min.min e.2 (Max.max e.1 x)

/-- `std::max(e.first, std::min(e.second, b))` (mesh.h:94-95, 169-170) with the infinities worked
out. -/
def clampHi (e : K × K) : Bnd K → K
  | .max => Max.max e.1 e.2
  | .min => e.1
  | .at x => Max.max e.1 (Min.min e.2 x)

/-- `x_min` of `Mesh::Intersection` (mesh.h:85-90). -/
def xMin (e : K × K) (b : Bnd K) : K :=
  match b with
  | .min => e.1
  | b => clampLo e b

/-- One turn of the loop of `Mesh::Intersection` (mesh.h:80-101): the entries appended to the
result.  The entry is appended inside the branch of a bounded upper end (line 96). -/
def boxEntry (e : K × K) (b : Bnd K × Bnd K) : List (K × K) :=
  if isAll b then [e]
  else match b.2 with
    | .max => []
    | u => [(xMin e b.1, clampHi e u)]

/-- The loop of `Mesh::Intersection` (mesh.h:79-102). -/
def boxLoop : List (K × K) → List (Bnd K × Bnd K) → List (K × K)
  | e :: es, b :: bs => boxEntry e b ++ boxLoop es bs
  | _, _ => []

/-- `Mesh::Intersection` (mesh.h:74-103) of a mesh with the given extent. -/
def intersection (ext : List (K × K)) (box : List (Bnd K × Bnd K)) : Outcome (List (K × K)) := do
  Outcome.errorIf (box.length ≠ ext.length)
  pure (boxLoop ext box)

/-- `Mesh::Intersects` (mesh.h:111-122); `cmp::AlmostEqual` is modelled as equality. -/
def intersects (ext : List (K × K)) (box : List (Bnd K × Bnd K)) : Outcome Bool := do
  Outcome.errorIf (box.length ≠ ext.length)
  let is ← intersection ext box
  pure (is.all fun i => !(decide (i.1 > i.2) || decide (i.1 = i.2)))

variable [FloorRing K]

/-- The conversion `metric.convert<i, Crd::Ph, Crd::Cd>` of the Minkowski metric
(metrics/minkowski.h:263-299): `(x - x_min) / dx`. -/
def toCode (e : K × K) (dx x : K) : K := (x - e.1) / dx

/-- One entry of `Mesh::ExtentToRange` (mesh.h:160-199): extent, cell size, number of active cells,
`incl_ghosts` and the box along one axis; `ng` is `N_GHOSTS`. -/
def rangeEntry (ng : Nat) (e : K × K) (dx : K) (n : Nat) (incl : Bool × Bool)
    (b : Bnd K × Bnd K) : Int × Int :=
  if isAll b then
    (if incl.1 then 0 else ng, if incl.2 then n + 2 * ng else n + ng)
  else
    let lo : Int := ⌊toCode e dx (clampLo e b.1)⌋
    let hi : Int := ⌈toCode e dx (clampHi e b.2)⌉
    let lo := if incl.1 then lo else Max.max lo 0
    let hi := if incl.2 then hi else Min.min hi n
    (lo + (if incl.1 then 0 else ng), hi + (if incl.2 then 2 * ng else ng))

/-- What `ExtentToRange` knows per axis: extent, cell size, number of active cells. -/
structure Axis (K : Type) where
  ext : K × K
  dx : K
  n : Nat

/-- The loop of `Mesh::ExtentToRange` (mesh.h:158-201). -/
def rangeLoop (ng : Nat) : List (Axis K) → List (Bool × Bool) → List (Bnd K × Bnd K) →
    List (Int × Int)
  | a :: as, i :: is, b :: bs => rangeEntry ng a.ext a.dx a.n i b :: rangeLoop ng as is bs
  | _, _, _ => []

/-- `Mesh::ExtentToRange` (mesh.h:133-203) for a Cartesian mesh.  The casts to `ncells_t` are applied
to non-negative numbers (the extent is never left), so they are the identity. -/
def extentToRange (ng : Nat) (axes : List (Axis K)) (box : List (Bnd K × Bnd K))
    (incl : List (Bool × Bool)) : Outcome (List (Int × Int)) := do
  Outcome.errorIf (box.length ≠ axes.length)
  Outcome.errorIf (incl.length ≠ axes.length)
  let meets ← intersects (axes.map (·.ext)) box
  pure (if meets then rangeLoop ng axes incl box else box.map fun _ => (0, 0))

end Entity.MeshBox
