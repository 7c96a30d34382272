import Verif.Model.Ranks
import Verif.Model.Base
import Mathlib.Algebra.BigOperators.Group.List.Basic

/-!
# Statistics of the fields
(src/kernels/reduced_stats.hpp, src/framework/domain/metadomain_stats.cpp, `totVolume` of src/metrics)

Arithmetic is exact, so the order of `Kokkos::parallel_reduce` does not matter and the sum over the
cells of a rank is modelled as the sum of a list.  Arrays as in Model/FieldSolver.lean: `em` is array 0
(components `E`, then `B`), `cur` is array 1.
-/

namespace Entity.FieldStats

open Entity Entity.Topology Entity.Kernel Entity.Ranks

variable {K : Type} [Field K]

/-- What the kernels use of a metric: `transform<c + 1, U, D>`, `transform<c + 1, U, T>` and
`sqrt_det_h` at a position in code coordinates. -/
structure SMetric (K : Type) where
  low : Nat → List K → K → K
  tet : Nat → List K → K → K
  sqrtDet : List K → K

/-- `Minkowski` (minkowski.h:105-152, 264-299). -/
def mink (D : Nat) (dx : K) : SMetric K where
  low c _ v := if D ≤ c then v else v * (dx * dx)
  tet c _ v := if D ≤ c then v else v * dx
  sqrtDet _ := if D = 1 then dx else if D = 2 then dx * dx else dx * dx * dx

/-- `Minkowski::totVolume` (minkowski.h:87-98); the extent of the global grid. -/
def minkVolume (ext : List (K × K)) : K := (ext.map fun e => e.2 - e.1).prod

/-- `totVolume` of `Spherical`, `QSpherical` and `KerrSchild0` in two dimensions (spherical.h:80-89,
qspherical.h:105-114, kerr_schild_0.h:108-117). -/
def sphVolume (r1 r2 th1 th2 : K) : K := (r2 * r2 - r1 * r1) * (th2 - th1)

/-- `totVolume` of `KerrSchild` and `QKerrSchild` (kerr_schild.h:133-137, qkerr_schild.h:137-141), which
the source marks as yet to be written. -/
def ksVolume : K := 0

/-- `StatsID::E2`, `B2`, `ExB`, `JdotE` (enums.h). -/
inductive FStat | E2 | B2 | ExB | JdotE
  deriving DecidableEq, Repr

/-- `COORD(i)` (global.h: `i - N_GHOSTS`), moved by half a cell along the axes in `ax`. -/
def pos (ng : Nat) (ax : Nat → Bool) (i : List Int) : List K :=
  i.mapIdx fun a x => ((x - (ng : Int) : Int) : K) + if ax a then 1 / 2 else 0

/-- Offsets of the values that are averaged to the centre of the cell: components of `E` and `J`
(reduced_stats.hpp:88-146, 183-260, 295-376); `c` counts from 0. -/
def edgeOffs (D c : Nat) : List (List Int) :=
  match D, c with
  | 1, 0 => [[0]]
  | 1, _ => [[0], [1]]
  | 2, 0 => [[0, 0], [0, 1]]
  | 2, 1 => [[0, 0], [1, 0]]
  | 2, _ => [[0, 0], [1, 0], [0, 1], [1, 1]]
  | _, 0 => [[0, 0, 0], [0, 1, 0], [0, 0, 1], [0, 1, 1]]
  | _, 1 => [[0, 0, 0], [1, 0, 0], [0, 0, 1], [1, 0, 1]]
  | _, _ => [[0, 0, 0], [1, 0, 0], [0, 1, 0], [1, 1, 0]]

/-- The same for the components of `B`. -/
def faceOffs (D c : Nat) : List (List Int) :=
  match D, c with
  | 1, 0 => [[0], [1]]
  | 1, _ => [[0]]
  | 2, 0 => [[0, 0], [1, 0]]
  | 2, 1 => [[0, 0], [0, 1]]
  | 2, _ => [[0, 0]]
  | _, 0 => [[0, 0, 0], [1, 0, 0]]
  | _, 1 => [[0, 0, 0], [0, 1, 0]]
  | _, _ => [[0, 0, 0], [0, 0, 1]]

/-- The factors `HALF` and `INV_4` in front of the sums. -/
def weight (n : Nat) : K := if n = 1 then 1 else if n = 2 then 1 / 2 else 1 / 4

/-- Average of a component at the centre of cell `i`. -/
def average (m : Mem K) (arr comp : Nat) (offs : List (List Int)) (i : List Int) : K :=
  weight offs.length * (offs.map fun o => m ⟨arr, comp, List.zipWith (· + ·) i o⟩).sum

/-- `e_t`, `b_t`, `j_t`: component `c` (from 0) at the centre in the orthonormal basis. -/
def eT (S : SMetric K) (D ng : Nat) (m : Mem K) (i : List Int) (c : Nat) : K :=
  S.tet c (pos ng (fun _ => true) i) (average m 0 c (edgeOffs D c) i)
@[inherit_doc eT]
def bT (S : SMetric K) (D ng : Nat) (m : Mem K) (i : List Int) (c : Nat) : K :=
  S.tet c (pos ng (fun _ => true) i) (average m 0 (3 + c) (faceOffs D c) i)
@[inherit_doc eT]
def jT (S : SMetric K) (D ng : Nat) (m : Mem K) (i : List Int) (c : Nat) : K :=
  S.tet c (pos ng (fun _ => true) i) (average m 1 c (edgeOffs D c) i)

/-- `ReducedFields_kernel::operator()` (reduced_stats.hpp:42-148, 150-262, 264-376): what cell `i` adds;
the template argument `I` is 1, 2 or anything else.  The second `B`, `E` and position arguments of the
branches differ only in the component and are written as functions of it: component `c` of `E` sits half
a cell up along its own axis, component `c` of `B` half a cell up along the other axes. -/
def cellValue (S : SMetric K) (D ng : Nat) (F : FStat) (I : Nat) (m : Mem K) (i : List Int) : K :=
  let c := if I = 1 then 0 else if I = 2 then 1 else 2
  match F with
  | .B2 =>
    let x := pos ng (fun a => a ≠ c) i
    let b := m ⟨0, 3 + c, i⟩
    b * S.low c x b * S.sqrtDet x
  | .E2 =>
    let x := pos ng (fun a => a = c) i
    let e := m ⟨0, c, i⟩
    e * S.low c x e * S.sqrtDet x
  | .ExB =>
    let e := eT S D ng m i
    let b := bT S D ng m i
    (if I = 1 then e 1 * b 2 - e 2 * b 1
      else if I = 2 then e 2 * b 0 - e 0 * b 2
      else e 0 * b 1 - e 1 * b 0) * S.sqrtDet (pos ng (fun _ => true) i)
  | .JdotE =>
    let e := eT S D ng m i
    let j := jT S D ng m i
    (e 0 * j 0 + e 1 * j 1 + e 2 * j 2) * S.sqrtDet (pos ng (fun _ => true) i)

/-- The checks of the components in `ReduceFields` (metadomain_stats.cpp:127-179), which select the
template argument `I`. -/
def compArg (srpic : Bool) (F : FStat) (comps : List Nat) : Outcome Nat :=
  if F = .JdotE then (if comps = [] then .ok 0 else .err)
  else if srpic = true then
    match comps with
    | [1] => .ok 1
    | [2] => .ok 2
    | [3] => .ok 3
    | _ => .err
  else .err

/-- `ReduceFields` (metadomain_stats.cpp:127-182) on rank `r`: the checks of the components, the sum over
the active cells, and the division by the volume of the global grid.  Division by zero, of which
floating-point arithmetic makes an infinity or a NaN, is the outcome `ub`. -/
def reduceFields [DecidableEq K] (m : Meta) (ng : Nat) (srpic : Bool) (F : FStat) (comps : List Nat) (V : K)
    (S : SMetric K) (r : Nat) (v : Mem K) : Outcome K := do
  let I ← compArg srpic F comps
  let buffer := ((activeCells m ng r).map (cellValue S (sizes m r).length ng F I v)).sum
  if V = 0 then .ub else pure (buffer / V)

/-- The number in the file: the values of all ranks, summed by `Writer::write` (stats.h:169-184). -/
def statCell [DecidableEq K] (m : Meta) (ng : Nat) (srpic : Bool) (F : FStat) (comps : List Nat) (V : K)
    (S : Nat → SMetric K) (M : MMem K) : Outcome K := do
  let vs ← (List.range m.doms.length).mapM fun r => reduceFields m ng srpic F comps V (S r) r (M r)
  pure vs.sum

end Entity.FieldStats
