import Verif.Model.Float
import Verif.Model.Decomp

/-!
# Start-up: metrics of the subdomains and the check of their cell sizes

Cartesian grids.  `Metadomain::createEmptyDomains` (src/framework/domain/metadomain.cpp:101-193) converts the
corners of every subdomain to physical coordinates and makes a metric out of them; the constructor of the
metric checks that cells are cubes (src/metrics/minkowski.h:46-67) and
`Metadomain::metricCompatibilityCheck` (metadomain.cpp:367-399) that all subdomains have the cell size of the
whole box.

Every operation on `real_t` is the exact one followed by `rnd`; `rnd` is the identity for exact arithmetic
and `Fmt.round` for floating-point numbers.  Simplification: no overflow, infinities and not-a-numbers.
-/

namespace Entity.Startup

open Entity Entity.Decomp

/-- Extent and number of cells along one axis (`res`, `ext` of `MetricBase`,
src/metrics/metric_base.h:89-98). -/
structure Axis where
  xmin : ℚ
  xmax : ℚ
  n : Nat
  deriving Repr, DecidableEq

/-- Compiler and precision: rounding, `std::numeric_limits<real_t>::epsilon() * 100`
(minkowski.h:52-53, metadomain.cpp:369-370), whether `a * b + c` is contracted to one
operation, and `sqrt(D)` (minkowski.h:79). -/
structure Arith where
  rnd : ℚ → ℚ
  eps100 : ℚ
  fused : Bool
  sqrtD : ℚ

/-- `a * b + c`. -/
def Arith.mulAdd (A : Arith) (a b c : ℚ) : ℚ :=
  if A.fused then A.rnd (a * b + c) else A.rnd (A.rnd (a * b) + c)

/-- `cmp::AlmostEqual(a, b, epsilon)`, `cmp::AlmostEqual_host` (src/global/utils/comparators.h:29-50). -/
def Arith.almostEqual (A : Arith) (a b : ℚ) : Bool :=
  decide (a = b) || decide (|A.rnd (a - b)| ≤ A.rnd (min |a| |b| * A.eps100))

/-- `(x_max - x_min) / n` (minkowski.h:49, 56, 62); the number of cells is a `real_t`
(metric_base.h:113). -/
def Arith.cell (A : Arith) (a : Axis) : ℚ := A.rnd (A.rnd (a.xmax - a.xmin) / A.rnd (a.n : ℚ))

/-- `dx` and `dx_min` of a metric. -/
structure Metric where
  dx : ℚ
  dxMin : ℚ
  deriving Repr, DecidableEq

/-- The constructor of `Minkowski` (minkowski.h:46-67) with `find_dxMin` (minkowski.h:77-80): the cell
size is the one along x1, and those along x2 and x3 must be almost equal to it. -/
def Arith.minkowski (A : Arith) : List Axis → Outcome Metric
  | [] => .ub
  | a :: rest =>
    let dx := A.cell a
    if rest.all (fun b => A.almostEqual (A.cell b) dx) then .ok ⟨dx, A.rnd (dx / A.sqrtD)⟩ else .err

/-- `convert<i, Crd::Cd, Crd::Ph>` (minkowski.h:164-172) of a corner in code units, a number of cells
(metadomain.cpp:145-146). -/
def Arith.corner (A : Arith) (dx : ℚ) (a : Axis) (i : Nat) : ℚ := A.mulAdd (A.rnd (i : ℚ)) dx a.xmin

/-- Extent and cells of a subdomain along one axis (metadomain.cpp:144-156): `off` cells before it, `m`
cells in it. -/
def Arith.subAxis (A : Arith) (dx : ℚ) (a : Axis) (off m : Nat) : Axis :=
  ⟨A.corner dx a off, A.corner dx a (off + m), m⟩

/-- Axes of a subdomain (metadomain.cpp:144-156). -/
def Arith.subAxes (A : Arith) (dx : ℚ) (box : List Axis) (s : Subdomain) : List Axis :=
  (box.zip (s.offsetNcells.zip s.ncells)).map (fun t => A.subAxis dx t.1 t.2.1 t.2.2)

/-- `std::min` of the smallest value so far (infinity is `none`) and the next one (metadomain.cpp:376). -/
def minStep : Option ℚ → ℚ → Option ℚ
  | none, x => some x
  | some y, x => some (min y x)

/-- The smallest `dx_min` of the subdomains, starting from infinity (metadomain.cpp:372-377). -/
def minDx (l : List ℚ) : Option ℚ := l.foldl minStep none

/-- `metricCompatibilityCheck` (metadomain.cpp:367-382).  Simplification: the comparison of `dx_min` among
the ranks (metadomain.cpp:383-398) is left out; all ranks compute the same number. -/
def Arith.compatible (A : Arith) (g : Metric) (subs : List Metric) : Bool :=
  match minDx (subs.map (·.dxMin)) with
  | none => A.almostEqual 0 1
  | some m => A.almostEqual (A.rnd (g.dxMin / m)) 1

/-- Metrics of the subdomains, in the order of construction (metadomain.cpp:133-190): the first
constructor that raises ends the start-up. -/
def Arith.subMetrics (A : Arith) (dx : ℚ) (box : List Axis) : List Subdomain → Outcome (List Metric)
  | [] => .ok []
  | s :: rest =>
    match A.minkowski (A.subAxes dx box s) with
    | .ok m =>
      match A.subMetrics dx box rest with
      | .ok ms => .ok (m :: ms)
      | .err => .err
      | .ub => .ub
    | .err => .err
    | .ub => .ub

/-- The part of the constructor of `Metadomain` (metadomain.cpp:36-61) that deals with cell sizes: metric of
the whole box, metrics of the subdomains, check.  `dN` are the sizes returned by
`tools::Decompose`, one list for each axis.  The result is the metric of the box. -/
def Arith.startup (A : Arith) (box : List Axis) (dN : List (List Nat)) : Outcome Metric :=
  match A.minkowski box with
  | .ok g =>
    match createDomains (dN.map List.length).prod dN with
    | none => .ub
    | some doms =>
      match A.subMetrics g.dx box doms with
      | .ok subs => if A.compatible g subs then .ok g else .err
      | .err => .err
      | .ub => .ub
  | .err => .err
  | .ub => .ub

/-- Exact arithmetic with a tolerance. -/
def exact (eps : ℚ) (fused : Bool) (s : ℚ) : Arith := ⟨id, eps, fused, s⟩

/-- Floating-point numbers of a format. -/
def float (F : Float.Fmt) (fused : Bool) (s : ℚ) : Arith :=
  ⟨F.round, F.round (F.round (2 ^ (1 - (F.p : Int))) * 100), fused, s⟩

end Entity.Startup
