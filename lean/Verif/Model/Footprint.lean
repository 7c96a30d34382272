import Mathlib.Data.Rat.Defs
import Mathlib.Algebra.Order.Field.Rat
import Mathlib.Algebra.BigOperators.Group.List.Basic

/-!
# Memory of a subdomain and how it is reported

The arrays made by the constructors of `Fields` and `Particles`, the numbers of bytes computed for them and the
figures printed in the report of a subdomain.  `real` is `sizeof(real_t)` (4 or 8, src/global/global.h:347-353);
`prtldx_t` is `float`, `npart_t` and `ncells_t` have 32 bits (global.h:348, 384-385), `int` has 4 bytes and `short`
has 2.  `std::size_t` has 64 bits; its wrap-around is applied once, to the final sum.
-/

namespace Entity.Footprint

/-- Extents of the arrays of `Fields`, in the dimensions of the grid (src/framework/containers/fields.h:50-107). -/
structure FieldArrays where
  em : List Nat
  bckp : List Nat
  cur : List Nat
  buff : List Nat
  aux : List Nat
  em0 : List Nat
  cur0 : List Nat

/-- `Fields::Fields` (src/framework/containers/fields.cpp:11-48): `D` is the dimension, `gr` is
`S == SimEngine::GRPIC`.  An array that is not made has extents 0.  `res[d] + 2 * N_GHOSTS` wraps around at 2³². -/
def mkFields (D ng : Nat) (gr : Bool) (res : List Nat) : FieldArrays :=
  let n := (res.take D).map fun r => (r + 2 * ng) % 2 ^ 32
  let none := List.replicate D 0
  let more := if gr && D != 1 then n else none
  { em := n, bckp := n, cur := n, buff := n, aux := more, em0 := more, cur0 := more }

/-- `for (d = 0; d < D; ++d) { x_footprint *= x.extent(d); }`. -/
def times (comps D : Nat) (ext : List Nat) : Nat :=
  (List.range D).foldl (fun a d => a * ext.getD d 0) comps

/-- `Fields::memory_footprint` (fields.h:147-167). -/
def FieldArrays.footprint (real D : Nat) (f : FieldArrays) : Nat :=
  (real * (times 6 D f.em + times 6 D f.bckp + times 3 D f.cur + times 3 D f.buff + times 6 D f.aux +
    times 6 D f.em0 + times 3 D f.cur0)) % 2 ^ 64

/-- Extents of the arrays of `Particles`; `pldR`, `pldI` have two (src/framework/containers/particles.h:45-90). -/
structure PrtlArrays where
  i1 : Nat
  i2 : Nat
  i3 : Nat
  dx1 : Nat
  dx2 : Nat
  dx3 : Nat
  ux1 : Nat
  ux2 : Nat
  ux3 : Nat
  weight : Nat
  i1p : Nat
  i2p : Nat
  i3p : Nat
  dx1p : Nat
  dx2p : Nat
  dx3p : Nat
  tag : Nat
  pldR : Nat × Nat
  pldI : Nat × Nat
  phi : Nat

/-- `Particles::Particles` (src/framework/containers/particles.cpp:18-84) for `n = maxnpart` particles. -/
def mkPrtls (D : Nat) (cartesian : Bool) (n npldR npldI : Nat) : PrtlArrays :=
  let a1 := if D = 1 ∨ D = 2 ∨ D = 3 then n else 0
  let a2 := if D = 2 ∨ D = 3 then n else 0
  let a3 := if D = 3 then n else 0
  { i1 := a1, dx1 := a1, i1p := a1, dx1p := a1
    i2 := a2, dx2 := a2, i2p := a2, dx2p := a2
    i3 := a3, dx3 := a3, i3p := a3, dx3p := a3
    ux1 := n, ux2 := n, ux3 := n, weight := n, tag := n
    pldR := if npldR > 0 then (n, npldR) else (0, 0)
    pldI := if npldI > 0 then (n, npldI) else (0, 0)
    phi := if D = 2 ∧ cartesian = false then n else 0 }

/-- `Particles::memory_footprint` (particles.h:201-225). -/
def PrtlArrays.footprint (real : Nat) (p : PrtlArrays) : Nat :=
  (4 * p.i1 + 4 * p.i2 + 4 * p.i3 + 4 * p.dx1 + 4 * p.dx2 + 4 * p.dx3 + real * p.ux1 + real * p.ux2 +
    real * p.ux3 + real * p.weight + 4 * p.i1p + 4 * p.i2p + 4 * p.i3p + 4 * p.dx1p + 4 * p.dx2p +
    4 * p.dx3p + 2 * p.tag + real * p.pldR.1 * p.pldR.2 + 4 * p.pldI.1 * p.pldI.2 + real * p.phi) % 2 ^ 64

/-- `units` (src/global/utils/reporter.cpp:77). -/
def units : List String := ["B", "KB", "MB", "GB", "TB"]

/-- The loop of `Bytes2HumanReadable` (reporter.cpp:80-83), with `k = units.size() - 1 - unit_idx` rounds left at
most.  Division by 1024 is exact in floating-point numbers here. -/
def reduceUnit : Nat → ℚ × Nat → ℚ × Nat
  | 0, s => s
  | k + 1, s => if s.1 ≥ 1024 then reduceUnit k (s.1 / 1024, s.2 + 1) else s

/-- `reporter::Bytes2HumanReadable` (reporter.cpp:76-85).  Simplification: the conversion of the number of bytes
to `double` is exact (it is up to 2⁵³ bytes; beyond, it is off by less than one part in 2⁵³). -/
def humanReadable (bytes : Nat) : ℚ × String :=
  let r := reduceUnit (units.length - 1) ((bytes : ℚ), 0)
  (r.1, units.getD r.2 "")

/-- A species as far as memory is concerned. -/
structure Species where
  index : Nat
  label : String
  maxnpart : Nat
  npldR : Nat
  npldI : Nat

/-- The part "Memory footprint" of `Domain::Report` (src/framework/domain/domain.h:210-224): names, figures (printed
with two decimals) and units. -/
def memoryReport (real D ng : Nat) (gr cartesian : Bool) (res : List Nat) (sps : List Species) :
    List (String × ℚ × String) :=
  ("Fields", humanReadable ((mkFields D ng gr res).footprint real D)) ::
    sps.map fun s => (s!"Species #{s.index} ({s.label})",
      humanReadable ((mkPrtls D cartesian s.maxnpart s.npldR s.npldI).footprint real))

end Entity.Footprint
