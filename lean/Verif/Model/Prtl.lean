import Verif.Model.Tags
import Verif.Model.Topology

/-!
# Particle containers
(src/framework/containers/particles.h, particles_sort.cpp, particles_comm.cpp, src/kernels/comm.hpp)

A species is stored in many arrays of the same extent (one per attribute); entry `p` of the model's
array is the record of the entries `p` of all of them.  Attributes that do not exist for a dimension
or coordinate system (`i2` in 1D, `phi` outside 2D curvilinear) are fields that no function touches.

A Kokkos kernel over `n` indices runs its body once per index in an unspecified order.  Every kernel
is a left fold over a *schedule*, a list that is some permutation of `0 … n-1`; the theorems
quantify over all of them.  Bodies of different indices do not interleave within a body: the only
shared locations they touch are atomic counters (`atomic_fetch_add`) and array entries that the
theorems show to be disjoint.
-/

namespace Entity.Prtl

open Entity Entity.Dir Entity.Tags

/-- One particle (src/framework/containers/particles.h:60-110). `R` stands for the floating-point
types `real_t`, `prtldx_t`, whose values are only copied here. -/
structure Prtl (R : Type) where
  i1 : Int
  i1_prev : Int
  i2 : Int
  i2_prev : Int
  i3 : Int
  i3_prev : Int
  dx1 : R
  dx1_prev : R
  dx2 : R
  dx2_prev : R
  dx3 : R
  dx3_prev : R
  ux1 : R
  ux2 : R
  ux3 : R
  weight : R
  phi : R
  pld_r : List R
  pld_i : List Nat
  tag : Int
  deriving DecidableEq, Repr

/-- A species on one subdomain: the arrays, of extent `maxnpart`, and `m_npart`
(particles.h:60-130). -/
structure Store (R : Type) where
  arr : List (Prtl R)
  npart : Nat

/-- `maxnpart()` (species.h:70), the extent of the arrays (particles.cpp constructor). -/
def Store.maxnpart {R : Type} (s : Store R) : Nat := s.arr.length

/-- Kernel launch over `n` indices: a schedule for each `n`. -/
abbrev Sched := Nat → List Nat

/-- Static parameters of a species: dimension, `C != Coord::Cartesian`, number of real and integer
payloads (species.h:25-120). -/
structure Kind where
  D : Nat
  curv : Bool
  npldr : Nat
  npldi : Nat

/-- The array `phi` exists (particles.h, `D == Dim::_2D and C != Coord::Cartesian`). -/
def Kind.hasPhi (k : Kind) : Bool := k.D == 2 && k.curv

/-- `ntags()` with MPI (particles.h:155-165): `2 + 3^D - 1`. -/
def ntags (D : Nat) : Nat := 2 + 3 ^ D - 1

/-- `Particles::set_npart` (particles.h:248-257). -/
def setNpart {R : Type} (s : Store R) (n : Nat) : Outcome (Store R) :=
  if n > s.maxnpart then .err else .ok { s with npart := n }

/-! ## NpartsPerTagAndOffsets (particles_sort.cpp:21-67) -/

/-- Body of kernel `NpartPerTag` (particles_sort.cpp:33-43). -/
def countTagBody {R : Type} (s : Store R) (nt : Nat) (acc : List Nat) (p : Nat) :
    Outcome (List Nat) :=
  match s.arr[p]? with
  | none => .ub
  | some q =>
    if q.tag < 0 ∨ q.tag ≥ nt then .err
    else if q.tag ≠ alive then .ok (acc.modify q.tag.toNat (· + 1))
    else .ok acc

/-- `tag_offsets_h` (particles_sort.cpp:58-64). -/
def tagOffset (vec : List Nat) : Nat → Nat
  | 0 => vec.getD 2 0
  | t + 1 => vec.getD (t + 3) 0 + tagOffset vec t

/-- `Particles::NpartsPerTagAndOffsets` (particles_sort.cpp:21-67): counts per tag, with the alive
bin reconstructed on the host, and the offsets of the tags from 3 on. -/
def npartsPerTagAndOffsets {R : Type} (s : Store R) (D : Nat) (sched : Sched) :
    Outcome (List Nat × List Nat) := do
  let nt := ntags D
  let npptag ← (sched s.npart).foldlM (countTagBody s nt) (List.replicate nt 0)
  -- 48-55: the loop copies the counts and adds up all but the alive bin
  let nonAlive := npptag.sum - npptag.getD 1 0
  let vec := npptag.set 1 (s.npart - nonAlive)
  return (vec, (List.range (nt - 3)).map (tagOffset vec))

/-! ## RemoveDead (particles_sort.cpp:69-194) -/

/-- Body of the reduction `CountDeadAlive` (particles_sort.cpp:108-120). -/
def countAliveBody {R : Type} (s : Store R) (acc : Nat × Nat) (p : Nat) : Outcome (Nat × Nat) :=
  match s.arr[p]? with
  | none => .ub
  | some q =>
    if q.tag ≠ alive ∧ q.tag ≠ dead then .err
    else .ok (acc.1 + (if q.tag = alive then 1 else 0), acc.2 + (if q.tag = dead then 1 else 0))

/-- Body of `AliveIndices` (particles_sort.cpp:125-133): atomic counter and index array. -/
def aliveIndexBody {R : Type} (s : Store R) (acc : Nat × List Nat) (p : Nat) :
    Outcome (Nat × List Nat) :=
  match s.arr[p]? with
  | none => .ub
  | some q =>
    if q.tag = alive then
      if acc.1 < acc.2.length then .ok (acc.1 + 1, acc.2.set acc.1 p) else .ub
    else .ok acc

/-- Body of `PopulateBufferAlive` (particles_sort.cpp:73-76, 88-90): `buffer(p) =
arr(indices_alive(p))`, for all attributes but the tag. -/
def gatherBody {R : Type} (s : Store R) (ind : List Nat) (buf : List (Option (Prtl R))) (p : Nat) :
    Outcome (List (Option (Prtl R))) :=
  match ind[p]? with
  | none => .ub
  | some j =>
    match s.arr[j]? with
    | none => .ub
    | some q => if p < buf.length then .ok (buf.set p (some q)) else .ub

/-- Copy all attributes except the tag and those that the `Kind` does not have: the calls of
`RemoveDeadInArray` (particles_sort.cpp:143-180). -/
def copyAttrs {R : Type} (k : Kind) (src dst : Prtl R) : Prtl R :=
  { dst with
    i1 := src.i1, i1_prev := src.i1_prev, dx1 := src.dx1, dx1_prev := src.dx1_prev
    i2 := if k.D = 2 ∨ k.D = 3 then src.i2 else dst.i2
    i2_prev := if k.D = 2 ∨ k.D = 3 then src.i2_prev else dst.i2_prev
    dx2 := if k.D = 2 ∨ k.D = 3 then src.dx2 else dst.dx2
    dx2_prev := if k.D = 2 ∨ k.D = 3 then src.dx2_prev else dst.dx2_prev
    i3 := if k.D = 3 then src.i3 else dst.i3
    i3_prev := if k.D = 3 then src.i3_prev else dst.i3_prev
    dx3 := if k.D = 3 then src.dx3 else dst.dx3
    dx3_prev := if k.D = 3 then src.dx3_prev else dst.dx3_prev
    ux1 := src.ux1, ux2 := src.ux2, ux3 := src.ux3, weight := src.weight
    phi := if k.hasPhi then src.phi else dst.phi
    pld_r := if k.npldr > 0 then src.pld_r else dst.pld_r
    pld_i := if k.npldi > 0 then src.pld_i else dst.pld_i }

/-- `Particles::RemoveDead` (particles_sort.cpp:103-194).  The three schedules are those of
`CountDeadAlive`, `AliveIndices` and (one for all attributes: the entries written are disjoint, see
C18) `PopulateBufferAlive`. -/
def removeDead {R : Type} (k : Kind) (s : Store R) (σ₁ σ₂ σ₃ : Sched) : Outcome (Store R) := do
  let (nAlive, nDead) ← (σ₁ s.npart).foldlM (countAliveBody s) (0, 0)
  let (cnt, ind) ← (σ₂ s.npart).foldlM (aliveIndexBody s) (0, List.replicate nAlive 0)
  if cnt ≠ nAlive then .err
  else
    let buf ← (σ₃ nAlive).foldlM (gatherBody s ind) (List.replicate nAlive none)
    -- deep_copy of the buffers to the first `nAlive` entries (78-80, 94-100)
    let arr := s.arr.mapIdx fun p q =>
      match buf[p]? with
      | some (some src) => copyAttrs k src q
      | _ => q
    -- fill tags (182-190)
    let arr := arr.mapIdx fun p q =>
      if p < nAlive then { q with tag := alive }
      else if p < nAlive + nDead then { q with tag := dead }
      else q
    setNpart { s with arr := arr } nAlive

/-! ## SortSpatially (particles_sort.cpp:196-253, src/global/utils/sorting.h:70-150) -/

/-- Number of tiles along an axis, `ceil(ncells / tile_size)` computed in `double`
(sorting.h:100-115).  Simplification: exact integer ceiling (the quotient of two 32-bit integers in
`double` is rounded correctly, and `ceil` of it is exact for such operands). -/
def ntiles (ncells tile : Nat) : Nat := (ncells + tile - 1) / tile

/-- `PositionToTileIndex::operator()` (sorting.h:121-147).  `ncells_t` is `uint32_t`: `i1(p)` is
`int` and is converted to unsigned by the division with the unsigned `tile_size`; the model takes
the value modulo 2^32 first. -/
def tileIndex {R : Type} (D : Nat) (nx : List Nat) (tile : Nat) (q : Prtl R) : Nat :=
  let u (i : Int) : Nat := (i % 4294967296).toNat
  let nt (a : Nat) : Nat := ntiles (nx.getD a 0) tile
  let total : Nat := ((List.range D).map nt).prod
  if q.tag ≠ alive then total + 1
  else if D = 1 then u q.i1 / tile
  else if D = 2 then u q.i1 / tile * nt 1 + u q.i2 / tile
  else (u q.i1 / tile * nt 1 + u q.i2 / tile) * nt 2 + u q.i3 / tile

/-- `Kokkos::BinSort` over `BinOp1D(total + 1, 0, total + 1)` (particles_sort.cpp:213-219): the bin
of a key is the key itself (the factor `max_bins / (max - min)` is 1).  `none` if a key exceeds the
number of bins (`total + 2`), where Kokkos would write outside its bin array.  External library:
assumed to return a permutation `perm` of `0 … n-1` along which bins are non-decreasing (no order
inside a bin is promised: the last argument of `BinSort` is `false`). -/
structure BinSortSpec (keys : List Nat) (perm : List Nat) : Prop where
  isPerm : perm.Perm (List.range keys.length)
  sorted : (perm.map fun j => keys.getD j 0).Pairwise (· ≤ ·)

/-- `Particles::SortSpatially` (particles_sort.cpp:196-253) with the permutation chosen by
Kokkos. All attribute arrays and the tags are permuted alike. -/
def sortSpatially {R : Type} (D : Nat) (nx : List Nat) (s : Store R)
    (perm : List Nat) : Outcome (Store R) :=
  let total := (nx.take D).prod
  let keys := (s.arr.take s.npart).map (tileIndex D nx 1)
  if keys.any (· > total + 1) then .ub
  else .ok { s with arr := (perm.filterMap fun j => s.arr[j]?) ++ s.arr.drop s.npart }

/-! ## SortParticles (src/framework/domain/metadomain_sort.cpp:15-34) -/

/-- A species as seen by `SortParticles`. -/
structure SortSpecies (α : Type) where
  clearingInterval : Nat
  sortingInterval : Nat
  content : α
  deriving DecidableEq, Repr

/-- The condition in metadomain_sort.cpp:21-22. -/
def clearingDue (step interval : Nat) : Bool :=
  decide (interval > 0) && decide (step % interval = 0) && decide (step > 0)

/-- One turn of the outer loop (metadomain_sort.cpp:19-33) for species `j`; `clear` is
`RemoveDead`, `sort` is `SortSpatially`.  The inner loop (23-25) runs over *all* species. -/
def sortTurn {α : Type} (clear sort : α → α) (step : Nat) (sp : List (SortSpecies α)) (j : Nat) :
    List (SortSpecies α) :=
  match sp[j]? with
  | none => sp
  | some s =>
    let sp := if clearingDue step s.clearingInterval then
        sp.map fun x => { x with content := clear x.content } else sp
    if s.sortingInterval > 0 ∧ step % s.sortingInterval = 0 then
      sp.modify j fun x => { x with content := sort x.content }
    else sp

/-- `Metadomain::SortParticles` (metadomain_sort.cpp:15-34). -/
def sortParticles {α : Type} (clear sort : α → α) (step : Nat) (sp : List (SortSpecies α)) :
    List (SortSpecies α) :=
  (List.range sp.length).foldl (sortTurn clear sort step) sp

end Entity.Prtl
