import Verif.Model.PrtlComm
import Mathlib.Algebra.Field.Defs
import Mathlib.Data.Int.Cast.Defs

/-!
# Moving window
(src/archetypes/moving_window.h, src/framework/domain/metadomain_reshape.cpp)

`MoveWindow` is called on all ranks in the same step.  One component of the fields and one species
are modelled; all components and species are treated alike.
-/

namespace Entity.Window

open Entity Entity.Dir Entity.Tags Entity.Topology Entity.Prtl

/-! ## Fields -/

/-- `i + window_shift` in component `o` (moving_window.h:42-134). -/
def shiftIdx (o : Nat) (s : Int) (i : List Int) : List Int := i.modify o (· + s)

/-- `[xi_min, xi_max)` (moving_window.h:247-258). -/
def shiftRange (ng : Nat) (n : List Nat) (o : Nat) (s : Int) : List (Int × Int) :=
  n.mapIdx fun a (x : Nat) => if a = o then ((0 : Int), (x : Int) + 2 * ng - s) else (0, x + 2 * ng)

/-- Copy to `bckp`, then `FieldShift_kernel` over the range (moving_window.h:279-310).  The end of
the range is unsigned: with a negative shift it lies beyond the array, with a shift larger than the
array it wraps around; both are accesses out of bounds. -/
def shiftFields {α : Type} (m : Meta) (ng o : Nat) (s : Int) (F : Fields α) :
    Outcome (Fields α) :=
  if (List.range m.doms.length).all fun r =>
      decide (0 ≤ s ∧ s ≤ (sizes m r).getD o 0 + 2 * ng) then
    .ok fun r i =>
      if inSlice (shiftRange ng (sizes m r) o s) i then F r (shiftIdx o s i) else F r i
  else .ub

/-- The part of `MoveWindow` that concerns the fields (moving_window.h:246-313): the direction must
exist (181, 286-308), shift, then `CommunicateFields`. -/
def moveFields {α : Type} (m : Meta) (ng o : Nat) (s : Int) (F : Fields α) : Outcome (Fields α) :=
  if o < m.counts.length then do
    let G ← shiftFields m ng o s F
    communicateFields m ng G
  else .err

/-! ## Particles -/

/-- `i1(p) -= window_shift` and the like (moving_window.h:151-203).  The previous cell is not
touched. -/
def shiftPrtl {R : Type} (o : Nat) (s : Int) (q : Prtl R) : Prtl R :=
  match o with
  | 0 => { q with i1 := q.i1 - s }
  | 1 => { q with i2 := q.i2 - s }
  | _ => { q with i3 := q.i3 - s }

/-- The arguments of `mpi::SendTag` (moving_window.h:224-240). -/
def leftFlags {R : Type} (D : Nat) (n : List Nat) (q : Prtl R) : List (Bool × Bool) :=
  (List.zipWith (fun (x : Int) (a : Nat) => (decide (x < 0), decide ((a : Int) ≤ x)))
    [q.i1, q.i2, q.i3] n).take D

/-- `tag(p) = mpi::SendTag(tag(p), …)` (moving_window.h:205-244). -/
def retag {R : Type} (D : Nat) (n : List Nat) (q : Prtl R) : Outcome (Prtl R) := do
  let t ← sendTag q.tag (leftFlags D n q)
  return { q with tag := t }

/-- The two kernels over `rangeActiveParticles` on one subdomain.  Every index touches only the
entries of its own particle, so the order does not matter.  Retagging is compiled only with MPI. -/
def moveStore {R : Type} (mpi : Bool) (D : Nat) (n : List Nat) (o : Nat) (s : Int) (st : Store R) :
    Outcome (Store R) := do
  let moved ← (st.arr.take st.npart).mapM fun q =>
    if mpi then retag D n (shiftPrtl o s q) else .ok (shiftPrtl o s q)
  return { st with arr := moved ++ st.arr.drop st.npart }

/-- The part of `MoveWindow` that concerns the particles (moving_window.h:149-244, 315);
`CommunicateParticles` does nothing in a build without MPI (metadomain_comm.cpp:565-652). -/
def moveParticles {R : Type} [Inhabited R] (mpi : Bool) (m : Meta) (k : Kind) (o : Nat) (s : Int)
    (st : List (Store R)) (S : Nat → Scheds) : Outcome (List (Store R)) :=
  if o < k.D then do
    let st' ← forRanks (fun r => moveStore mpi k.D (sizes m r) o s (st.getD r ⟨[], 0⟩))
      m.doms.length
    if mpi then communicateParticles m k st' S else return st'
  else .err

/-! ## Extents -/

/-- `Metadomain::ShiftByCells` (metadomain_reshape.cpp:14-43) for one mesh of cell size `dx`. -/
def shiftExtent {K : Type} [Field K] (dx : K) (o : Nat) (s : Int) (ext : List (K × K)) :
    List (K × K) :=
  ext.modify o fun e => (e.1 + (s : K) * dx, e.2 + (s : K) * dx)

/-- `ShiftByCells`: the extent of the global mesh and of the meshes of all subdomains
(metadomain_reshape.cpp:14-43).  Simplification: all meshes have the same cell size `dx` (C02). -/
def shiftByCells {K : Type} [Field K] (dx : K) (o : Nat) (s : Int)
    (exts : List (K × K) × List (List (K × K))) :
    Outcome (List (K × K) × List (List (K × K))) :=
  if s = 0 then .err
  else .ok (shiftExtent dx o s exts.1, exts.2.map (shiftExtent dx o s))

/-! ## The whole -/

/-- State touched by `MoveWindow`. -/
structure State (α R K : Type) where
  field : Fields α
  prtls : List (Store R)
  exts : List (K × K) × List (List (K × K))

/-- `arch::MoveWindow` on all ranks (moving_window.h:141-318). -/
def moveWindow {α R K : Type} [Inhabited R] [Field K] (mpi : Bool) (m : Meta) (ng : Nat) (k : Kind)
    (dx : K) (o : Nat) (s : Int) (S : Nat → Scheds) (st : State α R K) :
    Outcome (State α R K) := do
  let field ← moveFields m ng o s st.field
  let prtls ← moveParticles mpi m k o s st.prtls S
  let exts ← shiftByCells dx o s st.exts
  return ⟨field, prtls, exts⟩

end Entity.Window
