import Verif.Model.Topology

/-!
# Halo exchange and current synchronisation
(src/framework/domain/metadomain_comm.cpp, comm_nompi.hpp, comm_mpi.hpp)

A field component is a function of the subdomain (= MPI rank) and of the local cell index, one entry
per dimension counted from 0 = first ghost cell.  The components of the C++ arrays are exchanged
independently (the slices multiply a component range), so one component is modelled.

Each rank runs the same loop over the directions and every message of direction `d` is extracted
after the sender has finished all earlier directions and before it stores what it receives in `d`
(comm_mpi.hpp:245-310: pack, communicate, unpack).  Hence the whole run is a sequence of rounds, one
per direction, in which all ranks read the state before the round.  That the blocking exchanges
indeed complete in this order is C05.
-/

namespace Entity.Topology

open Entity Entity.Decomp Entity.Dir

/-- One component of a field on all ranks. -/
abbrev Fields (α : Type) := Nat → List Int → α

/-- The cell lies in a slice (`Kokkos::subview(fld, slice[0], …)`, half-open ranges). -/
def inSlice (sl : List (Int × Int)) (i : List Int) : Bool :=
  decide (sl.length = i.length) &&
    (List.zipWith (fun (r : Int × Int) x => decide (r.1 ≤ x ∧ x < r.2)) sl i).all id

/-- The cell of the sender that is copied to cell `i` of the receiver: same position within the
slice (comm_nompi.hpp:52-62, 66-113; comm_mpi.hpp:200-210, 280-366). -/
def srcCell (send recv : List (Int × Int)) (i : List Int) : List Int :=
  List.zipWith (fun (a : (Int × Int) × (Int × Int)) x => x - a.2.1 + a.1.1) (send.zip recv) i

/-- Active sizes of a subdomain. -/
def sizes (m : Meta) (r : Nat) : List Nat :=
  match m.doms[r]? with
  | some s => s.ncells
  | none => []

/-- No rank raises in this direction: `GetSendRecvRanks` succeeds and a rank that sends to itself
also receives from itself (comm_nompi.hpp:45-48, comm_mpi.hpp:157-160). -/
def roundOk (m : Meta) (d : Direction) : Bool :=
  (List.range m.doms.length).all fun r =>
    match sendRecv m r d with
    | .ok (a, b) => decide (a = some r ↔ b = some r)
    | _ => false

/-- One direction of `CommunicateFields` (metadomain_comm.cpp:270-366, `additive = false`). -/
def haloRound {α : Type} (m : Meta) (ng : Nat) (F : Fields α) (d : Direction) :
    Outcome (Fields α) :=
  if roundOk m d then
    .ok (fun r i =>
      match sendRecv m r d with
      | .ok (_, some q) =>
        let rs := recvSlice false ng (sizes m r) d
        if inSlice rs i then F q (srcCell (sendSlice false ng (sizes m q) d) rs i) else F r i
      | _ => F r i)
  else .err

/-- `foldl` with early exit. -/
def foldRounds {σ β : Type} (f : σ → β → Outcome σ) : σ → List β → Outcome σ
  | s, [] => .ok s
  | s, b :: bs => do
    let s' ← f s b
    foldRounds f s' bs

/-- `Metadomain::CommunicateFields` on all ranks (metadomain_comm.cpp:204-367). -/
def communicateFields {α : Type} (m : Meta) (ng : Nat) (F : Fields α) : Outcome (Fields α) :=
  foldRounds (haloRound m ng) F (allDirs m.counts.length)

/-- One direction of the accumulation of `SynchronizeFields` into the buffer
(metadomain_comm.cpp:478-530, `additive = true`; the values come from the field, the sums go to the
buffer). -/
def syncRound {α : Type} [Add α] (m : Meta) (ng : Nat) (F : Fields α) (B : Fields α)
    (d : Direction) : Outcome (Fields α) :=
  if roundOk m d then
    .ok (fun r i =>
      match sendRecv m r d with
      | .ok (_, some q) =>
        let rs := recvSlice true ng (sizes m r) d
        if inSlice rs i then B r i + F q (srcCell (sendSlice true ng (sizes m q) d) rs i)
        else B r i
      | _ => B r i)
  else .err

/-- `Metadomain::SynchronizeFields` on all ranks (metadomain_comm.cpp:408-562): buffer set to zero
(434), all directions accumulated, then the buffer is added to the active cells
(`AddBufferedFields`, 369-406). -/
def synchronizeFields {α : Type} [Add α] [Zero α] (m : Meta) (ng : Nat) (F : Fields α) :
    Outcome (Fields α) := do
  let B ← foldRounds (syncRound m ng F) (fun _ _ => 0) (allDirs m.counts.length)
  return fun r i =>
    if inSlice ((sizes m r).map (fun (n : Nat) => ((ng : Int), (ng : Int) + n))) i then F r i + B r i
    else F r i

end Entity.Topology
