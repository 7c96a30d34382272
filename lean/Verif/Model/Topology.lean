import Verif.Model.Decomp
import Verif.Model.Directions

/-!
# Neighbours, boundary conditions of subdomains, who talks to whom
(src/framework/domain/metadomain.cpp, src/framework/domain/metadomain_comm.cpp)
-/

namespace Entity.Topology

open Entity Entity.Decomp Entity.Dir

/-- `FldsBC` (src/global/enums.h:215-246).  `PrtlBC` (185-213) has other wall kinds but the same
`PERIODIC`/`SYNC`/`INVALID`; `redefineBoundaries` treats both alike. -/
inductive BC where
  | INVALID | PERIODIC | MATCH | FIXED | ATMOSPHERE | CUSTOM | HORIZON | AXIS | CONDUCTOR | SYNC
  deriving Repr, DecidableEq

/-- What the metadomain knows: `g_ndomains_per_dim`, `g_subdomains`, and the global boundary
conditions `g_mesh.flds_bc()` (one pair per dimension). -/
structure Meta where
  counts : List Nat
  doms : List Subdomain
  bcs : List (BC × BC)

/-- Neighbour offset (metadomain.cpp:203-220), per dimension. -/
def nbrOffset : List Nat → List Nat → Direction → List Nat
  | n :: ns, p :: ps, d :: ds =>
    (if d = -1 ∧ p = 0 then n - 1
     else if d = 1 ∧ p = n - 1 then 0
     else ((p : Int) + d).toNat) :: nbrOffset ns ps ds
  | _, _, _ => []

/-- `g_domain_offset2index.find` (metadomain.cpp:191,222): the map is filled in index order, a
later entry with the same key overwrites an earlier one. -/
def offset2index (doms : List Subdomain) (off : List Nat) : Option Nat :=
  (doms.reverse.find? (fun s => s.offsetNdomains = off)).map (·.index)

/-- `neighbor_idx_in(direction)` as set by `redefineNeighbors` (metadomain.cpp:196-233). -/
def neighborIdx (m : Meta) (idx : Nat) (dir : Direction) : Outcome Nat :=
  match m.doms[idx]? with
  | none => .ub
  | some s =>
    match offset2index m.doms (nbrOffset m.counts s.offsetNdomains dir) with
    | none => .err
    | some j => if j ≥ m.doms.length then .err else .ok j

/-- First loop of `redefineBoundaries` (metadomain.cpp:242-269): the boundary condition of the
first non-zero entry of the direction (the loop breaks there). -/
def edgeBC : List Nat → List Nat → List (BC × BC) → Direction → BC
  | n :: ns, p :: ps, (l, r) :: bs, d :: ds =>
    if d = -1 then (if p = 0 then l else .SYNC)
    else if d = 1 then (if p = n - 1 then r else .SYNC)
    else edgeBC ns ps bs ds
  | _, _, _, _ => .INVALID

/-- Boundary condition set in an orthogonal direction (metadomain.cpp:241-282). -/
def faceBC (m : Meta) (idx : Nat) (dir : Direction) : Outcome BC := do
  match m.doms[idx]? with
  | none => .ub
  | some s =>
    let b := edgeBC m.counts s.offsetNdomains m.bcs dir
    let j ← neighborIdx m idx dir
    if j ≠ idx ∧ b = .PERIODIC then return .SYNC else return b

/-- Corner loop (metadomain.cpp:293-301): the first condition that is not `PERIODIC`. -/
def firstNonPeriodic (m : Meta) (idx : Nat) : List Direction → BC → Outcome BC
  | [], acc => .ok acc
  | d :: ds, _ => do
    let b ← faceBC m idx d
    if b ≠ .PERIODIC then return b else firstNonPeriodic m idx ds .PERIODIC

/-- `mesh.flds_bc_in(direction)` after `redefineBoundaries` (metadomain.cpp:236-322). -/
def dirBC (m : Meta) (idx : Nat) (dir : Direction) : Outcome BC :=
  if (assocOrth dir).length = 1 then faceBC m idx dir
  else do
    let b ← firstNonPeriodic m idx (assocOrth dir) .INVALID
    if b = .INVALID then .err else return b

/-- `GetSendRecvRanks` (metadomain_comm.cpp:36-116).  The pair of (send to, receive from);
`none` is the rank `-1`.  With one subdomain per MPI rank (metadomain.cpp:177) index and rank
coincide. -/
def sendRecv (m : Meta) (idx : Nat) (dir : Direction) : Outcome (Option Nat × Option Nat) := do
  let bp ← dirBC m idx dir
  let bm ← dirBC m idx (neg dir)
  let np ← neighborIdx m idx dir
  let nm ← neighborIdx m idx (neg dir)
  if bp = .PERIODIC then
    if np ≠ idx then .err
    else if bm ≠ .PERIODIC then .err
    else return (some idx, some idx)
  else if bp = .SYNC then
    if np = idx then .err
    else if bm = .SYNC then
      if nm = idx then .err else return (some np, some nm)
    else return (some np, none)
  else if bm = .SYNC then
    if nm = idx then .err else return (none, some nm)
  else return (none, none)

/-- Send range in one dimension, `GetSendRecvParams` (metadomain_comm.cpp:146-156 and 171-182).
`ng` is `N_GHOSTS`, `n` the number of active cells; `i_min = ng`, `i_max = ng + n`. -/
def sendRange (sync : Bool) (ng n : Nat) (dir : Int) : Int × Int :=
  let imin : Int := ng
  let imax : Int := ng + n
  if !sync then
    if dir = 0 then (imin, imax)
    else if dir = 1 then (imax - ng, imax)
    else (imin, imin + ng)
  else
    if dir = 0 then (imin - ng, imax + ng)
    else if dir = 1 then (imax - ng, imax + ng)
    else (imin - ng, imin + ng)

/-- Receive range in one dimension, `GetSendRecvParams` (metadomain_comm.cpp:157-167 and 183-194);
the branches test `-dir`. -/
def recvRange (sync : Bool) (ng n : Nat) (dir : Int) : Int × Int :=
  let imin : Int := ng
  let imax : Int := ng + n
  if !sync then
    if -dir = 0 then (imin, imax)
    else if -dir = 1 then (imax, imax + ng)
    else (imin - ng, imin)
  else
    if -dir = 0 then (imin - ng, imax + ng)
    else if -dir = 1 then (imax - ng, imax + ng)
    else (imin - ng, imin + ng)

/-- `send_slice` (metadomain_comm.cpp:136-196) of a subdomain with active sizes `ns`. -/
def sendSlice (sync : Bool) (ng : Nat) (ns : List Nat) (dir : Direction) : List (Int × Int) :=
  List.zipWith (sendRange sync ng) ns dir

/-- `recv_slice` (metadomain_comm.cpp:136-196) of a subdomain with active sizes `ns`. -/
def recvSlice (sync : Bool) (ng : Nat) (ns : List Nat) (dir : Direction) : List (Int × Int) :=
  List.zipWith (recvRange sync ng) ns dir

end Entity.Topology
