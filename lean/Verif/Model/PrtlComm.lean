import Verif.Model.Prtl
import Verif.Model.Halo

/-!
# Exchange of particles between subdomains
(src/framework/domain/metadomain_comm.cpp:564-653, src/framework/containers/particles_comm.cpp,
src/kernels/comm.hpp)
-/

namespace Entity.Prtl

open Entity Entity.Dir Entity.Tags Entity.Topology

/-! ## Buffers -/

/-- `NINTS`, `NPRTLDX` (particles_comm.cpp:243-244). -/
def Kind.nints (k : Kind) : Nat := 2 * k.D
/-- `NREALS` (particles_comm.cpp:241-242). -/
def Kind.nreals (k : Kind) : Nat := 4 + (if k.hasPhi then 1 else 0)

/-- The five flat buffers of a message. -/
structure Buffers (R : Type) where
  ints : List Int
  reals : List R
  dxs : List R
  pldr : List R
  pldi : List Nat

/-- What `PopulatePrtlSendBuffer_kernel` writes to `send_buff_int(NINTS * p + 0 …)`
(comm.hpp:195-212). -/
def packInts {R : Type} (D : Nat) (q : Prtl R) : List Int :=
  [q.i1, q.i1_prev] ++ (if D = 2 ∨ D = 3 then [q.i2, q.i2_prev] else []) ++
    (if D = 3 then [q.i3, q.i3_prev] else [])

/-- `send_buff_prtldx(NPRTLDX * p + 0 …)` (comm.hpp:195-212). -/
def packDxs {R : Type} (D : Nat) (q : Prtl R) : List R :=
  [q.dx1, q.dx1_prev] ++ (if D = 2 ∨ D = 3 then [q.dx2, q.dx2_prev] else []) ++
    (if D = 3 then [q.dx3, q.dx3_prev] else [])

/-- `send_buff_real(NREALS * p + 0 …)` (comm.hpp:213-219). -/
def packReals {R : Type} (k : Kind) (q : Prtl R) : List R :=
  [q.ux1, q.ux2, q.ux3, q.weight] ++ (if k.hasPhi then [q.phi] else [])

/-- Consecutive writes `buf(off + 0) = v0; buf(off + 1) = v1; …`; a write past the end is undefined
behaviour. -/
def writeAt {α : Type} (buf : List α) (off : Nat) : List α → Outcome (List α)
  | [] => .ok buf
  | v :: vs => if off < buf.length then writeAt (buf.set off v) (off + 1) vs else .ub

/-- Body of `PopulatePrtlSendBuffer_kernel` (comm.hpp:193-231) for index `p`. -/
def populateBody {R : Type} (k : Kind) (out : List Nat) (idxOffset : Nat)
    (st : Buffers R × List (Prtl R)) (p : Nat) : Outcome (Buffers R × List (Prtl R)) :=
  match out[idxOffset + p]? with
  | none => .ub
  | some idx =>
    match st.2[idx]? with
    | none => .ub
    | some q => do
      let ints ← writeAt st.1.ints (k.nints * p) (packInts k.D q)
      let dxs ← writeAt st.1.dxs (k.nints * p) (packDxs k.D q)
      let reals ← writeAt st.1.reals (k.nreals * p) (packReals k q)
      let pldr ← writeAt st.1.pldr (k.npldr * p) (q.pld_r.take k.npldr)
      let pldi ← writeAt st.1.pldi (k.npldi * p) (q.pld_i.take k.npldi)
      return (⟨ints, reals, dxs, pldr, pldi⟩, st.2.set idx { q with tag := dead })

/-- Consecutive reads `buf(off), buf(off + 1), …, buf(off + n - 1)`. -/
def readAt {α : Type} (buf : List α) (off : Nat) : Nat → Outcome (List α)
  | 0 => .ok []
  | n + 1 =>
    match buf[off]? with
    | none => .ub
    | some v => do
      let vs ← readAt buf (off + 1) n
      return v :: vs

/-- Assignments from `recv_buff_int(NINTS * p + …)` (comm.hpp:327-344). -/
def unpackInts {R : Type} (D : Nat) (v : List Int) (q : Prtl R) : Outcome (Prtl R) :=
  match D, v with
  | 1, [a, b] => .ok { q with i1 := a, i1_prev := b }
  | 2, [a, b, c, d] => .ok { q with i1 := a, i1_prev := b, i2 := c, i2_prev := d }
  | 3, [a, b, c, d, e, f] =>
    .ok { q with i1 := a, i1_prev := b, i2 := c, i2_prev := d, i3 := e, i3_prev := f }
  | _, _ => .ub

/-- Assignments from `recv_buff_prtldx(NPRTLDX * p + …)` (comm.hpp:327-344). -/
def unpackDxs {R : Type} (D : Nat) (v : List R) (q : Prtl R) : Outcome (Prtl R) :=
  match D, v with
  | 1, [a, b] => .ok { q with dx1 := a, dx1_prev := b }
  | 2, [a, b, c, d] => .ok { q with dx1 := a, dx1_prev := b, dx2 := c, dx2_prev := d }
  | 3, [a, b, c, d, e, f] =>
    .ok { q with dx1 := a, dx1_prev := b, dx2 := c, dx2_prev := d, dx3 := e, dx3_prev := f }
  | _, _ => .ub

/-- Assignments from `recv_buff_real(NREALS * p + …)` (comm.hpp:345-351). -/
def unpackReals {R : Type} (hasPhi : Bool) (v : List R) (q : Prtl R) : Outcome (Prtl R) :=
  match hasPhi, v with
  | false, [a, b, c, w] => .ok { q with ux1 := a, ux2 := b, ux3 := c, weight := w }
  | true, [a, b, c, w, f] => .ok { q with ux1 := a, ux2 := b, ux3 := c, weight := w, phi := f }
  | _, _ => .ub

/-- Body of `ExtractReceivedPrtls_kernel` (comm.hpp:320-363) for index `p`. -/
def extractBody {R : Type} (k : Kind) (buf : Buffers R) (npart : Nat) (out : List Nat)
    (arr : List (Prtl R)) (p : Nat) : Outcome (List (Prtl R)) := do
  let idx := if p ≥ out.length then npart + p - out.length else out.getD p 0
  match arr[idx]? with
  | none => .ub
  | some q => do
    let q ← unpackInts k.D (← readAt buf.ints (k.nints * p) k.nints) q
    let q ← unpackDxs k.D (← readAt buf.dxs (k.nints * p) k.nints) q
    let q ← unpackReals k.hasPhi (← readAt buf.reals (k.nreals * p) k.nreals) q
    let r ← readAt buf.pldr (k.npldr * p) k.npldr
    let i ← readAt buf.pldi (k.npldi * p) k.npldi
    return arr.set idx
      { q with
        pld_r := if k.npldr > 0 then r else q.pld_r
        pld_i := if k.npldi > 0 then i else q.pld_i
        tag := alive }

/-! ## Outgoing particles -/

/-- State of `PrepareOutgoingPrtls_kernel`: `current_offset`, `outgoing_indices` and the
particles. -/
structure Prep (R : Type) where
  cur : List Nat
  out : List Nat
  arr : List (Prtl R)

/-- `apply offsets` (comm.hpp:91-103): `t` is `tag(p) - 2`. -/
def applyShift {R : Type} (D : Nat) (sh1 sh2 sh3 : List Int) (t : Nat) (q : Prtl R) : Prtl R :=
  { q with
    i1 := q.i1 + sh1.getD t 0
    i1_prev := q.i1_prev + sh1.getD t 0
    i2 := if D = 2 ∨ D = 3 then q.i2 + sh2.getD t 0 else q.i2
    i2_prev := if D = 2 ∨ D = 3 then q.i2_prev + sh2.getD t 0 else q.i2_prev
    i3 := if D = 3 then q.i3 + sh3.getD t 0 else q.i3
    i3_prev := if D = 3 then q.i3_prev + sh3.getD t 0 else q.i3_prev }

/-- Body of `PrepareOutgoingPrtls_kernel` (comm.hpp:75-105) for index `p`. -/
def prepBody {R : Type} (D : Nat) (sh1 sh2 sh3 : List Int) (npart nAlive nDead : Nat)
    (offs : List Nat) (st : Prep R) (p : Nat) : Outcome (Prep R) :=
  match st.arr[p]? with
  | none => .ub
  | some q =>
    if q.tag ≠ alive then
      match st.cur[q.tag.toNat]? with
      | none => .ub
      | some c =>
        let idx := c + (if q.tag ≠ dead then nDead else 0) +
          (if q.tag > 2 then offs.getD (q.tag - 3).toNat 0 else 0)
        if idx ≥ npart - nAlive then .err
        else
          .ok { cur := st.cur.set q.tag.toNat (c + 1)
                out := st.out.set idx p
                arr := if q.tag ≠ dead then
                    st.arr.set p (applyShift D sh1 sh2 sh3 (q.tag - 2).toNat q)
                  else st.arr }
    else .ok st

/-! ## One rank, up to the messages -/

/-- Schedules of the kernels of one rank: counting, preparing, packing (per direction),
extracting. -/
structure Scheds where
  count : Sched
  prep : Sched
  pack : Direction → Sched
  extract : Sched

/-- What a rank has computed before it receives anything. -/
structure Outbox (R : Type) where
  vec : List Nat
  out : List Nat
  arr : List (Prtl R)
  msgs : List (Direction × Buffers R)

/-- Packing for one direction (particles_comm.cpp:268-310). -/
def packDir {R : Type} [Inhabited R] (k : Kind) (vec offs : List Nat) (out : List Nat) (S : Scheds)
    (st : List (Direction × Buffers R) × List (Prtl R)) (d : Direction) :
    Outcome (List (Direction × Buffers R) × List (Prtl R)) := do
  let tag ← dir2tag k.D d
  let nsend := vec.getD tag.toNat 0
  let idxOffset := vec.getD 0 0 + (if tag > 2 then offs.getD (tag - 3).toNat 0 else 0)
  let empty : Buffers R :=
    ⟨List.replicate (nsend * k.nints) 0, List.replicate (nsend * k.nreals) default,
     List.replicate (nsend * k.nints) default, List.replicate (nsend * k.npldr) default,
     List.replicate (nsend * k.npldi) 0⟩
  let (b, arr) ← (S.pack d nsend).foldlM (populateBody k out idxOffset) (empty, st.2)
  return (st.1 ++ [(d, b)], arr)

/-- `Particles::Communicate` up to and including the packing of all messages
(particles_comm.cpp:190-194, 222-236, 259-310).  The packing only reads and writes the rank's own
arrays, and received data are stored after the loop, so the messages do not depend on what is
received. -/
def prepareMessages {R : Type} [Inhabited R] (k : Kind) (s : Store R) (dirs : List Direction)
    (sh1 sh2 sh3 : List Int) (S : Scheds) : Outcome (Outbox R) := do
  let (vec, offs) ← npartsPerTagAndOffsets s k.D S.count
  let nDead := vec.getD 0 0
  let nAlive := vec.getD 1 0
  let prep ← (S.prep s.npart).foldlM (prepBody k.D sh1 sh2 sh3 s.npart nAlive nDead offs)
    ⟨List.replicate (ntags k.D) 0, List.replicate (s.npart - nAlive) 0, s.arr⟩
  let (msgs, arr) ← dirs.foldlM (packDir k vec offs prep.out S) ([], prep.arr)
  return ⟨vec, prep.out, arr, msgs⟩

/-! ## Receiving -/

/-- Message sent in direction `d`, with its number of particles `npptag_vec[tag_send]`. -/
def Outbox.message {R : Type} (k : Kind) (o : Outbox R) (d : Direction) :
    Outcome (Nat × Buffers R) := do
  let tag ← dir2tag k.D d
  match o.msgs.find? (fun m => m.1 = d) with
  | some (_, b) => return (o.vec.getD tag.toNat 0, b)
  | none => .ub

/-- Messages that arrive, in the order of the directions (particles_comm.cpp:203-223, 259-...): in
direction `d` the one that `recv_rank` sends in direction `d`, none if there is no such rank. -/
def incoming {R : Type} (k : Kind) (boxes : Nat → Outbox R) (recv : Direction → Option Nat) :
    List Direction → Outcome (List (Nat × Buffers R))
  | [] => .ok []
  | d :: ds =>
    match recv d with
    | none => do
      let rest ← incoming k boxes recv ds
      return (0, ⟨[], [], [], [], []⟩) :: rest
    | some q => do
      let m ← (boxes q).message k d
      let rest ← incoming k boxes recv ds
      return m :: rest

/-- `raise::ErrorIf((npart() + npart_recv_tot) >= maxnpart(), …)` after each count
(particles_comm.cpp:216-223). -/
def countsFit (npart maxnpart : Nat) : Nat → List Nat → Bool
  | _, [] => true
  | tot, n :: ns => decide (npart + (tot + n) < maxnpart) && countsFit npart maxnpart (tot + n) ns

/-- Receive into the flat buffers at `current_received * N…` (particles_comm.cpp:312-360). -/
def receive {R : Type} (k : Kind) (st : Nat × Buffers R) (m : Nat × Buffers R) :
    Outcome (Nat × Buffers R) := do
  let c := st.1
  let ints ← writeAt st.2.ints (c * k.nints) m.2.ints
  let reals ← writeAt st.2.reals (c * k.nreals) m.2.reals
  let dxs ← writeAt st.2.dxs (c * k.nints) m.2.dxs
  let pldr ← writeAt st.2.pldr (c * k.npldr) m.2.pldr
  let pldi ← writeAt st.2.pldi (c * k.npldi) m.2.pldi
  return (c + m.1, ⟨ints, reals, dxs, pldr, pldi⟩)

/-- Second half of `Particles::Communicate` on one rank: capacity check, receive buffers,
extraction, new number of particles (particles_comm.cpp:196-223, 246-258, 312-388). -/
def receiveAll {R : Type} [Inhabited R] (k : Kind) (s : Store R) (o : Outbox R)
    (inc : List (Nat × Buffers R)) (S : Scheds) : Outcome (Store R) := do
  if !countsFit s.npart s.maxnpart 0 (inc.map (·.1)) then .err
  else
    let nrecv := (inc.map (·.1)).sum
    let empty : Buffers R :=
      ⟨List.replicate (nrecv * k.nints) 0, List.replicate (nrecv * k.nreals) default,
       List.replicate (nrecv * k.nints) default, List.replicate (nrecv * k.npldr) default,
       List.replicate (nrecv * k.npldi) 0⟩
    let (_, buf) ← inc.foldlM (receive k) (0, empty)
    let arr ← (S.extract nrecv).foldlM (extractBody k buf s.npart o.out) o.arr
    if nrecv > o.out.length then setNpart ⟨arr, s.npart⟩ (s.npart + nrecv - o.out.length)
    else return ⟨arr, s.npart⟩

/-! ## All ranks -/

/-- Directions in which a rank communicates (metadomain_comm.cpp:586-606). -/
def dirsToComm (m : Meta) (r : Nat) : List Direction → Outcome (List Direction)
  | [] => .ok []
  | d :: ds => do
    let (a, b) ← sendRecv m r d
    let rest ← dirsToComm m r ds
    if a = none ∧ b = none then return rest else return d :: rest

/-- Displacement along axis `a` for particles sent in direction `d`
(metadomain_comm.cpp:608-637): the size of the target for `-1`, minus the own size for `+1`. -/
def shiftFor (m : Meta) (r a : Nat) (d : Direction) : Outcome Int := do
  let (send, _) ← sendRecv m r d
  match send with
  | none => return 0
  | some t =>
    if d.getD a 0 = -1 then return ((sizes m t).getD a 0 : Int)
    else if d.getD a 0 = 1 then return -((sizes m r).getD a 0 : Int)
    else return 0

/-- `shifts_in_x1/2/3`, indexed by `tag_send - 2` (metadomain_comm.cpp:569-576, 608-642); the tag of
the j-th direction of the table is `j + 2` (C08). -/
def shiftTable (m : Meta) (r a : Nat) : List Direction → Outcome (List Int)
  | [] => .ok []
  | d :: ds => do
    let x ← shiftFor m r a d
    let rest ← shiftTable m r a ds
    return x :: rest

/-- First half of `CommunicateParticles` on rank `r`. -/
def outboxOf {R : Type} [Inhabited R] (m : Meta) (k : Kind) (st : Nat → Store R)
    (S : Nat → Scheds) (r : Nat) : Outcome (Outbox R) := do
  let dirs ← dirsToComm m r (allDirs k.D)
  let sh1 ← shiftTable m r 0 (allDirs k.D)
  let sh2 ← shiftTable m r 1 (allDirs k.D)
  let sh3 ← shiftTable m r 2 (allDirs k.D)
  prepareMessages k (st r) dirs sh1 sh2 sh3 (S r)

/-- Rank `r` receives from this rank in direction `d`. -/
def recvFrom (m : Meta) (r : Nat) (d : Direction) : Option Nat :=
  match sendRecv m r d with
  | .ok (_, b) => b
  | _ => none

/-- Apply a function that may raise to all ranks below `n`. -/
def forRanks {α : Type} (f : Nat → Outcome α) : Nat → Outcome (List α)
  | 0 => .ok []
  | n + 1 => do
    let rest ← forRanks f n
    let x ← f n
    return rest ++ [x]

/-- `Metadomain::CommunicateParticles` for one species on all ranks
(metadomain_comm.cpp:564-653).  An exception on any rank is an exception of the run. -/
def communicateParticles {R : Type} [Inhabited R] (m : Meta) (k : Kind) (st : List (Store R))
    (S : Nat → Scheds) : Outcome (List (Store R)) := do
  let n := m.doms.length
  let boxes ← forRanks (outboxOf m k (fun r => st.getD r ⟨[], 0⟩) S) n
  forRanks (fun r => do
    let dirs ← dirsToComm m r (allDirs k.D)
    let o := boxes.getD r ⟨[], [], [], []⟩
    let inc ← incoming k (fun q => boxes.getD q ⟨[], [], [], []⟩) (recvFrom m r) dirs
    receiveAll k (st.getD r ⟨[], 0⟩) o inc (S r)) n

end Entity.Prtl
