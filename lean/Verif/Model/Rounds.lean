/-!
# Blocking exchanges in rounds

`Metadomain::CommunicateFields`, `SynchronizeFields`, `CommunicateParticles`
(src/framework/domain/metadomain_comm.cpp:242-364, 408-562, 564-653) make every rank loop over the
same list of directions; in each direction a rank performs a blocking exchange: `MPI_Sendrecv` if it
has both a partner to send to and one to receive from, `MPI_Send`/`MPI_Recv` if it has only one
(src/framework/domain/comm_mpi.hpp:124-137 and 141-366).

The model below is the worst case for blocking: a send completes only together with the matching
receive (no buffering), the two halves of a `MPI_Sendrecv` may complete in any order.  Messages are
matched by the pair (source, destination) only, as in the code (all messages carry the same tag),
*not* by the round: whether messages of different rounds can be confused is a theorem.
-/

namespace Entity.Rounds

/-- State of one rank: current round, whether its send and its receive of that round are done. -/
structure RankState where
  round : Nat
  sent : Bool
  recvd : Bool
  deriving DecidableEq

/-- A schedule of exchanges: `K` rounds; in round `k` rank `r` sends to `send k r` and receives from
`recv k r` (the results of `GetSendRecvRanks`, metadomain_comm.cpp:36-116; `none` is rank `-1`). -/
structure Prog where
  K : Nat
  send : Nat → Nat → Option Nat
  recv : Nat → Nat → Option Nat

/-- Global state: one `RankState` per rank. -/
abbrev State := Nat → RankState

/-- Before the first round. -/
def init : State := fun _ => ⟨0, false, false⟩

/-- Rank `r` waits for its send to `t` to complete. -/
def PendingSend (P : Prog) (σ : State) (r t : Nat) : Prop :=
  (σ r).round < P.K ∧ (σ r).sent = false ∧ P.send (σ r).round r = some t

/-- Rank `t` waits for a message from `r`. -/
def PendingRecv (P : Prog) (σ : State) (t r : Nat) : Prop :=
  (σ t).round < P.K ∧ (σ t).recvd = false ∧ P.recv (σ t).round t = some r

/-- Function update. -/
def upd (σ : State) (r : Nat) (s : RankState) : State := fun x => if x = r then s else σ x

/-- Mark the send of `r` and the receive of `t` as done (`r = t` allowed). -/
def deliver (σ : State) (r t : Nat) : State :=
  let σ₁ := upd σ r { σ r with sent := true }
  upd σ₁ t { σ₁ t with recvd := true }

/-- One step of the whole program on ranks `< n`: a message is delivered, or a rank whose two
halves are done (or absent) goes to the next round (end of `MPI_Sendrecv`/`MPI_Send`/`MPI_Recv`,
comm_mpi.hpp:124-137). -/
inductive Step (n : Nat) (P : Prog) : State → State → Prop
  | transfer {σ : State} (r t : Nat) (hr : r < n) (ht : t < n)
      (hs : PendingSend P σ r t) (hv : PendingRecv P σ t r) : Step n P σ (deliver σ r t)
  | advance {σ : State} (r : Nat) (hr : r < n) (hk : (σ r).round < P.K)
      (hs : (σ r).sent = true ∨ P.send (σ r).round r = none)
      (hv : (σ r).recvd = true ∨ P.recv (σ r).round r = none) :
      Step n P σ (upd σ r ⟨(σ r).round + 1, false, false⟩)

/-- Reachable states. -/
inductive Reach (n : Nat) (P : Prog) : State → Prop
  | init : Reach n P init
  | step {σ σ' : State} : Reach n P σ → Step n P σ σ' → Reach n P σ'

end Entity.Rounds
