import Verif.Model.FieldOps
import Verif.Model.Deposit

/-!
# One step of the engine, as far as the fields and the current are concerned
(src/engines/srpic/srpic.hpp:63-188, currents.h, fieldsolvers.h)

Cartesian metric, all ranks, no external current, periodic boxes (no boundary routines).  The pusher
and the exchange of particles appear through the particles the deposit reads: their positions before
and after the push.
-/

namespace Entity.Ranks

open Entity Entity.Topology Entity.Kernel Entity.FieldSolver Entity.Filter Entity.Deposit

variable {K : Type} [Field K] [LinearOrder K] [IsStrictOrderedRing K]

/-- What `CurrentsDeposit` uses of a species (currents.h:70-85): charge, whether the pusher is
`ParticlePusher::NONE`, the first `npart` particles. -/
structure Sp (K : Type) where
  charge : K
  frozen : Bool
  ps : List (DPrtl K)

/-- The species that are not skipped (currents.h:71-74); `AlmostZero_host` is exact here. -/
def deposits (s : Sp K) : Bool := !s.frozen && !s.ps.isEmpty && !decide (s.charge = 0)

/-- `CurrentsDeposit` on one rank with `n` active cells along the axes (currents.h:63-88): the
current is zeroed, the kernel is launched for one species after the other, and the additions are
carried out in some order. -/
def DepositRank (O ng : Nat) (dt : K) (n : List Nat) (sps : List (Sp K)) (v v' : Mem K) : Prop :=
  ∃ (uss : List (List (Upd K))) (vs : List (Upd K)) (J : Cur K),
    (sps.filter deposits).mapM (fun s => depositAll O ng s.charge dt s.ps) = .ok uss ∧
    vs.Perm uss.flatten ∧ applyAll (n.map (· + 2 * ng)) vs (fun _ _ => 0) = .ok J ∧
    ∀ l, v' l = if l.arr = 1 then J l.comp l.idx else v l

/-- `CurrentsDeposit` on all ranks. -/
def DepositRanks (m : Meta) (O ng : Nat) (dt : K) (sps : Nat → List (Sp K)) (M M' : MMem K) : Prop :=
  ∀ r, r < m.doms.length → DepositRank O ng dt (sizes m r) (sps r) (M r) (M' r)

/-- The parameters of a step. -/
structure StepPrm (K : Type) where
  /-- `SHAPE_ORDER` -/
  O : Nat
  /-- `N_GHOSTS` -/
  ng : Nat
  /-- `algorithms.current_filters` -/
  nf : Nat
  dt : K
  /-- `sqrt(h_11)` -/
  dx : K
  /-- `algorithms.timestep.correction` -/
  correction : K
  q0 : K
  B0 : K
  V0 : K
  ppc0 : K
  c : Coeffs K
  /-- `algorithms.fieldsolver.enable` -/
  fieldsolver : Bool
  /-- `algorithms.deposit.enable` -/
  deposit : Bool

/-- `coeff` of `CurrentsAmpere` (fieldsolvers.h:197). -/
def StepPrm.coeff (P : StepPrm K) : K := -P.dt * P.q0 / (P.B0 * P.V0)

/-- Deposit, synchronisation, exchange and filter (srpic.hpp:106-120). -/
def DepositPhase (m : Meta) (P : StepPrm K) (sps : Nat → List (Sp K)) (M M' : MMem K) : Prop :=
  ∃ M1 M2 M3, DepositRanks m P.O P.ng P.dt sps M M1 ∧ SyncAll m P.ng selJ M1 M2 ∧
    CommAll m P.ng selJ M2 M3 ∧ FilterPasses m P.ng P.nf M3 M'

/-- `step_forward` (srpic.hpp:80-176): the particles `sps` have been pushed. -/
def Step (m : Meta) (D : Nat) (P : StepPrm K) (sps : Nat → List (Sp K)) (M M' : MMem K) : Prop :=
  ∃ M1 M2,
    (if P.fieldsolver then Does m D P.ng (.faraday (1 / 2 * P.correction * P.dt) P.dx P.c) M M1
      else M1 = M) ∧
    (if P.deposit then DepositPhase m P sps M1 M2 else M2 = M1) ∧
    (if P.fieldsolver then ∃ M3,
        Does m D P.ng (.faraday (1 / 2 * P.correction * P.dt) P.dx P.c) M2 M3 ∧
        Does m D P.ng (.electric (1 * P.correction * P.dt) P.dx
          (if P.deposit then some (P.coeff, P.ppc0) else none)) M3 M'
      else M' = M2)

/-- A simulation from the first step on (srpic.hpp:69-79: on step 0 `E` and `B` are exchanged first):
`hist` lists the pushed particles of each step, `M0` is the memory after the first exchange. -/
inductive Sim (m : Meta) (D : Nat) (P : StepPrm K) :
    List (Nat → List (Sp K)) → MMem K → MMem K → Prop
  | start {M M0 : MMem K} : CommAll m P.ng (fun a c => selE a c || selB a c) M M0 →
      Sim m D P [] M0 M0
  | step {hist : List (Nat → List (Sp K))} {sps : Nat → List (Sp K)} {M0 M M' : MMem K} :
      Sim m D P hist M0 M → Step m D P sps M M' → Sim m D P (hist ++ [sps]) M0 M'

end Entity.Ranks
