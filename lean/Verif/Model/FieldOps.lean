import Verif.Model.Ranks
import Verif.Model.Filter

/-!
# Operations on the fields of all ranks (src/engines/srpic/srpic.hpp, fieldsolvers.h, currents.h)

Cartesian metric, no external current, no boundary routines (periodic boxes: `FieldBoundaries` does
nothing for `PERIODIC` and `SYNC`, src/engines/srpic/fields_bcs.h).
-/

namespace Entity.Ranks

open Entity Entity.Topology Entity.Kernel Entity.FieldSolver Entity.Filter

variable {K : Type}

/-- The orthogonal direction with entry `s` along axis `a`. -/
def unitDir (D a : Nat) (s : Int) : List Int := (List.replicate D 0).set a s

/-- `mesh.flds_bc()[a].first == b` (`s = -1`) or `.second == b` (`s = 1`)
(src/framework/domain/grid.cpp:166-187). -/
def bcIs (m : Meta) (r : Nat) (b : BC) (a : Nat) (s : Int) : Bool :=
  match dirBC m r (unitDir m.counts.length a s) with
  | .ok x => x == b
  | _ => false

/-- The members the constructor of `DigitalFilter_kernel` sets on rank `r`
(digital_filter.hpp:70-98; currents.h:94-105). -/
def filterCfg (m : Meta) (ng r : Nat) : Cfg where
  axisMin := m.counts.length == 2 && bcIs m r .AXIS 1 (-1)
  axisMax := m.counts.length == 2 && bcIs m r .AXIS 1 1
  cond := fun a => if a < m.counts.length then (bcIs m r .CONDUCTOR a (-1), bcIs m r .CONDUCTOR a 1)
    else (false, false)
  ng := ng
  size := fun a => (sizes m r).getD a 0

variable [Add K] [Sub K] [Mul K] [Div K] [Neg K] [Zero K] [One K] [NatCast K]

/-- One iteration of the loop in `CurrentsFilter` (currents.h:107-118) on all ranks. -/
def FilterPass (m : Meta) (ng : Nat) (M M' : MMem K) : Prop :=
  ∃ M1, LaunchAll m ng (fun r t => atCell (filterCart (filterCfg m ng r) t) t)
      (fun r => copyToBuffer (M r)) M1 ∧ CommAll m ng selJ M1 M'

/-- `CurrentsFilter` (currents.h:90-119) on all ranks with `n = algorithms.current_filters`. -/
inductive FilterPasses (m : Meta) (ng : Nat) : Nat → MMem K → MMem K → Prop
  | zero (M : MMem K) : FilterPasses m ng 0 M M
  | succ {n : Nat} {M M1 M2 : MMem K} : FilterPasses m ng n M M1 → FilterPass m ng M1 M2 →
      FilterPasses m ng (n + 1) M M2

/-- The electric update of a step (srpic.hpp:157-171): `Ampere`, `CurrentsAmpere` if the deposit is
enabled, then the exchange of `E` and `J`. -/
def ElectricUpdate (m : Meta) (D ng : Nat) (dT dx : K) (dep : Option (K × K)) (M M' : MMem K) : Prop :=
  ∃ M1 M2, LaunchAll m ng (fun _ t => atCell (ampere D dT dx) t) M M1 ∧
    (match dep with
      | none => M2 = M1
      | some (coeff, ppc0) => LaunchAll m ng (fun _ t => atCell (currentsAmpere D coeff ppc0) t) M1 M2) ∧
    CommAll m ng (fun a c => selE a c || selJ a c) M2 M'

/-- The operations of a step on the fields. -/
inductive Op (K : Type) where
  /-- `Faraday`, then the exchange of `B` (srpic.hpp:83-91, 137-145) -/
  | faraday (dT dx : K) (c : Coeffs K)
  | electric (dT dx : K) (dep : Option (K × K))
  /-- one filter pass -/
  | filter

/-- An operation is carried out on all ranks. -/
def Does (m : Meta) (D ng : Nat) : Op K → MMem K → MMem K → Prop
  | .faraday dT dx c, M, M' => ∃ M1, LaunchAll m ng (fun _ t => atCell (faraday D dT dx c) t) M M1 ∧
      CommAll m ng selB M1 M'
  | .electric dT dx dep, M, M' => ElectricUpdate m D ng dT dx dep M M'
  | .filter, M, M' => FilterPass m ng M M'

/-- A sequence of operations is carried out. -/
inductive Runs (m : Meta) (D ng : Nat) : List (Op K) → MMem K → MMem K → Prop
  | nil (M : MMem K) : Runs m D ng [] M M
  | cons {op : Op K} {ops : List (Op K)} {M M1 M2 : MMem K} : Does m D ng op M M1 →
      Runs m D ng ops M1 M2 → Runs m D ng (op :: ops) M M2

end Entity.Ranks
