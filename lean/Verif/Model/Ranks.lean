import Verif.Model.Halo
import Verif.Model.FieldSolver

/-!
# Field kernels on all ranks

The memory of every rank, kernels launched on the active cells of every rank
(`domain.mesh.rangeActiveCells()`, src/framework/domain/grid.cpp:150-163), and the exchange of
arrays (`Metadomain::CommunicateFields`, `SynchronizeFields`), component by component
(Model/Halo.lean).
-/

namespace Entity.Ranks

open Entity Entity.Topology Entity.Kernel Entity.FieldSolver

variable {K : Type}

/-- The memory of every rank. -/
abbrev MMem (K : Type) := Nat → Mem K

/-- All index lists with entry `a` in the half-open range `a` (an `MDRangePolicy`). -/
def box : List (Int × Int) → List (List Int)
  | [] => [[]]
  | (lo, hi) :: rs =>
    ((List.range (hi - lo).toNat).map (fun k : Nat => lo + (k : Int))).flatMap
      (fun x => (box rs).map (x :: ·))

/-- `rangeActiveCells` of rank `r` (grid.cpp:150-163). -/
def activeCells (m : Meta) (ng r : Nat) : List (List Int) :=
  box ((sizes m r).map (fun (n : Nat) => ((ng : Int), (ng : Int) + n)))

/-- A kernel is launched on the active cells of every rank. -/
def LaunchAll [Add K] [Sub K] [Mul K] [Div K] [Neg K] (m : Meta) (ng : Nat) (body : Nat → List Int → List (Assign K))
    (M M' : MMem K) : Prop :=
  ∀ r, r < m.doms.length → Launch (activeCells m ng r) (body r) (M r) (M' r)

/-- The selected components are exchanged (`CommunicateFields`, metadomain_comm.cpp:204-367). -/
def CommAll (m : Meta) (ng : Nat) (sel : Nat → Nat → Bool) (M M' : MMem K) : Prop :=
  ∀ a c, (sel a c = true →
      communicateFields m ng (fun r i => M r ⟨a, c, i⟩) = .ok (fun r i => M' r ⟨a, c, i⟩)) ∧
    (sel a c = false → ∀ r i, M' r ⟨a, c, i⟩ = M r ⟨a, c, i⟩)

/-- The selected components are synchronised (`SynchronizeFields`, metadomain_comm.cpp:408-562). -/
def SyncAll [Add K] [Zero K] (m : Meta) (ng : Nat) (sel : Nat → Nat → Bool) (M M' : MMem K) : Prop :=
  ∀ a c, (sel a c = true →
      synchronizeFields m ng (fun r i => M r ⟨a, c, i⟩) = .ok (fun r i => M' r ⟨a, c, i⟩)) ∧
    (sel a c = false → ∀ r i, M' r ⟨a, c, i⟩ = M r ⟨a, c, i⟩)

/-- `Comm::E`, `Comm::B`, `Comm::J` (metadomain_comm.cpp:226-268: component ranges `ex1..bx1`,
`bx1..bx3 + 1`, `jx1..jx3 + 1`). -/
def selE (a c : Nat) : Bool := a == 0 && decide (c < 3)
def selB (a c : Nat) : Bool := a == 0 && decide (3 ≤ c) && decide (c < 6)
def selJ (a c : Nat) : Bool := a == 1 && decide (c < 3)

end Entity.Ranks
