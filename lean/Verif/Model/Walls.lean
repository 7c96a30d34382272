import Verif.Model.FieldOps
import Verif.Model.FieldBC

/-!
# Fields in a box with conducting walls, on all ranks
(src/engines/srpic/srpic.hpp, src/engines/srpic/fields_bcs.h)

`FieldBoundaries` after every exchange, with the conducting wall (`PerfectConductorFieldsIn`,
Model/FieldBC.lean) as the only kind of wall.  No current filter: next to conductors it depends on the
decomposition (C39).
-/

namespace Entity.Walls

open Entity Entity.Topology Entity.Kernel Entity.FieldSolver Entity.Ranks Entity.FieldBC

variable {K : Type}

/-- `global_grid.flds_bc_in(direction)` in the direction with sign `s` along axis `a`
(src/framework/domain/grid.h:277-283). -/
def globalBC (m : Meta) (a : Nat) (s : Int) : BC :=
  if s < 0 then (m.bcs.getD a (.INVALID, .INVALID)).1 else (m.bcs.getD a (.INVALID, .INVALID)).2

variable [Field K]

/-- One iteration of the loop in `FieldBoundaries` (srpic/fields_bcs.h:629-668) on all ranks, for
conditions that are `PERIODIC` or `CONDUCTOR`; `get_dim`, `get_sign` are called in
`PerfectConductorFieldsIn` (srpic/fields_bcs.h:366-367). -/
def boundaryIn (m : Meta) (ng : Nat) (setE setB : Bool) (d : Dir.Direction) (M M' : MMem K) : Prop :=
  ∃ a s, Dir.getDim d = .ok a ∧ Dir.getSign d = .ok s ∧ ∀ r, r < m.doms.length →
    if globalBC m a s = .CONDUCTOR ∧ dirBC m r d = .ok .CONDUCTOR then
      conductor ⟨ng, sizes m r⟩ a (decide (0 < s)) setE setB (M r) (M' r)
    else M' r = M r

/-- The loop of `FieldBoundaries` (srpic/fields_bcs.h:629) over a list of directions. -/
def boundariesIn (m : Meta) (ng : Nat) (setE setB : Bool) :
    List Dir.Direction → MMem K → MMem K → Prop
  | [], M, M' => ∀ r, r < m.doms.length → M' r = M r
  | d :: ds, M, M' => ∃ M1, boundaryIn m ng setE setB d M M1 ∧ boundariesIn m ng setE setB ds M1 M'

/-- `FieldBoundaries` (srpic/fields_bcs.h:621-668) on all ranks with tags `E`, `B`. -/
def fieldBoundaries (m : Meta) (ng : Nat) (setE setB : Bool) : MMem K → MMem K → Prop :=
  boundariesIn m ng setE setB (Dir.orthDirs m.counts.length)

/-- The beginning of the first step (srpic.hpp:71-81). -/
def initial (m : Meta) (ng : Nat) (M M' : MMem K) : Prop :=
  ∃ M1, CommAll m ng (fun a c => selE a c || selB a c) M M1 ∧ fieldBoundaries m ng true true M1 M'

/-- The operations of a step on the fields; the currents `j` of a step, a function of component and
global cell, are what the deposit and its synchronisation leave in the active cells. -/
inductive WOp (K : Type) where
  | faraday (dT dx : K) (c : Coeffs K)
  | electric (dT dx : K) (dep : Option (K × K × (Nat → List Int → K)))

/-- The cell of the global box that cell `i` of rank `r` is, without periodic identification. -/
def latticePos (m : Meta) (ng r : Nat) (i : List Int) : List Int :=
  match m.doms[r]? with
  | none => []
  | some s => List.zipWith (fun (o : Nat) x => (o : Int) + x - ng) s.offsetNcells i

/-- The currents of the step are in the active cells; the other arrays are as before. -/
def deposited (m : Meta) (ng : Nat) (j : Nat → List Int → K) (M M' : MMem K) : Prop :=
  (∀ r l, l.arr ≠ 1 → M' r l = M r l) ∧
    ∀ r i c, c < 3 → r < m.doms.length → i ∈ activeCells m ng r → M' r ⟨1, c, i⟩ = j c (latticePos m ng r i)

/-- An operation is carried out on all ranks (srpic.hpp:83-101, 137-155, 157-185): the kernels, the
exchange, the boundaries. -/
def doesW (m : Meta) (D ng : Nat) : WOp K → MMem K → MMem K → Prop
  | .faraday dT dx c, M, M' => ∃ M1, Does m D ng (.faraday dT dx c) M M1 ∧
      fieldBoundaries m ng false true M1 M'
  | .electric dT dx none, M, M' => ∃ M1, Does m D ng (.electric dT dx none) M M1 ∧
      fieldBoundaries m ng true false M1 M'
  | .electric dT dx (some (coeff, ppc0, j)), M, M' => ∃ M0 M1, deposited m ng j M M0 ∧
      Does m D ng (.electric dT dx (some (coeff, ppc0))) M0 M1 ∧
      fieldBoundaries m ng true false M1 M'

/-- A sequence of operations is carried out. -/
inductive RunsW (m : Meta) (D ng : Nat) : List (WOp K) → MMem K → MMem K → Prop
  | nil (M : MMem K) : RunsW m D ng [] M M
  | cons {op : WOp K} {ops : List (WOp K)} {M M1 M2 : MMem K} : doesW m D ng op M M1 →
      RunsW m D ng ops M1 M2 → RunsW m D ng (op :: ops) M M2

end Entity.Walls
