import Verif.Props.Sync
import Verif.Model.Ranks

/-!
# Specification: fields on a periodic box

A periodic box of `N` cells is described by functions of the global cell; the cell `p` stands for all
`p + N k`.  The arrays of the ranks *show* a global field if every element, active or ghost, holds
the value of the field at the global cell it stands for.
-/

namespace Entity.Ranks

open Entity Entity.Topology Entity.Kernel

variable {K : Type}

/-- The representative of a global cell in the box. -/
def wrap (N : List Nat) (p : List Int) : List Int := List.zipWith (fun (n : Nat) x => x % (n : Int)) N p

/-- A global field for every array and component. -/
abbrev GMem (K : Type) := Nat → Nat → List Int → K

/-- The global fields as an unbounded periodic memory. -/
def GMem.unroll (N : List Nat) (g : GMem K) : Mem K := fun l => g l.arr l.comp (wrap N l.idx)

/-- The active cells of the ranks hold the global field (for the selected components). -/
def ShowsActive (m : Meta) (N : List Nat) (ng : Nat) (sel : Nat → Nat → Bool) (M : MMem K)
    (g : GMem K) : Prop :=
  ∀ a c, sel a c = true → ∀ r i p, Active m ng r i → globalPos m N ng r i = some p →
    M r ⟨a, c, i⟩ = g a c p

/-- All cells of the ranks, active and ghost, hold the global field. -/
def Shows (m : Meta) (N : List Nat) (ng : Nat) (sel : Nat → Nat → Bool) (M : MMem K)
    (g : GMem K) : Prop :=
  ∀ a c, sel a c = true → ∀ r i p, InArray m ng r i → globalPos m N ng r i = some p →
    M r ⟨a, c, i⟩ = g a c p

end Entity.Ranks
