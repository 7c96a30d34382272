import Verif.Spec.Maxwell
import Verif.Spec.Torus
import Mathlib.Algebra.BigOperators.Group.Finset.Basic

/-!
# Specification: energy of the fields in a periodic box

`A` is the set of the active cells of all ranks.  Sums over the three physical components of the
fields; units in which the energy density is `E² + B²` (the factor 1/2 and the cell volume are
left out).
-/

namespace Entity.FieldSolver

open Entity.Ranks Entity.Kernel

variable {K : Type} [Field K]

/-- Physical electric and magnetic field and current in a cell of a rank. -/
def elec (D : Nat) (dx : K) (M : MMem K) (x : Nat × List Int) (c : Nat) : K :=
  phys D dx (electric (M x.1) x.2) c (off D [])
def magn (D : Nat) (dx : K) (M : MMem K) (x : Nat × List Int) (c : Nat) : K :=
  phys D dx (magnetic (M x.1) x.2) c (off D [])
def curr (D : Nat) (dx : K) (M : MMem K) (x : Nat × List Int) (c : Nat) : K :=
  phys D dx (current (M x.1) x.2) c (off D [])

/-- Σ (E² + B²). -/
def fieldEnergy (A : Finset (Nat × List Int)) (D : Nat) (dx : K) (M : MMem K) : K :=
  ∑ x ∈ A, ∑ c ∈ Finset.range 3, (elec D dx M x c ^ 2 + magn D dx M x c ^ 2)

/-- Energy with the magnetic field taken from two successive times: Σ (E² + B · B⁺), where
B⁺ = B - l curl E is the magnetic field one step of `l` cells later. -/
def leapEnergy (A : Finset (Nat × List Int)) (D : Nat) (dx l : K) (M : MMem K) : K :=
  ∑ x ∈ A, ∑ c ∈ Finset.range 3, (elec D dx M x c ^ 2 + magn D dx M x c *
    (magn D dx M x c - l * curlUp D .yee (phys D dx (electric (M x.1) x.2)) c))

/-- Σ J · (E + E'): twice the work on the current `J` in the mean of the fields before and after. -/
def work (A : Finset (Nat × List Int)) (D : Nat) (dx : K) (J : Nat × List Int → Nat → K) (M M' : MMem K) : K :=
  ∑ x ∈ A, ∑ c ∈ Finset.range 3, J x c * (elec D dx M x c + elec D dx M' x c)

end Entity.FieldSolver
