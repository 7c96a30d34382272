import Verif.Model.PrtlWalls
import Verif.Spec.Gauss

/-!
# Specification: charges in a box with walls

Lengths in cells; no images, no periodicity.
-/

namespace Entity.PrtlWalls

open Entity Entity.Shapes Entity.Push Entity.Tags Entity.Deposit Entity.Ranks Entity.Gauss Entity.Topology

variable {K : Type} [Field K] [LinearOrder K] [IsStrictOrderedRing K]

/-- Charge density at node `p`. -/
def cloud (deg : Nat) (cs : List (Charge K)) (p : List Int) : K :=
  (cs.map fun c => c.q * (List.zipWith (fun x (k : Int) => bspline deg (x - (k : K))) c.x p).prod).sum

/-- The charge of a particle, where it is. -/
def chargeOf (charge : K) (p : DPrtl K) : Charge K :=
  ⟨p.weight * charge, p.ax.map fun a => (a.i : K) + a.dx⟩

/-- The charges of all live particles. -/
def charges (sps : List (Sp K)) : List (Charge K) :=
  sps.flatMap fun s => (s.ps.filter (fun p => p.tag ≠ dead)).map (chargeOf s.charge)

/-- The charges of the particles that have died between two states, where they were in the first. -/
def lost (x : List (Sp K) × List (Sp K)) : List (Charge K) :=
  (x.1.zip x.2).flatMap fun s => ((s.1.ps.zip s.2.ps).filter
    (fun q => q.1.tag ≠ dead ∧ q.2.tag = dead)).map fun q => chargeOf s.1.charge q.1

/-- The axes of a particle in the box of `N` cells. -/
def InBox (N : List Nat) (as : List (Ax K)) : Prop :=
  List.Forall₂ (fun (n : Nat) (a : Ax K) => 0 ≤ a.i ∧ a.i < (n : Int) ∧ 0 ≤ a.dx ∧ a.dx ≤ 1) N as

/-- All live particles are in the box of `N` cells. -/
def Inside (N : List Nat) (sps : List (Sp K)) : Prop :=
  ∀ s ∈ sps, ∀ p ∈ s.ps, p.tag ≠ dead → InBox N p.ax

/-- Walls at the ends of every axis that absorb or reflect particles. -/
def Walled (N : List Nat) (sides : List (PBC × PBC × Int)) : Prop :=
  List.Forall₂ (fun (n : Nat) (s : PBC × PBC × Int) => (s.1 = .absorb ∨ s.1 = .reflect) ∧ (s.2.1 = .absorb ∨ s.2.1 = .reflect) ∧
    s.2.2 = (n : Int)) N sides

end Entity.PrtlWalls
