import Verif.Lemmas.EsirkepovDiv
import Verif.Model.Step
import Mathlib.Algebra.BigOperators.Finprod

/-!
# Specification: charge density on a periodic box

Lengths in cells.  A charge at `X` weighs the node `p` of a periodic axis of `N` cells by the sum over
all images `p + k N` of the node of the spline of the distance.
-/

namespace Entity.Gauss

open Entity Entity.Topology Entity.Shapes Entity.Push Entity.Tags Entity.Deposit Entity.Ranks

variable {K : Type} [Field K] [LinearOrder K] [IsStrictOrderedRing K]

/-- A point charge at a position in the box. -/
structure Charge (K : Type) where
  q : K
  x : List K
  deriving DecidableEq

/-- Weight of node `p` of a periodic axis of `N` cells for a charge at `X`. -/
noncomputable def weightOn (deg : Nat) (N : Nat) (X : K) (p : Int) : K :=
  ∑ᶠ k : Int, bspline deg (X - ((p + k * N : Int) : K))

/-- Charge density at node `p` of a periodic box of `N` cells. -/
noncomputable def density (deg : Nat) (N : List Nat) (cs : List (Charge K)) (p : List Int) : K :=
  (cs.map fun c => c.q *
    (List.zipWith (fun f y => f y) (List.zipWith (weightOn deg) N c.x) p).prod).sum

/-- The same charge up to a translation by box lengths. -/
def Same (N : List Nat) (u v : Charge K) : Prop :=
  u.q = v.q ∧ ∃ k : List Int, k.length = N.length ∧
    v.x = List.zipWith (· + ·) u.x (List.zipWith (fun (n : Nat) (k : Int) => ((k * n : Int) : K)) N k)

/-- The same charges up to their order and to translations by box lengths. -/
def SameAll (N : List Nat) (a b : List (Charge K)) : Prop :=
  ∃ c, a.Perm c ∧ List.Forall₂ (Same N) c b

/-- The charges carried by the moving particles of all ranks; `pos` picks the position before or
after the push; dead particles and species that are not pushed do not count. -/
def charges (m : Meta) (pos : Ax K → K) (sps : Nat → List (Sp K)) : List (Charge K) :=
  (List.range m.doms.length).flatMap fun r => (sps r).flatMap fun s =>
    if s.frozen then [] else (s.ps.filter (fun p => p.tag ≠ dead)).map fun p =>
      ⟨p.weight * s.charge, List.zipWith (fun a (o : Nat) => pos a + (o : K)) p.ax
        (((m.doms[r]?).map (·.offsetNcells)).getD [])⟩

/-- Every step starts with the charges where the previous one has left them. -/
def Joined (m : Meta) (N : List Nat) (hist : List (Nat → List (Sp K))) : Prop :=
  hist.IsChain fun s t => SameAll N (charges m xNew s) (charges m xOld t)

end Entity.Gauss
