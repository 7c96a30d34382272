import Verif.Model.FieldStats
import Verif.Spec.Energy

/-!
# Specification: statistics of the fields over the global grid
-/

namespace Entity.FieldStats

open Entity Entity.Topology Entity.Kernel Entity.Ranks Entity.FieldSolver

variable {K : Type}

/-- The cells of a global grid. -/
def gridCells (N : List Nat) : Finset (List Int) := (box (N.map fun (n : Nat) => ((0 : Int), (n : Int)))).toFinset

/-- The metrics of the ranks are the metric `G` of the global grid, each seen from the corner of its
subdomain. -/
def SeesMetric [Field K] (m : Meta) (S : Nat → SMetric K) (G : SMetric K) : Prop :=
  ∀ r s, m.doms[r]? = some s → ∀ x : List K, x.length = s.offsetNcells.length →
    (∀ c v, (S r).low c x v = G.low c (List.zipWith (fun (o : Nat) y => (o : K) + y) s.offsetNcells x) v) ∧
    (∀ c v, (S r).tet c x v = G.tet c (List.zipWith (fun (o : Nat) y => (o : K) + y) s.offsetNcells x) v) ∧
    (S r).sqrtDet x = G.sqrtDet (List.zipWith (fun (o : Nat) y => (o : K) + y) s.offsetNcells x)

end Entity.FieldStats
