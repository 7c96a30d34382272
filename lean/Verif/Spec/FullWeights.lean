import Verif.Spec.FullStep

/-!
# The distribution of the particles of a species
-/

namespace Entity.Full

open Entity Entity.Prtl

/-- Two collections of particles have the same distribution: every sum over the particles of their
weight times a function of position and momentum is the same.  How many particles carry the weight does
not matter. -/
def SameDist {K : Type} [Field K] (l l' : List (View K)) : Prop :=
  ∀ φ : List Int → List K → List K → K,
    (l.map fun v => v.weight * φ v.cell v.dx v.u).sum =
      (l'.map fun v => v.weight * φ v.cell v.dx v.u).sum

/-- A species that takes part in the simulation: charged and pushed. -/
def Charged {K : Type} [Field K] (s : SpPrm K) : Prop := s.frozen = false ∧ s.charge ≠ 0

/-- A particle replaced by particles at the same position with the same momentum. -/
def Split {K : Type} [Field K] (v : View K) (l : List (View K)) : Prop :=
  (∀ w ∈ l, w.cell = v.cell ∧ w.dx = v.dx ∧ w.u = v.u) ∧ (l.map (·.weight)).sum = v.weight

end Entity.Full
