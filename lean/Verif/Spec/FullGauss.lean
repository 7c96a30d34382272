import Verif.Spec.FullStep
import Verif.Spec.Gauss

/-!
# Charges of a simulation
-/

namespace Entity.Full

open Entity Entity.Topology Entity.Kernel Entity.FieldSolver Entity.Push Entity.Prtl Entity.Ranks
open Entity.Deposit Entity.Interp Entity.Tags Entity.Filter Entity.Gauss

variable {K : Type} [Field K]

/-- The charge of a particle, at its position in the box. -/
def chargeOf (charge : K) (v : View K) : Charge K :=
  ⟨v.weight * charge, List.zipWith (fun (i : Int) x => (i : K) + x) v.cell v.dx⟩

/-- The charges of all live particles of all species on all ranks. -/
def chargesOf (m : Meta) (dN : List (List Nat)) (sps : List (SpPrm K)) (st : Nat → Nat → Store K) :
    List (Charge K) :=
  sps.zipIdx.flatMap fun (x : SpPrm K × Nat) =>
    (held m dN x.1.kind (st x.2)).map (chargeOf x.1.charge)

end Entity.Full
