import Verif.Spec.FullStep

/-!
# Units of charge, field and weight
-/

namespace Entity.Full

open Entity Entity.Topology Entity.Kernel Entity.Ranks Entity.Prtl Entity.Push

/-- A particle whose weight is multiplied by `ν`. -/
def weighView {K : Type} [Mul K] (ν : K) (v : View K) : View K := { v with weight := ν * v.weight }

/-- The active cells of `m'` hold the electric and magnetic fields of `m` times `l`. -/
def ScaledEB {K : Type} [Mul K] (m m' : Meta) (N : List Nat) (ng : Nat) (l : K) (M M' : MMem K) : Prop :=
  ∀ r i r' i' p, Active m ng r i → Active m' ng r' i' → globalPos m N ng r i = some p →
    globalPos m' N ng r' i' = some p → ∀ c < 6, M' r' ⟨0, c, i'⟩ = l * M r ⟨0, c, i⟩

/-- The charge is multiplied by `μ`, and fields `l` times as large act in the same way as before. -/
structure Rescaled {K : Type} [Field K] (l μ : K) (s s' : SpPrm K) : Prop where
  kind : s'.kind = s.kind
  charge : s'.charge = μ * s.charge
  frozen : s'.frozen = s.frozen
  kick : ∀ t x E B u, s'.kick t x (E.smul l) (B.smul l) u = s.kick t x E B u
  dtE : s'.dtE = s.dtE
  invE : s'.invE = s.invE

end Entity.Full
