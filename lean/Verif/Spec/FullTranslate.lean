import Verif.Spec.FullStep

/-!
# Translation of a periodic box by whole cells
-/

namespace Entity.Full

open Entity Entity.Topology Entity.Kernel Entity.Ranks Entity.Prtl Entity.Push

/-- Translation of a cell of the periodic box by whole cells. -/
def moveCell (N : List Nat) (k p : List Int) : List Int := wrap N (List.zipWith (· + ·) p k)

/-- Translation of a particle. -/
def moveView {K : Type} (N : List Nat) (k : List Int) (v : View K) : View K :=
  { v with cell := moveCell N k v.cell, cellPrev := moveCell N k v.cellPrev }

/-- The active cells of a decomposition `m'` hold the electric and magnetic fields of `m` translated by
`k` cells. -/
def MovedEB {K : Type} (m m' : Meta) (N : List Nat) (k : List Int) (ng : Nat) (M M' : MMem K) : Prop :=
  ∀ r i r' i' p, Active m ng r i → Active m' ng r' i' → globalPos m N ng r i = some p →
    globalPos m' N ng r' i' = some (moveCell N k p) → ∀ c < 6, M r ⟨0, c, i⟩ = M' r' ⟨0, c, i'⟩

/-- The force does not depend on the position. -/
def Uniform {K : Type} (s : SpPrm K) : Prop := ∀ t x y E B u, s.kick t x E B u = s.kick t y E B u

end Entity.Full
