import Verif.Spec.FullStep

/-!
# Renaming the axes of a three-dimensional box
-/

namespace Entity.Full

open Entity Entity.Topology Entity.Kernel Entity.Ranks Entity.Prtl Entity.Push Entity.FieldSolver

/-- The axes renamed: what was the second axis is the first one, and so on. -/
def rot {α : Type} : List α → List α
  | [a, b, c] => [b, c, a]
  | l => l

/-- The same for a vector. -/
def rotV {K : Type} (u : V3 K) : V3 K := ⟨u.y, u.z, u.x⟩

/-- Component `c` of the electric (0, 1, 2) or magnetic (3, 4, 5) field after the renaming is this
component before. -/
def rotC : Nat → Nat
  | 0 => 1
  | 1 => 2
  | 2 => 0
  | 3 => 4
  | 4 => 5
  | 5 => 3
  | c => c

/-- A particle. -/
def rotView {K : Type} (v : View K) : View K :=
  { v with
    cell := rot v.cell
    cellPrev := rot v.cellPrev
    dx := rot v.dx
    dxPrev := rot v.dxPrev
    u := rot v.u }

/-- The coefficients of the field solver: `x` in place of `y`, `y` in place of `z`, `z` in place of
`x`. -/
def rotCoeffs {K : Type} (c : Coeffs K) : Coeffs K where
  deltax := c.deltay
  deltay := c.deltaz
  deltaz := c.deltax
  betaxy := c.betayz
  betayz := c.betazx
  betazx := c.betaxy
  betayx := c.betazy
  betazy := c.betaxz
  betaxz := c.betayx

/-- The active cells of a decomposition `m'` hold the electric and magnetic fields of `m` with the axes
renamed. -/
def RotEB {K : Type} (m m' : Meta) (N : List Nat) (ng : Nat) (M M' : MMem K) : Prop :=
  ∀ r i r' i' p, Active m ng r i → Active m' ng r' i' → globalPos m N ng r i = some p →
    globalPos m' (rot N) ng r' i' = some (rot p) → ∀ c < 6, M' r' ⟨0, c, i'⟩ = M r ⟨0, rotC c, i⟩

/-- The force and the energy of a particle do not depend on the names of the axes. -/
structure Isotropic {K : Type} (s : SpPrm K) : Prop where
  kick : ∀ t x E B u, x.length = 3 →
    s.kick t (rot x) (rotV E) (rotV B) (rotV u) = rotV (s.kick t x E B u)
  dtE : ∀ u, s.dtE (rotV u) = s.dtE u

end Entity.Full
