import Verif.Spec.FullStep

/-!
# Exchanging the first two axes of a box: a mirror image
-/

namespace Entity.Full

open Entity Entity.Topology Entity.Kernel Entity.Ranks Entity.Prtl Entity.Push Entity.FieldSolver

/-- The first two axes exchanged. -/
def swap {α : Type} : List α → List α
  | a :: b :: l => b :: a :: l
  | l => l

/-- The same for a vector. -/
def swapV {K : Type} (u : V3 K) : V3 K := ⟨u.y, u.x, u.z⟩

/-- The same for an axial vector like the magnetic field, which changes its sign in a mirror. -/
def swapA {K : Type} [Neg K] (b : V3 K) : V3 K := ⟨-b.y, -b.x, -b.z⟩

/-- Component `c` of the electric (0, 1, 2) or magnetic (3, 4, 5) field of the mirror image comes from
this component of the original. -/
def swapC : Nat → Nat
  | 0 => 1
  | 1 => 0
  | 3 => 4
  | 4 => 3
  | c => c

/-- Its sign. -/
def swapSign {K : Type} [One K] [Neg K] (c : Nat) : K := if c < 3 then 1 else -1

/-- A particle. -/
def swapView {K : Type} (v : View K) : View K :=
  { v with
    cell := swap v.cell
    cellPrev := swap v.cellPrev
    dx := swap v.dx
    dxPrev := swap v.dxPrev
    u := swap v.u }

/-- The coefficients of the field solver with `x` and `y` exchanged. -/
def swapCoeffs {K : Type} (c : Coeffs K) : Coeffs K where
  deltax := c.deltay
  deltay := c.deltax
  deltaz := c.deltaz
  betaxy := c.betayx
  betayx := c.betaxy
  betaxz := c.betayz
  betayz := c.betaxz
  betazx := c.betazy
  betazy := c.betazx

/-- The active cells of a decomposition `m'` hold the mirror image of the electric and magnetic fields
of `m`. -/
def SwapEB {K : Type} [One K] [Neg K] [Mul K] (m m' : Meta) (N : List Nat) (ng : Nat)
    (M M' : MMem K) : Prop :=
  ∀ r i r' i' p, Active m ng r i → Active m' ng r' i' → globalPos m N ng r i = some p →
    globalPos m' (swap N) ng r' i' = some (swap p) →
    ∀ c < 6, M' r' ⟨0, c, i'⟩ = swapSign c * M r ⟨0, swapC c, i⟩

/-- The force and the energy of a particle in a `D`-dimensional box are those of its mirror image,
mirrored. -/
structure Mirrored {K : Type} [Neg K] (D : Nat) (s : SpPrm K) : Prop where
  kick : ∀ t x E B u, x.length = D →
    s.kick t (swap x) (swapV E) (swapA B) (swapV u) = swapV (s.kick t x E B u)
  dtE : ∀ u, s.dtE (swapV u) = s.dtE u
  invE : ∀ u, s.invE (swapV u) = s.invE u

end Entity.Full
