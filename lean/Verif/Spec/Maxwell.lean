import Verif.Spec.Fields

/-!
# Specification: Maxwell's equations on the staggered grid

Physical components of a vector stored with contravariant components on a grid of `D` axes with
spacing `dx`: those along the axes of the grid are `dx` times the stored ones.
-/

namespace Entity.FieldSolver

variable {K : Type} [Field K]

/-- Physical components. -/
def phys (D : Nat) (dx : K) (F : Nat → List Int → K) : Nat → List Int → K :=
  fun c o => if c < D then dx * F c o else F c o

/-- Forward (extended) difference along axis `a`; nothing depends on axes beyond the `D`-th. -/
def dUp (D : Nat) (c : Coeffs K) (a : Nat) (f : List Int → K) : K :=
  if a < D then extDiff D c a f else 0

/-- Backward difference along axis `a`. -/
def dDown (D : Nat) (a : Nat) (f : List Int → K) : K :=
  if a < D then f (off D []) - f (off D [(a, -1)]) else 0

/-- Component `a` of the curl with forward differences, (curl F)_a = d_b F_c - d_c F_b for (a, b, c)
cyclic. -/
def curlUp (D : Nat) (k : Coeffs K) (F : Nat → List Int → K) (a : Nat) : K :=
  dUp D k ((a + 1) % 3) (F ((a + 2) % 3)) - dUp D k ((a + 2) % 3) (F ((a + 1) % 3))

/-- Component `a` of the curl with backward differences. -/
def curlDown (D : Nat) (F : Nat → List Int → K) (a : Nat) : K :=
  dDown D ((a + 1) % 3) (F ((a + 2) % 3)) - dDown D ((a + 2) % 3) (F ((a + 1) % 3))

end Entity.FieldSolver
