import Verif.Model.FieldSolver
import Mathlib.Algebra.BigOperators.Group.List.Basic

/-!
# Specification: discrete differences and divergences

Fields are given around a cell: `F c o` is component `c` (0, 1, 2) at the cell shifted by `o`.
-/

namespace Entity.FieldSolver

open Entity.Kernel

variable {K : Type} [Field K]

/-- The offset with the given entries along some axes and 0 along the others. -/
def off (D : Nat) (l : List (Nat × Int)) : List Int :=
  l.foldl (fun o x => o.set x.1 x.2) (List.replicate D 0)

/-- Magnetic field around cell `i` of a memory. -/
def magnetic (m : Mem K) (i : List Int) : Nat → List Int → K :=
  fun c o => m ⟨0, 3 + c, List.zipWith (· + ·) i o⟩

/-- Electric field around cell `i` of a memory. -/
def electric (m : Mem K) (i : List Int) : Nat → List Int → K :=
  fun c o => m ⟨0, c, List.zipWith (· + ·) i o⟩

/-- Current around cell `i` of a memory. -/
def current (m : Mem K) (i : List Int) : Nat → List Int → K :=
  fun c o => m ⟨1, c, List.zipWith (· + ·) i o⟩

/-- Coefficient `delta` of axis `a`. -/
def Coeffs.delta (c : Coeffs K) : Nat → K
  | 0 => c.deltax
  | 1 => c.deltay
  | _ => c.deltaz

/-- Coefficient `beta` of the difference along `a` at neighbours along `b`. -/
def Coeffs.beta (c : Coeffs K) : Nat → Nat → K
  | 0, 1 => c.betaxy
  | 0, _ => c.betaxz
  | 1, 0 => c.betayx
  | 1, _ => c.betayz
  | _, 0 => c.betazx
  | _, _ => c.betazy

/-- The standard solver. -/
def Coeffs.yee : Coeffs K := ⟨0, 0, 0, 0, 0, 0, 0, 0, 0⟩

/-- Extended difference of `f` along axis `a`: a weighted mean of the difference over one cell, the
difference over three cells, and the differences over one cell at the neighbours along the other
axes. -/
def extDiff (D : Nat) (c : Coeffs K) (a : Nat) (f : List Int → K) : K :=
  let others := (List.range D).filter (· ≠ a)
  (1 - 2 * (others.map (c.beta a)).sum - 3 * c.delta a) * (f (off D [(a, 1)]) - f (off D [])) +
    c.delta a * (f (off D [(a, 2)]) - f (off D [(a, -1)])) +
    (others.map (fun b => c.beta a b * ((f (off D [(a, 1), (b, 1)]) - f (off D [(b, 1)])) +
      (f (off D [(a, 1), (b, -1)]) - f (off D [(b, -1)]))))).sum

/-- Divergence of a magnetic field built with the extended differences. -/
def divExt (D : Nat) (c : Coeffs K) (F : Nat → List Int → K) : K :=
  ((List.range D).map (fun a => extDiff D c a (F a))).sum

/-- Ordinary divergence of a magnetic field (normal components at the lower faces of the cell). -/
def divUp (D : Nat) (F : Nat → List Int → K) : K :=
  ((List.range D).map (fun a => F a (off D [(a, 1)]) - F a (off D []))).sum

/-- Ordinary divergence of an electric field at the lower corner of the cell. -/
def divDown (D : Nat) (F : Nat → List Int → K) : K :=
  ((List.range D).map (fun a => F a (off D []) - F a (off D [(a, -1)]))).sum

end Entity.FieldSolver
