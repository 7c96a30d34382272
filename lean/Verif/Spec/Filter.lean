import Mathlib.Algebra.Field.Basic
import Mathlib.Algebra.BigOperators.Group.List.Basic

/-!
# Specification: smoothing of grid functions

A grid function is a function of the (integer) position.
-/

namespace Entity.Filter

variable {K : Type} [Field K]

/-- One pass of the (1/4, 1/2, 1/4) filter along axis `a`. -/
def smooth (a : Nat) (f : List Int → K) : List Int → K :=
  fun p => f p / 2 + (f (p.modify a (· - 1)) + f (p.modify a (· + 1))) / 4

/-- The filter along each of the `D` axes, one after the other. -/
def smoothAll (D : Nat) (f : List Int → K) : List Int → K :=
  (List.range D).foldl (fun f a => smooth a f) f

/-- A grid function of the second coordinate continued evenly across axes at the nodes `lo` and
`hi` (if there are axes). -/
def evenExt (axisMin axisMax : Bool) (lo hi : Int) (f : List Int → K) : List Int → K :=
  fun p => match p with
  | [x, y] =>
    if axisMin && decide (y < lo) then f [x, 2 * lo - y]
    else if axisMax && decide (hi < y) then f [x, 2 * hi - y]
    else f p
  | _ => f p

/-- The same, continued oddly; the function is zero on the axes. -/
def oddExt (axisMin axisMax : Bool) (lo hi : Int) (f : List Int → K) : List Int → K :=
  fun p => match p with
  | [x, y] =>
    if axisMin && decide (y = lo) then 0
    else if axisMin && decide (y < lo) then -f [x, 2 * lo - y]
    else if axisMax && decide (y = hi) then 0
    else if axisMax && decide (hi < y) then -f [x, 2 * hi - y]
    else f p
  | _ => f p

/-- A grid function known half-way between the nodes (index `y` stands for `y + 1/2`) continued
oddly across axes at the nodes `lo` and `hi`. -/
def oddHalfExt (axisMin axisMax : Bool) (lo hi : Int) (f : List Int → K) : List Int → K :=
  fun p => match p with
  | [x, y] =>
    if axisMin && decide (y < lo) then -f [x, 2 * lo - 1 - y]
    else if axisMax && decide (hi ≤ y) then -f [x, 2 * hi - 1 - y]
    else f p
  | _ => f p

end Entity.Filter
