import Verif.Model.Shapes
import Verif.Model.Deposit

/-!
# Interpolation of the fields to a particle

Models `Pusher_kernel::getInterpolatedEMFields` (src/kernels/pushers/sr.hpp:851-1365).

* The eighteen formulas of the code (six components in one, two and three dimensions, for order 0 and
  for the orders 1 ... 11) all have the form of a nested sum, the first axis innermost; they differ in
  the weights along each axis, *primal* or *dual*.  `staggering` is the table of these choices as
  written in the code, `interpolate` the nested sum.
* A read outside the array is undefined.
* Numbers are elements of an ordered field; rounding is not modelled.
-/

namespace Entity.Interp

open Entity Entity.Push Entity.Shapes Entity.Deposit

variable {K : Type} [Field K] [LinearOrder K] [IsStrictOrderedRing K] [FloorRing K]

/-- The field components `em::ex1 … em::bx3` (global.h, `enum em`). -/
inductive Comp
  | ex1 | ex2 | ex3 | bx1 | bx2 | bx3
  deriving DecidableEq, Repr

/-- Which weights are used along which axis: `true` for dual, `false` for primal.
1D: sr.hpp:876-905, 1135-1171; 2D: 933-988, 1196-1261; 3D: 1020-1117, 1290-1364. -/
def staggering : Nat → Comp → List Bool
  | 1, .ex1 => [true]
  | 1, .ex2 => [false]
  | 1, .ex3 => [false]
  | 1, .bx1 => [false]
  | 1, .bx2 => [true]
  | 1, .bx3 => [true]
  | 2, .ex1 => [true, false]
  | 2, .ex2 => [false, true]
  | 2, .ex3 => [false, false]
  | 2, .bx1 => [false, true]
  | 2, .bx2 => [true, false]
  | 2, .bx3 => [true, true]
  | 3, .ex1 => [true, false, false]
  | 3, .ex2 => [false, true, false]
  | 3, .ex3 => [false, false, true]
  | 3, .bx1 => [false, true, true]
  | 3, .bx2 => [true, false, true]
  | 3, .bx3 => [true, true, false]
  | _, _ => []

/-- First index and weights along one axis.  Order 0 (sr.hpp:860-874): primal `i`, `1 - dx`, `dx`;
dual, with `ind = int(dx + 1/2)`: `i - 1 + ind`, `(ind + 1) - (dx + 1/2)` and its complement.
Orders 1 ... 11 (sr.hpp:1122-1133): `prtl_shape::order`. -/
def axisWeights (O : Nat) (dual : Bool) (i : Int) (dx : K) : Outcome (Int × List K) :=
  if O = 0 then
    if dual then
      let ind := castInt (dx + 1/2)
      let pm : K := ((ind + 1 : Int) : K) - (dx + 1/2)
      .ok (i - 1 + ind, [pm, 1 - pm])
    else .ok (i, [1 - dx, dx])
  else do
    let (m, S) ← order dual O i dx
    return (m, (List.range (O + 1)).map S)

/-- Reading one element of the field array; outside of it undefined. -/
def readAt (nAll : List Nat) (F : List Int → K) (idx : List Int) : Outcome K :=
  if inArray nAll idx then .ok (F idx) else .ub

/-- `acc += w[n] * value(m + n)` for `n = 0, 1, …`. -/
def sumOver (value : Int → Outcome K) : Int → List K → Outcome K
  | _, [] => .ok 0
  | m, w :: ws => do
    let v ← value m
    let r ← sumOver value (m + 1) ws
    return v * w + r

/-- The nested sum: `axes` lists first index and weights, the last axis first; `tail` are the indices
already fixed. -/
def nested (read : List Int → Outcome K) : List (Int × List K) → List Int → Outcome K
  | [], idx => read idx
  | (m, w) :: axes, tail => sumOver (fun n => nested read axes (n :: tail)) m w

/-- Weights of all axes. -/
def allWeights (O : Nat) : List Bool → List (Int × K) → Outcome (List (Int × List K))
  | [], [] => .ok []
  | s :: ss, (i, dx) :: ps => do
    let w ← axisWeights O s i dx
    let ws ← allWeights O ss ps
    return w :: ws
  | _, _ => .err

/-- One component of the field at a particle with indices and offsets `pos`
(sr.hpp:851-1365). -/
def interpolate (O : Nat) (NG : Int) (nAll : List Nat) (EB : Comp → List Int → K) (c : Comp)
    (pos : List (Int × K)) : Outcome K := do
  let ws ← allWeights O (staggering pos.length c) (pos.map (fun p => (p.1 + NG, p.2)))
  nested (readAt nAll (EB c)) ws.reverse []

end Entity.Interp
