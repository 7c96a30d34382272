import Verif.Model.Push
import Mathlib.Data.Int.Log
import Mathlib.Data.Rat.Floor

/-!
# Positions of particles in floating-point numbers

The offset of a particle in its cell has the type `prtldx_t = float` (src/global/global.h:348); all other
numbers have the type `real_t`, `float` or `double` (global.h:349-355).  This file models the update of the
offset in these types: the Cartesian branch of `positionPush` (src/kernels/pushers/sr.hpp:537-571) and the
conversion of a code coordinate to cell and offset (`from_Xi_to_i_di`, sr.hpp:41-52, gr.hpp:35-46).

Floating-point numbers are rational numbers; every operation is the exact one followed by rounding to
nearest, ties to even (IEEE 754).  Simplification: no overflow, infinities, not-a-numbers and signed zeros —
the numbers here are far from the largest one.
-/

namespace Entity.Float

open Entity Entity.Push

/-- A binary format: number of digits and smallest exponent of the last digit. -/
structure Fmt where
  p : Nat
  emin : Int

/-- `float`. -/
def b32 : Fmt := ⟨24, -149⟩

/-- `double`. -/
def b64 : Fmt := ⟨53, -1074⟩

/-- The nearest integer, the even one if there are two. -/
def nearestEven (q : ℚ) : Int :=
  if q - ⌊q⌋ < 1 / 2 then ⌊q⌋
  else if 1 / 2 < q - ⌊q⌋ then ⌊q⌋ + 1
  else if ⌊q⌋ % 2 = 0 then ⌊q⌋ else ⌊q⌋ + 1

/-- Exponent of the last digit of the numbers next to `x`. -/
def Fmt.quantum (F : Fmt) (x : ℚ) : Int := max (Int.log 2 |x| + 1 - F.p) F.emin

/-- Rounding to a format. -/
def Fmt.round (F : Fmt) (x : ℚ) : ℚ :=
  nearestEven (x / 2 ^ F.quantum x) * 2 ^ F.quantum x

/-- `static_cast<int>` of a floating-point number: truncation towards zero. -/
def toInt (x : ℚ) : Int := if 0 ≤ x then ⌊x⌋ else ⌈x⌉

/-- Cartesian branch of `positionPush` for one axis (sr.hpp:537-547, 549-559, 561-571), offsets in the
format `st`, `real_t` in the format `rt`.  `disp` is the displacement, any number (the product may be
fused with the addition).  `dx += disp` is computed in `real_t` and stored in `st`. -/
def pushAxis (st rt : Fmt) (disp : ℚ) (a : Ax ℚ) : Ax ℚ :=
  let dx₁ := st.round (rt.round (a.dx + disp))
  let i := a.i + b2i (decide (dx₁ ≥ 1)) - b2i (decide (dx₁ < 0))
  let dx₂ := st.round (dx₁ - b2n (decide (dx₁ ≥ 1)))
  let dx₃ := st.round (dx₂ + b2n (decide (dx₂ < 0)))
  { a with i := i, iPrev := a.i, dx := dx₃, dxPrev := a.dx }

/-- `from_Xi_to_i_di` (sr.hpp:41-50, gr.hpp:35-44): the coordinate `xi` is a `real_t`; the offset is the
difference of the coordinate and the cell, both first converted to `st`. -/
def fromXi (st rt : Fmt) (xi : ℚ) : Int × ℚ :=
  let i := toInt (rt.round (xi + 1)) - 1
  (i, st.round (st.round xi - st.round (i : ℚ)))

/-- `i_di_to_Xi` (sr.hpp:52, gr.hpp:46). -/
def toXi (rt : Fmt) (i : Int) (di : ℚ) : ℚ := rt.round (rt.round (i : ℚ) + rt.round di)

/-- A step along one axis of a curvilinear grid as far as rounding is concerned (sr.hpp:572-616,
820-832): coordinate, displacement by `disp`, back to cell and offset.  Simplification: the
conversions to and from Cartesian coordinates are exact, so that `disp` is the displacement in the code
coordinate. -/
def pushXi (st rt : Fmt) (disp : ℚ) (a : Int × ℚ) : Int × ℚ :=
  fromXi st rt (rt.round (toXi rt a.1 a.2 + disp))

end Entity.Float
