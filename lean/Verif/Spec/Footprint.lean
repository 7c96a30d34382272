import Mathlib.Data.Rat.Defs
import Mathlib.Algebra.BigOperators.Group.List.Basic

/-!
# What a subdomain needs
-/

namespace Entity.Footprint

/-- Numbers stored per cell: two sets of electromagnetic fields, currents and a buffer; with general relativity two
more sets of fields and another set of currents. -/
def perCell (gr : Bool) : Nat := if gr then 33 else 18

/-- Bytes of the fields of a grid with `res` cells and `ng` ghost cells on all sides. -/
def fieldBytes (real ng : Nat) (gr : Bool) (res : List Nat) : Nat :=
  real * perCell gr * (res.map (· + 2 * ng)).prod

/-- Bytes per particle: cell and place in it, now and before, along each axis; velocity and weight; tag; additional
numbers; the azimuth on two-dimensional grids that are not Cartesian. -/
def perParticle (real D : Nat) (cartesian : Bool) (npldR npldI : Nat) : Nat :=
  D * (2 * (4 + 4)) + 4 * real + 2 + npldR * real + npldI * 4 +
    (if D = 2 ∧ cartesian = false then real else 0)

/-- Bytes in a unit. -/
def unitBytes : String → Nat
  | "B" => 1
  | "KB" => 1024
  | "MB" => 1024 ^ 2
  | "GB" => 1024 ^ 3
  | "TB" => 1024 ^ 4
  | _ => 0

/-- A figure with a unit denotes a number of bytes, and the unit suits it: the figure is less than 1024, unless
there is no larger unit, and not less than 1, unless there is no smaller one. -/
def Shows (f : ℚ × String) (bytes : Nat) : Prop :=
  f.1 * (unitBytes f.2 : ℚ) = bytes ∧ (f.1 < 1024 ∨ f.2 = "TB") ∧ (1 ≤ f.1 ∨ f.2 = "B")

end Entity.Footprint
