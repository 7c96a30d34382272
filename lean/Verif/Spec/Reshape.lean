import Verif.Model.Startup

/-! # Specification of a moving window -/

namespace Entity.Startup

open Entity.Float

/-- Cells of size `dx` along every axis, and at least one. -/
def Cubic (dx : ℚ) (box : List Axis) : Prop :=
  0 < dx ∧ box ≠ [] ∧ ∀ a ∈ box, 0 < a.n ∧ a.xmax = a.xmin + a.n * dx

/-- Cells moved in direction `i` by a list of shifts. -/
def total : List (Nat × Int) → Nat → Int
  | [], _ => 0
  | t :: rest, i => (if t.1 = i then t.2 else 0) + total rest i

/-- The box moved by `T i` cells in direction `i`. -/
def moveBox (dx : ℚ) (T : Nat → Int) (box : List Axis) : List Axis :=
  box.mapIdx (fun i a => ⟨a.xmin + T i * dx, a.xmax + T i * dx, a.n⟩)

/-- Integer multiples of `2 ^ e`. -/
def Multiple (e : Int) (x : ℚ) : Prop := ∃ m : Int, x = m * 2 ^ e

end Entity.Startup
