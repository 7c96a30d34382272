import Verif.Spec.Filter
import Verif.Model.Filter

/-!
# The current at a conducting wall, as the filter should see it

`upper` chooses the wall at the upper end of an axis.
-/

namespace Entity.Filter

variable {K : Type}

/-- The layer of active cells at the wall across axis `a`. -/
def wallLayer (c : Cfg) (a : Nat) (upper : Bool) : Int :=
  if upper then c.size a + c.ng - 1 else c.ng

/-- The layer of active cells next to it. -/
def nextLayer (c : Cfg) (a : Nat) (upper : Bool) : Int :=
  if upper then c.size a + c.ng - 2 else c.ng + 1

/-- A grid function continued evenly along axis `a` across the wall behind layer `w`: the first layer
behind the wall repeats layer `w`, the second one the layer next to `w`, and so on. -/
def mirrored (a : Nat) (upper : Bool) (w : Int) (f : List Int → K) : List Int → K := fun q =>
  f (q.modify a fun i => if upper then (if w < i then 2 * w + 1 - i else i) else
    (if i < w then 2 * w - 1 - i else i))

/-- A grid function without its values in layer `w` across axis `a`. -/
def without [Zero K] (a : Nat) (w : Int) (f : List Int → K) : List Int → K := fun q =>
  if q[a]? = some w then 0 else f q

/-- Walls for which the filter is right: at the lower end of axis `a` with at least three cells between
the walls, or at the upper end without a wall at the lower one. -/
def WallAt (c : Cfg) (a : Nat) (upper : Bool) : Prop :=
  if upper then c.cond a = (false, true) else (c.cond a).1 = true ∧ 3 ≤ c.size a

/-- Cell `t` is at least two layers away from all walls across axes other than `a`. -/
def OffOthers (c : Cfg) (a : Nat) (t : List Int) : Prop :=
  ∀ b, b ≠ a → ∀ i, t[b]? = some i →
    ((c.cond b).1 = true → i ≠ wallLayer c b false ∧ i ≠ nextLayer c b false) ∧
    ((c.cond b).2 = true → i ≠ wallLayer c b true ∧ i ≠ nextLayer c b true)

end Entity.Filter
