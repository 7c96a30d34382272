import Verif.Model.Push

/-!
# Drifting Maxwellian
(src/archetypes/energy_dist.h:137-292)

The isotropic sample `v` and the uniform random number `ξ` are arguments: what `JuttnerSinge` and the
generator draw is not modelled, and the theorems hold for all of them.  `ε` is the tolerance of
`cmp::AlmostZero` (comparators.h:37-57).
-/

namespace Entity.Maxwell

open Entity.Push Entity.Push.V3

/-- `cmp::AlmostZero`, `cmp::AlmostZero_host` (comparators.h:37-42, 52-57). -/
noncomputable def almostZero (ε x : ℝ) : Bool := decide (|x| ≤ ε)

/-- Members of `Maxwellian` (energy_dist.h:276-291). -/
structure Dist where
  drift3 : ℝ
  drift4 : ℝ
  n : V3 ℝ
  dir : Int

/-- `SIGN` (src/global/utils/numeric.h:73). -/
noncomputable def sign (x : ℝ) : Int := if x < 0 then -1 else 1

/-- Constructor on a Cartesian metric (energy_dist.h:178-220); `drift_four_vel` has three
components. -/
noncomputable def mk (ε : ℝ) (d : V3 ℝ) : Dist :=
  let d4 := √d.normSq
  if almostZero ε d4 then ⟨0, d4, ⟨0, 0, 0⟩, 0⟩
  else
    ⟨d4 / √(1 + d4 ^ 2), d4, ⟨d.x / d4, d.y / d4, d.z / d4⟩,
      if almostZero ε d.z && almostZero ε d.y then sign d.x * 1
      else if almostZero ε d.x && almostZero ε d.z then sign d.y * 2
      else if almostZero ε d.y && almostZero ε d.x then sign d.z * 3
      else 4⟩

/-- The flip of energy_dist.h:236-240 (and 159-163): `ξ` is the random number. -/
noncomputable def flip (beta ξ : ℝ) (v : V3 ℝ) : V3 ℝ :=
  if -beta * v.x > √(1 + v.normSq) * ξ then ⟨-v.x, v.y, v.z⟩ else v

/-- The boost of energy_dist.h:236-242: `gamma` is computed before the flip. -/
noncomputable def boost (d4 d3 ξ : ℝ) (v : V3 ℝ) : V3 ℝ :=
  let gamma := √(1 + v.normSq)
  let w := flip d3 ξ v
  ⟨√(1 + d4 ^ 2) * (w.x + d3 * gamma), w.y, w.z⟩

/-- The rotation of energy_dist.h:243-271. -/
noncomputable def rotate (dir : Int) (n v : V3 ℝ) : V3 ℝ :=
  if dir = -1 then ⟨-v.x, v.y, v.z⟩
  else if dir = 2 ∨ dir = -2 then ⟨v.y, if dir > 0 then v.x else -v.x, v.z⟩
  else if dir = 3 ∨ dir = -3 then ⟨v.z, v.y, if dir > 0 then v.x else -v.x⟩
  else if dir = 4 then
    ⟨v.x * n.x - v.y * n.y - v.z * n.z,
     (v.x * n.y * (n.x + 1) + v.y * (n.x ^ 2 + n.x + n.z ^ 2) - v.z * n.y * n.z) / (n.x + 1),
     (v.x * n.z * (n.x + 1) - v.y * n.y * n.z - v.z * (-n.x + n.z ^ 2 - 1)) / (n.x + 1)⟩
  else v

/-- `Maxwellian::operator()` on a Cartesian metric (energy_dist.h:222-274), for the isotropic sample
`v` (zero if the temperature is zero). -/
noncomputable def sample (D : Dist) (ξ : ℝ) (v : V3 ℝ) : V3 ℝ :=
  if D.dir ≠ 0 then rotate D.dir D.n (boost D.drift4 D.drift3 ξ v) else v

/-- Component number `k` (0, 1, 2). -/
def comp (k : Nat) (v : V3 ℝ) : ℝ := if k = 0 then v.x else if k = 1 then v.y else v.z
/-- Assignment to component `k`. -/
def setComp (k : Nat) (c : ℝ) (v : V3 ℝ) : V3 ℝ :=
  if k = 0 then ⟨c, v.y, v.z⟩ else if k = 1 then ⟨v.x, c, v.z⟩ else ⟨v.x, v.y, c⟩

/-- `SampleFromMaxwellian<true>` (energy_dist.h:137-174) after the isotropic sample. -/
noncomputable def sampleFromMaxwellian (ε U : ℝ) (k : Nat) (flipVel : Bool) (ξ : ℝ) (v : V3 ℝ) :
    V3 ℝ :=
  if almostZero ε U then v
  else
    let beta := U / √(1 + U ^ 2)
    let gamma := √(1 + v.normSq)
    let v := if -beta * comp k v > gamma * ξ then setComp k (-comp k v) v else v
    let v := setComp k (√(1 + U ^ 2) * (comp k v + beta * gamma)) v
    if flipVel then ⟨-v.x, -v.y, -v.z⟩ else v

end Entity.Maxwell
