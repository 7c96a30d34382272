import Verif.Model.Push
import Mathlib.Algebra.Order.Archimedean.Real.Basic

/-!
# Moving piston
(src/archetypes/piston.h)

Cartesian metric with cell size `Δ` and lower end `x0` along x1 (src/metrics/minkowski.h): a
velocity component becomes a rate of change of the cell coordinate by division by `Δ`
(minkowski.h:263-276), positions by `(x - x0) / Δ` (minkowski.h:157-183).
-/

namespace Entity.Piston

open Entity Entity.Push Entity.Push.V3

/-- The columns of a particle the piston touches. -/
structure P where
  i : Int
  dx : ℝ
  iPrev : Int
  dxPrev : ℝ
  u : V3 ℝ

/-- The wall: its position at the start of the step and its velocity (piston.h:52-58). -/
structure Wall where
  pos : ℝ
  v : ℝ

/-- `CrossesPiston` with `is_left = true` (piston.h:52-70). -/
noncomputable def crosses (x0 Δ dt : ℝ) (w : Wall) (p : P) : Bool :=
  decide (w.pos > (iDiToXi p.i p.dx - w.v / Δ * dt) * Δ + x0)

/-- `massive ? U2GAMMA(…) : NORM(…)` (piston.h:98-101, 132-137). -/
noncomputable def energy (massive : Bool) (u : V3 ℝ) : ℝ :=
  if massive then √(1 + u.normSq) else √u.normSq

/-- Bring an offset back to its cell: the three statements of piston.h:145-148, 156-159, executed one
after the other. -/
noncomputable def renorm (i : Int) (d : ℝ) : Int × ℝ :=
  let i' := i + b2i (decide (d ≥ 1)) - b2i (decide (d < 0))
  let d₁ := d - b2n (decide (d ≥ 1))
  let d₂ := d₁ + b2n (decide (d₁ < 0))
  (i', d₂)

/-- The reflected x1 component (piston.h:113, 128-130). -/
noncomputable def reflectU (v g ux : ℝ) : ℝ :=
  -((1 / √(1 - v ^ 2)) ^ 2) * ((1 + v ^ 2) * ux - 2 * v * g)

/-- `Piston` (piston.h:84-160). -/
noncomputable def piston (x0 Δ dt : ℝ) (massive : Bool) (w : Wall) (p : P) : P :=
  if crosses x0 Δ dt w p then
    let g := energy massive p.u
    let bx := p.u.x / g
    let iw := (fromXiToIDi ((w.pos - x0) / Δ)).1
    let dw := (fromXiToIDi ((w.pos - x0) / Δ)).2
    let toPiston := iDiToXi (iw - p.iPrev) (dw - p.dxPrev)
    let dtTo := toPiston / ((bx - w.v) / Δ)
    let rest := dt - dtTo
    let u' : V3 ℝ := ⟨reflectU w.v g p.u.x, p.u.y, p.u.z⟩
    let restInv := rest / energy massive u'
    let c := renorm iw (dw + w.v / Δ * dtTo)
    let q := renorm c.1 (u'.x / Δ * restInv + c.2)
    { p with i := q.1, dx := q.2, u := u' }
  else p

end Entity.Piston
