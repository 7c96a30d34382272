import Verif.Model.MetricGR
import Verif.Model.Interp

/-!
# The general-relativistic particle pusher

Models `src/kernels/pushers/gr.hpp`, the boundary flags of `src/kernels/pushers/context.h:211-228` and
`src/engines/grpic/particle_pusher.h` (2D; the 1D and 3D branches raise errors).

* Numbers are exact.  Quotients by zero do not occur under the hypotheses of the theorems, which say
  that Γ is positive.
* Positions are code coordinates.  `GeodesicFullPush` (gr.hpp:383-453) is called nowhere and not
  modelled; neither is `epsilon`, used by it alone.
-/

namespace Entity.GRPush

open Entity Entity.Push Entity.Metric
open Real

/-- What the pusher uses of a metric class: lapse, shift and derivatives, `transform`, and
`convert<2, Cd, Ph>`, `convert<2, Ph, Cd>`. -/
structure Met where
  deriv : ℝ → ℝ → Deriv
  transform : ℝ → ℝ → Idx → Idx → V3 ℝ → Outcome (V3 ℝ)
  toPh2 : ℝ → ℝ
  toCd2 : ℝ → Outcome ℝ

/-- `KerrSchild` as used by the pusher. -/
noncomputable def ofKS (m : KS) : Met := ⟨m.deriv, m.transform, m.toPh2, fun x => .ok (m.toCd2 x)⟩

/-- `KerrSchild0` as used by the pusher. -/
noncomputable def ofKS0 (m : KS0) : Met := ⟨m.deriv, m.transform, m.toPh2, fun x => .ok (m.toCd2 x)⟩

/-- `QKerrSchild` as used by the pusher; a conversion that is not a number is `ub`. -/
noncomputable def ofQKS (m : QKS) : Met :=
  ⟨m.deriv, m.transform, m.toPh2, fun x => match m.toCd2 x with | some y => .ok y | none => .ub⟩

/-- `computeGamma` (gr.hpp:242-257). -/
noncomputable def gamma (massive : Bool) (u v : V3 ℝ) : ℝ :=
  if massive then √(1 + u.x * v.x + u.y * v.y + u.z * v.z) else √(u.x * v.x + u.y * v.y + u.z * v.z)

/-! ## Geodesic motion -/

/-- The bracket multiplied by `dt` in the update of the first component (gr.hpp:311-318); `d` lapse,
shift and derivatives at the position, `u0` the variable of that name, `w` the midpoint velocity. -/
noncomputable def rateR (d : Deriv) (u0 : ℝ) (w : V3 ℝ) : ℝ :=
  -d.alpha * u0 * d.drAlpha + w.x * d.drBeta1 -
    (1 / 2 / u0) * (d.drH11 * w.x ^ 2 + d.drH22 * w.y ^ 2 + d.drH33 * w.z ^ 2 +
      2 * d.drH13 * w.x * w.z)

/-- The same for the second component (gr.hpp:319-326). -/
noncomputable def rateT (d : Deriv) (u0 : ℝ) (w : V3 ℝ) : ℝ :=
  -d.alpha * u0 * d.dtAlpha + w.x * d.dtBeta1 -
    (1 / 2 / u0) * (d.dtH11 * w.x ^ 2 + d.dtH22 * w.y ^ 2 + d.dtH33 * w.z ^ 2 +
      2 * d.dtH13 * w.x * w.z)

/-- One pass of the loop of `GeodesicMomentumPush` (gr.hpp:281-327): velocity `v` at the start of the
step, `w` the value of `vp_upd` before the pass. -/
noncomputable def momentumPass (g : Met) (massive : Bool) (dt x1 x2 : ℝ) (v w : V3 ℝ) :
    Outcome (V3 ℝ) := do
  let mid : V3 ℝ := ⟨1 / 2 * (v.x + w.x), 1 / 2 * (v.y + w.y), v.z⟩
  let c ← g.transform x1 x2 .D .U mid
  let u0 := gamma massive mid c / (g.deriv x1 x2).alpha
  return ⟨v.x + dt * rateR (g.deriv x1 x2) u0 mid, v.y + dt * rateT (g.deriv x1 x2) u0 mid, w.z⟩

/-- `GeodesicMomentumPush` (gr.hpp:266-331) with `n` passes (`ctx.niter`). -/
noncomputable def momentumPush (g : Met) (massive : Bool) (dt x1 x2 : ℝ) (v : V3 ℝ) :
    Nat → Outcome (V3 ℝ)
  | 0 => .ok v
  | n + 1 => momentumPush g massive dt x1 x2 v n >>= momentumPass g massive dt x1 x2 v

/-- `constant::SMALL_ANGLE_GR` (src/global/utils/numeric.h:103). -/
noncomputable def smallAngle : ℝ := 1 / 100000

/-- Angle kept away from the axis (gr.hpp:352-366, 750-760). -/
noncomputable def clampAngle (g : Met) (x2 : ℝ) : Outcome ℝ :=
  if g.toPh2 x2 < smallAngle then g.toCd2 smallAngle
  else if g.toPh2 x2 ≥ π - smallAngle then g.toCd2 (π - smallAngle)
  else .ok x2

/-- One pass of the loop of `GeodesicCoordinatePush` (gr.hpp:347-377): coordinates `(x1, x2)` at the
start of the step, `y` the value of `xp_upd` before the pass. -/
noncomputable def coordinatePass (g : Met) (massive : Bool) (dt x1 x2 : ℝ) (v : V3 ℝ) (y : ℝ × ℝ) :
    Outcome (ℝ × ℝ) := do
  let m1 := 1 / 2 * (x1 + y.1)
  let m2 ← clampAngle g (1 / 2 * (x2 + y.2))
  let c ← g.transform m1 m2 .D .U v
  let u0 := gamma massive v c / (g.deriv m1 m2).alpha
  return (x1 + dt * (c.x / u0 - (g.deriv m1 m2).beta1), x2 + dt * (c.y / u0))

/-- `GeodesicCoordinatePush` (gr.hpp:333-381) with `n` passes. -/
noncomputable def coordinatePush (g : Met) (massive : Bool) (dt x1 x2 : ℝ) (v : V3 ℝ) :
    Nat → Outcome (ℝ × ℝ)
  | 0 => .ok (x1, x2)
  | n + 1 => coordinatePush g massive dt x1 x2 v n >>= coordinatePass g massive dt x1 x2 v

/-- `UpdatePhi` (gr.hpp:456-480): the value its parameter `phi` has at the end.  The parameter is
passed by value (gr.hpp:161-164), so the caller never sees it. -/
noncomputable def updatePhi (g : Met) (massive : Bool) (dt x1 x2 : ℝ) (v : V3 ℝ) (phi : ℝ) :
    Outcome ℝ := do
  let c ← g.transform x1 x2 .D .U v
  let u0 := gamma massive v c / (g.deriv x1 x2).alpha
  let phi := phi + dt * c.z / u0
  return if phi ≥ 2 * π then phi - 2 * π else if phi < 0 then phi + 2 * π else phi

/-! ## Electromagnetic push -/

/-- `EMHalfPush` (gr.hpp:176-219); `c` is `normalized_dt_half` (gr.hpp:101-102).  The statements between
the two transformations are those of the special-relativistic Boris pusher with its coefficient
replaced by `normalized_dt_half * HALF * metric.alpha(xp)`. -/
noncomputable def emHalfPush (g : Met) (c x1 x2 : ℝ) (v dHat bHat : V3 ℝ) : Outcome (V3 ℝ) := do
  let u ← g.transform x1 x2 .D .T v
  g.transform x1 x2 .T .D (boris (c * (1 / 2) * (g.deriv x1 x2).alpha) dHat bHat u)

/-! ## One particle -/

/-- The columns of a particle the kernel reads or writes (2D). -/
structure GPrtl where
  i1 : Int
  i2 : Int
  i1Prev : Int
  i2Prev : Int
  dx1 : ℝ
  dx2 : ℝ
  dx1Prev : ℝ
  dx2Prev : ℝ
  u : V3 ℝ
  phi : ℝ
  tag : Int

/-- Members of the kernel (gr.hpp:74-102, context.h:182-222): `c` is `normalized_dt_half`, `n1`, `n2`
the members `ni1`, `ni2`. -/
structure Ctx where
  mass : ℝ
  charge : ℝ
  dt : ℝ
  omegaB0 : ℝ
  niter : Nat
  n1 : Int
  n2 : Int
  absorb1Lo : Bool
  absorb1Hi : Bool
  axis2Lo : Bool
  axis2Hi : Bool
  mpi : Bool

/-- `normalized_dt_half` (gr.hpp:101-102). -/
noncomputable def Ctx.dtHalf (k : Ctx) : ℝ := 1 / 2 * (k.charge / k.mass) * k.omegaB0 * k.dt

/-- Flags of `PusherBoundaries` (context.h:215-228) from the boundary kinds; fewer than two axes is
the error of `validate`. -/
def flags (bcs : List (PBC × PBC)) : Outcome (Bool × Bool × Bool × Bool) :=
  match bcs with
  | b1 :: b2 :: _ =>
    .ok (decide (b1.1 = .absorb) || decide (b1.1 = .horizon),
      decide (b1.2 = .absorb) || decide (b1.2 = .horizon), decide (b2.1 = .axis),
      decide (b2.2 = .axis))
  | _ => .err

/-- `boundaryConditions` (gr.hpp:818-863). -/
noncomputable def boundary (k : Ctx) (p : GPrtl) : GPrtl :=
  let tag := if (p.i1 < 0 ∧ k.absorb1Lo) ∨ (p.i1 ≥ k.n1 ∧ k.absorb1Hi) then Tags.dead else p.tag
  let p := { p with tag := tag }
  let p :=
    if p.i2 < 0 then
      if k.axis2Lo then { p with i2 := 0, dx2 := 1 - p.dx2, u := ⟨p.u.x, -p.u.y, p.u.z⟩ } else p
    else if p.i2 ≥ k.n2 then
      if k.axis2Hi then { p with i2 := k.n2 - 1, dx2 := 1 - p.dx2, u := ⟨p.u.x, -p.u.y, p.u.z⟩ } else p
    else p
  if k.mpi then
    { p with tag := Tags.sendTag2 p.tag (p.i1 < 0) (p.i1 ≥ k.n1) (p.i2 < 0) (p.i2 ≥ k.n2) }
  else p

/-- Statements shared by the two operators after the momentum update `v` (gr.hpp:692-722, 784-810):
new coordinates, the call to `UpdatePhi` (without effect, see `updatePhi`), cell and offset, velocity,
boundary conditions. -/
noncomputable def finish (g : Met) (massive : Bool) (k : Ctx) (p : GPrtl) (x1 x2 : ℝ) (v : V3 ℝ) :
    Outcome GPrtl := do
  let y ← coordinatePush g massive k.dt x1 x2 v k.niter
  let _ ← updatePhi g massive k.dt ((x1 + y.1) * (1 / 2)) ((x2 + y.2) * (1 / 2)) v p.phi
  let a := fromXiToIDi y.1
  let b := fromXiToIDi y.2
  return boundary k { p with i1 := a.1, dx1 := a.2, i2 := b.1, dx2 := b.2, u := v }

/-- Lines 668-677 and 733-742: the previous position is recorded. -/
def record (p : GPrtl) : GPrtl :=
  { p with i1Prev := p.i1, i2Prev := p.i2, dx1Prev := p.dx1, dx2Prev := p.dx2 }

/-- `operator()(Massless_t, p)` (gr.hpp:660-722). -/
noncomputable def pushMassless (g : Met) (k : Ctx) (p : GPrtl) : Outcome GPrtl :=
  if p.tag ≠ Tags.alive then if p.tag ≠ Tags.dead then .err else .ok p
  else do
    let x1 := iDiToXi p.i1 p.dx1
    let x2 := iDiToXi p.i2 p.dx2
    let v ← momentumPush g false k.dt x1 x2 p.u k.niter
    finish g false k (record p) x1 x2 v

/-- `operator()(Massive_t, p)` (gr.hpp:726-814); `d`, `b` are the contravariant components returned by
`interpolateFields`. -/
noncomputable def pushMassive (g : Met) (k : Ctx) (d b : V3 ℝ) (p : GPrtl) : Outcome GPrtl :=
  if p.tag ≠ Tags.alive then if p.tag ≠ Tags.dead then .err else .ok p
  else do
    let x1 := iDiToXi p.i1 p.dx1
    let x2 := iDiToXi p.i2 p.dx2
    let t2 ← clampAngle g x2
    let dHat ← g.transform x1 x2 .U .T d
    let bHat ← g.transform x1 x2 .U .T b
    let v ← emHalfPush g k.dtHalf x1 x2 p.u dHat bHat
    let v ← momentumPush g true k.dt x1 t2 v k.niter
    let v ← emHalfPush g k.dtHalf x1 x2 v dHat bHat
    finish g true k (record p) x1 x2 v

/-- `interpolateFields<O>` (gr.hpp:483-656): electric components from `DB`, magnetic ones from `DB0`.
The formulas are those of the special-relativistic kernel in 2D (`Interp.interpolate`). -/
noncomputable def interpolateFields (O : Nat) (NG : Int) (nAll : List Nat)
    (DB DB0 : Interp.Comp → List Int → ℝ) (p : GPrtl) : Outcome (V3 ℝ × V3 ℝ) := do
  let pos := [(p.i1, p.dx1), (p.i2, p.dx2)]
  let e1 ← Interp.interpolate O NG nAll DB .ex1 pos
  let e2 ← Interp.interpolate O NG nAll DB .ex2 pos
  let e3 ← Interp.interpolate O NG nAll DB .ex3 pos
  let b1 ← Interp.interpolate O NG nAll DB0 .bx1 pos
  let b2 ← Interp.interpolate O NG nAll DB0 .bx2 pos
  let b3 ← Interp.interpolate O NG nAll DB0 .bx3 pos
  return (⟨e1, e2, e3⟩, ⟨b1, b2, b3⟩)

/-- `ParticlePusher` values the engine compares with (src/global/enums.h: `NONE`, `PHOTON`, `BORIS`);
`other` is any other combination of flags. -/
inductive Pusher
  | none | photon | boris | other
  deriving DecidableEq, Repr

/-- One species in `grpic::ParticlePush` (particle_pusher.h:34-88).  The launch is a schedule: the
thread of particle `j` reads and writes that particle only, and the fields are not written. -/
noncomputable def pushSpecies (g : Met) (k : Ctx) (O : Nat) (NG : Int) (nAll : List Nat)
    (DB DB0 : Interp.Comp → List Int → ℝ) (pusher : Pusher) (npart : Nat) (sched : List Nat)
    (ps : Nat → GPrtl) : Outcome (Nat → GPrtl) :=
  if npart = 0 ∨ pusher = .none then .ok ps
  else
    let run (f : GPrtl → Outcome GPrtl) : Outcome (Nat → GPrtl) :=
      sched.foldlM (fun (q : Nat → GPrtl) (j : Nat) => do
        let r ← f (q j)
        pure (Function.update q j r)) ps
    match pusher with
    | .photon => run (pushMassless g k)
    | .boris => run (fun p =>
        if p.tag ≠ Tags.alive then if p.tag ≠ Tags.dead then .err else .ok p
        else do
          let f ← interpolateFields O NG nAll DB DB0 p
          pushMassive g k f.1 f.2 p)
    | _ => .err

end Entity.GRPush
