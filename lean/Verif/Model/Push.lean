import Verif.Model.Base
import Verif.Model.Tags
import Mathlib.Algebra.Order.Field.Basic
import Mathlib.Algebra.Order.Floor.Ring
import Mathlib.Analysis.Real.Sqrt

/-!
# The special-relativistic particle pusher

Models `src/kernels/pushers/sr.hpp` and the boundary flags of `src/kernels/pushers/context.h`.

Numbers are elements of an arbitrary ordered field `K` (for the parts without square roots) or of
`ℝ`; rounding of `float`/`double` is not modelled.  The three textual copies of each per-axis block
of the C++ (x1, x2, x3) are one function here, applied to the axes in the same order; the only
difference between the copies, the extra `axis` case of x2, is the argument `isX2`.
-/

namespace Entity.Push

open Entity

/-! ## Conversion between continuous coordinate and (cell, offset) -/

section Conv
variable {K : Type} [Field K] [LinearOrder K] [IsStrictOrderedRing K] [FloorRing K]

/-- `static_cast<int>(x)` for a floating point `x`: truncation towards zero.  (The cast of a value
outside the range of `int` is undefined in C++; integers are unbounded here.) -/
def castInt (x : K) : Int := if 0 ≤ x then ⌊x⌋ else ⌈x⌉

/-- Macro `from_Xi_to_i` (sr.hpp:41-44): `I = static_cast<int>((XI) + 1) - 1`. -/
def fromXiToI (xi : K) : Int := castInt (xi + 1) - 1

/-- Macro `from_Xi_to_i_di` (sr.hpp:46-50): the index and `DI = XI - I`. -/
def fromXiToIDi (xi : K) : Int × K :=
  let i := fromXiToI xi
  (i, xi - (i : K))

/-- Macro `i_di_to_Xi` (sr.hpp:52-53). -/
def iDiToXi (i : Int) (di : K) : K := (i : K) + di

end Conv

/-! ## Position push and boundary conditions -/

/-- The per-axis columns of one particle: `i`, `i_prev`, `dx`, `dx_prev` and the momentum component
`ux` along the same axis (`ParticleArrays`, src/framework/containers/particles.h). -/
structure Ax (K : Type) where
  i : Int
  iPrev : Int
  dx : K
  dxPrev : K
  u : K
  deriving DecidableEq, Repr

/-- One particle: its `D` axes, the momentum components along axes without a grid (`uRest`), and the
tag. -/
structure Particle (K : Type) where
  ax : List (Ax K)
  uRest : List K
  tag : Int
  deriving DecidableEq, Repr

section Cart
variable {K : Type} [Field K] [LinearOrder K]

/-- C++ conversion of a `bool` to a number. -/
def b2n (b : Bool) : K := if b then 1 else 0
/-- `static_cast<int>` of a `bool`. -/
def b2i (b : Bool) : Int := if b then 1 else 0

/-- Cartesian branch of `positionPush` for one axis (sr.hpp:537-547, 549-559, 561-571): `disp` is
`transform<k, XYZ, U>(xp, ux) * dt_inv_energy`.  The statements are executed one after the other, so
each comparison sees the value left by the previous statement. -/
def pushAxis (disp : K) (a : Ax K) : Ax K :=
  let iPrev := a.i
  let dxPrev := a.dx
  let dx₁ := a.dx + disp
  let i := a.i + b2i (decide (dx₁ ≥ 1)) - b2i (decide (dx₁ < 0))
  let dx₂ := dx₁ - b2n (decide (dx₁ ≥ 1))
  let dx₃ := dx₂ + b2n (decide (dx₂ < 0))
  { a with i := i, iPrev := iPrev, dx := dx₃, dxPrev := dxPrev }

/-- `PrtlBC` (src/global/enums.h:185-196). -/
inductive PBC
  | invalid | periodic | absorb | atmosphere | custom | reflect | horizon | axis | sync
  deriving DecidableEq, Repr

/-- `PusherBoundaries` flags of one side (context.h:138-176).  `isAxis` exists for x2 only. -/
structure Flags where
  isAbsorb : Bool
  isPeriodic : Bool
  isReflect : Bool
  isAxis : Bool

/-- context.h:140-147 (x1), 153-162 (x2), 168-175 (x3). -/
def flagsOf (isX2 : Bool) (b : PBC) : Flags where
  isAbsorb := decide (b = .atmosphere) || decide (b = .absorb)
  isPeriodic := decide (b = .periodic)
  isReflect := decide (b = .reflect)
  isAxis := isX2 && decide (b = .axis)

/-- One axis of `boundaryConditions` on a Cartesian mesh (sr.hpp:662-701 for x1, 702-746 for x2,
747-790 for x3).  On curvilinear meshes only the line `u := -u` differs (see `flipCurv`). -/
def bcAxis (isX2 : Bool) (lo hi : PBC) (n : Int) (a : Ax K) (tag : Int) : Ax K × Int :=
  let fl := flagsOf isX2 lo
  let fh := flagsOf isX2 hi
  if a.i < 0 then
    if fl.isPeriodic then ({ a with i := a.i + n, iPrev := a.iPrev + n }, tag)
    else if fl.isAbsorb then (a, Tags.dead)
    else if fl.isReflect then ({ a with i := 0, dx := 1 - a.dx, u := -a.u }, tag)
    else if fl.isAxis then ({ a with i := 0, dx := 1 - a.dx }, tag)
    else (a, tag)
  else if a.i ≥ n then
    if fh.isPeriodic then ({ a with i := a.i - n, iPrev := a.iPrev - n }, tag)
    else if fh.isAbsorb then (a, Tags.dead)
    else if fh.isReflect then ({ a with i := n - 1, dx := 1 - a.dx, u := -a.u }, tag)
    else if fh.isAxis then ({ a with i := n - 1, dx := 1 - a.dx }, tag)
    else (a, tag)
  else (a, tag)

/-- The axes are processed in the order x1, x2, x3, each reading the tag left by the previous one.
`sides` lists for each axis the two boundary kinds and the number of cells `ctx.ni`. -/
def bcAxes (k : Nat) : List (PBC × PBC × Int) → List (Ax K) → Int → List (Ax K) × Int
  | s :: ss, a :: as, tag =>
      let r := bcAxis (k == 1) s.1 s.2.1 s.2.2 a tag
      let rs := bcAxes (k + 1) ss as r.2
      (r.1 :: rs.1, rs.2)
  | _, as, tag => (as, tag)

/-- The arguments of `mpi::SendTag` (sr.hpp:792-812). -/
def outFlags (sides : List (PBC × PBC × Int)) (as : List (Ax K)) : List (Bool × Bool) :=
  List.zipWith (fun s a => (decide (a.i < 0), decide (a.i ≥ s.2.2))) sides as

/-- `boundaryConditions` (sr.hpp:659-814).  `mpi` is the build flag `MPI_ENABLED`.  Fewer boundary
entries than dimensions is the error of the `PusherBoundaries` constructor (context.h:138, 151,
166). -/
def boundaryConditions (mpi : Bool) (sides : List (PBC × PBC × Int)) (p : Particle K) :
    Outcome (Particle K) :=
  if sides.length < p.ax.length then .err
  else
    let r := bcAxes 0 sides p.ax p.tag
    if mpi then do
      let t ← Tags.sendTag r.2 (outFlags sides r.1)
      pure { p with ax := r.1, tag := t }
    else .ok { p with ax := r.1, tag := r.2 }

/-- Reflection on a curvilinear mesh (sr.hpp:671-686 and the five copies): the Cartesian momentum is
transformed to contravariant components (`toU`), component `k` negated, and transformed back
(`ofU`). -/
def flipCurv (toU ofU : List K → List K) (k : Nat) (u : List K) : List K :=
  let v := toU u
  ofU (v.modify k (fun x => -x))

/-- The position at which `boundaryConditions` evaluates the metric on a curvilinear mesh
(sr.hpp:606-620 and 624-643), one component: the code coordinate after the push is averaged with
the previous position inside the `else` branch, and again before the call; with a custom particle
update in between the coordinate is re-read first. -/
def velAligned (customUpdate : Bool) (xNew xOld : K) : K :=
  let xp := (xNew + xOld) / 2
  let xp := if customUpdate then xNew else xp
  (xp + xOld) / 2

end Cart

/-- `dt_inv_energy` (sr.hpp:530-536). -/
noncomputable def dtInvEnergy (massive : Bool) (dt : ℝ) (us : List ℝ) : ℝ :=
  if massive then dt / √(1 + (us.map (fun u => u ^ 2)).sum)
  else dt / √((us.map (fun u => u ^ 2)).sum)

/-- Momentum components of a particle: `ux1, ux2, ux3`. -/
def Particle.us {K : Type} (p : Particle K) : List K := p.ax.map Ax.u ++ p.uRest

/-- `positionPush` on a Cartesian mesh of cell size `h` (sr.hpp:526-656, minkowski.h:263-299 for
`transform<XYZ, U>` = division by the cell size), without a custom particle update. -/
noncomputable def positionPush (massive mpi : Bool) (dt h : ℝ) (sides : List (PBC × PBC × Int))
    (p : Particle ℝ) : Outcome (Particle ℝ) :=
  let e := dtInvEnergy massive dt p.us
  boundaryConditions mpi sides { p with ax := p.ax.map fun a => pushAxis (a.u / h * e) a }

/-- Curvilinear branch of `positionPush` for the axes (sr.hpp:573-604): `step` is the composite
`convert_xyz<XYZ, Cd> (convert_xyz<Cd, XYZ> x + v dt)`, a parameter. -/
def pushCurv {K : Type} [Field K] [LinearOrder K] [IsStrictOrderedRing K] [FloorRing K]
    (step : List K → List K) (as : List (Ax K)) : List (Ax K) :=
  let xs := as.map fun a => iDiToXi a.i a.dx
  List.zipWith (fun a x =>
    let r := fromXiToIDi x
    { a with i := r.1, iPrev := a.i, dx := r.2, dxPrev := a.dx }) as (step xs)

/-! ## Momentum pushers -/

/-- A Cartesian vector `vec_t<Dim::_3D>`. -/
@[ext] structure V3 (K : Type) where
  x : K
  y : K
  z : K

namespace V3
variable {K : Type} [Field K]
instance : Add (V3 K) := ⟨fun a b => ⟨a.x + b.x, a.y + b.y, a.z + b.z⟩⟩
instance : Sub (V3 K) := ⟨fun a b => ⟨a.x - b.x, a.y - b.y, a.z - b.z⟩⟩
/-- Multiplication by a number. -/
def smul (c : K) (a : V3 K) : V3 K := ⟨c * a.x, c * a.y, c * a.z⟩
/-- `DOT` (src/global/utils/numeric.h). -/
def dot (a b : V3 K) : K := a.x * b.x + a.y * b.y + a.z * b.z
/-- `CROSS_x1`, `CROSS_x2`, `CROSS_x3` (src/global/utils/numeric.h). -/
def cross (a b : V3 K) : V3 K :=
  ⟨a.y * b.z - a.z * b.y, a.z * b.x - a.x * b.z, a.x * b.y - a.y * b.x⟩
/-- `NORM_SQR`. -/
def normSq (a : V3 K) : K := a.x ^ 2 + a.y ^ 2 + a.z ^ 2
end V3

open V3

/-- `velocityEMPush_Boris` (sr.hpp:337-368); `c` is `normalized_dt_half` (sr.hpp:111). -/
noncomputable def boris (c : ℝ) (e b u : V3 ℝ) : V3 ℝ :=
  let e := e.smul c
  let u0 := u + e
  let c := c * (1 / √(1 + u0.normSq))
  let b := b.smul c
  let c := 2 / (1 + b.normSq)
  let u1 := (u0 + u0.cross b).smul c
  u0 + (u1.cross b + e)

/-- `velocityEMPush_Vay` (sr.hpp:370-437). -/
noncomputable def vay (c : ℝ) (e b u : V3 ℝ) : V3 ℝ :=
  let e := e.smul c
  let b := b.smul c
  let g := 1 / √(1 + u.normSq)
  let u1 := u + e.smul 2 + (u.cross b).smul g
  let d := u1.dot b
  let s := 1 + u1.normSq - b.normSq
  let g := 1 / √((1 / 2) * (s + √(s ^ 2 + 4 * (b.x ^ 2 + b.y ^ 2 + b.z ^ 2 + d ^ 2))))
  let k := 1 / (1 + (b.x * g) ^ 2 + (b.y * g) ^ 2 + (b.z * g) ^ 2)
  ⟨k * (u1.x + g * u1.dot b * (b.x * g) + u1.y * b.z * g - u1.z * b.y * g),
   k * (u1.y + g * u1.dot b * (b.y * g) + u1.z * b.x * g - u1.x * b.z * g),
   k * (u1.z + g * u1.dot b * (b.z * g) + u1.x * b.y * g - u1.y * b.x * g)⟩

/-- `velocityEMPush_GCA` (sr.hpp:439-480). -/
noncomputable def gca (c : ℝ) (e b u : V3 ℝ) : V3 ℝ :=
  let w := (e.cross b).smul (1 / (e.normSq + b.normSq))
  let b := b.smul (1 / √b.normSq)
  let upar := u.dot b + c * 2 * e.dot b
  let w2 := w.normSq
  let f := if w2 < 1 / 100 then 1 + w2 + 2 * w2 ^ 2 + 5 * w2 ^ 2 * w2
    else (1 - √(1 - 4 * w2)) / (2 * w2)
  let vE := w.smul f
  let G := √(1 + upar ^ 2) / √(1 - vE.normSq)
  b.smul upar + vE.smul G

/-- The half kick of the external force (sr.hpp:258-262 and copies). -/
noncomputable def halfKick (dt : ℝ) (f u : V3 ℝ) : V3 ℝ := u + f.smul (1 / 2 * dt)

/-- The conventional branch (sr.hpp:270-294): half kick, Boris or Vay, half kick. -/
noncomputable def conventional (useBoris : Bool) (c dt : ℝ) (f e b u : V3 ℝ) : V3 ℝ :=
  let u := halfKick dt f u
  let u := if useBoris then boris c e b u else vay c e b u
  halfKick dt f u

/-! ## Radiative drag -/

/-- `synchrotronDrag` (sr.hpp:1372-1425): takes the particle momentum and the time-centred momentum
`u'` *by reference*; returns both. -/
noncomputable def synchrotronDrag (coeff : ℝ) (e b : V3 ℝ) (u up : V3 ℝ) : V3 ℝ × V3 ℝ :=
  let g := 1 / √(1 + up.normSq)
  let up := up.smul g
  let g := (1 / g) ^ 2
  let bde := up.dot e
  let ebb := e + up.cross b
  let kappa := ebb.cross b + e.smul bde
  let chi := ebb.normSq - bde ^ 2
  (u + (kappa - up.smul (g * chi)).smul coeff, up)

/-- `inverseComptonDrag` (sr.hpp:1487-1501): same convention. -/
noncomputable def comptonDrag (coeff : ℝ) (u up : V3 ℝ) : V3 ℝ × V3 ℝ :=
  let g := 1 / √(1 + up.normSq)
  let up := up.smul g
  let g := (1 / g) ^ 2
  (u - up.smul (coeff * g), up)

/-- The drag section of `operator()` (sr.hpp:296-308) for a particle not pushed by the guiding-centre
method: the time-centred momentum is the average of the momenta before and after the push, and the
two mechanisms are applied in turn to it. -/
noncomputable def radiativeDrag (sync comp : Bool) (cs cc : ℝ) (e b : V3 ℝ) (uOld u : V3 ℝ) : V3 ℝ :=
  let up := (uOld + u).smul (1 / 2)
  let r := if sync then synchrotronDrag cs e b u up else (u, up)
  let r := if comp then comptonDrag cc r.1 r.2 else r
  r.1

end Entity.Push
