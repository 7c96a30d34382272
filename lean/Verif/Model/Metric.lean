import Mathlib.Analysis.SpecialFunctions.Complex.Arg
import Mathlib.Analysis.SpecialFunctions.Pow.Real
import Mathlib.Analysis.SpecialFunctions.Trigonometric.Basic
import Mathlib.Analysis.SpecialFunctions.Log.Basic
import Verif.Model.Base
import Verif.Model.Push

/-!
# Metrics
(src/metrics/{metric_base,minkowski,spherical,qspherical,kerr_schild,kerr_schild_0,qkerr_schild}.h)

Real numbers are exact.  Functions of the C++ library that return NaN outside their domain (`sqrt` and
`log` of a negative number, `pow` of a negative number with exponent 1/3) and division by zero are a
missing value (`none`) here, in the places where the arguments are not under the theorems' control.
All metrics but Minkowski exist in two dimensions only (the `static_assert`s at the top of each class),
so only the 2D branches are transcribed.  `constant::PI` and the decimal constants of `theta2eta` are
taken exactly.  `ε` stands for the tolerance of `cmp::AlmostZero` and `cmp::AlmostEqual`.
-/

namespace Entity.Metric

open Entity.Push (V3)
open Real

/-- Extent and number of cells along one direction (metric_base.h:51-68, 82-91). -/
structure Ext where
  lo : ℝ
  hi : ℝ
  n : ℝ

/-- Extent handed to the metric of a subdomain along one direction (metadomain.cpp:143-154): the images
of its first and last corner under the conversion `toPh` of the whole grid, with its number of cells. -/
noncomputable def localExt (toPh : ℝ → ℝ) (off nc : Nat) : Ext where
  lo := toPh off
  hi := toPh ((off + nc : Nat) : ℝ)
  n := nc

/-- `Idx` (src/global/global.h: vector bases): tetrad, Cartesian, spherical, contravariant, covariant
and the two physical ones. -/
inductive Idx
  | T | XYZ | Sph | U | D | PU | PD
  deriving DecidableEq, Repr

/-! ## Minkowski -/

/-- Members of `Minkowski` (minkowski.h:30-41): cell size and lower corner. -/
structure Mink where
  dx : ℝ
  xmin : Fin 3 → ℝ

/-- `cmp::AlmostEqual` (comparators.h:59-70). -/
def almostEqual (ε a b : ℝ) : Prop := |a - b| ≤ min |a| |b| * ε

/-- Constructor (minkowski.h:50-72): the cell size comes from the first direction, the others are
compared with it. -/
noncomputable def Mink.make (D : Nat) (ε : ℝ) (e : Fin 3 → Ext) : Outcome Mink :=
  let dx := ((e 0).hi - (e 0).lo) / (e 0).n
  open Classical in
  if 2 ≤ D ∧ ¬ almostEqual ε (((e 1).hi - (e 1).lo) / (e 1).n) dx then .err
  else if D = 3 ∧ ¬ almostEqual ε (((e 2).hi - (e 2).lo) / (e 2).n) dx then .err
  else .ok ⟨dx, fun k => (e k).lo⟩

/-- `convert<i, Cd, Ph>` (minkowski.h:158-173). -/
noncomputable def Mink.toPh (m : Mink) (i : Fin 3) (x : ℝ) : ℝ := x * m.dx + m.xmin i

/-- `convert<i, Ph, Cd>` (minkowski.h:174-184); `dx_inv` is `1 / dx`. -/
noncomputable def Mink.toCd (m : Mink) (i : Fin 3) (x : ℝ) : ℝ := (x - m.xmin i) * (1 / m.dx)

/-- `h_<i, i>` (minkowski.h:105-118), `i` one of the directions of the grid. -/
noncomputable def Mink.h_ (m : Mink) : ℝ := m.dx * m.dx

/-- `sqrt_h_<i, i>` (minkowski.h:123-138). -/
noncomputable def Mink.sqrtH_ (m : Mink) : ℝ := m.dx

/-- `sqrt_det_h` (minkowski.h:144-152). -/
noncomputable def Mink.sqrtDetH (m : Mink) (D : Nat) : ℝ :=
  if D = 1 then m.dx else if D = 2 then m.dx * m.dx else m.dx * m.dx * m.dx

/-- Component-wise `transform<i, in, out>` (minkowski.h:264-299); `i` counts from 0, the first test is
that of lines 267-272. -/
noncomputable def Mink.transform (m : Mink) (D : Nat) (i : Fin 3) (a b : Idx) (v : ℝ) : Outcome ℝ :=
  if D ≤ i.val ∨ (a = .T ∧ b = .XYZ ∨ a = .XYZ ∧ b = .T) then .ok v
  else if ((a = .T ∨ a = .XYZ) ∧ b = .U) ∨ (a = .D ∧ (b = .T ∨ b = .XYZ)) then .ok (v / m.sqrtH_)
  else if (a = .U ∧ (b = .T ∨ b = .XYZ)) ∨ ((a = .T ∨ a = .XYZ) ∧ b = .D) then .ok (v * m.sqrtH_)
  else if a = .U ∧ b = .D then .ok (v * m.h_)
  else if a = .D ∧ b = .U then .ok (v / m.h_)
  else if (a = .U ∧ b = .PU) ∨ (a = .PD ∧ b = .D) then .ok (v * m.dx)
  else if (a = .PU ∧ b = .U) ∨ (a = .D ∧ b = .PD) then .ok (v * (1 / m.dx))
  else .err

/-! ## Spherical -/

/-- Members of `Spherical` used in 2D (spherical.h:33-35). -/
structure Sph where
  rmin : ℝ
  dr : ℝ
  tmin : ℝ
  dt : ℝ
  small : Prop

/-- Constructor (spherical.h:53-66); `constant::SMALL_ANGLE` is 1e-3 (numeric.h:102). -/
noncomputable def Sph.make (e1 e2 : Ext) : Sph where
  rmin := e1.lo
  dr := (e1.hi - e1.lo) / e1.n
  tmin := e2.lo
  dt := (e2.hi - e2.lo) / e2.n
  small := 1 / 2 * ((e2.hi - e2.lo) / e2.n) < 1 / 1000

namespace Sph
variable (m : Sph)

/-- `convert<1, Cd, Sph>`, `convert<2, Cd, Sph>` (spherical.h:189-194). -/
noncomputable def toPh1 (x : ℝ) : ℝ := x * m.dr + m.rmin
@[inherit_doc toPh1]
noncomputable def toPh2 (x : ℝ) : ℝ := x * m.dt + m.tmin

/-- `convert<1, Sph, Cd>`, `convert<2, Sph, Cd>` (spherical.h:203-208). -/
noncomputable def toCd1 (x : ℝ) : ℝ := (x - m.rmin) * (1 / m.dr)
@[inherit_doc toCd1]
noncomputable def toCd2 (x : ℝ) : ℝ := (x - m.tmin) * (1 / m.dt)

/-- `h_<i, i>` (spherical.h:96-114); `i` counts from 0. -/
noncomputable def h_ (x1 x2 : ℝ) (i : Fin 3) : ℝ :=
  match i with
  | 0 => m.dr ^ 2
  | 1 => m.dt ^ 2 * (x1 * m.dr + m.rmin) ^ 2
  | 2 => (x1 * m.dr + m.rmin) ^ 2 * sin (x2 * m.dt + m.tmin) ^ 2

/-- `sqrt_h_<i, i>` (spherical.h:120-137). -/
noncomputable def sqrtH_ (x1 x2 : ℝ) (i : Fin 3) : ℝ :=
  match i with
  | 0 => m.dr
  | 1 => m.dt * (x1 * m.dr + m.rmin)
  | 2 => (x1 * m.dr + m.rmin) * sin (x2 * m.dt + m.tmin)

/-- `sqrt_det_h` (spherical.h:142-150). -/
noncomputable def sqrtDetH (x1 x2 : ℝ) : ℝ :=
  m.dr * m.dt * (x1 * m.dr + m.rmin) ^ 2 * sin (x2 * m.dt + m.tmin)

/-- `sqrt_det_h_tilde` (spherical.h:156-162). -/
noncomputable def sqrtDetHTilde (x1 : ℝ) : ℝ := m.dr * m.dt * (x1 * m.dr + m.rmin) ^ 2

/-- `polar_area` (spherical.h:169-177). -/
noncomputable def polarArea (x1 : ℝ) : ℝ :=
  open Classical in
  if m.small then m.dr * (x1 * m.dr + m.rmin) ^ 2 * (48 - m.dt ^ 2) * m.dt ^ 2 / 384
  else m.dr * (x1 * m.dr + m.rmin) ^ 2 * (1 - cos (1 / 2 * m.dt))

end Sph

/-- `math::atan2`. -/
noncomputable def atan2 (y x : ℝ) : ℝ := Complex.arg ⟨x, y⟩

/-- Spherical to Cartesian position (spherical.h:248-255, qspherical.h:284-291). -/
noncomputable def sphToXyz (r t p : ℝ) : V3 ℝ :=
  ⟨r * sin t * cos p, r * sin t * sin p, r * cos t⟩

/-- Cartesian to spherical position (spherical.h:257-262, qspherical.h:293-298). -/
noncomputable def xyzToSph (v : V3 ℝ) : V3 ℝ :=
  ⟨√(v.x ^ 2 + v.y ^ 2 + v.z ^ 2), π / 2 - atan2 v.z √(v.x ^ 2 + v.y ^ 2), π - atan2 v.y (-v.x)⟩

/-- `transform_xyz<T, XYZ>` (spherical.h:353-366, qspherical.h:389-402). -/
noncomputable def tetradToXyz (t p : ℝ) (v : V3 ℝ) : V3 ℝ :=
  ⟨v.x * sin t * cos p + v.y * cos t * cos p - v.z * sin p,
   v.x * sin t * sin p + v.y * cos t * sin p + v.z * cos p,
   v.x * cos t - v.y * sin t⟩

/-- `transform_xyz<XYZ, T>` (spherical.h:367-380, qspherical.h:403-416). -/
noncomputable def xyzToTetrad (t p : ℝ) (v : V3 ℝ) : V3 ℝ :=
  ⟨v.x * sin t * cos p + v.y * sin t * sin p + v.z * cos t,
   v.x * cos t * cos p + v.y * cos t * sin p - v.z * sin t,
   -v.x * sin p + v.y * cos p⟩

/-- Component-wise `transform<i, in, out>` of the diagonal metrics with spherical coordinates
(spherical.h:274-325, qspherical.h:310-361): `h` and `s` are `h_<i, i>` and `sqrt_h_<i, i>` at the
point, `jac` the factor of the physical bases and `jacInv` the one it uses in the other direction. -/
noncomputable def diagTransform (h s jac jacInv : ℝ) (a b : Idx) (v : ℝ) : Outcome ℝ :=
  if a = .T ∧ b = .Sph ∨ a = .Sph ∧ b = .T then .ok v
  else if ((a = .T ∨ a = .Sph) ∧ b = .U) ∨ (a = .D ∧ (b = .T ∨ b = .Sph)) then .ok (v / s)
  else if (a = .U ∧ (b = .T ∨ b = .Sph)) ∨ ((a = .T ∨ a = .Sph) ∧ b = .D) then .ok (v * s)
  else if a = .U ∧ b = .D then .ok (v * h)
  else if a = .D ∧ b = .U then .ok (v / h)
  else if (a = .U ∧ b = .PU) ∨ (a = .PD ∧ b = .D) then .ok (v * jac)
  else if (a = .PU ∧ b = .U) ∨ (a = .D ∧ b = .PD) then .ok (v * jacInv)
  else .err

/-- `Spherical::transform<i, in, out>` (spherical.h:274-325). -/
noncomputable def Sph.transform (m : Sph) (x1 x2 : ℝ) (i : Fin 3) (a b : Idx) (v : ℝ) : Outcome ℝ :=
  diagTransform (m.h_ x1 x2 i) (m.sqrtH_ x1 x2 i)
    (match i with | 0 => m.dr | 1 => m.dt | 2 => 1)
    (match i with | 0 => 1 / m.dr | 1 => 1 / m.dt | 2 => 1) a b v

/-! ## Stretched angle -/

/-- `dtheta_deta` (qspherical.h:441-449, qkerr_schild.h:843-852). -/
noncomputable def dthetaDeta (ε h η : ℝ) : ℝ :=
  if |h| ≤ ε then 1 else 1 + 2 * h + 12 * h * (η * (1 / π)) * (η * (1 / π) - 1)

/-- `eta2theta` (qspherical.h:454-461, qkerr_schild.h:857-866). -/
noncomputable def eta2theta (ε h η : ℝ) : ℝ :=
  if |h| ≤ ε then η else η + 2 * h * η * (π - 2 * η) * (π - η) * (1 / π ^ 2)

/-- The number under the square root in `theta2eta` (qspherical.h:475-477, qkerr_schild.h:895-897). -/
noncomputable def radicand (h θ : ℝ) : ℝ :=
  h ^ 3 * ((4 - h) * (π + h * (2 * π)) ^ 2 - 108 * h * π * θ + 108 * h * θ ^ 2)

/-- `theta2eta` (qspherical.h:466-494, qkerr_schild.h:886-914); `none` where a square root, a cube root
or a quotient is not a number. -/
noncomputable def theta2eta (ε h θ : ℝ) : Option ℝ :=
  if |h| ≤ ε then some θ
  else if radicand h θ < 0 then none
  else
    let c := -9 * h ^ 2 * (π - 2 * θ) + √3 * √(radicand h θ)
    if c ≤ 0 then none
    else
      let R := c ^ (1 / 3 : ℝ)
      some (π ^ (2 / 3 : ℝ) * (6 * π ^ (1 / 3 : ℝ) +
        2 * 2 ^ (1 / 3 : ℝ) * (h - 1) * (3 * π) ^ (2 / 3 : ℝ) / R +
        2 ^ (2 / 3 : ℝ) * 3 ^ (1 / 3 : ℝ) * R / h) / 12)

/-! ## Quasi-spherical -/

/-- Members of `QSpherical` used in 2D (qspherical.h:36-40). -/
structure QSph where
  ε : ℝ
  r0 : ℝ
  h : ℝ
  chiMin : ℝ
  etaMin : ℝ
  dchi : ℝ
  deta : ℝ
  small : Prop

/-- `math::log`; `none` where it is not a finite number. -/
noncomputable def log? (x : ℝ) : Option ℝ := if x ≤ 0 then none else some (Real.log x)

/-- Constructor (qspherical.h:58-76, and the same members in qkerr_schild.h:77-95). -/
noncomputable def QSph.make (ε r0 h : ℝ) (e1 e2 : Ext) : Option QSph := do
  let c0 ← log? (e1.lo - r0)
  let c1 ← log? (e1.hi - r0)
  let n0 ← theta2eta ε h e2.lo
  let n1 ← theta2eta ε h e2.hi
  let deta := (n1 - n0) / e2.n
  some ⟨ε, r0, h, c0, n0, (c1 - c0) / e1.n, deta, eta2theta ε h (1 / 2 * deta) < 1 / 1000⟩

namespace QSph
variable (m : QSph)

/-- `convert<1, Cd, Sph>` (qspherical.h:227-228, qkerr_schild.h:624-625). -/
noncomputable def toPh1 (x : ℝ) : ℝ := m.r0 + exp (x * m.dchi + m.chiMin)

/-- `convert<2, Cd, Sph>` (qspherical.h:229-230, qkerr_schild.h:626-627). -/
noncomputable def toPh2 (x : ℝ) : ℝ := eta2theta m.ε m.h (x * m.deta + m.etaMin)

/-- `convert<1, Sph, Cd>` (qspherical.h:240-241, qkerr_schild.h:637-638). -/
noncomputable def toCd1 (x : ℝ) : Option ℝ :=
  (log? (x - m.r0)).map fun l => (l - m.chiMin) * (1 / m.dchi)

/-- `convert<2, Sph, Cd>` (qspherical.h:242-243, qkerr_schild.h:639-640). -/
noncomputable def toCd2 (x : ℝ) : Option ℝ :=
  (theta2eta m.ε m.h x).map fun e => (e - m.etaMin) * (1 / m.deta)

/-- `h_<i, i>` (qspherical.h:121-141). -/
noncomputable def h_ (x1 x2 : ℝ) (i : Fin 3) : ℝ :=
  match i with
  | 0 => m.dchi ^ 2 * exp (2 * (x1 * m.dchi + m.chiMin))
  | 1 => m.deta ^ 2 * dthetaDeta m.ε m.h (x2 * m.deta + m.etaMin) ^ 2 *
      (m.r0 + exp (x1 * m.dchi + m.chiMin)) ^ 2
  | 2 => ((m.r0 + exp (x1 * m.dchi + m.chiMin)) *
      sin (eta2theta m.ε m.h (x2 * m.deta + m.etaMin))) ^ 2

/-- `sqrt_h_<i, i>` (qspherical.h:147-167). -/
noncomputable def sqrtH_ (x1 x2 : ℝ) (i : Fin 3) : ℝ :=
  match i with
  | 0 => m.dchi * exp (x1 * m.dchi + m.chiMin)
  | 1 => m.deta * dthetaDeta m.ε m.h (x2 * m.deta + m.etaMin) *
      (m.r0 + exp (x1 * m.dchi + m.chiMin))
  | 2 => (m.r0 + exp (x1 * m.dchi + m.chiMin)) *
      sin (eta2theta m.ε m.h (x2 * m.deta + m.etaMin))

/-- `sqrt_det_h` (qspherical.h:172-182). -/
noncomputable def sqrtDetH (x1 x2 : ℝ) : ℝ :=
  let e := exp (x1 * m.dchi + m.chiMin)
  m.dchi * m.deta * e * dthetaDeta m.ε m.h (x2 * m.deta + m.etaMin) * (m.r0 + e) ^ 2 *
    sin (eta2theta m.ε m.h (x2 * m.deta + m.etaMin))

/-- `sqrt_det_h_tilde` (qspherical.h:188-194). -/
noncomputable def sqrtDetHTilde (x1 x2 : ℝ) : ℝ :=
  let e := exp (x1 * m.dchi + m.chiMin)
  m.dchi * m.deta * e * dthetaDeta m.ε m.h (x2 * m.deta + m.etaMin) * (m.r0 + e) ^ 2

/-- `polar_area` (qspherical.h:200-214). -/
noncomputable def polarArea (x1 : ℝ) : ℝ :=
  let e := exp (x1 * m.dchi + m.chiMin)
  open Classical in
  if m.small then
    let dtheta := eta2theta m.ε m.h (1 / 2 * m.deta)
    m.dchi * e * (m.r0 + e) ^ 2 * (48 - dtheta ^ 2) * dtheta ^ 2 / 384
  else m.dchi * e * (m.r0 + e) ^ 2 * (1 - cos (eta2theta m.ε m.h (1 / 2 * m.deta)))

/-- `transform<i, in, out>` (qspherical.h:310-361). -/
noncomputable def transform (x1 x2 : ℝ) (i : Fin 3) (a b : Idx) (v : ℝ) : Outcome ℝ :=
  let e := exp (x1 * m.dchi + m.chiMin)
  let t := dthetaDeta m.ε m.h (x2 * m.deta + m.etaMin)
  diagTransform (m.h_ x1 x2 i) (m.sqrtH_ x1 x2 i)
    (match i with | 0 => e * m.dchi | 1 => t * m.deta | 2 => 1)
    (match i with | 0 => 1 / m.dchi / e | 1 => 1 / m.deta / t | 2 => 1) a b v

end QSph

end Entity.Metric
