import Verif.Model.Metric

/-!
# General-relativistic metrics
(src/metrics/{kerr_schild,kerr_schild_0,qkerr_schild}.h, 2D branches; the classes exist in 2D only)

Points are given by their two code coordinates.  `dr_inv`, `dtheta_inv`, `dchi_inv` are the reciprocals
set by the constructors.  Square roots and quotients are those of exact numbers; the theorems state
where their arguments are positive.
-/

namespace Entity.Metric

open Entity.Push (V3)
open Real

/-- Spatial components at a point: lower and upper indices (`h_<i, j>` and `h<i, j>`); the ones not
listed are zero. -/
structure Spatial where
  l11 : ℝ
  l22 : ℝ
  l33 : ℝ
  l13 : ℝ
  u11 : ℝ
  u22 : ℝ
  u33 : ℝ
  u13 : ℝ

/-- Space-time components at a point (`g_<i, j>` and `g<i, j>`); the ones not listed are zero. -/
structure Four where
  l00 : ℝ
  l01 : ℝ
  l03 : ℝ
  l11 : ℝ
  l22 : ℝ
  l33 : ℝ
  l13 : ℝ
  u00 : ℝ
  u01 : ℝ
  u11 : ℝ
  u22 : ℝ
  u33 : ℝ
  u13 : ℝ

/-- Lapse, radial shift and the derivatives along the two code coordinates (`dr_...`, `dt_...`). -/
structure Deriv where
  alpha : ℝ
  beta1 : ℝ
  drAlpha : ℝ
  dtAlpha : ℝ
  drBeta1 : ℝ
  dtBeta1 : ℝ
  drH11 : ℝ
  drH22 : ℝ
  drH33 : ℝ
  drH13 : ℝ
  dtH11 : ℝ
  dtH22 : ℝ
  dtH33 : ℝ
  dtH13 : ℝ

/-! ## Functions of the spin (kerr_schild.h:45-60, qkerr_schild.h:44-58) -/

/-- `Delta`. -/
def Delta (a r : ℝ) : ℝ := r ^ 2 - 2 * r + a ^ 2
/-- `Sigma`. -/
noncomputable def Sigma (a r θ : ℝ) : ℝ := r ^ 2 + a ^ 2 * cos θ ^ 2
/-- `A`. -/
noncomputable def bigA (a r θ : ℝ) : ℝ := (r ^ 2 + a ^ 2) ^ 2 - a ^ 2 * Delta a r * sin θ ^ 2
/-- `z`. -/
noncomputable def zed (a r θ : ℝ) : ℝ := 2 * r / Sigma a r θ

/-- `cmp::AlmostZero` applied to a value that is replaced by zero (kerr_schild.h:417-421, 431-435,
qkerr_schild.h:477-481, 492-496). -/
noncomputable def clip (ε x : ℝ) : ℝ := if |x| ≤ ε then 0 else x

/-! ## Kerr-Schild -/

/-- Members of `KerrSchild` used in 2D (kerr_schild.h:36-43): tolerance, spin and the members shared
with `Spherical`. -/
structure KS where
  ε : ℝ
  a : ℝ
  rmin : ℝ
  dr : ℝ
  tmin : ℝ
  dt : ℝ
  small : Prop

/-- Constructor (kerr_schild.h:77-91). -/
noncomputable def KS.make (ε a : ℝ) (e1 e2 : Ext) : KS where
  ε := ε
  a := a
  rmin := e1.lo
  dr := (e1.hi - e1.lo) / e1.n
  tmin := e2.lo
  dt := (e2.hi - e2.lo) / e2.n
  small := 1 / 2 * ((e2.hi - e2.lo) / e2.n) < 1 / 1000

namespace KS
variable (m : KS)

/-- `convert<1, Cd, Sph>`, `convert<2, Cd, Sph>` (kerr_schild.h:544-549). -/
noncomputable def toPh1 (x : ℝ) : ℝ := x * m.dr + m.rmin
@[inherit_doc toPh1]
noncomputable def toPh2 (x : ℝ) : ℝ := x * m.dt + m.tmin

/-- `convert<1, Sph, Cd>`, `convert<2, Sph, Cd>` (kerr_schild.h:557-562). -/
noncomputable def toCd1 (x : ℝ) : ℝ := (x - m.rmin) * (1 / m.dr)
@[inherit_doc toCd1]
noncomputable def toCd2 (x : ℝ) : ℝ := (x - m.tmin) * (1 / m.dt)

/-- `h_` (kerr_schild.h:144-177) and `h` (kerr_schild.h:184-216). -/
noncomputable def spatial (x1 x2 : ℝ) : Spatial where
  l11 := m.dr ^ 2 * (1 + zed m.a (x1 * m.dr + m.rmin) (x2 * m.dt + m.tmin))
  l22 := m.dt ^ 2 * Sigma m.a (x1 * m.dr + m.rmin) (x2 * m.dt + m.tmin)
  l33 := bigA m.a (x1 * m.dr + m.rmin) (x2 * m.dt + m.tmin) * sin (x2 * m.dt + m.tmin) ^ 2 /
    Sigma m.a (x1 * m.dr + m.rmin) (x2 * m.dt + m.tmin)
  l13 := -m.dr * m.a * (1 + zed m.a (x1 * m.dr + m.rmin) (x2 * m.dt + m.tmin)) *
    sin (x2 * m.dt + m.tmin) ^ 2
  u11 := (1 / m.dr) ^ 2 * bigA m.a (x1 * m.dr + m.rmin) (x2 * m.dt + m.tmin) /
    (Sigma m.a (x1 * m.dr + m.rmin) (x2 * m.dt + m.tmin) *
      (Sigma m.a (x1 * m.dr + m.rmin) (x2 * m.dt + m.tmin) + 2 * (x1 * m.dr + m.rmin)))
  u22 := (1 / m.dt) ^ 2 / Sigma m.a (x1 * m.dr + m.rmin) (x2 * m.dt + m.tmin)
  u33 := 1 / (Sigma m.a (x1 * m.dr + m.rmin) (x2 * m.dt + m.tmin) * sin (x2 * m.dt + m.tmin) ^ 2)
  u13 := 1 / m.dr * m.a / Sigma m.a (x1 * m.dr + m.rmin) (x2 * m.dt + m.tmin)

/-- `g_` (kerr_schild.h:223-256) and `g` (kerr_schild.h:263-288). -/
noncomputable def four (x1 x2 : ℝ) : Four where
  l00 := -(1 - zed m.a (x1 * m.dr + m.rmin) (x2 * m.dt + m.tmin))
  l01 := m.dr * zed m.a (x1 * m.dr + m.rmin) (x2 * m.dt + m.tmin)
  l03 := -m.a * zed m.a (x1 * m.dr + m.rmin) (x2 * m.dt + m.tmin) * sin (x2 * m.dt + m.tmin) ^ 2
  l11 := m.dr ^ 2 * (1 + zed m.a (x1 * m.dr + m.rmin) (x2 * m.dt + m.tmin))
  l22 := (m.spatial x1 x2).l22
  l33 := (m.spatial x1 x2).l33
  l13 := (m.spatial x1 x2).l13
  u00 := -(1 + zed m.a (x1 * m.dr + m.rmin) (x2 * m.dt + m.tmin))
  u01 := 1 / m.dr * zed m.a (x1 * m.dr + m.rmin) (x2 * m.dt + m.tmin)
  u11 := (1 / m.dr) ^ 2 * Delta m.a (x1 * m.dr + m.rmin) /
    Sigma m.a (x1 * m.dr + m.rmin) (x2 * m.dt + m.tmin)
  u22 := (m.spatial x1 x2).u22
  u33 := (m.spatial x1 x2).u33
  u13 := (m.spatial x1 x2).u13

/-- `alpha` (kerr_schild.h:294-298). -/
noncomputable def alpha (x1 x2 : ℝ) : ℝ :=
  1 / √(1 + zed m.a (x1 * m.dr + m.rmin) (x2 * m.dt + m.tmin))

/-- `beta1` (kerr_schild.h:327-330). -/
noncomputable def beta1 (x1 x2 : ℝ) : ℝ :=
  let z := zed m.a (x1 * m.dr + m.rmin) (x2 * m.dt + m.tmin)
  1 / m.dr * z / (1 + z)

/-- `dt_Sigma` (kerr_schild.h:414-422). -/
noncomputable def dtSigma (θ : ℝ) : ℝ := clip m.ε (-2 * m.a ^ 2 * sin θ * cos θ * m.dt)

/-- `dt_A` (kerr_schild.h:428-436). -/
noncomputable def dtA (r θ : ℝ) : ℝ := clip m.ε (-2 * m.a ^ 2 * sin θ * cos θ * Delta m.a r * m.dt)

/-- Lapse, shift and derivatives (kerr_schild.h:294-480). -/
noncomputable def deriv (x1 x2 : ℝ) : Deriv :=
  let r := x1 * m.dr + m.rmin
  let θ := x2 * m.dt + m.tmin
  let S := Sigma m.a r θ
  let A := bigA m.a r θ
  let drSigma := 2 * r * m.dr
  let drDelta := 2 * m.dr * (r - 1)
  let drA := 4 * r * m.dr * (r ^ 2 + m.a ^ 2) - m.a ^ 2 * sin θ ^ 2 * drDelta
  { alpha := m.alpha x1 x2
    beta1 := m.beta1 x1 x2
    -- lines 304-311
    drAlpha := -(m.dr * S - r * drSigma) * m.alpha x1 x2 ^ 3 / S ^ 2
    -- lines 317-321
    dtAlpha := m.alpha x1 x2 ^ 3 * r * m.dtSigma θ / S ^ 2
    -- lines 336-343
    drBeta1 := 1 / m.dr * 2 * (m.dr * S - r * drSigma) / (S + 2 * r) ^ 2
    -- lines 349-354
    dtBeta1 := -(1 / m.dr) * 2 * r * m.dtSigma θ / (S * (1 + zed m.a r θ)) ^ 2
    -- lines 360-372
    drH11 := (S * (S + 2 * r) * drA - 2 * A * (r * drSigma + S * (drSigma + m.dr))) /
      (S * (S + 2 * r)) ^ 2 * (1 / m.dr) ^ 2
    -- lines 378-384
    drH22 := -drSigma / S ^ 2 * (1 / m.dt) ^ 2
    -- lines 390-396
    drH33 := -drSigma / S ^ 2 / sin θ ^ 2
    -- lines 402-408
    drH13 := -m.a * drSigma / S ^ 2 * (1 / m.dr)
    -- lines 442-448
    dtH11 := (S * (S + 2 * r) * m.dtA r θ - 2 * A * m.dtSigma θ * (r + S)) /
      (S * (S + 2 * r)) ^ 2 * (1 / m.dr) ^ 2
    -- lines 454-458
    dtH22 := -m.dtSigma θ / S ^ 2 * (1 / m.dt) ^ 2
    -- lines 464-470
    dtH33 := -2 * m.dt * cos θ * (S - m.a ^ 2 * sin θ ^ 2) / sin θ ^ 3 / S ^ 2
    -- lines 476-480
    dtH13 := -m.a * m.dtSigma θ / S ^ 2 * (1 / m.dr) }

/-- `sqrt_det_h` (kerr_schild.h:486-497). -/
noncomputable def sqrtDetH (x1 x2 : ℝ) : ℝ :=
  m.dr * m.dt * Sigma m.a (x1 * m.dr + m.rmin) (x2 * m.dt + m.tmin) * sin (x2 * m.dt + m.tmin) *
    √(1 + zed m.a (x1 * m.dr + m.rmin) (x2 * m.dt + m.tmin))

/-- `sqrt_det_h_tilde` (kerr_schild.h:503-512). -/
noncomputable def sqrtDetHTilde (x1 x2 : ℝ) : ℝ :=
  m.dr * m.dt * Sigma m.a (x1 * m.dr + m.rmin) (x2 * m.dt + m.tmin) *
    √(1 + zed m.a (x1 * m.dr + m.rmin) (x2 * m.dt + m.tmin))

/-- `polar_area` (kerr_schild.h:519-532). -/
noncomputable def polarArea (x1 : ℝ) : ℝ :=
  let r := x1 * m.dr + m.rmin
  open Classical in
  if m.small then
    m.dr * (r ^ 2 + m.a ^ 2) * √(1 + 2 * r / (r ^ 2 + m.a ^ 2)) * (48 - m.dt ^ 2) * m.dt ^ 2 / 384
  else m.dr * (r ^ 2 + m.a ^ 2) * √(1 + 2 * r / (r ^ 2 + m.a ^ 2)) * (1 - cos (1 / 2 * m.dt))

end KS

/-! ## Kerr-Schild without mass -/

/-- Members of `KerrSchild0` used in 2D (kerr_schild_0.h:36-38). -/
structure KS0 where
  rmin : ℝ
  dr : ℝ
  tmin : ℝ
  dt : ℝ

/-- Constructor (kerr_schild_0.h:56-68). -/
noncomputable def KS0.make (e1 e2 : Ext) : KS0 where
  rmin := e1.lo
  dr := (e1.hi - e1.lo) / e1.n
  tmin := e2.lo
  dt := (e2.hi - e2.lo) / e2.n

namespace KS0
variable (m : KS0)

/-- `convert<1, Cd, Sph>`, `convert<2, Cd, Sph>` (kerr_schild_0.h:386-391). -/
noncomputable def toPh1 (x : ℝ) : ℝ := x * m.dr + m.rmin
@[inherit_doc toPh1]
noncomputable def toPh2 (x : ℝ) : ℝ := x * m.dt + m.tmin

/-- `convert<1, Sph, Cd>`, `convert<2, Sph, Cd>` (kerr_schild_0.h:399-404). -/
noncomputable def toCd1 (x : ℝ) : ℝ := (x - m.rmin) * (1 / m.dr)
@[inherit_doc toCd1]
noncomputable def toCd2 (x : ℝ) : ℝ := (x - m.tmin) * (1 / m.dt)

/-- `h_` (kerr_schild_0.h:124-144) and `h` (kerr_schild_0.h:151-172). -/
noncomputable def spatial (x1 x2 : ℝ) : Spatial where
  l11 := m.dr ^ 2
  l22 := m.dt ^ 2 * (x1 * m.dr + m.rmin) ^ 2
  l33 := ((x1 * m.dr + m.rmin) * sin (x2 * m.dt + m.tmin)) ^ 2
  l13 := 0
  u11 := (1 / m.dr) ^ 2
  u22 := (1 / m.dt / (x1 * m.dr + m.rmin)) ^ 2
  u33 := 1 / ((x1 * m.dr + m.rmin) * sin (x2 * m.dt + m.tmin)) ^ 2
  u13 := 0

/-- `g_` (kerr_schild_0.h:179-198) and `g` (kerr_schild_0.h:205-223). -/
noncomputable def four (x1 x2 : ℝ) : Four where
  l00 := -1
  l01 := 0
  l03 := 0
  l11 := (m.spatial x1 x2).l11
  l22 := (m.spatial x1 x2).l22
  l33 := (m.spatial x1 x2).l33
  l13 := 0
  u00 := -1
  u01 := 0
  u11 := (m.spatial x1 x2).u11
  u22 := (m.spatial x1 x2).u22
  u33 := (m.spatial x1 x2).u33
  u13 := 0

/-- Lapse, shift and derivatives (kerr_schild_0.h:229-340). -/
noncomputable def deriv (x1 x2 : ℝ) : Deriv :=
  let r := x1 * m.dr + m.rmin
  let θ := x2 * m.dt + m.tmin
  { alpha := 1, beta1 := 0, drAlpha := 0, dtAlpha := 0, drBeta1 := 0, dtBeta1 := 0
    drH11 := 0
    drH22 := -2 / r ^ 3 * (1 / m.dt) ^ 2 * m.dr
    drH33 := -2 / r ^ 3 / sin θ ^ 2 * m.dr
    drH13 := 0, dtH11 := 0, dtH22 := 0
    dtH33 := -2 * cos θ / r ^ 2 / sin θ ^ 3 * m.dt
    dtH13 := 0 }

/-- `sqrt_det_h` (kerr_schild_0.h:346-354). -/
noncomputable def sqrtDetH (x1 x2 : ℝ) : ℝ :=
  m.dr * m.dt * (x1 * m.dr + m.rmin) ^ 2 * sin (x2 * m.dt + m.tmin)

/-- `sqrt_det_h_tilde` (kerr_schild_0.h:360-366). -/
noncomputable def sqrtDetHTilde (x1 : ℝ) : ℝ := m.dr * m.dt * (x1 * m.dr + m.rmin) ^ 2

/-- `polar_area` (kerr_schild_0.h:372-374). -/
noncomputable def polarArea (x1 : ℝ) : ℝ :=
  m.dr * (x1 * m.dr + m.rmin) ^ 2 * (1 - cos (1 / 2 * m.dt))

end KS0

/-! ## Quasi-spherical Kerr-Schild -/

/-- Members of `QKerrSchild` used in 2D (qkerr_schild.h:36-42): the spin and the members shared with
`QSpherical` (`h0` is the member `h` of the latter). -/
structure QKS extends QSph where
  a : ℝ

/-- Constructor (qkerr_schild.h:76-95). -/
noncomputable def QKS.make (ε a r0 h0 : ℝ) (e1 e2 : Ext) : Option QKS :=
  (QSph.make ε r0 h0 e1 e2).map fun q => { q with a := a }

namespace QKS
variable (m : QKS)

/-- Radius and angle of a point (`r0 + math::exp(x[0] * dchi + chi_min)` and
`eta2theta(x[1] * deta + eta_min)` throughout qkerr_schild.h). -/
noncomputable def rad (x1 : ℝ) : ℝ := m.r0 + exp (x1 * m.dchi + m.chiMin)
@[inherit_doc rad]
noncomputable def ang (x2 : ℝ) : ℝ := eta2theta m.ε m.h (x2 * m.deta + m.etaMin)

/-- `h_` (qkerr_schild.h:148-188) and `h` (qkerr_schild.h:195-233). -/
noncomputable def spatial (x1 x2 : ℝ) : Spatial where
  l11 := m.dchi ^ 2 * exp (2 * (x1 * m.dchi + m.chiMin)) * (1 + zed m.a (m.rad x1) (m.ang x2))
  l22 := m.deta ^ 2 * dthetaDeta m.ε m.h (x2 * m.deta + m.etaMin) ^ 2 *
    Sigma m.a (m.rad x1) (m.ang x2)
  l33 := bigA m.a (m.rad x1) (m.ang x2) * sin (m.ang x2) ^ 2 / Sigma m.a (m.rad x1) (m.ang x2)
  l13 := -m.dchi * exp (x1 * m.dchi + m.chiMin) * m.a * (1 + zed m.a (m.rad x1) (m.ang x2)) *
    sin (m.ang x2) ^ 2
  u11 := exp (-2 * (x1 * m.dchi + m.chiMin)) / m.dchi ^ 2 * bigA m.a (m.rad x1) (m.ang x2) /
    (Sigma m.a (m.rad x1) (m.ang x2) * (Sigma m.a (m.rad x1) (m.ang x2) + 2 * m.rad x1))
  u22 := 1 / (Sigma m.a (m.rad x1) (m.ang x2) *
    dthetaDeta m.ε m.h (x2 * m.deta + m.etaMin) ^ 2 * m.deta ^ 2)
  u33 := 1 / (Sigma m.a (m.rad x1) (m.ang x2) * sin (m.ang x2) ^ 2)
  u13 := exp (-(x1 * m.dchi + m.chiMin)) * (1 / m.dchi) * m.a / Sigma m.a (m.rad x1) (m.ang x2)

/-- `g_` (qkerr_schild.h:240-279) and `g` (qkerr_schild.h:286-316). -/
noncomputable def four (x1 x2 : ℝ) : Four where
  l00 := -(1 - zed m.a (m.rad x1) (m.ang x2))
  l01 := m.dchi * exp (x1 * m.dchi + m.chiMin) * zed m.a (m.rad x1) (m.ang x2)
  l03 := -m.a * zed m.a (m.rad x1) (m.ang x2) * sin (m.ang x2) ^ 2
  l11 := m.dchi ^ 2 * exp (2 * (x1 * m.dchi + m.chiMin)) * (1 + zed m.a (m.rad x1) (m.ang x2))
  l22 := (m.spatial x1 x2).l22
  l33 := (m.spatial x1 x2).l33
  l13 := (m.spatial x1 x2).l13
  u00 := -(1 + zed m.a (m.rad x1) (m.ang x2))
  u01 := exp (-(x1 * m.dchi + m.chiMin)) * (1 / m.dchi) * zed m.a (m.rad x1) (m.ang x2)
  u11 := exp (-2 * (x1 * m.dchi + m.chiMin)) / m.dchi ^ 2 * Delta m.a (m.rad x1) /
    Sigma m.a (m.rad x1) (m.ang x2)
  u22 := (m.spatial x1 x2).u22
  u33 := (m.spatial x1 x2).u33
  u13 := (m.spatial x1 x2).u13

/-- `alpha` (qkerr_schild.h:322-326). -/
noncomputable def alpha (x1 x2 : ℝ) : ℝ := 1 / √(1 + zed m.a (m.rad x1) (m.ang x2))

/-- `beta1` (qkerr_schild.h:365-371). -/
noncomputable def beta1 (x1 x2 : ℝ) : ℝ :=
  let z := zed m.a (m.rad x1) (m.ang x2)
  exp (-(x1 * m.dchi + m.chiMin)) * (1 / m.dchi) * z / (1 + z)

/-- `dx_dt` (qkerr_schild.h:871-881). -/
noncomputable def dxDt (η : ℝ) : ℝ :=
  if |m.h| ≤ m.ε then m.deta
  else m.deta * (1 + 2 * m.h * (1 / π ^ 2) * (2 * 3 * η ^ 2 - 2 * 3 * π * η + π ^ 2))

/-- `dt_Sigma` (qkerr_schild.h:473-482). -/
noncomputable def dtSigma (η : ℝ) : ℝ :=
  clip m.ε (-2 * m.a ^ 2 * sin (eta2theta m.ε m.h η) * cos (eta2theta m.ε m.h η) * m.dxDt η)

/-- `dt_A` (qkerr_schild.h:488-497). -/
noncomputable def dtA (r η : ℝ) : ℝ :=
  clip m.ε (-2 * m.a ^ 2 * sin (eta2theta m.ε m.h η) * cos (eta2theta m.ε m.h η) *
    Delta m.a r * m.dxDt η)

/-- Lapse, shift and derivatives (qkerr_schild.h:322-547). -/
noncomputable def deriv (x1 x2 : ℝ) : Deriv :=
  let r := m.rad x1
  let η := x2 * m.deta + m.etaMin
  let θ := m.ang x2
  let χ := x1 * m.dchi + m.chiMin
  let S := Sigma m.a r θ
  let A := bigA m.a r θ
  let z := zed m.a r θ
  let dxr := m.dchi * exp χ
  let drSigma := 2 * r * dxr
  let drDelta := 2 * dxr * (r - 1)
  let drA := 4 * r * dxr * (r ^ 2 + m.a ^ 2) - m.a ^ 2 * sin θ ^ 2 * drDelta
  { alpha := m.alpha x1 x2
    beta1 := m.beta1 x1 x2
    -- lines 332-339
    drAlpha := -(dxr * S - r * drSigma) * m.alpha x1 x2 ^ 3 / S ^ 2
    -- lines 345-359: not clipped, and the stretching is used whatever `h0` is
    dtAlpha := r * (-2 * m.a ^ 2 * sin θ * cos θ *
      (m.deta * (1 + 2 * m.h * (1 / π ^ 2) * (2 * 3 * η ^ 2 - 2 * 3 * π * η + π ^ 2)))) *
      m.alpha x1 x2 ^ 3 / S ^ 2
    -- lines 377-389
    drBeta1 := exp (-χ) * (1 / m.dchi) * 2 * (dxr * S - r * drSigma) / (S + 2 * r) ^ 2 -
      m.dchi * exp (-χ) * (1 / m.dchi) * z / (1 + z)
    -- lines 395-402
    dtBeta1 := -exp (-χ) * (1 / m.dchi) * 2 * r * m.dtSigma η / (S * (1 + z)) ^ 2
    -- lines 408-425
    drH11 := exp (-2 * χ) / m.dchi ^ 2 *
        (S * (S + 2 * r) * drA - 2 * A * (r * drSigma + S * (drSigma + dxr))) /
        (S * (S + 2 * r)) ^ 2 -
      2 * m.dchi * exp (-2 * χ) / m.dchi ^ 2 * A / (S * (S + 2 * r))
    -- lines 431-438
    drH22 := -drSigma / S ^ 2 / m.deta ^ 2
    -- lines 444-451
    drH33 := -drSigma / S ^ 2 / sin θ ^ 2
    -- lines 457-467
    drH13 := -m.a * drSigma / S ^ 2 * (exp (-χ) * (1 / m.dchi)) -
      m.dchi * (exp (-χ) * (1 / m.dchi)) * m.a / S
    -- lines 503-511
    dtH11 := exp (-2 * χ) / m.dchi ^ 2 *
      (S * (S + 2 * r) * m.dtA r η - 2 * A * m.dtSigma η * (r + S)) / (S * (S + 2 * r)) ^ 2
    -- lines 517-522
    dtH22 := -m.dtSigma η / S ^ 2 / m.deta ^ 2
    -- lines 528-535
    dtH33 := -(m.dtSigma η + 2 * cos θ / sin θ * S * m.dxDt η) / (S * sin θ) ^ 2
    -- lines 541-547
    dtH13 := -m.a * m.dtSigma η / S ^ 2 * (exp (-χ) * (1 / m.dchi)) }

/-- `sqrt_det_h` (qkerr_schild.h:553-565). -/
noncomputable def sqrtDetH (x1 x2 : ℝ) : ℝ :=
  let e := exp (x1 * m.dchi + m.chiMin)
  m.dchi * e * dthetaDeta m.ε m.h (x2 * m.deta + m.etaMin) * m.deta *
    Sigma m.a (m.r0 + e) (m.ang x2) * sin (m.ang x2) * √(1 + zed m.a (m.r0 + e) (m.ang x2))

/-- `sqrt_det_h_tilde` (qkerr_schild.h:571-582). -/
noncomputable def sqrtDetHTilde (x1 x2 : ℝ) : ℝ :=
  let e := exp (x1 * m.dchi + m.chiMin)
  m.dchi * e * dthetaDeta m.ε m.h (x2 * m.deta + m.etaMin) * m.deta *
    Sigma m.a (m.r0 + e) (m.ang x2) * √(1 + zed m.a (m.r0 + e) (m.ang x2))

/-- `polar_area` (qkerr_schild.h:590-610). -/
noncomputable def polarArea (x1 : ℝ) : ℝ :=
  let e := exp (x1 * m.dchi + m.chiMin)
  let s := m.dchi * e * ((m.r0 + e) ^ 2 + m.a ^ 2) *
    √(1 + 2 * (m.r0 + e) / ((m.r0 + e) ^ 2 + m.a ^ 2))
  open Classical in
  if m.small then
    let dtheta := eta2theta m.ε m.h (1 / 2 * m.deta)
    s * (48 - dtheta ^ 2) * dtheta ^ 2 / 384
  else s * (1 - cos (eta2theta m.ε m.h (1 / 2 * m.deta)))

end QKS

/-! ## Vectors -/

/-- `transform<in, out>` of `KerrSchild` (kerr_schild.h:596-665) and `QKerrSchild`
(qkerr_schild.h:674-743): `h` the components at the point, `jac` the factors of the physical bases and
`jacInv` those used in the other direction. -/
noncomputable def grTransform (h : Spatial) (jac jacInv : V3 ℝ) (a b : Idx) (v : V3 ℝ) :
    Outcome (V3 ℝ) :=
  if a = .T ∧ b = .Sph ∨ a = .Sph ∧ b = .T then .ok v
  else if (a = .T ∨ a = .Sph) ∧ b = .U then
    let A0 := √h.u11
    .ok ⟨v.x * A0, v.y / √h.l22, v.z / √h.l33 - v.x * A0 * h.l13 / h.l33⟩
  else if a = .U ∧ (b = .T ∨ b = .Sph) then
    .ok ⟨v.x / √h.u11, v.y * √h.l22, v.z * √h.l33 + v.x * h.l13 / √h.l33⟩
  else if (a = .T ∨ a = .Sph) ∧ b = .D then
    .ok ⟨v.x / √h.u11 + v.z * h.l13 / √h.l33, v.y * √h.l22, v.z * √h.l33⟩
  else if a = .D ∧ (b = .T ∨ b = .Sph) then
    let A0 := √h.u11
    .ok ⟨v.x * A0 - v.z * A0 * h.l13 / h.l33, v.y / √h.l22, v.z / √h.l33⟩
  else if a = .U ∧ b = .D then
    .ok ⟨v.x * h.l11 + v.z * h.l13, v.y * h.l22, v.x * h.l13 + v.z * h.l33⟩
  else if a = .D ∧ b = .U then
    .ok ⟨v.x * h.u11 + v.z * h.u13, v.y * h.u22, v.x * h.u13 + v.z * h.u33⟩
  else if (a = .U ∧ b = .PU) ∨ (a = .PD ∧ b = .D) then
    .ok ⟨v.x * jac.x, v.y * jac.y, v.z * jac.z⟩
  else if (a = .PU ∧ b = .U) ∨ (a = .D ∧ b = .PD) then
    .ok ⟨v.x * jacInv.x, v.y * jacInv.y, v.z * jacInv.z⟩
  else .err

/-- `transform<in, out>` of `KerrSchild0` (kerr_schild_0.h:438-496). -/
noncomputable def gr0Transform (h : Spatial) (jac jacInv : V3 ℝ) (a b : Idx) (v : V3 ℝ) :
    Outcome (V3 ℝ) :=
  if a = .T ∧ b = .Sph ∨ a = .Sph ∧ b = .T then .ok v
  else if ((a = .T ∨ a = .Sph) ∧ b = .U) ∨ (a = .D ∧ (b = .T ∨ b = .Sph)) then
    .ok ⟨v.x * √h.u11, v.y / √h.l22, v.z / √h.l33⟩
  else if (a = .U ∧ (b = .T ∨ b = .Sph)) ∨ ((a = .T ∨ a = .Sph) ∧ b = .D) then
    .ok ⟨v.x / √h.u11, v.y * √h.l22, v.z * √h.l33⟩
  else if a = .U ∧ b = .D then .ok ⟨v.x * h.l11, v.y * h.l22, v.z * h.l33⟩
  else if a = .D ∧ b = .U then .ok ⟨v.x * h.u11, v.y * h.u22, v.z * h.u33⟩
  else if (a = .U ∧ b = .PU) ∨ (a = .PD ∧ b = .D) then
    .ok ⟨v.x * jac.x, v.y * jac.y, v.z * jac.z⟩
  else if (a = .PU ∧ b = .U) ∨ (a = .D ∧ b = .PD) then
    .ok ⟨v.x * jacInv.x, v.y * jacInv.y, v.z * jacInv.z⟩
  else .err

/-- Factors of the physical bases (kerr_schild.h:641-660). -/
noncomputable def KS.transform (m : KS) (x1 x2 : ℝ) : Idx → Idx → V3 ℝ → Outcome (V3 ℝ) :=
  grTransform (m.spatial x1 x2) ⟨m.dr, m.dt, 1⟩ ⟨1 / m.dr, 1 / m.dt, 1⟩

/-- Factors of the physical bases (kerr_schild_0.h:472-491). -/
noncomputable def KS0.transform (m : KS0) (x1 x2 : ℝ) : Idx → Idx → V3 ℝ → Outcome (V3 ℝ) :=
  gr0Transform (m.spatial x1 x2) ⟨m.dr, m.dt, 1⟩ ⟨1 / m.dr, 1 / m.dt, 1⟩

/-- Factors of the physical bases (qkerr_schild.h:719-738). -/
noncomputable def QKS.transform (m : QKS) (x1 x2 : ℝ) : Idx → Idx → V3 ℝ → Outcome (V3 ℝ) :=
  grTransform (m.spatial x1 x2)
    ⟨exp (x1 * m.dchi + m.chiMin) * m.dchi, dthetaDeta m.ε m.h (x2 * m.deta + m.etaMin) * m.deta, 1⟩
    ⟨1 / m.dchi / exp (x1 * m.dchi + m.chiMin),
      1 / m.deta / dthetaDeta m.ε m.h (x2 * m.deta + m.etaMin), 1⟩

/-- Four-vectors. -/
structure V4 where
  t : ℝ
  x : ℝ
  y : ℝ
  z : ℝ

/-- `u_0` (kerr_schild.h:671-680, kerr_schild_0.h:502-511, qkerr_schild.h:749-758). -/
noncomputable def u0 (g : Four) (u : V3 ℝ) (norm : ℝ) : ℝ :=
  let A := g.u00
  let B := -2 * g.u01 * u.x
  let C := g.u11 * u.x ^ 2 + g.u22 * u.y ^ 2 + g.u33 * u.z ^ 2 + 2 * g.u13 * u.x * u.z + norm
  (B + √(B ^ 2 - 4 * A * C)) / (2 * A)

/-- `transform_4d<D, U>` (kerr_schild.h:693-700, kerr_schild_0.h:524-531, qkerr_schild.h:771-778). -/
def raise4 (g : Four) (v : V4) : V4 :=
  ⟨v.t * g.u00 + v.x * g.u01, v.t * g.u01 + v.x * g.u11 + v.z * g.u13, v.y * g.u22,
   v.x * g.u13 + v.z * g.u33⟩

/-- `transform_4d<U, D>` (kerr_schild.h:701-709, kerr_schild_0.h:532-540, qkerr_schild.h:779-787). -/
def lower4 (g : Four) (v : V4) : V4 :=
  ⟨v.t * g.l00 + v.x * g.l01 + v.z * g.l03, v.t * g.l01 + v.x * g.l11 + v.z * g.l13, v.y * g.l22,
   v.t * g.l03 + v.x * g.l13 + v.z * g.l33⟩

end Entity.Metric
