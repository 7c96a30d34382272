import Verif.Model.Curvi

/-!
# Maxwell's equations in a curved space-time on a staggered grid

Specification used by C126 and C127.  Lattice functions stand for the contravariant components of `D` and
`B` on the staggered grid: `D¹` at `(i+½, j)`, `D²` at `(i, j+½)`, `D³` at `(i, j)`, `B¹` at `(i, j+½)`,
`B²` at `(i+½, j)`, `B³` at `(i+½, j+½)`.
-/

namespace Entity.GRScheme

open Entity.Curvi

variable {K : Type} [Field K]

/-- Three components on the lattice. -/
@[ext] structure Lat (K : Type) where
  x : Int → Int → K
  y : Int → Int → K
  z : Int → Int → K

namespace Lat
/-- `F + c G`. -/
def addMul (F : Lat K) (c : K) (G : Lat K) : Lat K :=
  ⟨fun i j => F.x i j + c * G.x i j, fun i j => F.y i j + c * G.y i j, fun i j => F.z i j + c * G.z i j⟩
/-- The mean of two fields. -/
def mid (F G : Lat K) : Lat K :=
  ⟨fun i j => (F.x i j + G.x i j) / 2, fun i j => (F.y i j + G.y i j) / 2,
    fun i j => (F.z i j + G.z i j) / 2⟩
end Lat

/-- The mean, at `(x1, x2)`, of the product of a function `c` with a field known at `x1 - ½` and `x1 + ½`,
weighted with `sqrt_det_h_tilde`. -/
def wmean (M : CMetric K) (c : K → K → K) (x1 x2 qm qp : K) : K :=
  (M.sqrtDetT (x1 - 1 / 2) x2 * (c (x1 - 1 / 2) x2 * qm) +
    M.sqrtDetT (x1 + 1 / 2) x2 * (c (x1 + 1 / 2) x2 * qp)) / (2 * M.sqrtDetT x1 x2)

/-- `√h β¹`. -/
def shift (M : CMetric K) (x1 x2 : K) : K := M.sqrtDet x1 x2 * M.beta1 x1 x2

/-- `E = α D + β × B` with `β = (β¹, 0, 0)`, indices lowered with the spatial metric. -/
def Efield (M : CMetric K) (g : CGrid) (D B : Lat K) : Lat K where
  x i j := M.alpha (coord g i + 1 / 2) (coord g j) * (M.h11 (coord g i + 1 / 2) (coord g j) * D.x i j +
    wmean M M.h13 (coord g i + 1 / 2) (coord g j) (D.z i j) (D.z (i + 1) j))
  y i j := M.alpha (coord g i) (coord g j + 1 / 2) * (M.h22 (coord g i) (coord g j + 1 / 2) * D.y i j) -
    wmean M (shift M) (coord g i) (coord g j + 1 / 2) (B.z (i - 1) j) (B.z i j)
  z i j := M.alpha (coord g i) (coord g j) * (M.h33 (coord g i) (coord g j) * D.z i j +
      wmean M M.h13 (coord g i) (coord g j) (D.x (i - 1) j) (D.x i j)) +
    wmean M (shift M) (coord g i) (coord g j) (B.y (i - 1) j) (B.y i j)

/-- `H = α B - β × D`. -/
def Hfield (M : CMetric K) (g : CGrid) (D B : Lat K) : Lat K where
  x i j := M.alpha (coord g i) (coord g j + 1 / 2) * (M.h11 (coord g i) (coord g j + 1 / 2) * B.x i j +
    wmean M M.h13 (coord g i) (coord g j + 1 / 2) (B.z (i - 1) j) (B.z i j))
  y i j := M.alpha (coord g i + 1 / 2) (coord g j) * (M.h22 (coord g i + 1 / 2) (coord g j) * B.y i j) +
    wmean M (shift M) (coord g i + 1 / 2) (coord g j) (D.z i j) (D.z (i + 1) j)
  z i j := M.alpha (coord g i + 1 / 2) (coord g j + 1 / 2) *
      (M.h33 (coord g i + 1 / 2) (coord g j + 1 / 2) * B.z i j +
      wmean M M.h13 (coord g i + 1 / 2) (coord g j + 1 / 2) (B.x i j) (B.x (i + 1) j)) -
    wmean M (shift M) (coord g i + 1 / 2) (coord g j + 1 / 2) (D.y i j) (D.y (i + 1) j)

/-- The curl of `E`, at the places of `B`; nothing depends on the third coordinate. -/
def curlE (M : CMetric K) (g : CGrid) (E : Lat K) : Lat K where
  x i j := (E.z i (j + 1) - E.z i j) / M.sqrtDet (coord g i) (coord g j + 1 / 2)
  y i j := -(E.z (i + 1) j - E.z i j) / M.sqrtDet (coord g i + 1 / 2) (coord g j)
  z i j := ((E.y (i + 1) j - E.y i j) - (E.x i (j + 1) - E.x i j)) /
    M.sqrtDet (coord g i + 1 / 2) (coord g j + 1 / 2)

/-- The curl of `H`, at the places of `D`. -/
def curlH (M : CMetric K) (g : CGrid) (H : Lat K) : Lat K where
  x i j := (H.z i j - H.z i (j - 1)) / M.sqrtDet (coord g i + 1 / 2) (coord g j)
  y i j := -(H.z i j - H.z (i - 1) j) / M.sqrtDet (coord g i) (coord g j + 1 / 2)
  z i j := ((H.y i j - H.y (i - 1) j) - (H.x i j - H.x i (j - 1))) / M.sqrtDet (coord g i) (coord g j)

/-- The current density: the deposited current over the volume of the cell. -/
def density (M : CMetric K) (g : CGrid) (J : Lat K) : Lat K where
  x i j := J.x i j / M.sqrtDet (coord g i + 1 / 2) (coord g j)
  y i j := J.y i j / M.sqrtDet (coord g i) (coord g j + 1 / 2)
  z i j := J.z i j / M.sqrtDet (coord g i) (coord g j)

/-- What is known at the beginning of step `n`: `D` at `n`, `B` at `n - ½`, `D0` at `n - 1`, `B0` at
`n - 3/2`, the current `J` at `n - ½`. -/
structure Fields (K : Type) where
  D : Lat K
  B : Lat K
  D0 : Lat K
  B0 : Lat K
  J : Lat K

/-- `F` after the current `J` has acted for a time step. -/
def source (M : CMetric K) (g : CGrid) (p : StepPrm K) (F : Lat K) : Option (Lat K) → Lat K
  | none => F
  | some J => F.addMul (-(p.dt * p.q0 / p.B0)) (density M g J)

/-- `B` at `n`: from the mean of the last two, at `n - 1`, with `E` at `n - ½`. -/
def Bcentred (M : CMetric K) (g : CGrid) (p : StepPrm K) (s : Fields K) : Lat K :=
  (Lat.mid s.B0 s.B).addMul (-(p.correction * p.dt)) (curlE M g (Efield M g (Lat.mid s.D0 s.D) s.B))

/-- `B` at `n + ½`: from `n - ½`, with `E` at `n`. -/
def Bnext (M : CMetric K) (g : CGrid) (p : StepPrm K) (s : Fields K) : Lat K :=
  s.B.addMul (-(p.correction * p.dt)) (curlE M g (Efield M g s.D (Bcentred M g p s)))

/-- `D` at `n + ½`: from the mean of the last two, at `n - ½`, with `H` and the current at `n`. -/
def Dcentred (M : CMetric K) (g : CGrid) (p : StepPrm K) (s : Fields K) (J : Option (Lat K)) : Lat K :=
  source M g p ((Lat.mid s.D0 s.D).addMul (p.correction * p.dt)
    (curlH M g (Hfield M g s.D (Bcentred M g p s)))) (J.map (Lat.mid s.J))

/-- `D` at `n + 1`: from `n`, with `H` and the current `J` at `n + ½`. -/
def Dnext (M : CMetric K) (g : CGrid) (p : StepPrm K) (s : Fields K) (J : Option (Lat K)) : Lat K :=
  source M g p (s.D.addMul (p.correction * p.dt)
    (curlH M g (Hfield M g (Dcentred M g p s J) (Bnext M g p s)))) J

/-- The fields the first step starts from, given `D` and `B` at `-½`: `D` and `B` at `0` are half a step
further, `B` at `½` a whole step with `E` at `0`, `D` at `1` a step after the one at `0` with `H` at `½`. -/
def firstFields (M : CMetric K) (g : CGrid) (p : StepPrm K) (D B J : Lat K) : Fields K :=
  let dt := p.correction * p.dt
  let B0 := B.addMul (-(1 / 2 * dt)) (curlE M g (Efield M g D B))
  let D0 := D.addMul (1 / 2 * dt) (curlH M g (Hfield M g D B))
  let Bh := B.addMul (-dt) (curlE M g (Efield M g D0 B0))
  let Dh := D.addMul dt (curlH M g (Hfield M g D0 B0))
  { D := D0.addMul dt (curlH M g (Hfield M g Dh Bh)), B := Bh, D0 := D0, B0 := B, J := J }

/-! ### Special relativity, orthogonal coordinates -/

/-- Covariant components of the electric field, at its places. -/
def lowerE (M : CMetric K) (g : CGrid) (E : Lat K) : Lat K where
  x i j := M.h11 (coord g i + 1 / 2) (coord g j) * E.x i j
  y i j := M.h22 (coord g i) (coord g j + 1 / 2) * E.y i j
  z i j := M.h33 (coord g i) (coord g j) * E.z i j

/-- Covariant components of the magnetic field, at its places. -/
def lowerB (M : CMetric K) (g : CGrid) (B : Lat K) : Lat K where
  x i j := M.h11 (coord g i) (coord g j + 1 / 2) * B.x i j
  y i j := M.h22 (coord g i + 1 / 2) (coord g j) * B.y i j
  z i j := M.h33 (coord g i + 1 / 2) (coord g j + 1 / 2) * B.z i j

/-- `B` a time step later. -/
def BnextSR (M : CMetric K) (g : CGrid) (p : StepPrm K) (E B : Lat K) : Lat K :=
  B.addMul (-(p.correction * p.dt)) (curlE M g (lowerE M g E))

/-- `E` a time step later. -/
def EnextSR (M : CMetric K) (g : CGrid) (p : StepPrm K) (E B : Lat K) (J : Option (Lat K)) : Lat K :=
  source M g p (E.addMul (p.correction * p.dt) (curlH M g (lowerB M g (BnextSR M g p E B)))) J

end Entity.GRScheme
