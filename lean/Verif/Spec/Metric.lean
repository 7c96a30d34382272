import Mathlib.Analysis.Calculus.Deriv.Basic
import Mathlib.Data.Matrix.Mul
import Mathlib.LinearAlgebra.Matrix.Determinant.Basic
import Mathlib.LinearAlgebra.Matrix.Notation
import Verif.Model.MetricGR

/-! What the components of a metric have to satisfy. -/

namespace Entity.Metric

open Matrix

/-- The spatial metric with lower indices as a matrix. -/
def Spatial.lower (h : Spatial) : Matrix (Fin 3) (Fin 3) ℝ :=
  !![h.l11, 0, h.l13; 0, h.l22, 0; h.l13, 0, h.l33]

/-- The spatial metric with upper indices as a matrix. -/
def Spatial.upper (h : Spatial) : Matrix (Fin 3) (Fin 3) ℝ :=
  !![h.u11, 0, h.u13; 0, h.u22, 0; h.u13, 0, h.u33]

/-- The space-time metric with lower indices as a matrix. -/
def Four.lower (g : Four) : Matrix (Fin 4) (Fin 4) ℝ :=
  !![g.l00, g.l01, 0, g.l03; g.l01, g.l11, 0, g.l13; 0, 0, g.l22, 0; g.l03, g.l13, 0, g.l33]

/-- The space-time metric with upper indices as a matrix. -/
def Four.upper (g : Four) : Matrix (Fin 4) (Fin 4) ℝ :=
  !![g.u00, g.u01, 0, 0; g.u01, g.u11, 0, g.u13; 0, 0, g.u22, 0; 0, g.u13, 0, g.u33]

/-- The space-time metric assembled from lapse `α`, shift `(β, 0, 0)` and spatial metric (ADM form):
`g_00 = -α² + h_11 β²`, `g_0i = h_i1 β`, `g_ij = h_ij`. -/
def admLower (α β : ℝ) (h : Spatial) : Matrix (Fin 4) (Fin 4) ℝ :=
  !![-α ^ 2 + h.l11 * β ^ 2, h.l11 * β, 0, h.l13 * β;
     h.l11 * β, h.l11, 0, h.l13;
     0, 0, h.l22, 0;
     h.l13 * β, h.l13, 0, h.l33]

/-- Lapse, shift and spatial metric of a point of code coordinates. -/
abbrev Field := ℝ → ℝ → ℝ

/-- `fr` and `ft` are the derivatives of `f` along the two code coordinates at `(x1, x2)`. -/
structure Derivs (f : Field) (fr ft : ℝ) (x1 x2 : ℝ) : Prop where
  dr : HasDerivAt (fun x => f x x2) fr x1
  dt : HasDerivAt (fun x => f x1 x) ft x2

/-- What transformations of vectors (or of single components) between the tetrad basis, a second
orthonormal basis `ortho`, contravariant, covariant and the two physical bases have to satisfy:
every path leads to the same result, the way back is the inverse, and contracting a contravariant with
a covariant vector gives the product of the tetrad components. -/
structure VectorRules {V : Type} (tr : Idx → Idx → V → Outcome V) (dot : V → V → ℝ) (ortho : Idx) :
    Prop where
  path : ∀ a b c, a ∈ [.T, ortho, .U, .D] → b ∈ [.T, ortho, .U, .D] → c ∈ [.T, ortho, .U, .D] →
    a ≠ b → b ≠ c → ∀ v, (tr a b v >>= tr b c) = if a = c then .ok v else tr a c v
  phys : ∀ a b, (a, b) ∈ [(Idx.U, Idx.PU), (.PU, .U), (.D, .PD), (.PD, .D)] →
    ∀ v, (tr a b v >>= tr b a) = .ok v
  contract : ∀ v w, ∃ u d pu pd, tr .T .U v = .ok u ∧ tr .T .D w = .ok d ∧ dot u d = dot v w ∧
    tr .U .PU u = .ok pu ∧ tr .D .PD d = .ok pd ∧ dot pu pd = dot v w

/-- Contraction of two four-vectors. -/
def V4.dot (u v : V4) : ℝ := u.t * v.t + u.x * v.x + u.y * v.y + u.z * v.z

end Entity.Metric
