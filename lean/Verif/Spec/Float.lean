import Verif.Model.Float

/-! # Numbers of a floating-point format -/

namespace Entity.Float

/-- The numbers of a format (without the bound on the largest one). -/
def Fmt.Rep (F : Fmt) (x : ℚ) : Prop :=
  ∃ (m e : Int), F.emin ≤ e ∧ |m| ≤ 2 ^ F.p ∧ x = m * 2 ^ e

/-- A sensible format. -/
structure Fmt.Ok (F : Fmt) : Prop where
  p : 1 ≤ F.p
  emin : F.emin ≤ - F.p

end Entity.Float
