import Verif.Model.Float

/-!
# Numbers of a binary format with rounded operations

The arithmetic of the kernels on `real_t` (src/global/global.h:348-353, `float` or `double`): each operation
is the exact one followed by rounding to nearest even.  Not modelled: infinities, NaN, the sign of zero,
contraction of a product and a sum into one operation (which a compiler does in the same way on all ranks).
Division by zero, infinite in IEEE arithmetic, is zero here.
-/

namespace Entity.Float

/-- A number of format `F` (global.h:348-353). -/
structure Rounded (F : Fmt) where
  val : ℚ
  deriving DecidableEq

variable {F : Fmt}

/-- The number nearest to `x`. -/
def Rounded.of (F : Fmt) (x : ℚ) : Rounded F := ⟨F.round x⟩

instance : Add (Rounded F) := ⟨fun a b => .of F (a.val + b.val)⟩
instance : Sub (Rounded F) := ⟨fun a b => .of F (a.val - b.val)⟩
instance : Mul (Rounded F) := ⟨fun a b => .of F (a.val * b.val)⟩
instance : Div (Rounded F) := ⟨fun a b => .of F (a.val / b.val)⟩
instance : Neg (Rounded F) := ⟨fun a => ⟨-a.val⟩⟩
instance : Zero (Rounded F) := ⟨⟨0⟩⟩
instance : One (Rounded F) := ⟨⟨1⟩⟩
instance : NatCast (Rounded F) := ⟨fun n => .of F n⟩
instance : IntCast (Rounded F) := ⟨fun n => .of F n⟩

end Entity.Float
