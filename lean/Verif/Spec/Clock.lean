import Verif.Spec.Float

/-! # Floating-point formats and runs for statements about start-up and clock -/

namespace Entity.Startup

open Entity.Float

/-- Formats with enough digits and a wide enough range of exponents (`float` and `double` are such formats). -/
structure Wide (F : Fmt) : Prop where
  ok : F.Ok
  p : 24 ≤ F.p
  emin : F.emin + 3 * F.p ≤ 0

end Entity.Startup

namespace Entity.Clock

open Entity.Float

/-- A run of `n` steps of size `dt` from the time `t0` to a time of at most `T`, with so few steps that `n`
rounding errors `2 ^ -p` are at most 1/100 (always so for `double` and a 32-bit number of steps). -/
structure Run (F : Fmt) (t0 dt : ℚ) (n : Nat) (T : ℚ) : Prop where
  wide : Startup.Wide F
  start : 0 ≤ t0
  pos : 0 < dt
  stop : t0 + n * dt ≤ T
  few : n * (2 : ℚ) ^ (-(F.p : Int)) ≤ 1 / 100
  tiny : 2 ^ (F.emin + F.p) ≤ T

/-- Time between the outputs after the iterations `i` and `j`: the interval, rounded up to steps, up to
`E`. -/
def Gap (dt interval E : ℚ) (i j : Nat) : Prop :=
  i < j ∧ interval - E ≤ (j - i : ℕ) * dt ∧ (j - i : ℕ) * dt < interval + dt + E

end Entity.Clock
