import Verif.Model.Push

/-!
# Choice between the guiding-centre and the conventional pusher (src/kernels/pushers/sr.hpp:249-309)
-/

namespace Entity.Push

/-- `velocityEMPush_GCA_ExtForce` (sr.hpp:480-523); `dt` is `ctx.dt`, `c` is `normalized_dt_half`. -/
noncomputable def gcaForce (c dt : ℝ) (f e b u : V3 ℝ) : V3 ℝ :=
  let w := (e.cross b).smul (1 / (e.normSq + b.normSq))
  let b := b.smul (1 / √b.normSq)
  let upar := u.dot b + c * 2 * e.dot b + dt * f.dot b
  let w2 := w.normSq
  let fac := if w2 < 1 / 100 then 1 + w2 + 2 * w2 ^ 2 + 5 * w2 ^ 2 * w2
    else (1 - √(1 - 4 * w2)) / (2 * w2)
  let vE := w.smul fac
  let G := √(1 + upar ^ 2) / √(1 - vE.normSq)
  b.smul upar + vE.smul G

/-- The condition of sr.hpp:251-261.  `rL` is infinite, so the condition false, for a particle without
charge (`c = 0`); without a magnetic field `B2 > ZERO` makes it false. -/
def magnetized (c dt larmorMax eOvrBSqrMax : ℝ) (e b u : V3 ℝ) : Prop :=
  b.normSq > 0 ∧ (c ≠ 0 ∧ √(1 + u.normSq) * dt / (2 * |c| * √b.normSq) < larmorMax) ∧
    e.normSq / b.normSq < eOvrBSqrMax

open Classical in
/-- The update of the momentum (sr.hpp:249-309) of a species with flags `isGca`, `isBoris`, `isVay`.
`force` is `HasExtForce or Atm`, fixed at compile time.  The second component is `is_gca`; the error is
`raise::KernelError` (sr.hpp:281, 302). -/
noncomputable def hybrid (isGca isBoris isVay force : Bool) (c dt larmorMax eOvrBSqrMax : ℝ)
    (f e b u : V3 ℝ) : Outcome (V3 ℝ × Bool) :=
  if isGca = true ∧ magnetized c dt larmorMax eOvrBSqrMax e b u then
    .ok (if force = true then gcaForce c dt f e b u else gca c e b u, true)
  else
    let u1 := if force = true then halfKick dt f u else u
    if isBoris = true then
      let u2 := boris c e b u1
      .ok (if force = true then halfKick dt f u2 else u2, false)
    else if isVay = true then
      let u2 := vay c e b u1
      .ok (if force = true then halfKick dt f u2 else u2, false)
    else .err

end Entity.Push
