import Lean.Elab.Tactic.Basic
import Lean.Meta.AppBuilder

/-!
# `kernel_rfl`

Closes `a = b` with `Eq.refl a` and leaves the check that `a` and `b` agree by computation to the
kernel (the elaborator's unifier is slow on long lists of memory accesses).
-/

open Lean Meta Elab Tactic

elab "kernel_rfl" : tactic => do
  let g ← getMainGoal
  let t := (← instantiateMVars (← g.getType)).consumeMData
  let some (_, a, _) := t.eq? | throwError "kernel_rfl: not an equation"
  g.assign (← mkEqRefl a)
