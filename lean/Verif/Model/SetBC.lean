import Verif.Model.Topology

/-!
# Changing boundary conditions at run time (src/framework/domain/metadomain.cpp:404-537)
-/

namespace Entity.SetBC

open Entity Entity.Dir Entity.Topology

/-- `bc_in` (src/global/global.h): the six sides of the box. -/
inductive Side where
  | Mx1 | Px1 | Mx2 | Px2 | Mx3 | Px3
  deriving DecidableEq, Repr

/-- The direction passed to `g_mesh.set_flds_bc` by `setFldsBC` (metadomain.cpp:404-470); `setPrtlBC`
(472-537) has the same table. -/
def sideDir (D : Nat) : Side → Outcome Direction
  | .Mx1 => if D = 1 then .ok [-1] else if D = 2 then .ok [-1, 0] else if D = 3 then .ok [-1, 0, 0]
      else .err
  | .Px1 => if D = 1 then .ok [1] else if D = 2 then .ok [1, 0] else if D = 3 then .ok [1, 0, 0]
      else .err
  | .Mx2 => if D = 1 then .err else if D = 2 then .ok [-1, 0] else if D = 3 then .ok [-1, 0, 0]
      else .err
  | .Px2 => if D = 1 then .err else if D = 2 then .ok [1, 0] else if D = 3 then .ok [1, 0, 0]
      else .err
  | .Mx3 => if D = 3 then .ok [0, 0, -1] else .err
  | .Px3 => if D = 3 then .ok [0, 0, 1] else .err

/-- `Grid::set_flds_bc` (grid.h:294-296) for an orthogonal direction, seen through
`Grid::flds_bc()`, which lists the conditions per dimension: the entry of the direction is
replaced. -/
def assign {β : Type} : Direction → β → List (β × β) → List (β × β)
  | d :: ds, new, (l, r) :: bs =>
    (if d = -1 then new else l, if d = 1 then new else r) :: assign ds new bs
  | _, _, bs => bs

/-- `Metadomain::setFldsBC` (metadomain.cpp:404-470) and `setPrtlBC` (472-537): the new global
conditions.  The subdomains' conditions are recomputed from them by `redefineBoundaries`
(`Entity.Topology.dirBC`). -/
def setBC {β : Type} (side : Side) (new : β) (bcs : List (β × β)) : Outcome (List (β × β)) := do
  let d ← sideDir bcs.length side
  pure (assign d new bcs)

end Entity.SetBC
