import Verif.Model.PrtlPhys
import Mathlib.Analysis.Calculus.Deriv.Basic

/-!
# Specification of particle output (C144)
-/

namespace Entity.PrtlPhys

open Entity Entity.Metric
open Entity.Push (V3)
open Real

/-- The whole grid: cells of positive size; for stretched grids the radii lie beyond the offset and the
stretching is off or between zero and one. -/
structure Grid (k : Kind) (q : MetPrm) (e : Fin 3 → Ext) : Prop where
  cells : ∀ d, 0 < (e d).n
  size : ∀ d, (e d).lo < (e d).hi
  tol : 0 ≤ q.ε
  stretched : k = .qsph ∨ k = .qks → (|q.h| ≤ q.ε ∨ 0 < q.h ∧ q.h < 1) ∧ q.r0 < (e 0).lo

/-- Position of a particle on the whole grid: its cell counted from the corner of the grid, plus its
offset inside the cell, in physical units; on spherical grids the third coordinate is the azimuth. -/
noncomputable def position (G : Met) (off : Fin 3 → Nat) (a : Arrays) (p : Nat) (d : Fin 3) : ℝ :=
  if d = 2 ∧ G.cartesian = false then a.phi p else G.toPh d (off d + (a.i d p + a.dx d p))

/-- Unit vectors along radius, polar angle and azimuth. -/
noncomputable def eR (θ φ : ℝ) : V3 ℝ := ⟨sin θ * cos φ, sin θ * sin φ, cos θ⟩
@[inherit_doc eR]
noncomputable def eT (θ φ : ℝ) : V3 ℝ := ⟨cos θ * cos φ, cos θ * sin φ, -sin θ⟩
@[inherit_doc eR]
noncomputable def eP (_θ φ : ℝ) : V3 ℝ := ⟨-sin φ, cos φ, 0⟩

/-- What the written velocity `u` of particle `p` has to be.  Cartesian grids: the velocity itself.
Spherical grids of the SR engine: the components along the unit vectors at the position of the particle.
GR: the covariant components in the coordinate basis, i.e. those that times the derivative of the physical
coordinates by the code coordinates are the covariant components of the code. -/
def Velocity (G : Met) (off : Fin 3 → Nat) (a : Arrays) (p : Nat) (u : V3 ℝ) : Prop :=
  let x := position G off a p
  match G with
  | .mink _ _ => u = ⟨a.ux 0 p, a.ux 1 p, a.ux 2 p⟩
  | .sph _ | .qsph _ =>
    (u.x * (eR (x 1) (x 2)).x + u.y * (eT (x 1) (x 2)).x + u.z * (eP (x 1) (x 2)).x = a.ux 0 p ∧
     u.x * (eR (x 1) (x 2)).y + u.y * (eT (x 1) (x 2)).y + u.z * (eP (x 1) (x 2)).y = a.ux 1 p ∧
     u.x * (eR (x 1) (x 2)).z + u.y * (eT (x 1) (x 2)).z + u.z * (eP (x 1) (x 2)).z = a.ux 2 p)
  | _ =>
    (∃ J, HasDerivAt (G.toPh 0) J (off 0 + (a.i 0 p + a.dx 0 p)) ∧ J ≠ 0 ∧ u.x * J = a.ux 0 p) ∧
    (∃ J, HasDerivAt (G.toPh 1) J (off 1 + (a.i 1 p + a.dx 1 p)) ∧ J ≠ 0 ∧ u.y * J = a.ux 1 p) ∧
    u.z = a.ux 2 p

/-- What a variable has to hold for particle `p` with written velocity `u`: coordinates, velocity, weight,
payloads, and for tracked particles the counter and the rank, which are the first payloads. -/
noncomputable def content (G : Met) (off : Fin 3 → Nat) (c : OutCfg) (a : Arrays) (u : V3 ℝ) (p : Nat) :
    Var → Val
  | .X d => .r (position G off a p (if d = 1 then 0 else if d = 2 then 1 else 2))
  | .U d => .r (if d = 1 then u.x else if d = 2 then u.y else u.z)
  | .W => .r (a.weight p)
  | .R j => .r (a.pldR p j)
  | .IDX => .n (a.pldI p 0)
  | .RNK => .n (a.pldI p 1)
  | .I j => .n (a.pldI p (j + if c.tracking then (if c.mpi then 2 else 1) else 0))

/-- The variables of a species: as many coordinates as the particle has, three velocities, the weight, the
payloads, and for tracked particles the counter and (with MPI) the rank. -/
def HasVar (c : OutCfg) : Var → Prop
  | .X d => 1 ≤ d ∧ d ≤ if c.dim = 2 ∧ c.cartesian = false then 3 else c.dim
  | .U d => 1 ≤ d ∧ d ≤ 3
  | .W => True
  | .R j => j < c.npldR
  | .IDX => c.tracking = true
  | .RNK => c.tracking = true ∧ c.mpi = true
  | .I j => j + (if c.tracking then (if c.mpi then 2 else 1) else 0) < c.npldI

/-- Which particles of a rank are written: without tracking every `stride`-th one, with tracking the live
ones whose counter is a multiple of `stride`, each once. -/
def Chosen (c : OutCfg) (stride : Nat) (s : SpeciesOnRank) (sel : List Nat) : Prop :=
  if c.tracking then
    sel.Nodup ∧ ∀ p, p ∈ sel ↔ p < s.npart ∧ s.tag p = 1 ∧ stride ∣ s.arr.pldI p 0
  else sel = (List.range (s.npart / stride)).map (· * stride)

end Entity.PrtlPhys
