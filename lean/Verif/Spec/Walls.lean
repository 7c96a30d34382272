import Verif.Model.Walls

/-!
# Specification: the method of images

Fields on an unbounded lattice.  The fields in the box are continued beyond conducting walls by mirror
images and along periodic axes by repetition; the equations are then applied everywhere on the lattice,
without walls, ranks or ghost cells.
-/

namespace Entity.Walls

open Entity Entity.Topology Entity.Kernel Entity.FieldSolver Entity.FieldBC

/-- Both ends of axis `o` are conducting walls. -/
def isWallAxis (m : Meta) (o : Nat) : Bool := decide (m.bcs[o]? = some (.CONDUCTOR, .CONDUCTOR))

/-- A coordinate between mirrors at `0` and `N`: the coordinate in the box and the sign of the image.
Components that sit between the nodes have images of the same sign; the others change sign and vanish
on the mirrors. -/
def foldWall (N : Nat) (half : Bool) (x : Int) : Int × Int :=
  let y := x % (2 * N)
  if half = true then (1, if y < N then y else 2 * N - 1 - y)
  else if y = 0 ∨ y = N then (0, 0)
  else if y < N then (1, y) else (-1, 2 * N - y)

/-- The sign and the coordinate in the box, for either kind of axis. -/
def fold (m : Meta) (N : List Nat) (c o : Nat) (x : Int) : Int × Int :=
  if isWallAxis m o = true then foldWall (N.getD o 0) (halfAlong c o) x
  else (1, x % (N.getD o 0 : Int))

/-- The field `f` of the box of `N` cells, continued to the lattice. -/
def image {K : Type} [Field K] (m : Meta) (N : List Nat) (f : Nat → List Int → K) (c : Nat) (p : List Int) : K :=
  let q := p.mapIdx (fun o x => fold m N c o x)
  (((q.map (·.1)).prod : Int) : K) * f c (q.map (·.2))

/-- A kernel applied in every cell of the lattice at once. -/
def onLattice {K : Type} [Field K] (D : Nat) (as : List (Assign K)) (G : Mem K) : Mem K :=
  fun l => runBody as (fun l' => G (l'.at l.idx)) ⟨l.arr, l.comp, here D⟩

/-- What an operation makes of the fields of the lattice. -/
def latticeStep {K : Type} [Field K] (m : Meta) (N : List Nat) (D : Nat) : WOp K → Mem K → Mem K
  | .faraday dT dx c, G => onLattice D (faraday D dT dx c) G
  | .electric dT dx none, G => onLattice D (ampere D dT dx) G
  | .electric dT dx (some (coeff, _, j)), G => fun l =>
      onLattice D (ampere D dT dx) G l +
        if l.comp < 3 then image m N j l.comp l.idx * coeff else 0

/-- What a sequence of operations makes of them. -/
def latticeRun {K : Type} [Field K] (m : Meta) (N : List Nat) (D : Nat) : List (WOp K) → Mem K → Mem K
  | [], G => G
  | op :: ops, G => latticeRun m N D ops (latticeStep m N D op G)

/-- The fields of the box `f`, continued to the lattice. -/
def imageMem {K : Type} [Field K] (m : Meta) (N : List Nat) (f : Nat → List Int → K) : Mem K :=
  fun l => image m N f l.comp l.idx

/-- Every axis is periodic or has conducting walls at both ends. -/
def WallBox (m : Meta) : Prop :=
  m.bcs.length = m.counts.length ∧ ∀ b ∈ m.bcs, b = (.PERIODIC, .PERIODIC) ∨ b = (.CONDUCTOR, .CONDUCTOR)

/-- All subdomains are wider than the ghost layer. -/
def Wider (dN : List (List Nat)) (ng : Nat) : Prop := ∀ l ∈ dN, ∀ x ∈ l, ng < x

end Entity.Walls
