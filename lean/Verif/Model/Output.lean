import Verif.Model.Decomp
import Mathlib.Data.List.Forall2
import Mathlib.Algebra.Order.Field.Rat

/-!
# Field output and field checkpoints

`Writer::defineMeshLayout` and `WriteField` (src/output/writer.cpp:76-144, 196-320), the mesh written by
`Metadomain::Write` (src/framework/domain/metadomain_io.cpp:394-460), the boxes of
`Metadomain::InitCheckpointWriter` and `ContinueFromCheckpoint`
(src/framework/domain/metadomain_chckpt.cpp:42-51, 328-338).

ADIOS2 is represented by its contract: `Put` of a block with a corner and a shape stores the data at the
positions of the block in the global array, `Get` reads a block back.  The index of the field component
and the order of the dimensions in the file are left out.
-/

namespace Entity.Output

open Entity Entity.Outcome Entity.Decomp

/-- `math::ceil(a / d)` for nonnegative integers.  The code computes it with doubles; for arguments
below 2³² the rounded quotient of two integers never reaches the next integer, so the result is exact. -/
def ceilDiv (a d : Nat) : Nat := (a + d - 1) / d

/-- Layout of one axis (writer.cpp:96-105). -/
structure Axis where
  gShape : Nat
  lCorner : Nat
  first : Nat
  lShape : Nat
  deriving DecidableEq

/-- writer.cpp:96-105 for one axis: `g` cells in total, the block starts at `l` and has `n` cells,
downsampling factor `d`.  `math::ceil((n - f) / d)` is 0 if `f > n`, as then `-d < n - f < 0`. -/
def axisLayout (g l n d : Nat) : Axis :=
  let f := ceilDiv l d * d - l
  ⟨ceilDiv g d, ceilDiv l d, f, ceilDiv (n - f) d⟩

/-- A block of a global array: corner and shape. -/
structure Block where
  corner : List Nat
  shape : List Nat
  deriving DecidableEq

/-- The block a subdomain writes of a field on a grid of `g` cells (without ghost cells), with
factors `dwn`, and the first sampled cell along each axis. -/
def fieldBlock (g dwn : List Nat) (s : Subdomain) : Block × List Nat :=
  let ax := List.zipWith (fun (gd : Nat × Nat) (ln : Nat × Nat) => axisLayout gd.1 ln.1 ln.2 gd.2)
    (g.zip dwn) (s.offsetNcells.zip s.ncells)
  (⟨ax.map (·.lCorner), ax.map (·.lShape)⟩, ax.map (·.first))

/-- Shape of the global output array. -/
def outShape (g dwn : List Nat) : List Nat := List.zipWith ceilDiv g dwn

/-- The entry written at index `i` of the local block (writer.cpp:227, 254-258, 296-301, or the
subview without ghost cells if all factors are 1): the value of the local array `fld` at
`first + i * dwn + N_GHOSTS`. -/
def outputEntry {V : Type} (ng : Nat) (dwn first : List Nat) (fld : List Nat → V) (i : List Nat) : V :=
  fld (List.zipWith (fun (f : Nat) (id : Nat × Nat) => f + id.1 * id.2 + ng) first (i.zip dwn))

/-! ## Ghost cells in the output -/

/-- `v[i] += x` on a `std::vector`: undefined past the end. -/
def addAt (v : List Nat) (i x : Nat) : Outcome (List Nat) :=
  match v[i]? with
  | none => .ub
  | some y => .ok (v.set i (y + x))

/-- `InitWriter` with `output.debug.ghosts` (metadomain_io.cpp:58-64): the loop runs over
`d = 0, …, Dim`, both included.  (`Write` has the same loop, lines 405-409.) -/
def ghostLayout (D ng : Nat) (glob ndom off offd loc : List Nat) :
    Outcome (List Nat × List Nat × List Nat) :=
  (List.range (D + 1)).foldlM (fun (t : List Nat × List Nat × List Nat) d => do
    let g ← addAt t.1 d (2 * ng * ndom.getD d 0)
    let o ← addAt t.2.1 d (2 * ng * offd.getD d 0)
    let l ← addAt t.2.2 d (2 * ng)
    return (g, o, l)) (glob, off, loc)

/-! ## Cell centres and edges -/

/-- The coordinates a subdomain writes along an axis (metadomain_io.cpp:411-452, no ghost cells):
centres and edges, for the coordinate function `x` of its mesh.  Entries of the arrays that are not
assigned keep the value 0 the arrays are created with. -/
def meshCoords (x : ℚ → ℚ) (g l n d : Nat) : List ℚ × List ℚ :=
  let a := axisLayout g l n d
  let last := decide (l + n = g)
  let i := fun k : Nat => ((a.first + k * d : Nat) : ℚ)
  ((List.range a.lShape).map (fun k : Nat => x (i k + 1 / 2)),
   (List.range (a.lShape + if last then 1 else 0)).map (fun k : Nat =>
     if k < a.lShape then x (i k)
     else if 0 < a.lShape then x (i (a.lShape - 1) + 1) else 0))

/-! ## Checkpoints -/

/-- The block of a subdomain in the checkpoint (metadomain_chckpt.cpp:44-51), ghost cells included;
the same box is read back (lines 331-337). -/
def checkpointBlock (ng : Nat) (s : Subdomain) : Block :=
  ⟨List.zipWith (fun o k => o + 2 * ng * k) s.offsetNcells s.offsetNdomains,
   s.ncells.map (· + 2 * ng)⟩

/-- Shape of the array in the checkpoint (metadomain_chckpt.cpp:48-49). -/
def checkpointShape (ng : Nat) (g ndom : List Nat) : List Nat :=
  List.zipWith (fun n k => n + 2 * ng * k) g ndom

/-- Contents of an array in a file. -/
abbrev File (V : Type) := List Nat → Option V

/-- Index `k` lies in block `b`. -/
def InBlock (b : Block) (k : List Nat) : Prop :=
  List.Forall₂ (fun (c : Nat × Nat) x => c.1 ≤ x ∧ x < c.1 + c.2) (b.corner.zip b.shape) k

instance (b : Block) (k : List Nat) : Decidable (InBlock b k) := by
  unfold InBlock; infer_instance

/-- Index in the local block. -/
def localIdx (b : Block) (k : List Nat) : List Nat := List.zipWith (· - ·) k b.corner
/-- Index in the global array. -/
def globalIdx (b : Block) (i : List Nat) : List Nat := List.zipWith (· + ·) b.corner i

/-- `Put` of a block. -/
def put {V : Type} (f : File V) (b : Block) (data : List Nat → V) : File V :=
  fun k => if InBlock b k then some (data (localIdx b k)) else f k

/-- `Get` of a block: entry `i`. -/
def get {V : Type} (f : File V) (b : Block) (i : List Nat) : Option V := f (globalIdx b i)

/-- All subdomains write their checkpoint block, in some order. -/
def writeAll {V : Type} (ng : Nat) (arr : Subdomain → List Nat → V) (order : List Subdomain) : File V :=
  order.foldl (fun f s => put f (checkpointBlock ng s) (arr s)) (fun _ => none)

/-- All subdomains write their block of an output field, in some order. -/
def writeFieldAll {V : Type} (ng : Nat) (g dwn : List Nat) (arr : Subdomain → List Nat → V)
    (order : List Subdomain) : File V :=
  order.foldl (fun f s => put f (fieldBlock g dwn s).1
    (outputEntry ng dwn (fieldBlock g dwn s).2 (arr s))) (fun _ => none)

end Entity.Output
