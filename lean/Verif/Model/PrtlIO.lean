import Verif.Model.Base
import Verif.Model.Decomp
import Verif.Model.CheckpointFiles

/-!
# Particle output, particle checkpoints and the decomposition stored in a checkpoint

`Particles::OutputWrite`, `CheckpointDeclare`, `CheckpointWrite`, `CheckpointRead`
(src/framework/containers/particles_io.cpp), the array readers and writers (src/output/utils/writers.cpp,
readers.cpp) and `Metadomain::redecomposeFromCheckpoint`
(src/framework/domain/metadomain_chckpt.cpp:169-250).

ADIOS2 is represented by its contract: a variable is an array indexed by its position; `Put` with the
selection `(offset, size)` stores `size` values from the given pointer, `Get` reads them back.  Numbers of
the types of the code are values of a type `V`; `V` stays abstract, as the values are only copied.
-/

namespace Entity.PrtlIO

open Entity Entity.Outcome Entity.Decomp

/-! ## Offsets -/

/-- The loop over the gathered counts (particles_io.cpp:146-151, 649-654): returns the offset of rank
`rank` and the total.  Both are accumulated in 64 bits. -/
def offsetTotal (counts : List Nat) (rank : Nat) : Nat × Nat :=
  (counts.zipIdx).foldl (fun (t : Nat × Nat) (c : Nat × Nat) =>
    (if c.2 < rank then t.1 + c.1 else t.1, t.2 + c.1)) (0, 0)

/-- The offset computed when reading (particles_io.cpp:468-470). -/
def readOffset (counts : List Nat) (rank : Nat) : Nat :=
  ((List.range rank).map (fun d => counts.getD d 0)).sum

/-! ## Selection of the particles that are written -/

/-- Indices of the particles written without tracking (particles_io.cpp:102, prtls_to_phys.hpp:121-125):
entry `p` of the buffer is particle `p * stride`. -/
def strided (npart stride : Nat) : List Nat :=
  (List.range (npart / stride)).map (· * stride)

/-- The test for writing a particle with tracking (particles_io.cpp:112-115, 126-129), given its tag and
its counter payload. -/
def selected (stride : Nat) (tag ctr : Nat → Int) (p : Nat) : Bool :=
  decide (tag p = 1 ∧ ctr p % stride = 0)

/-- The number counted by the reduction (particles_io.cpp:107-117). -/
def countSelected (npart stride : Nat) (tag ctr : Nat → Int) : Nat :=
  (List.range npart).countP (selected stride tag ctr)

/-- The recording kernel (particles_io.cpp:121-131): the threads run in the order `sched`; each takes the
next entry from the atomic counter.  Writing past the end of `out_indices` is undefined. -/
def record (nout stride : Nat) (tag ctr : Nat → Int) (sched : List Nat) : Outcome (List Nat) :=
  sched.foldlM (fun out p =>
    if selected stride tag ctr p then
      if out.length < nout then Outcome.ok (out ++ [p]) else .ub
    else .ok out) []

/-! ## Columns of the checkpoint -/

/-- The arrays of a species. -/
inductive Attr where
  | i (d : Nat) | dx (d : Nat) | iPrev (d : Nat) | dxPrev (d : Nat)
  | phi | ux (d : Nat) | tag | weight | pldR | pldI
  deriving DecidableEq

/-- Dimension, whether the coordinates are Cartesian, and the numbers of payloads. -/
structure Cfg where
  dim : Nat
  cartesian : Bool
  npldR : Nat
  npldI : Nat

/-- A column: the name of the variable (without the prefix `s<index>_`), the array, the number of values
per particle. -/
abbrev Col := List Char × Attr × Nat

/-- Variables declared for the columns (particles_io.cpp:370-421). -/
def declared (c : Cfg) : List (List Char) :=
  (List.range c.dim).flatMap (fun d =>
    [s!"i{d + 1}".toList, s!"dx{d + 1}".toList, s!"i{d + 1}_prev".toList, s!"dx{d + 1}_prev".toList]) ++
  (if c.dim = 2 ∧ ¬ c.cartesian then ["phi".toList] else []) ++
  (List.range 3).map (fun d => s!"ux{d + 1}".toList) ++
  ["tag".toList, "weight".toList] ++
  (if c.npldR > 0 then ["pld_r".toList] else []) ++
  (if c.npldI > 0 then ["pld_i".toList] else [])

/-- The arrays written (particles_io.cpp:674-823), in order. -/
def writeCols (c : Cfg) : List Col :=
  (if c.dim = 1 ∨ c.dim = 2 ∨ c.dim = 3 then
    [("i1".toList, .i 1, 1), ("dx1".toList, .dx 1, 1), ("i1_prev".toList, .iPrev 1, 1),
     ("dx1_prev".toList, .dxPrev 1, 1)] else []) ++
  (if c.dim = 2 ∨ c.dim = 3 then
    [("i2".toList, .i 2, 1), ("dx2".toList, .dx 2, 1), ("i2_prev".toList, .iPrev 2, 1),
     ("dx2_prev".toList, .dxPrev 2, 1)] else []) ++
  (if c.dim = 3 then
    [("i3".toList, .i 3, 1), ("dx3".toList, .dx 3, 1), ("i3_prev".toList, .iPrev 3, 1),
     ("dx3_prev".toList, .dxPrev 3, 1)] else []) ++
  (if c.dim = 2 ∧ ¬ c.cartesian then [("phi".toList, .phi, 1)] else []) ++
  [("ux1".toList, .ux 1, 1), ("ux2".toList, .ux 2, 1), ("ux3".toList, .ux 3, 1), ("tag".toList, .tag, 1),
   ("weight".toList, .weight, 1)] ++
  (if c.npldR > 0 then [("pld_r".toList, .pldR, c.npldR)] else []) ++
  (if c.npldI > 0 then [("pld_i".toList, .pldI, c.npldI)] else [])

/-- The arrays read (particles_io.cpp:479-621), in order. -/
def readCols (c : Cfg) : List Col :=
  (if c.dim = 1 ∨ c.dim = 2 ∨ c.dim = 3 then
    [("i1".toList, .i 1, 1), ("dx1".toList, .dx 1, 1), ("i1_prev".toList, .iPrev 1, 1),
     ("dx1_prev".toList, .dxPrev 1, 1)] else []) ++
  (if c.dim = 2 ∨ c.dim = 3 then
    [("i2".toList, .i 2, 1), ("dx2".toList, .dx 2, 1), ("i2_prev".toList, .iPrev 2, 1),
     ("dx2_prev".toList, .dxPrev 2, 1)] else []) ++
  (if c.dim = 3 then
    [("i3".toList, .i 3, 1), ("dx3".toList, .dx 3, 1), ("i3_prev".toList, .iPrev 3, 1),
     ("dx3_prev".toList, .dxPrev 3, 1)] else []) ++
  (if c.dim = 2 ∧ ¬ c.cartesian then [("phi".toList, .phi, 1)] else []) ++
  [("ux1".toList, .ux 1, 1), ("ux2".toList, .ux 2, 1), ("ux3".toList, .ux 3, 1), ("tag".toList, .tag, 1),
   ("weight".toList, .weight, 1)] ++
  (if c.npldR > 0 then [("pld_r".toList, .pldR, c.npldR)] else []) ++
  (if c.npldI > 0 then [("pld_i".toList, .pldI, c.npldI)] else [])

/-! ## One species on one rank -/

/-- A species on one rank: number of particles, creation counter, capacity, and the arrays
(array, particle, payload). -/
structure Pop (V : Type) where
  npart : Nat
  counter : Nat
  maxnpart : Nat
  arr : Attr → Nat → Nat → V

/-- Contents of a checkpoint: variables holding one number per rank, and the columns.  A variable is
`none` at positions nobody wrote. -/
structure File (V : Type) where
  nums : List Char → Nat → Option Nat
  cols : List Char → Nat → Option V

/-- An empty file. -/
def File.empty (V : Type) : File V := ⟨fun _ _ => none, fun _ _ => none⟩

/-- Memory order of the two-dimensional views on the host. -/
inductive Layout where
  | right | left
  deriving DecidableEq

/-- Position of the value `(p, q)` in the block of `n` particles with `w` values each
(writers.cpp:64-80, readers.cpp:66-84): a contiguous subview keeps its order — for `LayoutRight`, or
`w = 1`, or a full `LayoutLeft` array — and otherwise it is copied to a `LayoutLeft` array of the
local size. -/
def flat (l : Layout) (n w p q : Nat) : Nat :=
  match l with
  | .right => p * w + q
  | .left => q * n + p

/-- Inverse of `flat`: which value is stored at position `k` of the block. -/
def unflat (l : Layout) (n w k : Nat) : Nat × Nat :=
  match l with
  | .right => (k / w, k % w)
  | .left => (k % n, k / n)

/-- `WriteVariable` (writers.cpp:16-26).  The pointer given to `Put` is the address of a temporary
(`npart()` and `counter()` return by value), and `Put` is in its default deferred mode: the documented
contract of ADIOS2 requires the data to stay valid until `EndStep`.  `eager` says that the engine copies
the value at once (as the default engine does for small data), otherwise the behaviour is undefined. -/
def writeVariable {V : Type} (eager : Bool) (f : File V) (name : List Char) (rank x : Nat) :
    Outcome (File V) :=
  if eager then
    .ok ⟨fun m k => if m = name ∧ k = rank then some x else f.nums m k, f.cols⟩
  else .ub

/-- `Write1DArray` and `Write2DArray` (writers.cpp:28-81) of `w` values for each of `n` particles at
offset `off`. -/
def writeArray {V : Type} (l : Layout) (f : File V) (name : List Char) (w n off : Nat)
    (data : Nat → Nat → V) : File V :=
  ⟨f.nums, fun m k =>
    if m = name ∧ off * w ≤ k ∧ k < off * w + n * w then
      some (data (unflat l n w (k - off * w)).1 (unflat l n w (k - off * w)).2)
    else f.cols m k⟩

/-- `fmt::format("s%d_…", index())`: the name of a variable of species `sp`. -/
def varName (sp : Nat) (name : List Char) : List Char :=
  's' :: (Checkpoint.decimal sp ++ '_' :: name)

/-- `CheckpointWrite` (particles_io.cpp:626-823) of species `sp` on rank `rank`; `counts` are the gathered
particle numbers.  Writing a column that was not declared is an error. -/
def checkpointWrite {V : Type} (eager : Bool) (l : Layout) (c : Cfg) (sp : Nat) (counts : List Nat)
    (rank : Nat) (s : Pop V) (f : File V) : Outcome (File V) := do
  let off := (offsetTotal counts rank).1
  let f ← writeVariable eager f (varName sp "npart".toList) rank s.npart
  let f ← writeVariable eager f (varName sp "counter".toList) rank s.counter
  (writeCols c).foldlM (fun f col =>
    if col.1 ∈ declared c then
      Outcome.ok (writeArray l f (varName sp col.1) col.2.2 s.npart off (s.arr col.2.1))
    else .err) f

/-- `ReadVariable` (readers.cpp:17-32). -/
def readVariable {V : Type} (f : File V) (name : List Char) (rank : Nat) : Outcome Nat :=
  match f.nums name rank with
  | some x => .ok x
  | none => .err

/-- `Read1DArray` and `Read2DArray` (readers.cpp:34-91): reading a value nobody wrote is an error. -/
def readArray {V : Type} (l : Layout) (f : File V) (name : List Char) (w n off : Nat)
    (old : Nat → Nat → V) : Outcome (Nat → Nat → V) :=
  if (List.range (n * w)).all (fun k => (f.cols name (off * w + k)).isSome) then
    .ok (fun p q =>
      if p < n ∧ q < w then
        match f.cols name (off * w + flat l n w p q) with
        | some v => v
        | none => old p q
      else old p q)
  else .err

/-- The numbers of particles read by all ranks, gathered (particles_io.cpp:440-445, 456-467). -/
def readCounts {V : Type} (f : File V) (sp nranks : Nat) : Outcome (List Nat) :=
  (List.range nranks).mapM (readVariable f (varName sp "npart".toList))

/-- `CheckpointRead` (particles_io.cpp:431-622) of species `sp` on rank `rank`. -/
def checkpointRead {V : Type} (l : Layout) (c : Cfg) (sp nranks : Nat) (f : File V) (rank : Nat)
    (s : Pop V) : Outcome (Pop V) := do
  if s.npart > 0 then Outcome.err else do
    let n ← readVariable f (varName sp "npart".toList) rank
    if n > s.maxnpart then Outcome.err else do
      let counts ← readCounts f sp nranks
      let off := readOffset counts rank
      let ctr ← readVariable f (varName sp "counter".toList) rank
      let arr ← (readCols c).foldlM (fun (arr : Attr → Nat → Nat → V) col => do
        let a ← readArray l f (varName sp col.1) col.2.2 n off (arr col.2.1)
        return (fun x => if x = col.2.1 then a else arr x)) s.arr
      return ⟨n, ctr, s.maxnpart, arr⟩

/-- All ranks write all species (metadomain_chckpt.cpp:135-140), in the order `order` of the ranks.
`pop r k` is species number `k` (from 0; its index is `k + 1`) on rank `r`. -/
def writeRanks {V : Type} (eager : Bool) (l : Layout) (cfgs : List Cfg) (nranks : Nat)
    (pop : Nat → Nat → Pop V) (order : List Nat) (f : File V) : Outcome (File V) :=
  order.foldlM (fun f r =>
    cfgs.zipIdx.foldlM (fun f (ck : Cfg × Nat) =>
      checkpointWrite eager l ck.1 (ck.2 + 1) ((List.range nranks).map (fun q => (pop q ck.2).npart)) r
        (pop r ck.2) f) f) f

/-! ## The decomposition stored in a checkpoint -/

/-- metadomain_chckpt.cpp:180-183 for one dimension: sizes at each position of the domain grid; `ns` are
the stored sizes of the domains, `pos` their positions.  Out of range: undefined. -/
def ncellsAtPos (nd : Nat) (pos ns : List Nat) : Outcome (List Nat) :=
  (pos.zip ns).foldlM (fun v (c : Nat × Nat) =>
    if c.1 < v.length then Outcome.ok (v.set c.1 c.2) else .ub) (List.replicate nd 0)

/-- The running sums (metadomain_chckpt.cpp:199-204). -/
def offsetAtPos (v : List Nat) : List Nat :=
  (v.foldl (fun (t : Nat × List Nat) n => (t.1 + n, t.2 ++ [t.1])) (0, [])).2

/-- One dimension of `redecomposeFromCheckpoint` (metadomain_chckpt.cpp:179-208): the offsets of the
domains, or an error if the sizes do not add up to `g`. -/
def redecomposeAxis (nd g : Nat) (pos ns : List Nat) : Outcome (List Nat) := do
  let v ← ncellsAtPos nd pos ns
  if v.sum ≠ g then Outcome.err else
    return pos.map (fun k => (offsetAtPos v).getD k 0)

/-- `redecomposeFromCheckpoint` (metadomain_chckpt.cpp:169-250): the new subdomains, from the positions
of the current subdomains, the number of domains and of cells along each axis, and the stored sizes
of each domain.  Extents, neighbours and boundaries are left out. -/
def redecompose (ndPer g : List Nat) (cur : List Subdomain) (sizes : List (List Nat)) :
    Outcome (List Subdomain) := do
  let offs ← (List.range ndPer.length).mapM (fun d =>
    redecomposeAxis (ndPer.getD d 0) (g.getD d 0) (cur.map (fun s => s.offsetNdomains.getD d 0))
      (sizes.map (fun n => n.getD d 0)))
  return (List.range cur.length).map (fun idx =>
    ⟨idx, ((cur[idx]?).map (·.offsetNdomains)).getD [], offs.map (fun o => o.getD idx 0),
      sizes.getD idx []⟩)

end Entity.PrtlIO
