import Verif.Model.MetricGR
import Verif.Model.PrtlIO

/-!
# Particle output: conversion to physical units and variables of the file

`PrtlToPhys_kernel` (src/kernels/prtls_to_phys.hpp), `Particles::OutputDeclare` and
`Particles::OutputWrite` (src/framework/containers/particles_io.cpp:33-351).

Real numbers are exact.  The removal of dead particles at the start of `OutputWrite`
(particles_io.cpp:96-98) is not part of this file (see Model/Tags.lean): the arrays are those after it.
-/

namespace Entity.PrtlPhys

open Entity Entity.Outcome Entity.Metric Entity.PrtlIO
open Entity.Push (V3)

/-! ## The kernel -/

/-- The metric of a subdomain, and with it the engine: the first three belong to `SRPIC`, the others to
`GRPIC` (src/framework/specialization_registry.h).  Only Minkowski exists in one and three dimensions. -/
inductive Met
  | mink (D : Nat) (m : Mink)
  | sph (m : Sph)
  | qsph (m : QSph)
  | ks (m : KS)
  | ks0 (m : KS0)
  | qks (m : QKS)

/-- Kinds of metrics. -/
inductive Kind
  | mink (D : Nat) | sph | qsph | ks | ks0 | qks

/-- Parameters of the metrics: tolerance of comparisons, spin, offset of the radius, stretching. -/
structure MetPrm where
  ε : ℝ
  a : ℝ
  r0 : ℝ
  h : ℝ

/-- A value that is not a number is not modelled further. -/
def ofOption {α : Type} : Option α → Outcome α
  | some x => .ok x
  | none => .ub

/-- The constructors (minkowski.h:50-72, spherical.h:56-72, qspherical.h:58-76, kerr_schild.h,
kerr_schild_0.h, qkerr_schild.h:76-95, transcribed in Model/Metric.lean and Model/MetricGR.lean). -/
noncomputable def Met.make (k : Kind) (q : MetPrm) (e : Fin 3 → Ext) : Outcome Met :=
  match k with
  | .mink D => do let m ← Mink.make D q.ε e; return .mink D m
  | .sph => .ok (.sph (Sph.make (e 0) (e 1)))
  | .qsph => do let m ← ofOption (QSph.make q.ε q.r0 q.h (e 0) (e 1)); return .qsph m
  | .ks => .ok (.ks (KS.make q.ε q.a (e 0) (e 1)))
  | .ks0 => .ok (.ks0 (KS0.make (e 0) (e 1)))
  | .qks => do let m ← ofOption (QKS.make q.ε q.a q.r0 q.h (e 0) (e 1)); return .qks m

/-- `M::Dim`. -/
def Met.dim : Met → Nat
  | .mink D _ => D
  | _ => 2

/-- `M::CoordType == Coord::Cartesian`. -/
def Met.cartesian : Met → Bool
  | .mink _ _ => true
  | _ => false

/-- `convert<d, Cd, Ph>` (minkowski.h:158-186, spherical.h:183-206, qspherical.h:219-237,
kerr_schild.h:538-557, kerr_schild_0.h:380-399, qkerr_schild.h:616-634); `d` counts from 0.  The azimuth is left as it is. -/
noncomputable def Met.toPh (g : Met) (d : Fin 3) (x : ℝ) : ℝ :=
  match g with
  | .mink _ m => m.toPh d x
  | .sph m => match d with | 0 => m.toPh1 x | 1 => m.toPh2 x | 2 => x
  | .qsph m => match d with | 0 => m.toPh1 x | 1 => m.toPh2 x | 2 => x
  | .ks m => match d with | 0 => m.toPh1 x | 1 => m.toPh2 x | 2 => x
  | .ks0 m => match d with | 0 => m.toPh1 x | 1 => m.toPh2 x | 2 => x
  | .qks m => match d with | 0 => m.toPh1 x | 1 => m.toPh2 x | 2 => x

/-- The arrays of a species on a rank: `max` is their extent (particles.h, `maxnpart`). -/
structure Arrays where
  max : Nat
  i : Fin 3 → Nat → Int
  dx : Fin 3 → Nat → ℝ
  ux : Fin 3 → Nat → ℝ
  phi : Nat → ℝ
  weight : Nat → ℝ
  pldR : Nat → Nat → ℝ
  pldI : Nat → Nat → Nat

/-- `static_cast<real_t>(i(p)) + static_cast<real_t>(dx(p))`. -/
noncomputable def Arrays.code (a : Arrays) (d : Fin 3) (p : Nat) : ℝ := (a.i d p : ℝ) + a.dx d p

/-- `bufferX` (prtls_to_phys.hpp:135-151). -/
noncomputable def bufferX (g : Met) (a : Arrays) (p : Nat) : List ℝ :=
  (if g.dim = 1 ∨ g.dim = 2 ∨ g.dim = 3 then [g.toPh 0 (a.code 0 p)] else []) ++
  (if g.dim = 2 ∨ g.dim = 3 then [g.toPh 1 (a.code 1 p)] else []) ++
  (if g.dim = 2 ∧ g.cartesian = false then [a.phi p]
   else if g.dim = 3 then [g.toPh 2 (a.code 2 p)] else [])

/-- `bufferU` (prtls_to_phys.hpp:153-206): Minkowski in all dimensions, spherical grids in SR, and GR. -/
noncomputable def bufferU (g : Met) (a : Arrays) (p : Nat) : Outcome (V3 ℝ) :=
  match g with
  | .mink D m => do
    let x ← m.transform D 0 .XYZ .T (a.ux 0 p)
    let y ← m.transform D 1 .XYZ .T (a.ux 1 p)
    let z ← m.transform D 2 .XYZ .T (a.ux 2 p)
    return ⟨x, y, z⟩
  | .sph m => .ok (xyzToTetrad (m.toPh2 (a.code 1 p)) (a.phi p) ⟨a.ux 0 p, a.ux 1 p, a.ux 2 p⟩)
  | .qsph m => .ok (xyzToTetrad (m.toPh2 (a.code 1 p)) (a.phi p) ⟨a.ux 0 p, a.ux 1 p, a.ux 2 p⟩)
  | .ks m => m.transform (a.code 0 p) (a.code 1 p) .D .PD ⟨a.ux 0 p, a.ux 1 p, a.ux 2 p⟩
  | .ks0 m => m.transform (a.code 0 p) (a.code 1 p) .D .PD ⟨a.ux 0 p, a.ux 1 p, a.ux 2 p⟩
  | .qks m => m.transform (a.code 0 p) (a.code 1 p) .D .PD ⟨a.ux 0 p, a.ux 1 p, a.ux 2 p⟩

/-- One entry of the buffers. -/
structure Rec where
  x : List ℝ
  u : V3 ℝ
  w : ℝ
  pldR : List ℝ
  pldI : List Nat

/-- The kernel for one entry that takes particle `p` (prtls_to_phys.hpp:120-132, `bufferPlds` 208-215);
reading beyond the arrays is undefined. -/
noncomputable def entry (g : Met) (npldR npldI : Nat) (a : Arrays) (p : Nat) : Outcome Rec :=
  if p < a.max then do
    let u ← bufferU g a p
    return ⟨bufferX g a p, u, a.weight p, (List.range npldR).map (a.pldR p), (List.range npldI).map (a.pldI p)⟩
  else .ub

/-! ## Variables -/

/-- The variables of one species in the output file. -/
inductive Var
  | X (d : Nat) | U (d : Nat) | W | R (j : Nat) | IDX | RNK | I (j : Nat)
  deriving DecidableEq

/-- Their names without the suffix for the species (particles_io.cpp:38, 45, 51, 57, 64, 73, 82). -/
def Var.base : Var → List Char
  | .X d => "pX".toList ++ Checkpoint.decimal d
  | .U d => "pU".toList ++ Checkpoint.decimal d
  | .W => "pW".toList
  | .R j => "pPLDR".toList ++ Checkpoint.decimal j
  | .IDX => "pIDX".toList
  | .RNK => "pRNK".toList
  | .I j => "pPLDI".toList ++ Checkpoint.decimal j

/-- The name for species `sp`. -/
def Var.name (v : Var) (sp : Nat) : List Char := v.base ++ '_' :: Checkpoint.decimal sp

/-- What the variables depend on: dimension, coordinates, payloads, tracking, and `MPI_ENABLED`. -/
structure OutCfg where
  dim : Nat
  cartesian : Bool
  npldR : Nat
  npldI : Nat
  tracking : Bool
  mpi : Bool

/-- `num_track_plds` (particles_io.cpp:62-76, 279-323). -/
def OutCfg.ntrack (c : OutCfg) : Nat := if c.tracking then (if c.mpi then 2 else 1) else 0

/-- Variables defined by `OutputDeclare` (particles_io.cpp:33-88), in order. -/
def declareVars (c : OutCfg) : List Var :=
  (List.range (c.dim + if c.dim = 2 ∧ c.cartesian = false then 1 else 0)).map (fun d => .X (d + 1)) ++
  (List.range 3).map (fun d => .U (d + 1)) ++ [.W] ++
  (if 0 < c.npldR then (List.range c.npldR).map .R else []) ++
  (if c.tracking then [.IDX] ++ (if c.mpi then [.RNK] else []) else []) ++
  (if c.ntrack < c.npldI then
    (List.range' c.ntrack (c.npldI - c.ntrack)).map (fun pr => .I (pr - c.ntrack)) else [])

/-- Values in the file: numbers or integers. -/
inductive Val
  | r (x : ℝ) | n (k : Nat)

/-- A column of the buffers; taking a column that does not exist is undefined. -/
def colR (l : List ℝ) (j : Nat) : Outcome Val :=
  match l[j]? with
  | some x => .ok (.r x)
  | none => .ub

@[inherit_doc colR]
def colI (l : List Nat) (j : Nat) : Outcome Val :=
  match l[j]? with
  | some x => .ok (.n x)
  | none => .ub

/-- Variables written by `OutputWrite` (particles_io.cpp:220-350), in order, each with the buffer it is
written from (`pldi::spcCtr` is 0 and `pldi::domIdx` is 1, global.h:163-166). -/
def writeVars (c : OutCfg) : List (Var × (Rec → Outcome Val)) :=
  [(.W, fun b => .ok (.r b.w)), (.U 1, fun b => .ok (.r b.u.x)), (.U 2, fun b => .ok (.r b.u.y)),
   (.U 3, fun b => .ok (.r b.u.z))] ++
  (if c.dim = 1 ∨ c.dim = 2 ∨ c.dim = 3 then [(.X 1, fun b => colR b.x 0)] else []) ++
  (if c.dim = 2 ∨ c.dim = 3 then [(.X 2, fun b => colR b.x 1)] else []) ++
  (if c.dim = 3 ∨ (c.dim = 2 ∧ c.cartesian = false) then [(.X 3, fun b => colR b.x 2)] else []) ++
  (if 0 < c.npldR then (List.range c.npldR).map (fun pr => (.R pr, fun b => colR b.pldR pr)) else []) ++
  (if c.tracking then [(.IDX, fun b => colI b.pldI 0)] ++
    (if c.mpi then [(.RNK, fun b => colI b.pldI 1)] else []) else []) ++
  (if c.ntrack < c.npldI then
    (List.range' c.ntrack (c.npldI - c.ntrack)).map (fun pr => (.I (pr - c.ntrack), fun b => colI b.pldI pr))
   else [])

/-! ## The file -/

/-- One step of the output file: values by name and position, `none` where nobody wrote. -/
abbrev Out := List Char → Nat → Option Val

/-- `Write1DArray` and `Write1DSubArray` (writers.cpp:28-45, writers.h:45-66). -/
def put (f : Out) (name : List Char) (off : Nat) (vals : List Val) : Out := fun m k =>
  if m = name ∧ off ≤ k ∧ k < off + vals.length then vals[k - off]? else f m k

/-- `OutputDeclare` of all species to be written (metadomain_io.cpp:98-104), given by their indices:
defining a variable a second time is an error. -/
def declareAll (sps : List (Nat × OutCfg)) : Outcome (List (List Char)) :=
  (sps.flatMap fun s => (declareVars s.2).map (·.name s.1)).foldlM
    (fun (ds : List (List Char)) (n : List Char) => if n ∈ ds then Outcome.err else .ok (ds ++ [n])) []

/-- The writes of species `sp` on rank `rank` with buffers `recs` (particles_io.cpp:220-350); `counts` are
the gathered numbers of entries (particles_io.cpp:135-157).  A variable that was not defined cannot be
written. -/
noncomputable def writeSpecies (ds : List (List Char)) (c : OutCfg) (sp : Nat) (counts : List Nat)
    (rank : Nat) (recs : List Rec) (f : Out) : Outcome Out :=
  (writeVars c).foldlM (fun f v =>
    if v.1.name sp ∈ ds then do
      let vals ← recs.mapM v.2
      return put f (v.1.name sp) (offsetTotal counts rank).1 vals
    else .err) f

/-- Which particles a rank writes (particles_io.cpp:99-132): every `stride`-th one, or with tracking the
ones whose counter is a multiple of `stride`, in the order `sched` in which the threads come. -/
def selection (tracking : Bool) (npart stride : Nat) (tag ctr : Nat → Int) (sched : List Nat) :
    Outcome (List Nat) :=
  if tracking then record (countSelected npart stride tag ctr) stride tag ctr sched
  else .ok (strided npart stride)

/-- A species on a rank. -/
structure SpeciesOnRank where
  npart : Nat
  tag : Nat → Int
  arr : Arrays
  sched : List Nat

/-- The buffers of a species on a rank (particles_io.cpp:99-132, 159-219). -/
noncomputable def buffers (g : Met) (c : OutCfg) (stride : Nat) (s : SpeciesOnRank) : Outcome (List Rec) := do
  let sel ← selection c.tracking s.npart stride s.tag (fun p => s.arr.pldI p 0) s.sched
  sel.mapM (entry g c.npldR c.npldI s.arr)

/-- The output of the chosen species (metadomain_io.cpp:783-797) on all ranks, in the order `order`:
`recs r sp` are the buffers of species `sp` on rank `r`. -/
noncomputable def writeAll (ds : List (List Char)) (sps : List (Nat × OutCfg)) (nranks : Nat)
    (recs : Nat → Nat → List Rec) (order : List Nat) (f : Out) : Outcome Out :=
  order.foldlM (fun f r =>
    sps.foldlM (fun f (s : Nat × OutCfg) =>
      writeSpecies ds s.2 s.1 ((List.range nranks).map (fun q => (recs q s.1).length)) r (recs r s.1) f) f) f

end Entity.PrtlPhys
