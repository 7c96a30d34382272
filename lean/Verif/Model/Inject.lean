import Verif.Model.Prtl
import Verif.Model.Push
import Verif.Model.Decomp
import Verif.Model.MeshBox

/-!
# Injection of particles
(src/kernels/injectors.hpp, src/archetypes/particle_injector.h, src/archetypes/emission/*.h,
src/engines/srpic/particle_pusher.h:160-182)

Arithmetic is exact.  Random numbers, energy distributions, spatial distributions, the metric and
`sqrt_det_h` are parameters.  Sums `index + offset` are not reduced modulo `2^32`: the arrays are
shorter than that, so an index that would wrap is preceded by one outside the array.  Identifiers
and counters are reduced (`npart_t` is `uint32_t`, src/global/global.h:385).
-/

namespace Entity.Inject

open Entity Entity.Prtl Entity.Push Entity.Decomp Entity.Tags Entity.MeshBox

/-- A species on one subdomain: its static parameters, `use_tracking()`, the arrays with `npart()`,
and `counter()` (particles.h:60-190, species.h:40-180). -/
structure Sp (K : Type) where
  kind : Kind
  tracking : Bool
  st : Store K
  counter : Nat

/-- Conversion to `npart_t` (src/global/global.h:385). -/
def u32 (n : Nat) : Nat := n % 2 ^ 32

/-- The arguments of `InjectParticle` that do not say where to write (injectors.hpp:46-52). -/
structure New (K : Type) where
  xi : Nat → Int
  dxi : Nat → K
  u : V3 K
  weight : K
  phi : K

variable {K : Type}

/-- `InjectParticle` on the attributes other than the integer payloads (injectors.hpp:53-74). -/
def fill (k : Kind) (w : New K) (q : Prtl K) : Prtl K :=
  { q with
    i1 := if k.D = 1 ∨ k.D = 2 ∨ k.D = 3 then w.xi 0 else q.i1
    dx1 := if k.D = 1 ∨ k.D = 2 ∨ k.D = 3 then w.dxi 0 else q.dx1
    i2 := if k.D = 2 ∨ k.D = 3 then w.xi 1 else q.i2
    dx2 := if k.D = 2 ∨ k.D = 3 then w.dxi 1 else q.dx2
    i3 := if k.D = 3 then w.xi 2 else q.i3
    dx3 := if k.D = 3 then w.dxi 2 else q.dx3
    phi := if k.hasPhi then w.phi else q.phi
    ux1 := w.u.x, ux2 := w.u.y, ux3 := w.u.z
    tag := alive, weight := w.weight }

/-- `InjectParticle` on the integer payloads (injectors.hpp:75-82): entry `pldi::spcCtr = 0`, and with
MPI also `pldi::domIdx = 1` (src/global/global.h:164-165); writing to an entry that is not there is
undefined. -/
def label (mpi track : Bool) (dom ctr : Nat) (pld : List Nat) : Outcome (List Nat) :=
  if track then
    if pld.length < (if mpi then 2 else 1) then .ub
    else .ok (if mpi then (pld.set 0 ctr).set 1 dom else pld.set 0 ctr)
  else .ok pld

/-- `InjectParticle` (injectors.hpp:30-83) on entry `p`. -/
def injectParticle (k : Kind) (mpi track : Bool) (dom ctr : Nat) (w : New K) (s : Store K) (p : Nat) :
    Outcome (Store K) :=
  match s.arr[p]? with
  | none => .ub
  | some q => do
    let pld ← label mpi track dom ctr q.pld_i
    pure { s with arr := s.arr.set p { fill k w q with pld_i := pld } }

/-- `domain.species[s - 1]` is replaced by the result of a call on it; an index that is not there is
undefined. -/
def modifySp (sps : List (Sp K)) (s : Nat) (f : Sp K → Outcome (Sp K)) : Outcome (List (Sp K)) :=
  if s = 0 then .ub
  else match sps[s - 1]? with
    | none => .ub
    | some a => do
      let a' ← f a
      pure (sps.set (s - 1) a')

/-- What a kernel keeps of a species at its construction (injectors.hpp:155-160, 342-346, 600-605):
`offset` and `cntr`. -/
structure Cap where
  sp : Nat
  off : Nat
  ctr : Nat

/-- Construction of a kernel for species `s`. -/
def capture (sps : List (Sp K)) (s : Nat) : Outcome Cap :=
  if s = 0 then .ub
  else match sps[s - 1]? with
    | none => .ub
    | some a => .ok { sp := s, off := a.st.npart, ctr := a.counter }

/-- The calls of `InjectParticle` with `index + offset` and `cntr + index` (injectors.hpp:250-286,
495-518, 636-680). -/
def injectAt (mpi : Bool) (dom : Nat) (c : Cap) (index : Nat) (w : New K) (sps : List (Sp K)) :
    Outcome (List (Sp K)) :=
  modifySp sps c.sp fun a => do
    let st ← injectParticle a.kind mpi a.tracking dom (u32 (c.ctr + index)) w a.st (c.off + index)
    pure { a with st := st }

/-- `set_npart(npart() + n)` and `set_counter(counter() + n)` (particle_injector.h:256-261, 290-293,
381-385, particle_pusher.h:176-180). -/
def grow (n : Nat) (sps : List (Sp K)) (s : Nat) : Outcome (List (Sp K)) :=
  modifySp sps s fun a => do
    let st ← setNpart a.st (a.st.npart + n)
    pure { a with st := st, counter := u32 (a.counter + n) }

section Field

variable [Field K] [LinearOrder K] [FloorRing K]

/-- `static_cast<int>` of a real. -/
def toInt (x : K) : Int := if 0 ≤ x then ⌊x⌋ else ⌈x⌉

/-- `static_cast<npart_t>` of a real; of a number not above `-1` it is undefined. -/
def toNpart (x : K) : Outcome Nat := if x ≤ -1 then .ub else .ok ⌊x⌋.toNat

/-! ## Uniform injection -/

/-- `DeduceRegion` (particle_injector.h:56-98) after the box has been completed: the corners of the
overlap in code units.  `conv d` is the conversion `Ph → Cd` of the local metric along axis `d`. -/
def deduceRegion (ext : List (K × K)) (conv : Nat → K → K) (box : List (Bnd K × Bnd K)) :
    Outcome (Option (List (K × K))) := do
  let meets ← intersects ext box
  if meets then
    pure (some ((ext.zip box).mapIdx fun d eb => (conv d (clampLo eb.1 eb.2.1), conv d (clampHi eb.1 eb.2.2))))
  else pure none

/-- `nonempty_box` (particle_injector.h:224-232). -/
def completeBox (D : Nat) (box : List (Bnd K × Bnd K)) : List (Bnd K × Bnd K) :=
  (List.range D).map fun d => box.getD d (.min, .max)

/-- The number of particles of `ComputeNumInject` (particle_injector.h:128-137). -/
def numInject (ppc0 density : K) (reg : List (K × K)) : Outcome Nat :=
  toNpart (ppc0 * density * (1 / 2) * (reg.map fun r => r.2 - r.1).prod)

/-- What the uniform injector draws and looks up: the random number for particle `p` along axis `d`,
the velocities of both species (already in the stored basis) and `sqrt_det_h * inv_V0`
(injectors.hpp:204-246). -/
structure UDraw (K : Type) where
  r : Nat → Nat → K
  v1 : Nat → (Nat → K) → V3 K
  v2 : Nat → (Nat → K) → V3 K
  wei : (Nat → K) → K

/-- `x_Cd` of the uniform injector (injectors.hpp:207, 213, 219). -/
def uPos (dr : UDraw K) (reg : List (K × K)) (p d : Nat) : K :=
  (reg.getD d (0, 0)).1 + dr.r p d * ((reg.getD d (0, 0)).2 - (reg.getD d (0, 0)).1)

/-- What the uniform injector passes on for one species (injectors.hpp:204-249). -/
def uNew (curv : Bool) (dr : UDraw K) (reg : List (K × K)) (v : Nat → (Nat → K) → V3 K) (p : Nat) :
    New K :=
  let x := uPos dr reg p
  { xi := fun d => toInt (x d), dxi := fun d => x d - toInt (x d), u := v p x,
    weight := if curv then dr.wei x else 1, phi := 0 }

/-- `UniformInjector_kernel::operator()` (injectors.hpp:196-288). -/
def uniformBody (mpi : Bool) (dom : Nat) (curv : Bool) (dr : UDraw K) (reg : List (K × K)) (c1 c2 : Cap)
    (sps : List (Sp K)) (p : Nat) : Outcome (List (Sp K)) := do
  let sps ← injectAt mpi dom c1 p (uNew curv dr reg dr.v1 p) sps
  injectAt mpi dom c2 p (uNew curv dr reg dr.v2 p) sps

/-- The check of the payload size in the constructor (injectors.hpp:163-193). -/
def checkPayload (mpi : Bool) (sps : List (Sp K)) (s : Nat) : Outcome Unit :=
  if s = 0 then .ub
  else match sps[s - 1]? with
    | none => .ub
    | some a => Outcome.errorIf (a.tracking = true ∧ a.kind.npldi < (if mpi then 2 else 1))

/-- A subdomain as the injectors see it: its index, the extents in physical units along each axis. -/
structure Loc (K : Type) where
  dom : Nat
  ext : List (K × K)
  curv : Bool

/-- `InjectUniform` (particle_injector.h:202-263).  `prm` is the parameter `particles.use_weights`. -/
def injectUniform (mpi : Bool) (l : Loc K) (conv : Nat → K → K) (ppc0 density : K) (prm useWeights : Bool)
    (box : List (Bnd K × Bnd K)) (s1 s2 : Nat) (dr : UDraw K) (σ : Sched) (sps : List (Sp K)) :
    Outcome (List (Sp K)) := do
  Outcome.errorIf (l.curv = true ∧ useWeights = false)
  Outcome.errorIf (l.curv = false ∧ useWeights = true)
  Outcome.errorIf (prm ≠ useWeights)
  let reg ← deduceRegion l.ext conv (completeBox l.ext.length box)
  match reg with
  | none => pure sps
  | some reg => do
    let n ← numInject ppc0 density reg
    let c1 ← capture sps s1
    let c2 ← capture sps s2
    checkPayload mpi sps s1
    checkPayload mpi sps s2
    let sps ← (σ n).foldlM (uniformBody mpi l.dom l.curv dr reg c1 c2) sps
    let sps ← grow n sps s1
    grow n sps s2

/-! ## Non-uniform injection -/

/-- A cell, by its active indices `COORD(i)` (src/global/global.h, macro `COORD`). -/
abbrev Cell := List Int

/-- What the non-uniform injector draws and looks up: `ppc0 * spatial_dist` and the weight of the
spatial distribution times `sqrt_det_h * inv_V0` at the centre of a cell, the random number that
rounds, the offset of the `j`-th particle of a cell along axis `d`, and the velocities
(injectors.hpp:610-632, 684-855). -/
structure NDraw (K : Type) where
  ppc : Cell → K
  wei : Cell → K
  rnd : Cell → K
  dx : Cell → Nat → Nat → K
  v1 : Cell → Nat → V3 K
  v2 : Cell → Nat → V3 K

/-- `injected_ppc` (injectors.hpp:613-632). -/
def injectedPpc (dr : NDraw K) (c : Cell) : Outcome Nat := do
  let n ← toNpart (dr.ppc c)
  pure (if dr.rnd c < dr.ppc c - n then n + 1 else n)

/-- What is passed on for the `j`-th pair of a cell (injectors.hpp:699-721, 748-786, 812-854). -/
def nNew (dr : NDraw K) (v : Cell → Nat → V3 K) (e : Cell × Nat) : New K :=
  { xi := fun d => e.1.getD d 0, dxi := fun d => dr.dx e.1 e.2 d, u := v e.1 e.2,
    weight := dr.wei e.1, phi := 0 }

/-- One turn of the loop over the particles of a cell (injectors.hpp:699-721, 748-786, 812-854): the
index comes from the atomic counter. -/
def nonUniformBody (mpi : Bool) (dom : Nat) (dr : NDraw K) (c1 c2 : Cap) (acc : Nat × List (Sp K))
    (e : Cell × Nat) : Outcome (Nat × List (Sp K)) := do
  let sps ← injectAt mpi dom c1 acc.1 (nNew dr dr.v1 e) acc.2
  let sps ← injectAt mpi dom c2 acc.1 (nNew dr dr.v2 e) sps
  pure (acc.1 + 1, sps)

/-- `InjectNonUniform` (particle_injector.h:312-387) over the cells of `cell_range` (the active cells, or
the cells of the box, `extentToRange` in `Model/MeshBox.lean`).  The turns of the loops in different
cells interleave: `σ` is any order of all of them. -/
def injectNonUniform (mpi : Bool) (l : Loc K) (prm useWeights : Bool) (cells : List Cell) (s1 s2 : Nat)
    (dr : NDraw K) (σ : List (Cell × Nat) → List (Cell × Nat)) (sps : List (Sp K)) :
    Outcome (List (Sp K)) := do
  Outcome.errorIf (l.curv = true ∧ useWeights = false)
  Outcome.errorIf (prm = true ∧ useWeights = false)
  Outcome.errorIf (prm = false ∧ useWeights = true)
  let c1 ← capture sps s1
  let c2 ← capture sps s2
  let evs ← cells.mapM fun c => do
    let n ← injectedPpc dr c
    pure ((List.range n).map fun j => (c, j))
  let (n, sps) ← (σ evs.flatten).foldlM (nonUniformBody mpi l.dom dr c1 c2) (0, sps)
  let sps ← grow n sps s1
  grow n sps s2

/-! ## Injection from a list -/

/-- Keys of the map given to `InjectGlobally`. -/
inductive Col where
  | x1 | x2 | x3 | phi | ux1 | ux2 | ux3 | weights
  deriving DecidableEq

/-- `copy_from_vector` (injectors.hpp:377-390). -/
def copyFromVector (data : Col → Option (List K)) (n : Nat) (c : Col) : Outcome (List K) :=
  match data c with
  | none => .err
  | some v => do
    Outcome.errorIf (v.length ≠ n)
    pure v

/-- A column that is only read under a condition (injectors.hpp:360-362, 368-370). -/
def copyIf (b : Bool) (data : Col → Option (List K)) (n : Nat) (c : Col) : Outcome (List K) :=
  if b then copyFromVector data n c else .ok []

/-- `data.at(name)`: an exception if the key is missing. -/
def dataAt (data : Col → Option (List K)) (c : Col) : Outcome (List K) :=
  match data c with
  | none => .err
  | some v => .ok v

/-- The columns of positions of a `D`-dimensional problem. -/
def posCols (D : Nat) : List Col := [Col.x1, Col.x2, Col.x3].take D

/-- The arrays of `GlobalInjector_kernel` after construction (injectors.hpp:297-305, 348-375). -/
structure GData (K : Type) where
  x : List (List K)
  phi : List K
  ux1 : List K
  ux2 : List K
  ux3 : List K
  wei : List K

/-- The constructor of `GlobalInjector_kernel` (injectors.hpp:348-375). -/
def globalData (k : Kind) (data : Col → Option (List K)) (useWeights : Bool) : Outcome (GData K) := do
  let x1 ← dataAt data .x1
  let n := x1.length
  let x ← (posCols k.D).mapM (copyFromVector data n)
  let ux1 ← copyFromVector data n .ux1
  let ux2 ← copyFromVector data n .ux2
  let ux3 ← copyFromVector data n .ux3
  let wei ← copyIf useWeights data n .weights
  let phi ← copyIf k.hasPhi data n .phi
  pure { x := x, phi := phi, ux1 := ux1, ux2 := ux2, ux3 := ux3, wei := wei }

/-- What `InjectGlobally` knows of the geometry: the conversions of the global metric along each axis and
the transformation of the velocity at a code position (with the azimuth). -/
structure Geo (K : Type) where
  toPh : Nat → K → K
  toCd : Nat → K → K
  vel : (Nat → K) → K → V3 K → V3 K

/-- The extent of a subdomain along axis `d` (metadomain.cpp:141-153). -/
def extent (g : Geo K) (s : Subdomain) (d : Nat) : K × K :=
  (g.toPh d (s.offsetNcells.getD d 0 : Nat),
   g.toPh d ((s.offsetNcells.getD d 0 + s.ncells.getD d 0 : Nat)))

/-- `should_inject` (injectors.hpp:406, 424-425, 463-465). -/
def shouldInject (D : Nat) (g : Geo K) (s : Subdomain) (x : Nat → K) : Bool :=
  (List.range D).all fun d => decide ((extent g s d).1 ≤ x d) && decide (x d < (extent g s d).2)

/-- What is passed on for a particle of the list (injectors.hpp:407-492); `u` is the velocity of the
list, `w` the weight. -/
def gNew (g : Geo K) (s : Subdomain) (x : Nat → K) (phi : K) (u : V3 K) (w : K) : New K :=
  let off := fun d => (s.offsetNcells.getD d 0 : Int)
  let xc := fun d => g.toCd d (x d)
  { xi := fun d => toInt (xc d) - off d
    dxi := fun d => xc d - ((toInt (xc d) - off d + off d : Int) : K)
    u := g.vel xc phi u, weight := w, phi := phi }

/-- Position of entry `p` of the list. -/
def GData.pos (dt : GData K) (p d : Nat) : K := ((dt.x.getD d []).getD p 0)

/-- `weight` (injectors.hpp:397, 419-421, 458-460, 491-493): the kernel reads the array `weights` of the
species, at the index of the list. -/
def readWeight (useWeights : Bool) (sps : List (Sp K)) (s p : Nat) : Outcome K :=
  if useWeights then
    match sps[s - 1]? with
    | none => .ub
    | some a => match a.st.arr[p]? with
      | none => .ub
      | some q => .ok q.weight
  else .ok 1

/-- `GlobalInjector_kernel::operator()` (injectors.hpp:398-519). -/
def globalBody (mpi : Bool) (k : Kind) (g : Geo K) (s : Subdomain) (dt : GData K) (useWeights : Bool)
    (c : Cap) (acc : Nat × List (Sp K)) (p : Nat) : Outcome (Nat × List (Sp K)) :=
  if shouldInject k.D g s (dt.pos p) then do
    let w ← readWeight useWeights acc.2 c.sp p
    let phi := if k.hasPhi then dt.phi.getD p 0 else 0
    let u : V3 K := ⟨dt.ux1.getD p 0, dt.ux2.getD p 0, dt.ux3.getD p 0⟩
    let sps ← injectAt mpi s.index c acc.1 (gNew g s (dt.pos p) phi u w) acc.2
    pure (acc.1 + 1, sps)
  else pure acc

/-- `InjectGlobally` (particle_injector.h:275-294) on subdomain `s`. -/
def injectGlobally (mpi : Bool) (k : Kind) (g : Geo K) (s : Subdomain) (sp : Nat)
    (data : Col → Option (List K)) (useWeights : Bool) (σ : Sched) (sps : List (Sp K)) :
    Outcome (List (Sp K)) := do
  let ux1 ← dataAt data .ux1
  let c ← capture sps sp
  let dt ← globalData k data useWeights
  let (n, sps) ← (σ ux1.length).foldlM (globalBody mpi k g s dt useWeights c) (0, sps)
  grow n sps sp

end Field

/-! ## Emission -/

/-- `emit` of the emission policies (archetypes/emission/synchrotron.h:235-283, compton.h:183-231): a
photon is written to the next entry of the photon species. -/
def emitBody (mpi : Bool) (dom : Nat) (c : Cap) (acc : Nat × List (Sp K)) (w : New K) :
    Outcome (Nat × List (Sp K)) := do
  let sps ← injectAt mpi dom c acc.1 w acc.2
  pure (acc.1 + 1, sps)

/-- The emission of one species during a push (particle_pusher.h:151-182): the photons `ws` in the order
in which the atomic counter is increased, then the new counts.  Simplification: the push itself, which
works on the emitting species, is not part of this function. -/
def emission (mpi : Bool) (dom : Nat) (sp : Nat) (ws : List (New K)) (sps : List (Sp K)) :
    Outcome (List (Sp K)) := do
  let c ← capture sps sp
  let (n, sps) ← ws.foldlM (emitBody mpi dom c) (0, sps)
  Outcome.errorIf (sp > sps.length)
  grow n sps sp

end Entity.Inject
