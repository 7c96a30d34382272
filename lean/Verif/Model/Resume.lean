import Verif.Model.FullStep
import Verif.Model.Output
import Verif.Model.PrtlIO

/-!
# Stopping a simulation and continuing it from a checkpoint

`Metadomain::WriteCheckpoint`, `ContinueFromCheckpoint` (src/framework/domain/metadomain_chckpt.cpp:103-165,
255-350), `Fields::CheckpointWrite`, `CheckpointRead` (src/framework/containers/fields_io.cpp:45-74) for the
special-relativistic engine, the particles (src/framework/containers/particles_io.cpp; Model/PrtlIO.lean), and
the start of a resumed run (src/engines/engine.hpp:109-175, src/engines/srpic/srpic.hpp:63-79).

Scope: as Model/FullStep.lean.  ADIOS2 by its contract, as in Model/Output.lean and Model/PrtlIO.lean; the
numbers kept in temporaries are read when they are put (`eager`, see C43).
-/

namespace Entity.Resume

open Entity Entity.Topology Entity.Push Entity.Prtl Entity.Ranks Entity.Full
open Entity.Kernel hiding State
open Entity.Decomp Entity.PrtlIO Entity.FieldSolver

/-- The two kinds of numbers in the columns of a species: floating-point and integer. -/
inductive Val (K : Type) where
  | num (x : K)
  | int (i : Int)

section
variable {K : Type} [Zero K]

/-- The number, where the column has floating-point type. -/
def Val.toNum : Val K → K
  | .num x => x
  | .int _ => 0

/-- The integer, where the column has an integer type. -/
def Val.toInt : Val K → Int
  | .num _ => 0
  | .int i => i

/-- Entry of the array `x` (payload `q`) for the record of a particle (particles.h:60-130). -/
def entry : Attr → Nat → Prtl K → Val K
  | .i 1, _, p => .int p.i1
  | .i 2, _, p => .int p.i2
  | .i _, _, p => .int p.i3
  | .iPrev 1, _, p => .int p.i1_prev
  | .iPrev 2, _, p => .int p.i2_prev
  | .iPrev _, _, p => .int p.i3_prev
  | .dx 1, _, p => .num p.dx1
  | .dx 2, _, p => .num p.dx2
  | .dx _, _, p => .num p.dx3
  | .dxPrev 1, _, p => .num p.dx1_prev
  | .dxPrev 2, _, p => .num p.dx2_prev
  | .dxPrev _, _, p => .num p.dx3_prev
  | .ux 1, _, p => .num p.ux1
  | .ux 2, _, p => .num p.ux2
  | .ux _, _, p => .num p.ux3
  | .phi, _, p => .num p.phi
  | .tag, _, p => .int p.tag
  | .weight, _, p => .num p.weight
  | .pldR, q, p => .num (p.pld_r.getD q 0)
  | .pldI, q, p => .int (p.pld_i.getD q 0)

/-- A species on one rank as the arrays that `CheckpointWrite` sees; `ctr` is its creation counter. -/
def popOf (ctr : Nat) (s : Store K) : Pop (Val K) where
  npart := s.npart
  counter := ctr
  maxnpart := s.maxnpart
  arr := fun x p q =>
    match s.arr[p]? with
    | some r => entry x q r
    | none => .int 0

/-- The record of particle `p` in the arrays that `CheckpointRead` leaves. -/
def recordOf (k : Kind) (b : Pop (Val K)) (p : Nat) : Prtl K where
  i1 := (b.arr (.i 1) p 0).toInt
  i1_prev := (b.arr (.iPrev 1) p 0).toInt
  i2 := (b.arr (.i 2) p 0).toInt
  i2_prev := (b.arr (.iPrev 2) p 0).toInt
  i3 := (b.arr (.i 3) p 0).toInt
  i3_prev := (b.arr (.iPrev 3) p 0).toInt
  dx1 := (b.arr (.dx 1) p 0).toNum
  dx1_prev := (b.arr (.dxPrev 1) p 0).toNum
  dx2 := (b.arr (.dx 2) p 0).toNum
  dx2_prev := (b.arr (.dxPrev 2) p 0).toNum
  dx3 := (b.arr (.dx 3) p 0).toNum
  dx3_prev := (b.arr (.dxPrev 3) p 0).toNum
  ux1 := (b.arr (.ux 1) p 0).toNum
  ux2 := (b.arr (.ux 2) p 0).toNum
  ux3 := (b.arr (.ux 3) p 0).toNum
  weight := (b.arr .weight p 0).toNum
  phi := (b.arr .phi p 0).toNum
  pld_r := (List.range k.npldr).map fun (q : Nat) => (b.arr .pldR p q).toNum
  pld_i := (List.range k.npldi).map fun (q : Nat) => (b.arr .pldI p q).toInt.toNat
  tag := (b.arr .tag p 0).toInt

/-- The species after `CheckpointRead`. -/
def storeOf (k : Kind) (b : Pop (Val K)) : Store K :=
  ⟨(List.range b.maxnpart).map (recordOf k b), b.npart⟩

/-- What a checkpoint needs to know of a species (particles_io.cpp:370-421). -/
def cfgOf (k : Kind) : Cfg := ⟨k.D, !k.curv, k.npldr, k.npldi⟩
end

section
variable {K : Type}

/-- The array `em` of a subdomain, ghost cells included (fields_io.cpp:66). -/
def emOf (M : MMem K) (s : Subdomain) (i : List Nat) : Fin 6 → K :=
  fun c => M s.index ⟨0, c, i.map Int.ofNat⟩
end

variable {K : Type} [Field K] [LinearOrder K] [IsStrictOrderedRing K] [FloorRing K]

/-- A checkpoint (metadomain_chckpt.cpp:103-165): the variable `em` and the columns of the species, the
ranks writing in any order.  `cur` is saved only by the GR engine (fields_io.cpp:67-70). -/
structure Written (m : Meta) (ng : Nat) (sps : List (SpPrm K)) (l : Layout) (A : State K)
    (em : Output.File (Fin 6 → K)) (pf : PrtlIO.File (Val K)) : Prop where
  fields : ∃ order : List Subdomain, (∀ s, s ∈ order ↔ s ∈ m.doms) ∧
    em = Output.writeAll ng (emOf A.M) order
  prtl : ∃ (order : List Nat) (ctr : Nat → Nat → Nat), (∀ r, r ∈ order ↔ r < m.doms.length) ∧
    writeRanks true l (sps.map fun sp => cfgOf sp.kind) m.doms.length
      (fun r k => popOf (ctr k r) (A.prtl k r)) order (PrtlIO.File.empty (Val K)) = .ok pf

/-- The state after `ContinueFromCheckpoint` (metadomain_chckpt.cpp:331-350): every rank reads the block of
its subdomain and its particles into new containers.  All other memory — the currents, the
unused slots — holds anything. -/
structure Read (m : Meta) (ng : Nat) (sps : List (SpPrm K)) (l : Layout)
    (em : Output.File (Fin 6 → K)) (pf : PrtlIO.File (Val K)) (R : State K) : Prop where
  fields : ∀ s ∈ m.doms, ∀ i : List Nat, List.Forall₂ (fun x n => x < n + 2 * ng) i s.ncells →
    Output.get em (Output.checkpointBlock ng s) i = some (emOf R.M s i)
  prtl : ∀ k sp, sps[k]? = some sp → ∀ r, r < m.doms.length → ∃ fresh b,
    checkpointRead l (cfgOf sp.kind) (k + 1) m.doms.length pf r fresh = .ok b ∧
    R.prtl k r = storeOf sp.kind b

/-- A simulation that is stopped and continued from a checkpoint any number of times.  A resumed engine
starts at the step of the checkpoint (engine.hpp:113-116), which is not 0 (metadomain_chckpt.cpp:112-115,
engine.hpp:165-170), so that `E` and `B` are not exchanged again (srpic.hpp:69-79).  `cap s r` is the
capacity of the arrays of species `s` on rank `r` in resumed runs (`maxnpart` of the input file). -/
inductive Session [Inhabited K] (m : Meta) (D : Nat) (P : StepPrm K) (sps : List (SpPrm K))
    (x0 : List K) (cap : Nat → Nat → Nat) : Nat → State K → State K → Prop
  | start {A : State K} {M0 : MMem K} : CommAll m P.ng (fun a c => selE a c || selB a c) A.M M0 →
      Session m D P sps x0 cap 0 A ⟨M0, A.prtl⟩
  | step {n : Nat} {A B C : State K} : Session m D P sps x0 cap n A B →
      FullStep m D P sps x0 n B C → Session m D P sps x0 cap (n + 1) A C
  | resume {n : Nat} {A B C : State K} {l : Layout} {em : Output.File (Fin 6 → K)}
      {pf : PrtlIO.File (Val K)} : Session m D P sps x0 cap n A B → n ≠ 0 →
      Written m P.ng sps l B em pf → Read m P.ng sps l em pf C →
      (∀ s sp, sps[s]? = some sp → ∀ r, r < m.doms.length → (C.prtl s r).maxnpart = cap s r) →
      Session m D P sps x0 cap n A C

end Entity.Resume
