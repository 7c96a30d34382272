import Verif.Lemmas.FullShift
import Verif.Lemmas.GaussStep
import Verif.Props.PrtlComm

/-!
# What a simulation looks like from outside, and the same algorithm without ranks
-/

namespace Entity.Full

open Entity Entity.Topology Entity.Kernel Entity.FieldSolver Entity.Push Entity.Prtl Entity.Ranks
open Entity.Deposit Entity.Interp Entity.Tags Entity.Filter

section
variable {K : Type}

/-- A particle as seen from outside: its cell and previous cell are those of the periodic box. -/
def gview (m : Meta) (dN : List (List Nat)) (r : Nat) (k : Kind) (q : Prtl K) : View K :=
  { k.view q with
    cell := globalCells m dN r (k.view q).cell
    cellPrev := globalCells m dN r (k.view q).cellPrev }

/-- The live particles of a species on all ranks, as seen from outside. -/
def held (m : Meta) (dN : List (List Nat)) (k : Kind) (st : Nat → Store K) : List (View K) :=
  (List.range m.doms.length).flatMap fun (r : Nat) => (st r).live.map (gview m dN r k)

/-- A species on a rank between two steps: every particle in use is dead or alive, live ones are in
the subdomain, the arrays are consistent. -/
structure Tame (m : Meta) (k : Kind) (r : Nat) (s : Store K) : Prop where
  npart : s.npart ≤ s.maxnpart
  tags : ∀ q ∈ s.used, q.tag = 0 ∨ q.tag = 1
  inside : ∀ q ∈ s.live, ∀ a < k.D,
    0 ≤ (k.view q).cell.getD a 0 ∧ (k.view q).cell.getD a 0 < (sizes m r).getD a 0
  payload : ∀ q ∈ s.arr, PldOk k q

/-- All species on all ranks. -/
def AllTame (m : Meta) (sps : List (SpPrm K)) (st : Nat → Nat → Store K) : Prop :=
  ∀ s sp, sps[s]? = some sp → ∀ r, r < m.doms.length → Tame m sp.kind r (st s r)
end

variable {K : Type} [Field K] [LinearOrder K] [IsStrictOrderedRing K] [FloorRing K]

/-! ## The box without ranks, ghost cells and arrays -/

/-- Fields on the cells of the box, particles in the box. -/
structure Box (K : Type) where
  g : GMem K
  prtl : Nat → List (View K)

/-- The axes of a particle. -/
def axesOf (v : View K) : List (Ax K) :=
  (List.range v.cell.length).map fun (a : Nat) =>
    ⟨v.cell.getD a 0, v.cellPrev.getD a 0, v.dx.getD a 0, v.dxPrev.getD a 0, v.u.getD a 0⟩

/-- The momentum of a particle. -/
def vecOf : List K → V3 K
  | [a, b, c] => ⟨a, b, c⟩
  | _ => ⟨0, 0, 0⟩

/-- Where the box keeps a component: electric in 0, 1, 2, magnetic in 3, 4, 5. -/
def slot : Comp → Nat
  | .ex1 => 0
  | .ex2 => 1
  | .ex3 => 2
  | .bx1 => 3
  | .bx2 => 4
  | .bx3 => 5

/-- Size of a cell along axis `k` of a `D`-dimensional box; components along the other axes are not
scaled. -/
def cellSize (D : Nat) (dx : K) (k : Nat) : K := if D ≤ k then 1 else dx

/-- Field at a particle (stored components are per cell, so the physical one is times the size). -/
def boxField (P : StepPrm K) (N : List Nat) (g : GMem K) (v : View K) (c : Comp) : K :=
  match interpFrom P.O (fun idx => g 0 (slot c) (wrap N idx)) (staggering N.length c)
      (v.cell.zip v.dx) with
  | .ok x => x * cellSize N.length P.dx (slot c % 3)
  | _ => 0

/-- Momentum after the push. -/
def boxKick (P : StepPrm K) (s : SpPrm K) (x0 : List K) (t : Nat) (N : List Nat) (g : GMem K)
    (v : View K) : V3 K :=
  s.kick t (List.zipWith (fun (p : Int × K) x => iDiToXi p.1 p.2 * P.dx + x) (v.cell.zip v.dx) x0)
    ⟨boxField P N g v .ex1, boxField P N g v .ex2, boxField P N g v .ex3⟩
    ⟨boxField P N g v .bx1, boxField P N g v .bx2, boxField P N g v .bx3⟩ (vecOf v.u)

/-- The axes after the push, cells not taken modulo the size of the box. -/
def boxMoved (P : StepPrm K) (s : SpPrm K) (x0 : List K) (t : Nat) (N : List Nat) (g : GMem K)
    (v : View K) : List (Ax K) :=
  let u := boxKick P s x0 t N g v
  (axesOf { v with u := [u.x, u.y, u.z] }).map fun a => pushAxis (a.u / P.dx * s.dtE u) a

/-- The particle after the push. -/
def boxPush (P : StepPrm K) (s : SpPrm K) (x0 : List K) (t : Nat) (N : List Nat) (g : GMem K)
    (v : View K) : View K :=
  if s.frozen then v
  else
    let u := boxKick P s x0 t N g v
    let ax := boxMoved P s x0 t N g v
    { v with
      cell := wrap N (ax.map (·.i))
      cellPrev := wrap N (ax.map (·.iPrev))
      dx := ax.map (·.dx)
      dxPrev := ax.map (·.dxPrev)
      u := [u.x, u.y, u.z] }

/-- What the particle adds to the current. -/
def boxDeposit (P : StepPrm K) (s : SpPrm K) (x0 : List K) (t : Nat) (N : List Nat) (g : GMem K)
    (v : View K) : List (Upd K) :=
  let u := boxKick P s x0 t N g v
  match depositOne P.O 0 s.charge P.dt ⟨boxMoved P s x0 t N g v, v.weight,
      u.y / cellSize N.length P.dx 1 * s.invE u, u.z / cellSize N.length P.dx 2 * s.invE u, alive⟩ with
  | .ok us => us
  | _ => []

/-- The current of one species. -/
def boxCurrentOf (P : StepPrm K) (s : SpPrm K) (x0 : List K) (t : Nat) (N : List Nat) (g : GMem K)
    (l : List (View K)) (c : Nat) (p : List Int) : K :=
  if s.frozen = true ∨ s.charge = 0 then 0
  else (l.map fun v => landed N (boxDeposit P s x0 t N g v) c p).sum

/-- The current of all particles. -/
def boxCurrent (P : StepPrm K) (sps : List (SpPrm K)) (x0 : List K) (t : Nat) (N : List Nat)
    (g : GMem K) (L : Nat → List (View K)) (c : Nat) (p : List Int) : K :=
  (sps.mapIdx fun i s => boxCurrentOf P s x0 t N g (L i) c p).sum

/-- A step. -/
def boxStep (P : StepPrm K) (sps : List (SpPrm K)) (x0 : List K) (t : Nat) (N : List Nat)
    (B : Box K) : Box K :=
  let half := opG N.length N (.faraday (1 / 2 * P.correction * P.dt) P.dx P.c)
  let g1 := half B.g
  let g2 := (stepG N)^[P.nf] fun a c p =>
    if selEB a c then g1 a c p else boxCurrent P sps x0 t N g1 B.prtl c p
  ⟨opG N.length N (.electric (1 * P.correction * P.dt) P.dx (some (P.coeff, P.ppc0))) (half g2),
   fun i => match sps[i]? with
    | some s => (B.prtl i).map (boxPush P s x0 t N g1)
    | none => B.prtl i⟩

/-- `n` steps. -/
def boxRun (P : StepPrm K) (sps : List (SpPrm K)) (x0 : List K) (N : List Nat) : Nat → Box K → Box K
  | 0, B => B
  | n + 1, B => boxStep P sps x0 n N (boxRun P sps x0 N n B)

/-- The ranks hold the content of the box: all cells, ghost cells included, hold the fields of the
box, and the live particles of all ranks are its particles. -/
structure Holds (m : Meta) (dN : List (List Nat)) (P : StepPrm K) (sps : List (SpPrm K))
    (A : State K) (B : Box K) : Prop where
  fields : Shows m (dN.map List.sum) P.ng selEB A.M B.g
  prtl : ∀ s sp, sps[s]? = some sp → (held m dN sp.kind (A.prtl s)).Perm (B.prtl s)
  tame : AllTame m sps A.prtl

end Entity.Full
