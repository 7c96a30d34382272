import Verif.Model.Topology

/-!
# Construction of the metadomain

The constructor of `Metadomain` (src/framework/domain/metadomain.cpp:33-61) and the checks it makes
(metadomain.cpp:63-99, 323-365).  The metrics of the subdomains and `metricCompatibilityCheck` are in
`Model/Startup.lean`.
-/

namespace Entity.Construct

open Entity Entity.Decomp Entity.Dir Entity.Topology

/-- A loop whose body may raise. -/
def forAll {α : Type} (body : α → Outcome Unit) : List α → Outcome Unit
  | [] => .ok ()
  | a :: rest => match body a with
    | .ok _ => forAll body rest
    | .err => .err
    | .ub => .ub

/-- One step after another: `y` only if `x` does not raise. -/
def andThen {α β : Type} (x : Outcome α) (y : Outcome β) : Outcome β :=
  match x with
  | .ok _ => y
  | .err => .err
  | .ub => .ub

/-- The build and the process: with MPI the number of processes and the own rank, without it whether it is a
debug build. -/
inductive Build
  | mpi (size rank : Nat)
  | serial (debug : Bool)

/-- Arguments of the constructor (metadomain.cpp:33-40).  Simplification: the boundary conditions of
particles are written with the names of those of fields. -/
structure Args where
  ndomains : Nat
  decomposition : List Int
  ncells : List Nat
  nExtent : Nat
  fbc : List (BC × BC)
  pbc : List (BC × BC)

/-- `initialValidityCheck` and the check before it (metadomain.cpp:47-53, 63-99); `D` is the dimension
of the program.  MPI is initialised. -/
def initialCheck (D : Nat) (b : Build) (a : Args) : Outcome Unit :=
  if (match b with
    | .mpi size _ => decide (a.ndomains ≠ size)
    | .serial _ => false) = true then .err
  else if a.decomposition.length ≠ D then .err
  else if a.ncells.length ≠ D then .err
  else if a.nExtent ≠ D then .err
  else if a.fbc.length ≠ D then .err
  else if a.pbc.length ≠ D then .err
  else match b with
    | .mpi size _ => if size ≠ a.ndomains then .err else .ok ()
    | .serial debug => if debug = false ∧ a.ndomains ≠ 1 then .err else .ok ()

/-- Indices of the local subdomains, in the order they are made (metadomain.cpp:158-189). -/
def localIndices (b : Build) (n : Nat) : List Nat :=
  match b with
  | .mpi _ rank => (List.range n).filter (fun idx => idx == rank)
  | .serial _ => List.range n

/-- Whether arrays are allocated for a subdomain: which constructor of `Domain` is called
(metadomain.cpp:155-190). -/
def isLocal (b : Build) (idx : Nat) : Bool :=
  match b with
  | .mpi _ rank => idx == rank
  | .serial _ => true

/-- `Fields::memory_footprint` (src/framework/containers/fields.h:147-167) in numbers: `extents` are those of
one of the arrays, all of which have the same. -/
def fieldsFootprint (extents : List Nat) : Nat := 36 * extents.prod

/-- Extents of the field arrays of a subdomain: allocated with two times `ng` ghost cells for local ones
(metadomain.cpp:169-176), empty for the others (src/framework/domain/domain.h:79-94). -/
def extents (ng : Nat) (loc : Bool) (s : Subdomain) : List Nat :=
  if loc then s.ncells.map (· + 2 * ng) else s.ncells.map (fun _ => 0)

/-- `is_placeholder` (domain.h:144-151): no memory for fields or species; `nspec` species with room for
`maxnpart` particles each are made for local subdomains only. -/
def isPlaceholder (ng nspec maxnpart : Nat) (loc : Bool) (s : Subdomain) : Bool :=
  let sp := if loc then nspec * maxnpart else 0
  fieldsFootprint (extents ng loc s) == 0 && sp == 0

/-- `redefineNeighbors` (metadomain.cpp:196-233): every neighbour must be found. -/
def neighborsFound (m : Meta) (dirs : List Direction) : Outcome Unit :=
  forAll (fun idx => forAll (fun d => andThen (neighborIdx m idx d) (.ok ())) dirs) (List.range m.doms.length)

/-- `redefineBoundaries` (metadomain.cpp:236-321) for one of the two kinds of conditions. -/
def boundariesFound (m : Meta) (dirs : List Direction) : Outcome Unit :=
  forAll (fun idx => forAll (fun d => andThen (dirBC m idx d) (.ok ())) dirs) (List.range m.doms.length)

/-- Check that the neighbour of the neighbour is the subdomain itself (metadomain.cpp:328-334). -/
def reciprocal (m : Meta) (idx : Nat) (d : Direction) : Outcome Unit :=
  match neighborIdx m idx d with
  | .err => .err
  | .ub => .ub
  | .ok j => match neighborIdx m j (neg d) with
    | .err => .err
    | .ub => .ub
    | .ok self => if self ≠ idx then .err else .ok ()

/-- Check of the boundary conditions (metadomain.cpp:336-343). -/
def validBC (m : Meta) (idx : Nat) (d : Direction) : Outcome Unit :=
  match dirBC m idx d with
  | .err => .err
  | .ub => .ub
  | .ok b => if b = .INVALID then .err else .ok ()

/-- The two forms of the check of the list of local subdomains (metadomain.cpp:349-358); the rank of a
subdomain is its index (metadomain.cpp:177). -/
def localWrong (b : Build) (idx : Nat) (contained : Bool) : Bool :=
  match b with
  | .mpi _ rank => decide ((idx == rank) ≠ contained)
  | .serial _ => !contained

/-- Check of the list of local subdomains and of their memory (metadomain.cpp:344-363). -/
def localCheck (ng nspec maxnpart : Nat) (b : Build) (m : Meta) (idx : Nat) : Outcome Unit :=
  let contained := (localIndices b m.doms.length).any (fun g => idx == g)
  if localWrong b idx contained then .err
  else match m.doms[idx]? with
    | none => .ub
    | some s =>
      if contained = false ∧ isPlaceholder ng nspec maxnpart (isLocal b idx) s = false then .err else .ok ()

/-- `finalValidityCheck` (metadomain.cpp:323-365); `m` and `mp` differ in the boundary conditions, those of
fields and of particles. -/
def finalCheck (ng nspec maxnpart : Nat) (b : Build) (m mp : Meta) (dirs : List Direction) : Outcome Unit :=
  forAll (fun idx =>
    andThen (forAll (reciprocal m idx) dirs)
      (andThen (forAll (validBC m idx) dirs)
        (andThen (forAll (validBC mp idx) dirs) (localCheck ng nspec maxnpart b m idx))))
    (List.range m.doms.length)

/-- Everything after `createEmptyDomains` (metadomain.cpp:56-59). -/
def connect (ng nspec maxnpart D : Nat) (b : Build) (m mp : Meta) : Outcome Unit :=
  andThen (neighborsFound m (allDirs D))
    (andThen (boundariesFound m (allDirs D))
      (andThen (boundariesFound mp (allDirs D)) (finalCheck ng nspec maxnpart b m mp (allDirs D))))

/-- The constructor of `Metadomain` (metadomain.cpp:33-61) without the metrics; `guess`, `guess3` are the
rounded roots in `tools::Decompose`.  The result are subdomains and local indices. -/
def construct (ng nspec maxnpart D : Nat) (guess : Nat → Nat) (guess3 : Nat) (b : Build) (a : Args) :
    Outcome (List Subdomain × List Nat) :=
  andThen (initialCheck D b a)
    (match decompose guess guess3 a.ndomains a.ncells a.decomposition with
    | .err => .err
    | .ub => .ub
    | .ok dN => if dN.length ≠ D then .err else match createDomains a.ndomains dN with
      | none => .ub
      | some doms =>
        andThen
          (connect ng nspec maxnpart D b ⟨dN.map List.length, doms, a.fbc⟩ ⟨dN.map List.length, doms, a.pbc⟩)
          (.ok (doms, localIndices b doms.length)))

end Entity.Construct
