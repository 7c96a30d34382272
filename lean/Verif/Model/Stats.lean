import Verif.Model.Prompt
import Verif.Model.Enums
import Verif.Model.Tags
import Mathlib.Algebra.Order.Field.Basic
import Mathlib.Algebra.BigOperators.Group.List.Basic

/-!
# The statistics file (src/output/stats.cpp, src/output/stats.h,
src/framework/domain/metadomain_stats.cpp, src/kernels/reduced_stats.hpp)

The file is a sequence of tokens: comma-terminated cells and ends of line.  Formatting of numbers
(`setw`, `setprecision`) is not modelled.
-/

namespace Entity.Stats

open Entity Entity.Prompt Entity.Enums

/-- `std::string::substr(pos, n)` (C++ standard library): throws if `pos` is beyond the end. -/
def substr (s : List Char) (pos n : Nat) : Outcome (List Char) :=
  if s.length < pos then .err else .ok ((s.drop pos).take n)

/-- `fmt::toLower` (formatting.h:117-121) on ASCII strings. -/
def toLower (s : List Char) : List Char := s.map Char.toLower

/-- Values of `StatsID` (enums.h:288-301). -/
def B2 : Nat := 1
/-- enums.h:288-301. -/
def E2 : Nat := 2
/-- enums.h:288-301. -/
def ExB : Nat := 3
/-- enums.h:288-301. -/
def JdotE : Nat := 4
/-- enums.h:288-301. -/
def T : Nat := 5
/-- enums.h:288-301. -/
def Rho : Nat := 6
/-- enums.h:288-301. -/
def Charge : Nat := 7
/-- enums.h:288-301. -/
def N : Nat := 8
/-- enums.h:288-301. -/
def Npart : Nat := 9
/-- enums.h:288-301. -/
def Custom : Nat := 10

/-- `stats::OutputStats` (stats.h:36-41). -/
structure Stat where
  name : List Char
  id : Nat
  comp : List (List Nat)
  species : List Nat
  deriving DecidableEq, Repr

/-- `OutputStats::is_moment` (stats.h:48-51). -/
def isMoment (id : Nat) : Bool := id = T || id = Rho || id = Npart || id = N || id = Charge

/-- `OutputStats::is_vector` (stats.h:54-56). -/
def isVector (id : Nat) : Bool := id = ExB || id = E2 || id = B2

/-- The part of a name looked up in `StatsID` (stats.cpp:33-38): up to the first `_`, and unless it
starts with one of E, B, J, N up to the first component letter.  `name_raw[0]` of an empty string is
the terminating zero, different from the four letters. -/
def rawName (name : List Char) : List Char :=
  let raw := name.takeWhile (· ≠ '_')
  if raw.head? ≠ some 'E' ∧ raw.head? ≠ some 'B' ∧ raw.head? ≠ some 'J' ∧ raw.head? ≠ some 'N' then
    raw.takeWhile fun c => !("0123ijxyzt".toList.contains c)
  else raw

/-- `OutputStats::OutputStats` (stats.cpp:24-62). -/
def mkStat (name : List Char) (isCustom : Bool) : Outcome Stat :=
  if isCustom then .ok ⟨name, Custom, [], []⟩
  else do
    let known ← contains statsID (String.ofList (toLower (rawName name)))
    Outcome.errorIf (known = false)
    let id ← pick statsID (String.ofList (toLower (rawName name)))
    let species ← if isMoment id then interpretSpecies name else pure []
    let comp ←
      if isVector id then pure [[1], [2], [3]]
      else if id = T then do
        let a ← substr name 1 1
        let b ← substr name 2 1
        interpretComponents [a, b]
      else pure []
    pure ⟨name, id, comp, species⟩

/-- The suffix `_1_2` of a name (stats.h:84-91, 126-133). -/
def speciesSuffix (species : List Nat) : List Char :=
  species.flatMap fun s => '_' :: Nat.toDigits 10 s

/-- `id().to_string()` with the first letter in upper case (stats.h:68-76); `exb` and `j.e` have
their own spelling. -/
def baseName (id : Nat) : Outcome (List Char) := do
  let s ← Enums.toString statsID id
  pure (if s = "exb" then "ExB".toList
    else if s = "j.e" then "J.E".toList
    else match s.toList with
      | c :: cs => c.toUpper :: cs
      | [] => [])

/-- `OutputStats::name()` (stats.h:63-94) for the statistics it is called on (not vectors). -/
def nameOf (s : Stat) : Outcome (List Char) :=
  if s.id = Custom then .ok s.name
  else do
    let b ← baseName s.id
    let t ← if s.id = T then substr s.name 1 2 else pure []
    pure (b ++ t ++ speciesSuffix s.species)

/-- `OutputStats::name(ci)` (stats.h:97-136) for the component list `c = comp[ci]` of a vector
statistic (whose species list is empty). -/
def nameOfComp (s : Stat) (c : List Nat) : Outcome (List Char) := do
  Outcome.errorIf (c = [])
  let b ← baseName s.id
  pure (if s.id = E2 ∨ s.id = B2 then
      (b.take 1) ++ (Nat.toDigits 10 (c.headD 0)) ++ "^2".toList
    else b ++ c.flatMap (Nat.toDigits 10) ++ speciesSuffix s.species)

/-- What is appended to the file: a header cell, a cell with a number, an end of line. -/
inductive Tok (V : Type) where
  | text (s : List Char)
  | num (v : V)
  | nl
  deriving DecidableEq

/-- Header cells of one statistic (stats.cpp:90-97). -/
def headerOf {V : Type} (s : Stat) : Outcome (List (Tok V)) :=
  if isVector s.id then s.comp.mapM fun c => do
      let n ← nameOfComp s c
      pure (.text n)
  else do
    let n ← nameOf s
    pure [.text n]

/-- `Writer::writeHeader` (stats.cpp:82-104). -/
def header {V : Type} (stats : List Stat) : Outcome (List (Tok V)) := do
  let cols ← stats.mapM headerOf
  pure ([.text "step".toList, .text "time".toList] ++ cols.flatten ++ [.nl])

/-- What the numbers come from: step, time, the value of a statistic (component list empty for
scalars) on each rank, whether a function for custom statistics is provided, and whether the engine
is SRPIC. -/
structure Env (V : Type) where
  step : V
  time : V
  value : Stat → List Nat → List V
  hasCustom : Bool
  srpic : Bool

/-- `Writer::write(value)` with communication (stats.h:169-213): `MPI_Reduce` with `MPI_SUM`, written
by the root. -/
def reduced {V : Type} [AddMonoid V] (vs : List V) : Tok V := .num vs.sum

/-- Cells of one statistic in a row (metadomain_stats.cpp:200-270). -/
def rowOf {V : Type} [AddMonoid V] (e : Env V) (s : Stat) : Outcome (List (Tok V)) :=
  if s.id = Custom then
    if e.hasCustom then .ok [reduced (e.value s [])] else .err
  else if s.id = N then .ok [reduced (e.value s [])]
  else if s.id = Npart then .ok [reduced (e.value s [])]
  else if s.id = Rho then .ok [reduced (e.value s [])]
  else if s.id = Charge then .ok [reduced (e.value s [])]
  else if s.id = T then .ok (s.comp.map fun c => reduced (e.value s c))
  else if s.id = JdotE then .ok [reduced (e.value s [])]
  else if e.srpic then
    if s.id = E2 then .ok (s.comp.map fun c => reduced (e.value s c))
    else if s.id = B2 then .ok (s.comp.map fun c => reduced (e.value s c))
    else if s.id = ExB then .ok (s.comp.map fun c => reduced (e.value s c))
    else .err
  else .err

/-- `Metadomain::WriteStats` (metadomain_stats.cpp:184-275) when a row is due. -/
def row {V : Type} [AddMonoid V] (e : Env V) (stats : List Stat) : Outcome (List (Tok V)) := do
  let cols ← stats.mapM (rowOf e)
  pure ([.num e.step, .num e.time] ++ cols.flatten ++ [.nl])

/-- One execution of the program as far as the statistics file is concerned: does it resume from a
checkpoint, is the output enabled, and the rows that fall due. -/
structure Run (V : Type) where
  resuming : Bool
  enabled : Bool
  requests : List (List Char × Bool)
  rows : List (Env V)

/-- The rows of a run (`Metadomain::WriteStats` returns at once when disabled,
metadomain_stats.cpp:193-196), appended to the file. -/
def writeRows {V : Type} [AddMonoid V] (enabled : Bool) (stats : List Stat) :
    List (Env V) → List (Tok V) → Outcome (List (Tok V))
  | [], f => .ok f
  | e :: es, f =>
    if enabled then do
      let r ← row e stats
      writeRows enabled stats es (f ++ r)
    else writeRows enabled stats es f

/-- The header is written if the file does not exist (metadomain_stats.cpp:67-69). -/
def openFile {V : Type} (stats : List Stat) : Option (List (Tok V)) → Outcome (List (Tok V))
  | some f => .ok f
  | none => header stats

/-- One run: `Metadomain::InitStatsWriter` (metadomain_stats.cpp:30-70) followed by the rows. -/
def run {V : Type} [AddMonoid V] (r : Run V) (file : Option (List (Tok V))) :
    Outcome (Option (List (Tok V))) := do
  let file := if r.enabled && !r.resuming then none else file
  let stats ← r.requests.mapM fun q => mkStat q.1 q.2
  let f ← openFile stats file
  let f ← writeRows r.enabled stats r.rows f
  pure (some f)

/-- Any number of runs one after the other. -/
def runs {V : Type} [AddMonoid V] (rs : List (Run V)) (file : Option (List (Tok V))) :
    Outcome (Option (List (Tok V))) :=
  rs.foldlM (fun f r => run r f) file

/-! ## Particle statistics -/

/-- What the reduction of particle moments reads of a particle: tag, weight and four-velocity
(Cartesian components). -/
structure Prtl (K : Type) where
  tag : Int
  weight : K
  ux1 : K
  ux2 : K
  ux3 : K

/-- A species: index, mass, charge. -/
structure Species (K : Type) where
  index : Nat
  mass : K
  charge : K
  prtls : List (Prtl K)

variable {K : Type} [Field K] [LinearOrder K]

/-- `get_contrib` (reduced_stats.hpp:378-387). -/
def contrib (id : Nat) (sp : Species K) : K :=
  if id = Rho then sp.mass else if id = Charge then sp.charge else 1

/-- One factor of the stress-energy tensor (reduced_stats.hpp:518-526). -/
def tFactor (energy : K) (p : Prtl K) (c : Nat) : Outcome K :=
  if c = 0 then .ok energy
  else if c = 1 then .ok p.ux1
  else if c = 2 then .ok p.ux2
  else if c = 3 then .ok p.ux3
  else .ub

/-- `ReducedParticleMoments_kernel::operator()` (reduced_stats.hpp:431-531), SR, Cartesian: what one
particle adds.  `dV` is `metric.sqrt_det_h`, constant for the Minkowski metric
(metrics/minkowski.h:91-99); `sqrt` is `math::sqrt`. -/
def momentOf (sqrt : K → K) (dV : K) (useWeights : Bool) (id : Nat) (sp : Species K)
    (comp : List Nat) (p : Prtl K) : Outcome K :=
  if p.tag ≠ Tags.alive then .ok 0
  else if id = Npart then .ok 1
  else if id = N ∨ id = Rho ∨ id = Charge then
    .ok (dV * (if useWeights then p.weight else contrib id sp))
  else do
    let usq := p.ux1 * p.ux1 + p.ux2 * p.ux2 + p.ux3 * p.ux3
    let energy := if sp.mass = 0 then sqrt usq else sp.mass * sqrt (1 + usq)
    let f1 ← tFactor energy p (comp.headD 0)
    let f2 ← tFactor energy p (if comp.length = 2 then comp.getD 1 0 else 0)
    pure (dV * (1 * f1 * f2) / energy)

/-- The species a moment is taken over (metadomain_stats.cpp:79-93): the requested ones, or all
massive ones; an index that is not a species is an error. -/
def chosen (spec : List (Species K)) (species : List Nat) : Outcome (List Nat) := do
  let specs := if species = [] then (spec.filter fun s => decide (0 < s.mass)).map (·.index)
    else species
  Outcome.errorIf (specs.any (fun s => decide (spec.length < s) || decide (s = 0)) = true)
  pure specs

/-- The contribution of one species (metadomain_stats.cpp:98-117); the constructor of the kernel
raises an error for mass or charge density of a massless species (reduced_stats.hpp:425-428).
`AlmostZero_host` is modelled as equality with zero. -/
def speciesSum (sqrt : K → K) (dV : K) (useWeights : Bool) (id : Nat) (comp : List Nat)
    (spec : List (Species K)) (s : Nat) : Outcome K :=
  match spec[s - 1]? with
  | none => .ub
  | some sp =>
    if id = Charge ∧ sp.charge = 0 then .ok 0
    else if id = Rho ∧ sp.mass = 0 then .ok 0
    else do
      Outcome.errorIf ((id = Rho ∨ id = Charge) ∧ sp.mass = 0)
      let vs ← sp.prtls.mapM (momentOf sqrt dV useWeights id sp comp)
      pure vs.sum

/-- `ComputeMoments` (metadomain_stats.cpp:72-125) on one rank. -/
def computeMoments (sqrt : K → K) (dV totVolume ppc0 : K) (useWeights : Bool) (id : Nat)
    (species comp : List Nat) (spec : List (Species K)) : Outcome K := do
  let specs ← chosen spec species
  let vs ← specs.mapM (speciesSum sqrt dV useWeights id comp spec)
  pure (if id ≠ Npart then vs.sum / (totVolume * ppc0) else vs.sum)

/-- The number that is written: the moments of all ranks, summed by `Writer::write`
(stats.h:169-184). -/
def momentCell (sqrt : K → K) (dV totVolume ppc0 : K) (useWeights : Bool) (id : Nat)
    (species comp : List Nat) (ranks : List (List (Species K))) : Outcome K := do
  let vs ← ranks.mapM (computeMoments sqrt dV totVolume ppc0 useWeights id species comp)
  pure vs.sum

end Entity.Stats
