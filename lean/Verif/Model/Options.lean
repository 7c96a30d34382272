import Verif.Model.BoundaryInput
import Verif.Model.SpeciesInput
import Mathlib.Algebra.Order.Floor.Ring

/-!
# Reading the input file (src/framework/parameters/*.cpp)

The values of the file are read with toml11 (include/toml11/toml.hpp, vendored): `toml::find<T>` throws if
an entry is absent or of another type (an integer is not a floating-point number: toml.hpp:9546-9556,
`as_floating`), `toml::find_or` returns the default in both cases (toml.hpp:10345-10361, 10376-10401:
`catch (...)`).

Simplifications: numbers of the type `real_t`, `float`, `double` are elements of an ordered field `K` (no
rounding); dates and times, which no option uses, are left out; `std::map` and `prm::Parameters` are lists
with the newest entry first.  Left out: the section `[setup]` (parameters.cpp:260-353, see Model/Setup) and
`setCheckpointParams` (parameters.cpp:355-361).
-/

namespace Entity.Options

open Entity Entity.Outcome Entity.Enums Entity.SpeciesInput

/-- `toml::value`. -/
inductive Toml (K : Type) where
  | bool (b : Bool)
  | int (n : Int)
  | float (x : K)
  | str (s : String)
  | arr (a : List (Toml K))
  | tab (t : List (String × Toml K))

variable {K : Type}

/-- `value::at(key)`: throws if the value is no table or has no such key. -/
def Toml.at : Toml K → String → Outcome (Toml K)
  | .tab t, k => match t.lookup k with
    | some v => .ok v
    | none => .err
  | _, _ => .err

/-- `toml::find(v, key1, key2, …)` (toml.hpp:10184-10210). -/
def locate : Toml K → List String → Outcome (Toml K)
  | v, [] => .ok v
  | v, k :: ks => do
    let w ← v.at k
    locate w ks

/-- `toml::get<floating point>` (toml.hpp:9546-9556). -/
def getReal : Toml K → Outcome K
  | .float x => .ok x
  | _ => .err

/-- `toml::get` of an unsigned type of `bits` bits (toml.hpp:9530-9541): a cast of the integer. -/
def getUInt (bits : Nat) : Toml K → Outcome Nat
  | .int n => .ok (n % 2 ^ bits).toNat
  | _ => .err

/-- `toml::get` of a signed type of `bits` bits. -/
def getInt (bits : Nat) : Toml K → Outcome Int
  | .int n => .ok (Int.bmod n (2 ^ bits))
  | _ => .err

/-- `toml::get<bool>`. -/
def getBool : Toml K → Outcome Bool
  | .bool b => .ok b
  | _ => .err

/-- `toml::get<std::string>`. -/
def getStr : Toml K → Outcome String
  | .str s => .ok s
  | _ => .err

/-- The elements one after the other. -/
def getAll {α : Type} (g : Toml K → Outcome α) : List (Toml K) → Outcome (List α)
  | [] => .ok []
  | v :: vs => do
    let x ← g v
    let xs ← getAll g vs
    return x :: xs

/-- `toml::get<std::vector<T>>` (toml.hpp:9715-9742). -/
def getVec {α : Type} (g : Toml K → Outcome α) : Toml K → Outcome (List α)
  | .arr a => getAll g a
  | _ => .err

/-- `toml::get<std::pair<T, T>>`: an array of two elements. -/
def getPair {α : Type} (g : Toml K → Outcome α) : Toml K → Outcome (α × α)
  | .arr [a, b] => do
    let x ← g a
    let y ← g b
    return (x, y)
  | _ => .err

/-- `toml::get<toml::array>`. -/
def getArr : Toml K → Outcome (List (Toml K))
  | .arr a => .ok a
  | _ => .err

/-- `toml::find<T>(v, keys…)`. -/
def find {α : Type} (g : Toml K → Outcome α) (v : Toml K) (path : List String) : Outcome α := do
  let w ← locate v path
  g w

/-- `toml::find_or(v, keys…, default)` (toml.hpp:10345-10361, 10376-10401). -/
def findOr {α : Type} (g : Toml K → Outcome α) (v : Toml K) (path : List String) (d : α) : α :=
  match find g v path with
  | .ok x => x
  | _ => d

/-- `fmt::toLower` (src/global/utils/formatting.h:118-122). -/
def lower (s : String) : String := String.ofList (s.toList.map Char.toLower)

/-- A species (`ParticleSpecies`, src/framework/containers/species.h); the flags of the drag are one Boolean
per bit, the emission is the code of `EmissionType` (enums.h:379-385). -/
structure Sp (K : Type) where
  index : Nat
  label : String
  mass : K
  charge : K
  maxnpart : Nat
  clearing : Nat
  sorting : Nat
  pusher : Pusher
  tracking : Bool
  dragSyn : Bool
  dragCom : Bool
  emission : Nat
  npldR : Nat
  npldI : Nat

/-- A `std::any` of the container: the type and the value. -/
inductive Val (K : Type) where
  | real (x : K)
  | uint (n : Nat)
  | int (n : Int)
  | bool (b : Bool)
  | str (s : String)
  | uints (l : List Nat)
  | ints (l : List Int)
  | strs (l : List String)
  | enum (n : Nat)
  | bcs (l : List (Nat × Nat))
  | pairs (l : List (K × K))
  | upair (a b : Nat)
  | map (l : List (String × K))
  | species (l : List (Sp K))

/-- `prm::Parameters` (param_container.h:35-94). -/
structure Prm (K : Type) where
  vars : List (String × Val K)
  promises : List String

/-- `set` (param_container.h:67-69). -/
def Prm.set (p : Prm K) (k : String) (v : Val K) : Prm K := { p with vars := (k, v) :: p.vars }

/-- Several calls of `set`, in order. -/
def Prm.sets (p : Prm K) : List (String × Val K) → Prm K
  | [] => p
  | (k, v) :: kvs => (p.set k v).sets kvs

/-- The value stored last under a name. -/
def look : List (String × Val K) → String → Option (Val K)
  | [], _ => none
  | (k, v) :: rest, key => if k = key then some v else look rest key

/-- `get` (param_container.h:71-94). -/
def Prm.get (p : Prm K) (k : String) : Option (Val K) := look p.vars k

/-- `promiseToDefine` (param_container.h:51-55). -/
def Prm.promise (p : Prm K) (ks : List String) : Prm K := { p with promises := p.promises ++ ks }

/-- `isPromised` (param_container.h:57-59). -/
def Prm.promised (p : Prm K) (k : String) : Bool := decide (k ∈ p.promises)

/-- What the code takes from elsewhere: the number of MPI tasks (`none` without MPI), the square root, the
smallest cell and the volume at the corner of a metric (grid.cpp:36-51; the constructors of the metrics
throw if a parameter is missing), π, and the order of the shape function of the build. -/
structure Env (K : Type) where
  tasks : Option Nat
  sqrt : K → K
  pi : K
  scale : (metric : Nat) → List Nat → List (K × K) → List (String × K) → Outcome (K × K)
  shapeOrder : Nat

section

variable [Field K] [LinearOrder K] [IsStrictOrderedRing K] [FloorRing K]

/-! ## Grid -/

/-- `params::Grid` (grid.h:57-76). -/
structure Grid (K : Type) where
  number : Nat
  decomposition : List Int
  resolution : List Nat
  dim : Nat
  metric : Nat
  coord : Nat
  metricParams : List (String × K)
  metricShort : List (String × K)
  extent : List (K × K)
  dx0 : K
  V0 : K

/-- The pairs of the extent (grid.cpp:492-497). -/
def pairwise : List (List K) → Outcome (List (K × K))
  | [] => .ok []
  | [a, b] :: r => do
    let s ← pairwise r
    return (a, b) :: s
  | _ :: _ => .err

/-- Coordinates and the parameters of the stretching (grid.cpp:423-457). -/
def coordParams (engine dim m : Nat) (f : Toml K) : Outcome (Nat × List (String × K)) :=
  if m = 1 then do
    errorIf (engine ≠ 1)
    return (1, [])
  else if m = 5 ∨ m = 3 then do
    errorIf (dim = 1)
    errorIf (dim = 3)
    return (3, [("qsph_r0", findOr getReal f ["grid", "metric", "qsph_r0"] 0),
      ("qsph_h", findOr getReal f ["grid", "metric", "qsph_h"] 0)])
  else do
    errorIf (dim = 1)
    errorIf (dim = 3)
    return (2, [])

/-- Metric, coordinates and the parameters of the metric (grid.cpp:416-468): codes of `Metric` and `Coord`,
`metric_params`.  `engine` is the code of `SimEngine` (2: `GRPIC`). -/
def readMetric (E : Env K) (engine dim : Nat) (f : Toml K) :
    Outcome (Nat × Nat × List (String × K)) := do
  let name ← find getStr f ["grid", "metric", "metric"]
  let m ← pick metric (lower name)
  let cp ← coordParams engine dim m f
  if engine = 2 ∧ m ≠ 6 then
    let a := findOr getReal f ["grid", "metric", "ks_a"] 0
    return (m, cp.1, cp.2 ++ [("ks_a", a), ("ks_rh", 1 + E.sqrt (1 - a ^ 2))])
  else return (m, cp.1, cp.2)

/-- The short names of the parameters of the metric (grid.cpp:499-508). -/
def shortParams (engine m c : Nat) (prm : List (String × K)) : List (String × K) :=
  (if c = 3 then [("r0", (prm.lookup "qsph_r0").getD 0), ("h", (prm.lookup "qsph_h").getD 0)] else []) ++
  (if engine = 2 ∧ m ≠ 6 then [("a", (prm.lookup "ks_a").getD 0)] else [])

/-- The extent (grid.cpp:470-497): `at(0)` throws if there is none. -/
def readExtent (E : Env K) (dim c : Nat) (f : Toml K) : Outcome (List (K × K)) := do
  let raw ← find (getVec (getVec getReal)) f ["grid", "extent"]
  let e := if dim < raw.length then raw.take dim else raw
  match e.head? with
  | none => .err
  | some e0 => do
    errorIf (e0.length ≠ 2)
    errorIf (c ≠ 1 ∧ 1 < e.length)
    let e := if c ≠ 1 then e ++ [[0, E.pi]] ++ (if dim = 3 then [[0, 2 * E.pi]] else []) else e
    errorIf (e.length ≠ dim)
    pairwise e

/-- `Grid::read` (grid.cpp:379-557). -/
def readGrid (E : Env K) (engine : Nat) (f : Toml K) : Outcome (Grid K) := do
  let number := findOr (getUInt 32) f ["simulation", "domain", "number"] (E.tasks.getD 1)
  let dec := findOr (getVec (getInt 32)) f ["simulation", "domain", "decomposition"] [-1, -1, -1]
  let res ← find (getVec (getUInt 32)) f ["grid", "resolution"]
  errorIf (res.length = 0 ∨ 3 < res.length)
  let dim := res.length
  let dec := if dim < dec.length then dec.take dim else dec
  errorIf (dec.length ≠ dim)
  let (m, c, prm) ← readMetric E engine dim f
  let ext ← readExtent E dim c f
  let short := shortParams engine m c prm
  let (dx0, V0) ← E.scale m res ext short
  return ⟨number, dec, res, dim, m, c, prm, short, ext, dx0, V0⟩

/-- `Grid::setParams` (grid.cpp:559-575). -/
def gridParams (g : Grid K) : List (String × Val K) :=
  [("simulation.domain.number", .uint g.number),
   ("simulation.domain.decomposition", .ints g.decomposition),
   ("grid.resolution", .uints g.resolution),
   ("grid.dim", .enum g.dim),
   ("grid.metric.metric", .enum g.metric),
   ("grid.metric.coord", .enum g.coord)] ++
  g.metricParams.map (fun (e : String × K) => ("grid.metric." ++ e.1, Val.real e.2)) ++
  [("grid.metric.params", .map g.metricShort),
   ("grid.extent", .pairs g.extent),
   ("scales.dx0", .real g.dx0),
   ("scales.V0", .real g.V0)]

/-! ## Species -/

/-- Loop of `getRadiativeDragFlags` (particles.cpp:33-44), tokens in lower case. -/
def dragLoop : Bool × Bool → List (List Char) → Outcome (Bool × Bool)
  | f, [] => .ok f
  | f, t :: ts =>
    if t = "synchrotron".toList then dragLoop (true, f.2) ts
    else if t = "compton".toList then dragLoop (f.1, true) ts
    else .err

/-- `getRadiativeDragFlags` (particles.cpp:25-48): synchrotron and Compton.  The argument is in lower
case. -/
def getDrag (s : List Char) : Outcome (Bool × Bool) :=
  if s = "none".toList then .ok (false, false) else dragLoop (false, false) (tokens s)

/-- `getEmissionPolicyFlag` (particles.cpp:81-98).  The argument is in lower case. -/
def getEmission (s : String) : Outcome Nat :=
  if s = "none" then .ok 0
  else if s = "synchrotron" then .ok 1
  else if s = "compton" then .ok 2
  else if s = "custom" then .ok 3
  else .err

/-- `static_cast<npart_t>(maxnpart_real)` (particles.cpp:121): undefined out of the range. -/
def castNpart (x : K) : Outcome Nat := if -1 < x ∧ x < 2 ^ 32 then .ok ⌊x⌋.toNat else .ub

/-- `GetParticleSpecies` (particles.cpp:100-225): the species and the promises. -/
def readSpecies (E : Env K) (engine idx : Nat) (sp : Toml K) (gclear gsort : Nat) :
    Outcome (Sp K × List String) := do
  let label := findOr getStr sp ["label"] ("s" ++ toString idx)
  let mass ← find getReal sp ["mass"]
  let charge ← find getReal sp ["charge"]
  errorIf (charge ≠ 0 ∧ mass = 0)
  let massless : Bool := decide (mass = 0 ∧ charge = 0)
  let defPusher := if massless then "Photon" else "Boris"
  let maxReal ← find getReal sp ["maxnpart"]
  let maxnpart ← castNpart maxReal
  let clearing := findOr (getUInt 32) sp ["clear_interval"] gclear
  let sorting := findOr (getUInt 32) sp ["spatial_sorting_interval"] gsort
  let pusherStr := findOr getStr sp ["pusher"] defPusher
  let npldR := findOr (getUInt 16) sp ["n_payloads_real"] 0
  let tracking := findOr getBool sp ["tracking"] false
  let npldI0 := findOr (getUInt 16) sp ["n_payloads_int"] 0
  let npldI := if tracking then (npldI0 + (if E.tasks.isSome then 2 else 1)) % 2 ^ 16 else npldI0
  let dragStr0 := findOr getStr sp ["radiative_drag"] "default"
  let defaulted : Bool := decide (lower dragStr0 = "default")
  let dragStr := if defaulted then "none" else dragStr0
  let emissionStr := findOr getStr sp ["emission"] "none"
  errorIf (lower dragStr ≠ "none" ∧ massless = true)
  errorIf (lower pusherStr = "photon" ∧ massless = false)
  let pusher ← getPusherFlags (lower pusherStr).toList
  let drag ← getDrag (lower dragStr).toList
  let emission ← getEmission (lower emissionStr)
  errorIf ((emission = 1 ∨ emission = 2) ∧ massless = true)
  let syn := drag.1 || (defaulted && emission == 1)
  let com := drag.2 || (defaulted && emission == 2)
  errorIf (syn = true ∧ engine ≠ 1)
  errorIf (com = true ∧ engine ≠ 1)
  errorIf (pusher.gca = true ∧ engine ≠ 1)
  let promises :=
    (if syn then ["radiation.drag.synchrotron.gamma_rad"] else []) ++
    (if com then ["radiation.drag.compton.gamma_rad"] else []) ++
    (if pusher.gca then ["algorithms.gca.e_ovr_b_max", "algorithms.gca.larmor_max"] else []) ++
    (if emission = 1 then ["radiation.emission.synchrotron.photon_species",
      "radiation.drag.synchrotron.gamma_rad"] else []) ++
    (if emission = 2 then ["radiation.emission.compton.photon_species",
      "radiation.drag.compton.gamma_rad"] else [])
  return (⟨idx, label, mass, charge, maxnpart, clearing, sorting, pusher, tracking, syn, com, emission,
    npldR, npldI⟩, promises)

/-- The loop over the species (parameters.cpp:88-98); `spidx_t` has 8 bits. -/
def readAllSpecies (E : Env K) (engine gclear gsort : Nat) :
    Nat → List (Toml K) → Outcome (List (Sp K) × List String)
  | _, [] => .ok ([], [])
  | idx, sp :: sps => do
    let (s, q) ← readSpecies E engine idx sp gclear gsort
    let (ss, qs) ← readAllSpecies E engine gclear gsort ((idx + 1) % 256) sps
    return (s :: ss, q ++ qs)

/-- What later stages use of the options that are kept on a restart. -/
structure Immutable (K : Type) where
  engine : Nat
  grid : Grid K
  species : List (Sp K)
  omegaB0 : K
  prm : Prm K

/-- The values set by `setImmutableParams` after the grid (parameters.cpp:52-99). -/
def keptParams (f : Toml K) (larmor0 skindepth0 ppc0 V0 : K) (gclear gsort nspec : Nat)
    (sps : List (Sp K)) : List (String × Val K) :=
  [("scales.larmor0", .real larmor0),
   ("scales.skindepth0", .real skindepth0),
   ("scales.sigma0", .real ((skindepth0 / larmor0) ^ 2)),
   ("scales.B0", .real (1 / larmor0)),
   ("scales.omegaB0", .real (1 / larmor0)),
   ("particles.ppc0", .real ppc0),
   ("particles.use_weights", .bool (findOr getBool f ["particles", "use_weights"] false)),
   ("particles.clear_interval", .uint gclear),
   ("particles.spatial_sorting_interval", .uint gsort),
   ("scales.n0", .real (ppc0 / V0)),
   ("scales.q0", .real (V0 / (ppc0 * skindepth0 ^ 2))),
   ("particles.nspec", .uint nspec),
   ("particles.species", .species sps)]

/-- `setImmutableParams` (parameters.cpp:35-100). -/
def setImmutable (E : Env K) (f : Toml K) : Outcome (Immutable K) := do
  let engName ← find getStr f ["simulation", "engine"]
  let engine ← pick simEngine (lower engName)
  let g ← readGrid E engine f
  let larmor0 ← find getReal f ["scales", "larmor0"]
  let skindepth0 ← find getReal f ["scales", "skindepth0"]
  errorIf (larmor0 ≤ 0 ∨ skindepth0 ≤ 0)
  let ppc0 ← find getReal f ["particles", "ppc0"]
  errorIf (ppc0 ≤ 0)
  let gclear := findOr (getUInt 32) f ["particles", "clear_interval"] 100
  let gsort := findOr (getUInt 32) f ["particles", "spatial_sorting_interval"] 0
  let tabs := findOr getArr f ["particles", "species"] []
  let (sps, proms) ← readAllSpecies E engine gclear gsort 1 tabs
  let p0 : Prm K := ⟨[], []⟩
  let p := ((p0.set "simulation.engine" (.enum engine)).sets (gridParams g)).sets
    (keptParams f larmor0 skindepth0 ppc0 g.V0 gclear gsort tabs.length sps)
  return ⟨engine, g, sps, 1 / larmor0, p.promise proms⟩

/-! ## Boundaries -/

/-- The names of the boundary conditions in lower case. -/
def getNames (f : Toml K) (path : List String) : Outcome (List (List String)) := do
  let l ← find (getVec (getVec getStr)) f path
  return l.map (List.map lower)

/-- What an atmosphere promises (grid.cpp:79-84, 111-116). -/
def atmospherePromises : List String :=
  ["grid.boundaries.atmosphere.temperature", "grid.boundaries.atmosphere.density",
   "grid.boundaries.atmosphere.height", "grid.boundaries.atmosphere.ds",
   "grid.boundaries.atmosphere.species", "grid.boundaries.atmosphere.g"]

/-- `GetBoundaryConditions` (grid.cpp:53-248): the conditions (`Verif.Model.BoundaryInput`) and the
promises. -/
def readBoundaries (engine dim coord : Nat) (f : Toml K) :
    Outcome (BoundaryInput.Result × List String) := do
  let flds ← getNames f ["grid", "boundaries", "fields"]
  let prtl ← getNames f ["grid", "boundaries", "particles"]
  let r ← (if coord = 1 then BoundaryInput.cartesian dim flds prtl
    else if engine = 1 then BoundaryInput.sphericalSR dim flds prtl
    else BoundaryInput.sphericalGR dim flds prtl)
  return (r, ["grid.boundaries.fields", "grid.boundaries.particles"] ++
    (if "match" ∈ flds.flatten then ["grid.boundaries.match.ds"] else []) ++
    (if "atmosphere" ∈ flds.flatten then atmospherePromises else []) ++
    (if "absorb" ∈ prtl.flatten then ["grid.boundaries.absorb.ds"] else []) ++
    (if "atmosphere" ∈ prtl.flatten then atmospherePromises else []))

/-- The loop over the directions (grid.cpp:280-290): the pairs stored so far and whether an error was
raised; the empty list stores a value-initialised pair. -/
def matchLoop : List (List K) → List (K × K) × Bool
  | [] => ([], false)
  | [x] :: r => ((x, x) :: (matchLoop r).1, (matchLoop r).2)
  | [x, y] :: r => ((x, y) :: (matchLoop r).1, (matchLoop r).2)
  | [] :: r => ((0, 0) :: (matchLoop r).1, (matchLoop r).2)
  | _ :: _ => ([], true)

/-- The widths of the matching layers in Cartesian coordinates (grid.cpp:256-296).  Every error inside the
inner `try`, also those raised by the code itself, ends in `catch (...)`, which appends the default for all
directions to what has been stored. -/
def matchCartesian (dim : Nat) (dflt : K) (f : Toml K) : List (K × K) :=
  match find getReal f ["grid", "boundaries", "match", "ds"] with
  | .ok ds => List.replicate dim (ds, ds)
  | _ =>
    match find (getVec (getVec getReal)) f ["grid", "boundaries", "match", "ds"] with
    | .ok ds =>
      if ds.length ≠ dim then List.replicate dim (dflt, dflt)
      else if (matchLoop ds).2 then (matchLoop ds).1 ++ List.replicate dim (dflt, dflt)
      else (matchLoop ds).1
    | _ => List.replicate dim (dflt, dflt)

/-- The size of the box by which the default widths are set (grid.cpp:257-260, 298, 310-313, 320): the
shortest extent, or that of the radius.  Simplification: the loop starts with the first extent instead of
the largest floating-point number. -/
def refExtent (coord : Nat) : List (K × K) → K
  | [] => 0
  | e :: es => if coord = 1 then es.foldl (fun m x => min m (x.2 - x.1)) (e.2 - e.1) else e.2 - e.1

/-- The parameters of an atmosphere (grid.cpp:331-356, 366-376). -/
def atmosphereParams (f : Toml K) : Outcome (List (String × Val K)) := do
  let t ← find getReal f ["grid", "boundaries", "atmosphere", "temperature"]
  let h ← find getReal f ["grid", "boundaries", "atmosphere", "height"]
  let n ← find getReal f ["grid", "boundaries", "atmosphere", "density"]
  let ds := findOr getReal f ["grid", "boundaries", "atmosphere", "ds"] 0
  let s ← find (getPair (getUInt 8)) f ["grid", "boundaries", "atmosphere", "species"]
  return [("grid.boundaries.atmosphere.temperature", .real t),
    ("grid.boundaries.atmosphere.density", .real n),
    ("grid.boundaries.atmosphere.height", .real h),
    ("grid.boundaries.atmosphere.ds", .real ds),
    ("grid.boundaries.atmosphere.g", .real (t / h)),
    ("grid.boundaries.atmosphere.species", .upair s.1 s.2)]

/-- `Boundaries::read` and `Boundaries::setParams` (grid.cpp:250-377). -/
def boundaryParams (p : Prm K) (dim coord : Nat) (ext : List (K × K)) (f : Toml K) :
    Outcome (List (String × Val K)) := do
  let dflt := refExtent coord ext * (1 / 100)
  let mch : List (String × Val K) :=
    if p.promised "grid.boundaries.match.ds" then
      [("grid.boundaries.match.ds", .pairs (if coord = 1 then matchCartesian dim dflt f
        else
          let ds := findOr getReal f ["grid", "boundaries", "match", "ds"] dflt
          [(ds, ds)]))]
    else []
  let abs : List (String × Val K) :=
    if p.promised "grid.boundaries.absorb.ds" then
      [("grid.boundaries.absorb.ds", .real (findOr getReal f ["grid", "boundaries", "absorb", "ds"] dflt))]
    else []
  let atm ← (if p.promised "grid.boundaries.atmosphere.temperature" then atmosphereParams f else .ok [])
  return mch ++ abs ++ atm

/-! ## Output -/

/-- One kind of output (output.cpp:38-60, 191-196). -/
def categoryParams (f : Toml K) (gi : Nat) (gt : K) (c : String) : List (String × Val K) :=
  let q := findOr (getUInt 32) f ["output", c, "interval"] 0
  let t := findOr getReal f ["output", c, "interval_time"] (-1)
  let e := findOr getBool f ["output", c, "enable"] true
  let iv := if q = 0 ∧ t = -1 then gi else q
  let tm := if q = 0 ∧ t = -1 then gt else t
  [("output." ++ c ++ ".enable", .bool e), ("output." ++ c ++ ".interval", .uint iv),
   ("output." ++ c ++ ".interval_time", .real tm)]

/-- The factors of downsampling (output.cpp:87-121). -/
def readDwn (dim : Nat) (f : Toml K) : Outcome (List Nat) := do
  let raw := match find (getVec (getUInt 32)) f ["output", "fields", "downsampling"] with
    | .ok l => l
    | _ => match find (getUInt 32) f ["output", "fields", "downsampling"] with
      | .ok n => List.replicate dim n
      | _ => List.replicate dim 1
  errorIf (3 < raw.length)
  let l := if dim < raw.length then raw.take dim else raw
  errorIf (l.any (· == 0) = true)
  return l

/-- `Output::read` and `Output::setParams` (output.cpp:20-217).  The order of the categories in
`std::map` is alphabetic. -/
def outputParams (dim nspec : Nat) (f : Toml K) : Outcome (List (String × Val K)) := do
  let format := findOr getStr f ["output", "format"] "BPFile"
  let gi := findOr (getUInt 32) f ["output", "interval"] 100
  let gt := findOr getReal f ["output", "interval_time"] (-1)
  errorIf (findOr getBool f ["output", "separate_files"] true = false)
  let dwn ← readDwn dim f
  let ghosts := findOr getBool f ["output", "debug", "ghosts"] false
  errorIf (ghosts = true ∧ dwn.any (· != 1) = true)
  let all := (List.range nspec).map fun (i : Nat) => (i + 1) % 2 ^ 8
  return [("output.format", .str format), ("output.interval", .uint gi),
      ("output.interval_time", .real gt)] ++
    categoryParams f gi gt "fields" ++ categoryParams f gi gt "particles" ++
    categoryParams f gi gt "spectra" ++ categoryParams f gi gt "stats" ++
    [("output.fields.quantities", .strs (findOr (getVec getStr) f ["output", "fields", "quantities"] [])),
     ("output.fields.custom", .strs (findOr (getVec getStr) f ["output", "fields", "custom"] [])),
     ("output.fields.smoothing.order",
       .uint (findOr (getUInt 16) f ["output", "fields", "smoothing", "order"] 0)),
     ("output.fields.smoothing.method",
       .str (findOr getStr f ["output", "fields", "smoothing", "method"] "spline")),
     ("output.fields.downsampling", .uints dwn),
     ("output.particles.species",
       .uints (findOr (getVec (getUInt 8)) f ["output", "particles", "species"] all)),
     ("output.particles.stride", .uint (findOr (getUInt 32) f ["output", "particles", "stride"] 100)),
     ("output.spectra.e_min", .real (findOr getReal f ["output", "spectra", "e_min"] (1 / 1000))),
     ("output.spectra.e_max", .real (findOr getReal f ["output", "spectra", "e_max"] 1000)),
     ("output.spectra.log_bins", .bool (findOr getBool f ["output", "spectra", "log_bins"] true)),
     ("output.spectra.n_bins", .uint (findOr (getUInt 64) f ["output", "spectra", "n_bins"] 200)),
     ("output.stats.quantities", .strs (findOr (getVec getStr) f ["output", "stats", "quantities"]
       ["B^2", "E^2", "ExB", "Rho", "T00"])),
     ("output.stats.custom", .strs (findOr (getVec getStr) f ["output", "stats", "custom"] [])),
     ("output.debug.as_is", .bool (findOr getBool f ["output", "debug", "as_is"] false)),
     ("output.debug.ghosts", .bool ghosts)]

/-! ## Algorithms and radiation -/

/-- `Algorithms::read` and `Algorithms::setParams` (algorithms.cpp:18-158); defaults: defaults.h:19-24,
30-42, 53-56, 109. -/
def algorithmParams (E : Env K) (dx0 : K) (gr gca : Bool) (f : Toml K) : List (String × Val K) :=
  let cfl := findOr getReal f ["algorithms", "timestep", "CFL"] (95 / 100)
  let coeff := fun (k : String) =>
    ("algorithms.fieldsolver." ++ k, Val.real (findOr getReal f ["algorithms", "fieldsolver", k] 0))
  [("algorithms.timestep.CFL", .real cfl),
   ("algorithms.timestep.dt", .real (cfl * dx0)),
   ("algorithms.timestep.correction",
     .real (findOr getReal f ["algorithms", "timestep", "correction"] 1)),
   ("algorithms.current_filters", .uint (findOr (getUInt 16) f ["algorithms", "current_filters"] 0)),
   ("algorithms.deposit.enable", .bool (findOr getBool f ["algorithms", "deposit", "enable"] true)),
   ("algorithms.deposit.order", .uint E.shapeOrder),
   ("algorithms.fieldsolver.enable",
     .bool (findOr getBool f ["algorithms", "fieldsolver", "enable"] true)),
   coeff "beta_xy", coeff "beta_xz", coeff "beta_yx", coeff "beta_yz", coeff "beta_zx", coeff "beta_zy",
   coeff "delta_x", coeff "delta_y", coeff "delta_z"] ++
  (if gr then
    [("algorithms.gr.pusher_eps",
       .real (findOr getReal f ["algorithms", "gr", "pusher_eps"] (1 / 1000000))),
     ("algorithms.gr.pusher_niter",
       .uint (findOr (getUInt 16) f ["algorithms", "gr", "pusher_niter"] 10))] else []) ++
  (if gca then
    [("algorithms.gca.e_ovr_b_max",
       .real (findOr getReal f ["algorithms", "gca", "e_ovr_b_max"] (9 / 10))),
     ("algorithms.gca.larmor_max",
       .real (findOr getReal f ["algorithms", "gca", "larmor_max"] 0))] else [])

/-- The part of `Extra::read` and `Extra::setParams` for one process with emission (extra.cpp:38-76, 78-116,
128-143, 145-159); the code is the same for synchrotron and Compton but for the names, `kind`. -/
def emissionParams (kind : String) (omegaB0 dt : K) (f : Toml K) : Outcome (List (String × Val K)) := do
  let rad := findOr getReal f ["radiation", "drag", kind, "gamma_rad"] 1
  let qed := findOr getReal f ["radiation", "emission", kind, "gamma_qed"] 10
  let emin := findOr getReal f ["radiation", "emission", kind, "photon_energy_min"] (1 / 1000)
  let w := findOr getReal f ["radiation", "emission", kind, "photon_weight"] 1
  let s ← find (getUInt 8) f ["radiation", "emission", kind, "photon_species"]
  return [("radiation.drag." ++ kind ++ ".gamma_rad", .real rad),
    ("radiation.emission." ++ kind ++ ".gamma_qed", .real qed),
    ("radiation.emission." ++ kind ++ ".photon_energy_min", .real emin),
    ("radiation.emission." ++ kind ++ ".photon_weight", .real w),
    ("radiation.emission." ++ kind ++ ".photon_species", .uint s),
    ("radiation.emission." ++ kind ++ ".nominal_probability",
      .real (omegaB0 * (1 / 10) * dt * (qed / rad) ^ 2 / w)),
    ("radiation.emission." ++ kind ++ ".nominal_photon_energy", .real (1 / qed ^ 2))]

/-- The part for one process with drag (extra.cpp:21-36, 121-127). -/
def dragParams (kind : String) (f : Toml K) : List (String × Val K) :=
  [("radiation.drag." ++ kind ++ ".gamma_rad",
    .real (findOr getReal f ["radiation", "drag", kind, "gamma_rad"] 1))]

/-- `Extra::read` and `Extra::setParams` (extra.cpp:18-161). -/
def extraParams (p : Prm K) (omegaB0 dt : K) (f : Toml K) : Outcome (List (String × Val K)) := do
  let d1 := if p.promised "radiation.drag.synchrotron.gamma_rad" then dragParams "synchrotron" f else []
  let d2 := if p.promised "radiation.drag.compton.gamma_rad" then dragParams "compton" f else []
  let e1 ← (if p.promised "radiation.emission.synchrotron.photon_species" then
    emissionParams "synchrotron" omegaB0 dt f else .ok [])
  let e2 ← (if p.promised "radiation.emission.compton.photon_species" then
    emissionParams "compton" omegaB0 dt f else .ok [])
  return d1 ++ d2 ++ e1 ++ e2

/-! ## All of it -/

/-- The loop that takes `maxnpart` from the new file (parameters.cpp:143-161). -/
def updateSpecies : List (Toml K) → List (Sp K) → Outcome (List (Sp K))
  | [], _ => .ok []
  | _ :: _, [] => .ub
  | t :: ts, s :: ss => do
    let x ← find getReal t ["maxnpart"]
    let n ← castNpart x
    let r ← updateSpecies ts ss
    return { s with maxnpart := n } :: r

/-- `[checkpoint]`, `[adios2]`, `[diagnostics]` (parameters.cpp:168-222; defaults.h:84-105). -/
def serviceParams (name : String) (f : Toml K) : List (String × Val K) :=
  let wt0 := findOr getStr f ["checkpoint", "walltime"] "00:00:00"
  let wt := if wt0 = "" then "00:00:00" else wt0
  let wp := findOr getStr f ["checkpoint", "write_path"] (name ++ ".ckpt")
  [("checkpoint.interval", .uint (findOr (getUInt 32) f ["checkpoint", "interval"] 1000)),
   ("checkpoint.interval_time", .real (findOr getReal f ["checkpoint", "interval_time"] (-1))),
   ("checkpoint.keep", .int (findOr (getInt 32) f ["checkpoint", "keep"] 2)),
   ("checkpoint.walltime", .str wt),
   ("checkpoint.write_path", .str wp),
   ("checkpoint.read_path", .str (findOr getStr f ["checkpoint", "read_path"] wp)),
   ("adios2.aggregators_per_node",
     .int (findOr (getInt 32) f ["adios2", "aggregators_per_node"] 0)),
   ("adios2.max_shm_size", .uint (findOr (getUInt 64) f ["adios2", "max_shm_size"] 4294967296)),
   ("adios2.buffer_chunk_size", .uint (findOr (getUInt 64) f ["adios2", "buffer_chunk_size"] 16777216)),
   ("diagnostics.interval", .uint (findOr (getUInt 32) f ["diagnostics", "interval"] 1)),
   ("diagnostics.blocking_timers", .bool (findOr getBool f ["diagnostics", "blocking_timers"] false)),
   ("diagnostics.colored_stdout", .bool (findOr getBool f ["diagnostics", "colored_stdout"] false)),
   ("diagnostics.log_level", .str (findOr getStr f ["diagnostics", "log_level"] "VERBOSE"))]

/-- The values set first by `setMutableParams` (parameters.cpp:114-161). -/
def firstParams (name : String) (runtime : K) (bc : BoundaryInput.Result) (sps : List (Sp K)) :
    List (String × Val K) :=
  [("simulation.name", .str name), ("simulation.runtime", .real runtime),
   ("grid.boundaries.fields", .bcs bc.1), ("grid.boundaries.particles", .bcs bc.2),
   ("particles.species", .species sps)]

/-- `setMutableParams` (parameters.cpp:107-258). -/
def setMutable (E : Env K) (i : Immutable K) (f : Toml K) : Outcome (Prm K) := do
  let g := i.grid
  let name ← find getStr f ["simulation", "name"]
  let runtime ← find getReal f ["simulation", "runtime"]
  let (bc, proms) ← readBoundaries i.engine g.dim g.coord f
  let tabs := findOr getArr f ["particles", "species"] []
  errorIf (tabs.length ≠ i.species.length)
  let sps ← updateSpecies tabs i.species
  let out ← outputParams g.dim i.species.length f
  let p := ((i.prm.promise proms).sets
    (firstParams name runtime bc sps)).sets (out ++ serviceParams name f)
  let b ← boundaryParams p g.dim g.coord g.extent f
  let alg := algorithmParams E g.dx0 (decide (i.engine = 2)) (p.promised "algorithms.gca.e_ovr_b_max") f
  let dt := findOr getReal f ["algorithms", "timestep", "CFL"] (95 / 100) * g.dx0
  let x ← extraParams p i.omegaB0 dt f
  let q := p.sets (b ++ alg ++ x)
  return if g.coord ≠ 1 then q.set "output.stats.enable" (.bool false) else q

/-- `checkPromises` (parameters.cpp:363-367). -/
def Prm.fulfilled (p : Prm K) : Bool := p.promises.all fun k => (p.get k).isSome

/-- The parameters of a run (src/framework/simulation.cpp:90-107): `kept` is the file stored with the
checkpoint, or the input file itself if the run is not resumed. -/
def load (E : Env K) (kept f : Toml K) : Outcome (Prm K) := do
  let i ← setImmutable E kept
  let p ← setMutable E i f
  errorIf (p.fulfilled = false)
  return p

end

end Entity.Options
