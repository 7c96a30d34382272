import Verif.Model.Enums

/-!
# Starting a simulation

Models the command line (src/global/utils/cargs.cpp), the choice of the engine (src/entity.cpp:36-105,
src/framework/specialization_registry.h:40-66, the part of the constructor of `Simulation` that determines
what was requested, src/framework/simulation.cpp:21-60), and the choice of the pushing policies
(src/kernels/pushers/sr_policies.h:52-215).
-/

namespace Entity.Launch

open Entity Entity.Outcome Entity.Enums

/-! ## Command line -/

/-- `CommandLineArguments::isSpecified` (cargs.cpp:43-46); `args` are `argv[1]`, …  -/
def isSpecified (args : List String) (key : String) : Bool := args.contains key

/-- `getArgument(key, def)` (cargs.cpp:20-34): the argument after the first occurrence of `key`.
`std::next(itr)` is evaluated before `itr` is compared to `end()`, which is undefined if the key is
absent. -/
def getArgument (key dflt : String) : List String → Outcome String
  | [] => .ub
  | a :: as =>
    if a = key then .ok (as.headD dflt)
    else getArgument key dflt as

/-- What the constructor of `Simulation` takes from the command line (simulation.cpp:22-30); the default
is `input` (defaults.h). -/
def commandLine (args : List String) : Outcome (String × Bool) := do
  let f ← getArgument "-input" "input" args
  return (f, isSpecified args "-continue" || isSpecified args "-restart" || isSpecified args "-resume" ||
    isSpecified args "-checkpoint")

/-! ## Choice of the engine -/

/-- An engine, a metric and a dimension; engines and metrics by their numeric values (enums.h:137-183). -/
abbrev Spec := Nat × Nat × Nat

/-- `kSpecializations` (specialization_registry.h:40-48); SRPIC = 1, GRPIC = 2; Minkowski = 1,
Spherical = 2, QSpherical = 3, Kerr_Schild = 4, QKerr_Schild = 5, Kerr_Schild_0 = 6. -/
def specializations : List Spec :=
  [(1, 1, 1), (1, 1, 2), (1, 1, 3), (1, 2, 2), (1, 3, 2), (2, 4, 2), (2, 5, 2), (2, 6, 2)]

/-- What a problem generator declares (`engines`, `metrics`, `dimensions`); `should_compile`
(entity.cpp:41-46).  Simplification: the three lists do not depend on the specialization. -/
structure PGen where
  engines : List Nat
  metrics : List Nat
  dimensions : List Nat

def PGen.compatible (p : PGen) (s : Spec) : Bool :=
  p.engines.contains s.1 && p.metrics.contains s.2.1 && p.dimensions.contains s.2.2

/-- What happens in `main`: the engines run so far, and the two flags. -/
structure St where
  runs : List Spec
  matched : Bool
  launched : Bool

/-- The loop over the specializations (entity.cpp:66-88), until an exception is thrown (`false`).  `run`
tells whether the engine finishes without an exception. -/
def loop (p : PGen) (run : Spec → Bool) (req : Spec) : List Spec → St → St × Bool
  | [], s => (s, true)
  | c :: cs, s =>
    if req = c then
      if p.compatible c then
        if run c then loop p run req cs ⟨s.runs ++ [c], true, true⟩
        else (⟨s.runs ++ [c], true, s.launched⟩, false)
      else ({ s with matched := true }, false)
    else loop p run req cs s

/-- `main` after the construction of `sim` (entity.cpp:61-104): the engines run and the exit code. -/
def main (p : PGen) (run : Spec → Bool) (req : Spec) : List Spec × Nat :=
  match loop p run req specializations ⟨[], false, false⟩ with
  | (s, false) => (s.runs, 1)
  | (s, true) => if !s.matched then (s.runs, 1) else if !s.launched then (s.runs, 1) else (s.runs, 0)

/-- `::tolower` of a string in the "C" locale. -/
def lower (s : String) : String := String.ofList (s.toList.map Char.toLower)

/-- The requested specialization (simulation.cpp:44-60): names of engine and metric, number of entries of
`grid.resolution`. -/
def requested (engine metric : String) (nres : Nat) : Outcome Spec := do
  let e ← pick simEngine (lower engine)
  let m ← pick Enums.metric (lower metric)
  errorIf (nres == 0 || decide (3 < nres))
  return (e, m, nres)

/-- The program for an input (other parts of the input are assumed valid): engines run and exit code. -/
def entity (p : PGen) (run : Spec → Bool) (engine metric : String) (nres : Nat) :
    Outcome (List Spec × Nat) :=
  match requested engine metric nres with
  | .ok req => .ok (main p run req)
  | .err => .ok ([], 1)
  | .ub => .ub

/-! ## Policies of the pusher -/

/-- What concerns emission of a species: `mass() ≈ 0`, `charge() ≈ 0`. -/
structure SpInfo where
  massless : Bool
  neutral : Bool
  deriving DecidableEq

/-- `EmissionType` (enums.h): none, synchrotron, Compton, user-defined. -/
inductive EmType
  | none | synchrotron | compton | custom
  deriving DecidableEq

/-- The emission policy chosen: no emission, a built-in process into a species, the one of the
problem generator. -/
inductive EmPolicy
  | none
  | builtin (t : EmType) (species : Nat)
  | custom
  deriving DecidableEq

/-- `MakePusherPolicyEmission` (sr_policies.h:52-101): `ph` is `photon_species` (`spidx_t`, counted from
one).  `species[ph - 1]` is undefined for `ph = 0`. -/
def builtinEmission (t : EmType) (sps : List SpInfo) (ph : Nat) : Outcome EmPolicy := do
  errorIf (decide (sps.length < ph))
  if ph = 0 then .ub
  else
    match sps[ph - 1]? with
    | Option.none => .ub
    | some s => do
      errorIf (!s.massless)
      errorIf (!s.neutral)
      return .builtin t ph

/-- What a problem generator provides for the pusher: emission, particle update, external fields. -/
structure Hooks where
  emission : Bool
  update : Bool
  extFields : Bool

/-- The policies handed to the kernel: emission, update of the problem generator?, external fields?,
atmosphere? -/
structure Policies where
  emission : EmPolicy
  update : Bool
  extFields : Bool
  atmosphere : Bool
  deriving DecidableEq

/-- `MakePusherPolicy` (sr_policies.h:103-215): all calls of the callback, in order.  `apply` is the first
component of what `ExternalFields` returns; `phS`, `phC` are the photon species of the two processes. -/
def makePolicies (h : Hooks) (sps : List SpInfo) (phS phC : Nat) (t : EmType) (apply atm : Bool) :
    Outcome (List Policies) := do
  let e ← match t with
    | .synchrotron => builtinEmission .synchrotron sps phS
    | .compton => builtinEmission .compton sps phC
    | .custom => if h.emission then .ok .custom else .err
    | .none => .ok .none
  let u := h.update
  let x := if h.extFields then apply else false
  return [⟨e, u, x, atm⟩]

end Entity.Launch
