import Verif.Model.Tracker
import Verif.Model.Output

/-!
# Parameters of the output (src/framework/parameters/output.cpp) and what follows from them

Models the part of `Output::read` that concerns the schedule, the downsampling and the species
(output.cpp:20-60, 87-138, 171-182), the corresponding part of `Metadomain::InitWriter`
(src/framework/domain/metadomain_io.cpp:70-120), and the decision of `Metadomain::Write` what to write
(metadomain_io.cpp:370-389).

An entry of the input is `none` if it is absent (or, for `find_or`, of another type: toml11 then returns
the default too).
-/

namespace Entity.OutIn

open Entity Entity.Outcome Entity.Schedule

/-- The four kinds of output (output.cpp:38). -/
inductive Cat
  | fields | particles | spectra | stats
  deriving DecidableEq

/-- The entries `enable`, `interval`, `interval_time` of a section of the input. -/
structure CatInput where
  enable : Option Bool
  interval : Option Nat
  time : Option ℚ

/-- Parameters of a kind of output (`OutputCategory`, src/framework/parameters/output.h). -/
structure CatPrm where
  enable : Bool
  interval : Nat
  time : ℚ
  deriving DecidableEq

/-- One pass of the loop over the kinds (output.cpp:38-60); `gi`, `gt` are `output.interval` (default
100, defaults.h:69) and `output.interval_time` (default -1). -/
def readCat (gi : Option Nat) (gt : Option ℚ) (c : CatInput) : CatPrm :=
  let globalInterval := gi.getD 100
  let globalTime := gt.getD (-1)
  let q := c.interval.getD 0
  let t := c.time.getD (-1)
  let enable := c.enable.getD true
  if q = 0 ∧ t = -1 then ⟨enable, globalInterval, globalTime⟩ else ⟨enable, q, t⟩

/-- The entry `output.fields.downsampling`: absent or of a type that is no number and no list of numbers,
one number, or a list. -/
inductive DwnInput
  | other
  | num (n : Int)
  | list (ns : List Int)

/-- `toml::find<unsigned int>` casts the 64-bit number. -/
def toUnsigned (n : Int) : Nat := (n % 4294967296).toNat

/-- The factors before they are checked (output.cpp:87-111). -/
def rawDwn (dim : Nat) : DwnInput → List Nat
  | .list ns => ns.map toUnsigned
  | .num n => List.replicate dim (toUnsigned n)
  | .other => List.replicate dim 1

/-- `output.fields.downsampling` (output.cpp:87-121). -/
def readDwn (dim : Nat) (d : DwnInput) : Outcome (List Nat) := do
  let raw := rawDwn dim d
  errorIf (3 < raw.length)
  let f := if dim < raw.length then raw.take dim else raw
  errorIf (f.any (· == 0))
  return f

/-- The loop of `defineMeshLayout` (src/output/writer.cpp:91-105) over the axes `is` of a grid with sizes
`g`, of which the block at `l` of shape `n` is local: `dwn[i]` beyond the end is undefined. -/
def layoutFrom (g l n dwn : List Nat) : List Nat → Outcome (List Entity.Output.Axis)
  | [] => .ok []
  | i :: is =>
    match dwn[i]? with
    | none => .ub
    | some d => do
      let r ← layoutFrom g l n dwn is
      return Entity.Output.axisLayout (g.getD i 0) (l.getD i 0) (n.getD i 0) d :: r

/-- The use of the factors by `defineMeshLayout` (writer.cpp:91). -/
def meshLayout (g l n dwn : List Nat) : Outcome (List Entity.Output.Axis) :=
  layoutFrom g l n dwn (List.range g.length)

/-- `output.particles.species` (output.cpp:123-134): species are numbered from 1; the numbers are
`spidx_t` (8 bits). -/
def readSpecies (nspec : Nat) (s : Option (List Int)) : List Nat :=
  match s with
  | some l => l.map fun (n : Int) => (n % 256).toNat
  | none => (List.range nspec).map fun (i : Nat) => (i + 1) % 256

/-- `InitWriter` declares the variables of the species to be written (metadomain_io.cpp:96-103):
`species[sp - 1]` out of range is undefined, declaring a variable twice throws. -/
def declareSpecies (nspec : Nat) : List Nat → List Nat → Outcome (List Nat)
  | done, [] => .ok done
  | done, s :: ss =>
    if s = 0 ∨ nspec < s then .ub
    else if s ∈ done then .err
    else declareSpecies nspec (done ++ [s]) ss

/-- The state of the writer as far as the decision is concerned: parameters and trackers. -/
structure Writer where
  format : String
  prm : Cat → CatPrm
  tracker : Cat → Tracker

/-- The table of trackers (`m_trackers`, src/output/writer.h:71; stats.h:151). -/
def table (f p s t : Tracker) : Cat → Tracker
  | .fields => f
  | .particles => p
  | .spectra => s
  | .stats => t

/-- `InitWriter` and `InitStatsWriter` create the trackers (metadomain_io.cpp:110-118,
metadomain_stats.cpp:58-60); no wall-clock limit. -/
def initWriter (format : String) (prm : Cat → CatPrm) (start : ℚ) : Outcome Writer := do
  let f ← init (prm .fields).interval (prm .fields).time [] start
  let p ← init (prm .particles).interval (prm .particles).time [] start
  let s ← init (prm .spectra).interval (prm .spectra).time [] start
  let t ← init (prm .stats).interval (prm .stats).time [] start
  return ⟨format, prm, table f p s t⟩

/-- `params.get<bool>("output.X.enable") and g_writer.shouldWrite(X, …)`: the tracker is asked only if
the kind is enabled. -/
def due (w : Writer) (c : Cat) (q : Query) : Outcome (Bool × Writer) :=
  if (w.prm c).enable then do
    let (b, t) ← shouldWrite (w.tracker c) q
    return (b, { w with tracker := fun c' => if c' = c then t else w.tracker c' })
  else .ok (false, w)

/-- `Metadomain::Write` (metadomain_io.cpp:370-389, 844): the kinds written and the value returned. -/
def write (w : Writer) (q : Query) : Outcome ((List Cat × Bool) × Writer) := do
  let (f, w) ← due w .fields q
  let (p, w) ← due w .particles q
  let (s, w) ← due w .spectra q
  if ¬ (f || p || s) ∧ w.format ≠ "disabled" then return (([], false), w)
  else
    return (((if f then [Cat.fields] else []) ++ (if p then [Cat.particles] else []) ++
      (if s then [Cat.spectra] else []), true), w)

/-- `Write` called once per step. -/
def writes : Writer → List Query → Outcome (List (List Cat × Bool))
  | _, [] => .ok []
  | w, q :: qs => do
    let (r, w) ← write w q
    let rs ← writes w qs
    return r :: rs

end Entity.OutIn
