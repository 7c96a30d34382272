import Verif.Model.Base
import Mathlib.Data.Rat.Floor

/-!
# Parameters and time across restarts

`Simulation::Simulation` (src/framework/simulation.cpp:57-107), `SimulationParams::setImmutableParams`,
`setMutableParams`, `setSetupParams` and `saveTOML` (src/framework/parameters/parameters.cpp:35-377).

Simplified: an input file is split into what the three functions read.  `I` stands for everything
`setImmutableParams` reads except the list of species, `S` for a row of that list without `maxnpart`,
`M` for everything else `setMutableParams` reads, `P` for the `[setup]` table.  Validation of the values
is the subject of C12, C13 and C69.
-/

namespace Entity.Restart

open Entity Entity.Outcome

variable {I S M P : Type}

/-- An input file, or the copy of one in the metadata of a checkpoint. -/
structure Toml (I S M P : Type) where
  imm : I
  species : List (S × Nat)
  mutb : M
  setup : P
  deriving DecidableEq

/-- `SimulationParams`: the input file itself (`raw_data`, parameters.h:50-61) and the values set
from it. -/
structure Params (I S M P : Type) where
  raw : Toml I S M P
  imm : I
  species : List (S × Nat)
  mutb : M
  setup : P
  deriving DecidableEq

/-- `setMutableParams` on species (parameters.cpp:131-165): the number must be unchanged; `maxnpart`
comes from the file, the rest stays. -/
def setSpecies (old new : List (S × Nat)) : Outcome (List (S × Nat)) := do
  errorIf (new.length ≠ old.length)
  return List.zipWith (fun o n => (o.1, n.2)) old new

/-- A new simulation (simulation.cpp:101-107). -/
def start (f : Toml I S M P) : Outcome (Params I S M P) := do
  let sp ← setSpecies f.species f.species
  return ⟨f, f.imm, sp, f.mutb, f.setup⟩

/-- What a checkpoint stores of the parameters (saveTOML, parameters.cpp:369-377): `data()`, i.e. the
input file of the run that writes it. -/
def saved (p : Params I S M P) : Toml I S M P := p.raw

/-- A resumed simulation (simulation.cpp:57, 95-100). -/
def resume (ckpt f : Toml I S M P) : Outcome (Params I S M P) := do
  let sp ← setSpecies ckpt.species f.species
  return ⟨f, ckpt.imm, sp, f.mutb, ckpt.setup⟩

/-- A run and its restarts, each from a checkpoint of the one before; the files are the input file at
each restart. -/
def chain (f0 : Toml I S M P) (fs : List (Toml I S M P)) : Outcome (Params I S M P) := do
  let p ← start f0
  fs.foldlM (fun p f => resume (saved p) f) p

/-! ## The time -/

/-- Rounding to the nearest integer, ties to even. -/
def roundEven (x : ℚ) : Int :=
  if x - ⌊x⌋ < 1 / 2 then ⌊x⌋
  else if 1 / 2 < x - ⌊x⌋ then ⌊x⌋ + 1
  else if ⌊x⌋ % 2 = 0 then ⌊x⌋ else ⌊x⌋ + 1

/-- The time in the metadata, printed with `%f` (parameters.cpp:373), i.e. with six decimals, and read
back (simulation.cpp:92-94).  The rounding of the decimal number to a `double` on reading is left
out. -/
def restoredTime (t : ℚ) : ℚ := (roundEven (t * 1000000) : ℚ) / 1000000

end Entity.Restart
