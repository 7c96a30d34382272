import Verif.Model.CheckpointFiles

/-!
# Output sessions (src/output/writer.cpp:432-495)

`raise::Error`, `raise::ErrorIf` and `raise::Fatal` throw, so that a rejected call leaves the writer
as it was at the point of the throw.  ADIOS2 contract: `Open` in write mode starts a new empty file
of that name, `Put` adds to the open step, `EndStep` and `Close` make the file visible with what was
put; `Put` on an engine that is not open throws.
-/

namespace Entity.Session

open Entity

/-- `WriteModeTags` is a `uint8_t` (global.h:294-304). -/
abbrev Mode := Nat

/-- `mode_str` in `beginWriting` (writer.cpp:444-453). -/
def modeStr : Mode → Option (List Char)
  | 1 => some "fields".toList
  | 2 => some "particles".toList
  | 4 => some "spectra".toList
  | _ => none

/-- `m_root / mode_str / fmt::format("%s.%08lu.%s", mode_str, tstep, ext)` (writer.cpp:468-469),
relative to `m_root`. -/
def fileName (mode : List Char) (step : Nat) (ext : List Char) : List Char :=
  mode ++ "/".toList ++ mode ++ ".".toList ++ Checkpoint.pad8 step ++ ".".toList ++ ext

/-- The content of a file: step, time and the quantities put, in order. -/
structure Content (α : Type) where
  step : Nat
  time : α
  puts : List α
  deriving DecidableEq

/-- The state of the writer: `m_active_mode`, the open engine `m_writer` with what was put so far,
and the files visible on disk. -/
structure St (α : Type) where
  active : Mode
  engine : Option (List Char × Content α)
  disk : List Char → Option (Content α)

/-- Calls on the writer; `openFails` tells whether ADIOS2 fails to open the file. -/
inductive Op (α : Type) where
  | begin (m : Mode) (step : Nat) (time : α) (openFails : Bool)
  | put (x : α)
  | finish (m : Mode)
  deriving DecidableEq

variable {α : Type}

/-- `Writer::beginWriting` (writer.cpp:432-479): the state after the call and whether it succeeded. -/
def beginWriting (ext : List Char) (m : Mode) (step : Nat) (time : α) (openFails : Bool) (s : St α) :
    St α × Bool :=
  if m = 0 then (s, false)
  else if s.active ≠ 0 then (s, false)
  else match modeStr m with
    | none => (s, false)
    | some str =>
      if openFails then (s, false)
      else ({ s with engine := some (fileName str step ext, ⟨step, time, []⟩), active := m }, true)

/-- Any of `writeField`, `writeParticleQuantity`, `writeSpectrum`, `writeSpectrumBins`, `writeMesh`
(writer.cpp:317-430) as far as the session is concerned: a `Put` on `m_writer`. -/
def put (x : α) (s : St α) : St α × Bool :=
  match s.engine with
  | none => (s, false)
  | some (n, c) => ({ s with engine := some (n, { c with puts := c.puts ++ [x] }) }, true)

/-- `m_writer.EndStep(); m_writer.Close()` (writer.cpp:491-494). -/
def closeEngine (s : St α) : St α :=
  match s.engine with
  | none => s
  | some (n, c) =>
    { s with engine := none, disk := fun f => if f = n then some c else s.disk f }

/-- `Writer::endWriting` (writer.cpp:481-495). -/
def endWriting (m : Mode) (s : St α) : St α × Bool :=
  if m = 0 then (s, false)
  else if s.active = 0 then (s, false)
  else if s.active ≠ m then (s, false)
  else (closeEngine { s with active := 0 }, true)

/-- One call. -/
def call (ext : List Char) (s : St α) : Op α → St α × Bool
  | .begin m step time f => beginWriting ext m step time f s
  | .put x => put x s
  | .finish m => endWriting m s

/-- A history of calls in which rejected ones are caught: the final state and the accepted calls. -/
def history (ext : List Char) : St α → List (Op α) → St α × List (Op α)
  | s, [] => (s, [])
  | s, o :: os =>
    let r := call ext s o
    let h := history ext r.1 os
    (h.1, if r.2 then o :: h.2 else h.2)

/-- The writer as constructed (writer.h:44-90), on a disk without output files. -/
def fresh : St α := ⟨0, none, fun _ => none⟩

end Entity.Session
