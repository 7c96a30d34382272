import Verif.Model.Tracker

/-!
# Checkpoint files on disk

Writing and removing checkpoints (src/output/checkpoint.cpp:61-110,
src/framework/domain/metadomain_chckpt.cpp:103-166) as a sequence of file operations between any two
of which the program may crash, and the choice of a checkpoint on restart
(src/framework/simulation.cpp:58-90).

The rank that removes files (the root) is modelled; the others only take part in writing.  A
checkpoint consists of the directory `step-….bp` and the file `meta-….toml`.  Opening or writing
either takes more than one operation, so each can be left behind incomplete.
-/

namespace Entity.Checkpoint

open Entity Entity.Outcome Entity.Schedule

/-- What there is of a file. -/
inductive File
  | absent
  | incomplete
  | complete
  deriving DecidableEq, Repr

/-- The checkpoint directory: the data and the metadata of each step. -/
structure Disk where
  bp : Nat → File
  toml : Nat → File

def setFile (f : Nat → File) (s : Nat) (x : File) : Nat → File := fun t => if t = s then x else f t

/-- Where the writer is. -/
inductive Pc
  | idle
  /-- data opened -/
  | opened (s : Nat)
  /-- metadata being written -/
  | metaOpen (s : Nat)
  /-- metadata written, data being written -/
  | metaDone (s : Nat)
  /-- data closed, before the test of the retention count -/
  | closed
  /-- removing the data of the oldest checkpoint -/
  | removing (o : Nat)
  /-- data of the oldest checkpoint removed, its metadata not yet -/
  | removed (o : Nat)
  deriving DecidableEq, Repr

/-- State of the writer: `m_written`, the disk, where it is, and the steps of the checkpoints closed so
far (not a member of the class; for the statement of the properties). -/
structure St where
  written : List Nat
  disk : Disk
  pc : Pc
  done : List Nat

/-- `m_keep > 0 and m_written.size() > m_keep` (checkpoint.cpp:98). -/
def tooMany (keep : Int) (written : List Nat) : Bool := decide (0 < keep) && decide (keep < written.length)

/-- The next file operation; `s` is the step of the checkpoint if a new one is begun. -/
def micro (keep : Int) (s : Nat) (st : St) : St :=
  match st.pc with
  -- beginSaving: m_io.Open(filename, Mode::Write); m_written.emplace_back (checkpoint.cpp:68-73)
  | .idle => { st with written := st.written ++ [s], disk := { st.disk with bp := setFile st.disk.bp s .incomplete }, pc := .opened s }
  -- saveTOML: open, write, close (parameters.cpp:369-377; metadomain_chckpt.cpp:128)
  | .opened s => { st with disk := { st.disk with toml := setFile st.disk.toml s .incomplete }, pc := .metaOpen s }
  | .metaOpen s => { st with disk := { st.disk with toml := setFile st.disk.toml s .complete }, pc := .metaDone s }
  -- the data; endSaving: EndStep, Close (checkpoint.cpp:92-94)
  | .metaDone s => { st with disk := { st.disk with bp := setFile st.disk.bp s .complete }, pc := .closed, done := st.done ++ [s] }
  -- optionally remove the oldest checkpoint (checkpoint.cpp:96-109)
  | .closed =>
    if tooMany keep st.written then
      match st.written with
      | [] => { st with pc := .idle }
      | o :: _ =>
        if st.disk.bp o ≠ .absent ∧ st.disk.toml o ≠ .absent then
          { st with disk := { st.disk with bp := setFile st.disk.bp o .incomplete }, pc := .removing o }
        else { st with pc := .idle }
    else { st with pc := .idle }
  | .removing o => { st with disk := { st.disk with bp := setFile st.disk.bp o .absent }, pc := .removed o }
  | .removed o => { st with written := st.written.tail, disk := { st.disk with toml := setFile st.disk.toml o .absent }, pc := .idle }

/-- States the writer can be in when started with an empty `m_written` on disk `d0`.  New
checkpoints have steps not used before in this run.  `ok st s` says which files outsiders may delete
in state `st`. -/
inductive Reach (keep : Int) (d0 : Disk) (ok : St → Nat → Prop) : St → Prop
  | init : Reach keep d0 ok ⟨[], d0, .idle, []⟩
  | step {st : St} (s : Nat) : Reach keep d0 ok st → (st.pc = .idle → s ∉ st.written) →
      Reach keep d0 ok (micro keep s st)
  /-- somebody deletes the checkpoint of step `s` while the writer is idle -/
  | outside {st : St} (s : Nat) : Reach keep d0 ok st → st.pc = .idle → ok st s →
      Reach keep d0 ok { st with disk := ⟨setFile st.disk.bp s .absent, setFile st.disk.toml s .absent⟩ }

/-! ## Restart -/

/-- Decimal digits of a number. -/
def decimal (n : Nat) : List Char :=
  if n < 10 then [Char.ofNat (48 + n)] else decimal (n / 10) ++ [Char.ofNat (48 + n % 10)]

/-- `"%08lu"`. -/
def pad8 (n : Nat) : List Char := List.replicate (8 - (decimal n).length) '0' ++ decimal n

/-- `fmt::format("step-%08lu.bp", step)` (checkpoint.cpp:69). -/
def stepName (s : Nat) : List Char := "step-".toList ++ pad8 s ++ ".bp".toList
/-- `fmt::format("meta-%08lu.toml", step)` (checkpoint.cpp:70-71). -/
def metaName (s : Nat) : List Char := "meta-".toList ++ pad8 s ++ ".toml".toList

/-- One iteration of the loop over the directory (simulation.cpp:74-83).  `step` is a
`timestep_t = uint32_t`. -/
def pickOne (best : Nat) (fname : List Char) : Outcome Nat :=
  if "step-".toList.isPrefixOf fname then do
    -- `fname.size() - 5 - 3` wraps around for names shorter than 8
    let n := if fname.length < 8 then fname.length else fname.length - 8
    let v ← substr fname 5 n >>= stoi
    let step : Nat := (v % 4294967296).toNat
    return if best < step then step else best
  else .ok best

/-- The step the restarted simulation uses (simulation.cpp:58-91): the largest among the names, if
its metadata exists. -/
def restartStep (names : List (List Char)) : Outcome Nat := do
  let s ← names.foldlM pickOne 0
  if metaName s ∈ names then return s else .err

/-- The names `directory_iterator` lists for a disk: those of the checkpoints, and possibly others
(in any order). -/
def Listing (d : Disk) (names : List (List Char)) : Prop :=
  (∀ s, stepName s ∈ names ↔ d.bp s ≠ .absent) ∧ (∀ s, metaName s ∈ names ↔ d.toml s ≠ .absent) ∧
  ∀ n ∈ names, "step-".toList.isPrefixOf n = true → ∃ s, n = stepName s

end Entity.Checkpoint
