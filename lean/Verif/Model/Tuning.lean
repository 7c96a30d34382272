import Verif.Model.Base

/-!
# Settings of the parallel writer

src/output/utils/tuning.cpp:16-52: the number of processes that write files, and when the settings are made.
-/

namespace Entity.Tuning

open Entity

/-- `TotalAggregators` (tuning.cpp:16-31) on a process that sees `world` processes in all and `loc` processes on
its node; products outside of 32 bits are undefined. -/
def totalAggregators (perNode : Int) (world loc : Nat) : Outcome Int :=
  if perNode ≤ 0 then .ok 0
  else
    let nodes : Int := if 0 < loc then (world / loc : Nat) else 1
    if nodes * perNode < 2 ^ 31 then .ok (max 1 (nodes * perNode)) else .ub

/-- `ApplyBp5Tuning` (tuning.cpp:33-52): the parameters of the writer in their order, empty for engines other
than the two named.  The name of the engine is given in lower case (tuning.cpp:39, `fmt::toLower`). -/
def settings (engine : String) (perNode : Int) (chunk shm : Nat) (world loc : Nat) :
    Outcome (List (String × String)) :=
  if engine ≠ "bpfile" ∧ engine ≠ "bp5" then .ok []
  else
    match totalAggregators perNode world loc with
    | .ok n => .ok [("AggregationType", "TwoLevelShm"), ("NumAggregators", toString n), ("NumSubFiles", toString n),
        ("BufferChunkSize", toString chunk), ("MaxShmSize", toString shm), ("AsyncOpen", "true"),
        ("AsyncWrite", "true"), ("OpenTimeoutSecs", "600")]
    | .err => .err
    | .ub => .ub

end Entity.Tuning
