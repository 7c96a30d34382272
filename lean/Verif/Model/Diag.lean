import Verif.Model.Base
import Mathlib.Algebra.Order.Floor.Ring
import Mathlib.Algebra.Order.Field.Basic

/-!
# What the code prints while it runs

Tables (`fmt::alignedTable`), durations, history of time steps, progress, numbers of particles,
timers of the substeps (src/global/utils/formatting.h, progressbar.h, progressbar.cpp, timer.h,
timer.cpp, diag.cpp).

`duration_t` is `double` (src/global/global.h:381); durations are modelled as exact numbers of an
ordered field, all roundings are dropped.  A cast of a number that the integer type cannot hold is
undefined behaviour (`ub`).
-/

namespace Entity.Diag

/-! ## Tables -/

/-- The bytes of an `std::string`. -/
abbrev Bytes := List UInt8

/-- `fmt::strlenUTF8` (src/global/utils/formatting.h:159-167): counts the bytes that do not
continue a character. -/
def strlenUTF8 (s : Bytes) : Nat :=
  s.foldl (fun length c => if c &&& 0xC0 != 0x80 then length + 1 else length) 0

/-- The bytes of a text: UTF-8, the encoding of the sources of the code and of toml files. -/
def bytesOf (s : String) : Bytes := s.toList.flatMap String.utf8EncodeChar

/-- Subtraction of two `std::size_t` (64 bits, unsigned: it wraps around). -/
def sub64 (a b : Nat) : Nat := (a + 2 ^ 64 - b) % 2 ^ 64

/-- `fmt::repeat(char, n)` (src/global/utils/formatting.h:142-153): `reserve(n)` throws
`std::length_error` if `n` is larger than `max_size()` of a string, which is a parameter here
(2⁶³ − 1 or less on the platforms of the code). -/
def repeatChar (maxSize : Nat) (c : UInt8) (n : Nat) : Outcome Bytes :=
  if n > maxSize then .err else .ok (List.replicate n c)

/-- One column: text, colour, anchor, filler (the four vectors of `alignedTable` zipped; the code
reads them at the same index). -/
structure Column where
  text : Bytes
  color : Bytes
  anchor : Int
  filler : UInt8
  deriving Repr, DecidableEq

/-- Body of the loop of `fmt::alignedTable` (src/global/utils/formatting.h:186-209): the bytes
appended to the row and the new counter. -/
def tableColumn (maxSize : Nat) (cBlack cReset : Bytes) (cntr : Nat) (col : Column) :
    Outcome (Bytes × Nat) := do
  let anch := col.anchor.natAbs
  let cmnLen := strlenUTF8 col.text
  if col.anchor ≤ 0 then
    let left ←
      if col.filler = 0x3A then do
        let r ← repeatChar maxSize 0x20 (sub64 (sub64 anch cntr) 2)
        pure ([0x20, 0x3A] ++ r)
      else
        repeatChar maxSize col.filler (sub64 anch cntr)
    let cntr := (cntr + sub64 anch cntr) % 2 ^ 64
    pure (cBlack ++ left ++ col.color ++ col.text ++ cReset, (cntr + cmnLen) % 2 ^ 64)
  else
    let left ← repeatChar maxSize col.filler (sub64 (sub64 anch cntr) cmnLen)
    let cntr := (cntr + sub64 (sub64 anch cntr) cmnLen) % 2 ^ 64
    pure (cBlack ++ left ++ col.color ++ col.text ++ cReset, (cntr + cmnLen) % 2 ^ 64)

/-- The loop of `fmt::alignedTable` over the columns
(src/global/utils/formatting.h:186-209). -/
def tableLoop (maxSize : Nat) (cBlack cReset : Bytes) : Nat → List Column → Outcome Bytes
  | _, [] => .ok []
  | cntr, col :: cols => do
    let (b, cntr) ← tableColumn maxSize cBlack cReset cntr col
    let rest ← tableLoop maxSize cBlack cReset cntr cols
    pure (b ++ rest)

/-- `fmt::alignedTable` (src/global/utils/formatting.h:178-211). -/
def alignedTable (maxSize : Nat) (cols : List Column) (cBlack cReset : Bytes) : Outcome Bytes := do
  let b ← tableLoop maxSize cBlack cReset 0 cols
  pure (cReset ++ b ++ cReset ++ [0x0A])

/-! ## Numbers of particles -/

/-- The lambda `percentage` of `diag::npart_stats` (src/global/utils/diag.cpp:31-34); the code
computes it in `float`, the model exactly.  Division by zero and a result above 65535 do not fit in
`unsigned short`. -/
def percentage (npart maxnpart : Nat) : Outcome Nat :=
  if maxnpart = 0 then .ub
  else if 100 * npart / maxnpart < 2 ^ 16 then .ok (100 * npart / maxnpart) else .ub

/-- Index of the first element that no other element beats (`std::max_element` with `<`,
`std::min_element` with `>`), as in src/global/utils/diag.cpp:65-70 and
src/global/utils/timer.cpp:83-87: the element and its position. -/
def firstBest {α : Type} (lt : α → α → Bool) : Nat → α → Nat → List α → Nat
  | best, _, _, [] => best
  | best, v, i, x :: xs => if lt v x then firstBest lt i x (i + 1) xs else firstBest lt best v (i + 1) xs

/-- `std::distance(begin, std::max_element(begin, end))`; 0 for an empty vector. -/
def maxIdx {α : Type} (lt : α → α → Bool) : List α → Nat
  | [] => 0
  | x :: xs => firstBest lt 0 x 1 xs

/-- `diag::npart_stats` without MPI (src/global/utils/diag.cpp:35-36, 77). -/
def npartStats (npart maxnpart : Nat) : Outcome (List (Nat × Nat)) := do
  let p ← percentage npart maxnpart
  pure [(npart, p)]

/-- `diag::npart_stats` on the root rank with MPI (src/global/utils/diag.cpp:37-77): the particles
of the ranks are added in `npart_t`, which has 32 bits (src/global/global.h:385). -/
def npartStatsMPI (npart maxnpart : List Nat) : Outcome (List (Nat × Nat)) := do
  let tot := npart.foldl (fun a b => (a + b) % 2 ^ 32) 0
  let imax := maxIdx (fun a b => decide (a < b)) npart
  let imin := maxIdx (fun a b => decide (b < a)) npart
  let pmin ← percentage (npart.getD imin 0) (maxnpart.getD imin 0)
  let pmax ← percentage (npart.getD imax 0) (maxnpart.getD imax 0)
  pure [(tot, 0), (npart.getD imin 0, pmin), (npart.getD imax 0, pmax)]

/-- Text of a number of particles up to 9999; larger ones are printed with `%.2Le`, left as a
parameter (src/global/utils/diag.cpp:187-188, 213-214). -/
def npartText (sci : Nat → String) (n : Nat) : String := if n > 9999 then sci n else toString n

/-- `%2lu` of a number: two columns, blank on the left. -/
def pad2 (n : Nat) : String := if n < 10 then " " ++ toString n else toString n

/-- Row of a species without MPI (src/global/utils/diag.cpp:208-228): `i` is the index of the species,
starting with 0.  Colours are parameters. -/
def speciesRow (maxSize : Nat) (sci : Nat → String) (cBlack cReset cPct : Bytes) (i : Nat)
    (label : String) (npart maxnpart : Nat) : Outcome Bytes := do
  let stats ← npartStats npart maxnpart
  match stats with
  | [] => pure []
  | s :: _ =>
    alignedTable maxSize
      [{ text := bytesOf ("species " ++ pad2 (i + 1) ++ " (" ++ label ++ ")")
         color := cReset, anchor := -2, filler := 0x20 },
       { text := bytesOf (npartText sci s.1), color := cReset, anchor := 37, filler := 0x2E },
       { text := bytesOf (toString s.2 ++ "%"), color := cPct, anchor := 45, filler := 0x20 }]
      cBlack cReset

/-! ## Durations -/

section Field
variable {K : Type} [Field K] [LinearOrder K] [IsStrictOrderedRing K] [FloorRing K]

/-- `units` of `normalize_duration_fmt`, in microseconds
(src/global/utils/progressbar.cpp:28-34). -/
def units : List (String × K) :=
  [("µs", 1), ("ms", 10 ^ 3), ("s", 10 ^ 6), ("min", 6 * 10 ^ 7), ("hr", 36 * 10 ^ 8)]

/-- `shift` of `normalize_duration_fmt` (src/global/utils/progressbar.cpp:40-51). -/
def shift (t : K) : Int :=
  if t < 1 then -1
  else if 10 ^ 3 ≤ t ∧ t < 10 ^ 6 then 1
  else if 10 ^ 6 ≤ t ∧ t < 6 * 10 ^ 7 then 2
  else if 6 * 10 ^ 7 ≤ t ∧ t < 36 * 10 ^ 8 then 3
  else if 36 * 10 ^ 8 ≤ t then 4
  else 0

/-- `pbar::normalize_duration_fmt` (src/global/utils/progressbar.cpp:26-56).  The index is limited
to the number of units, one more than the last index: reading there is undefined. -/
def normalize (t : K) (u : String) : Outcome (K × String) :=
  match (units (K := K)).findIdx? (fun pr => pr.1 == u) with
  | none => .err
  | some uIdx =>
    let newIdx : Nat := (min (max 0 ((uIdx : Int) + shift t)) 5).toNat
    match (units (K := K))[uIdx]?, (units (K := K))[newIdx]? with
    | some old, some new => .ok (t * (old.2 / new.2), new.1)
    | _, _ => .ub

/-- `static_cast<int>` of a duration that is not negative: rounds down; `int` has 32 bits. -/
def toInt (t : K) : Outcome Int := if ⌊t⌋ < 2 ^ 31 then .ok ⌊t⌋ else .ub

/-- `pbar::to_human_readable` (src/global/utils/progressbar.cpp:58-64). -/
def toHuman (t : K) (u : String) : Outcome String := do
  let (tt, tu) ← normalize t u
  let t1 ← toInt tt
  let t2 := tt - (t1 : K)
  let (tt2, tu2) ← normalize t2 tu
  let t3 ← toInt tt2
  pure (toString t1 ++ tu ++ " " ++ toString t3 ++ tu2)

/-- `timer::convertTime` (src/global/utils/timer.h:38-49) applied to a value in microseconds. -/
def convertTime (value : K) (units : String) : K × String :=
  if value > 10 ^ 6 then (value / 10 ^ 6, " s")
  else if value > 10 ^ 3 then (value / 10 ^ 3, "ms")
  else if value < 1 / 10 ^ 2 then (value * 10 ^ 3, "ns")
  else (value, units)

/-! ## History of the time steps -/

/-- `pbar::DurationHistory` (src/global/utils/progressbar.h:37-42); times of the system clock in
nanoseconds. -/
structure History where
  capacity : Nat
  durations : List Int
  start : Int
  prevStart : Int
  deriving Repr, DecidableEq

/-- Constructor (src/global/utils/progressbar.h:44-47) at the time `now`. -/
def History.new (cap : Nat) (now : Int) : History := ⟨cap, [], now, now⟩

/-- `DurationHistory::tick` (src/global/utils/progressbar.h:51-59) at the time `now`: drops the oldest
duration if the vector is full (undefined if it is empty) and appends the duration since the last
tick in microseconds; `duration_cast` rounds towards zero. -/
def History.tick (h : History) (now : Int) : Outcome History :=
  let d := Int.tdiv (now - h.prevStart) 1000
  if h.durations.length ≥ h.capacity then
    match h.durations with
    | [] => .ub
    | _ :: ds => .ok { h with durations := ds ++ [d], prevStart := now }
  else .ok { h with durations := h.durations ++ [d], prevStart := now }

/-- `DurationHistory::average` (src/global/utils/progressbar.h:61-68). -/
def History.average (h : History) : K :=
  if h.durations = [] then 0
  else (h.durations.foldl (fun (a : K) (d : Int) => a + (d : K)) 0) / (h.durations.length : K)

/-- `DurationHistory::elapsed` (src/global/utils/progressbar.h:70-75) at the time `now`. -/
def History.elapsed (h : History) (now : Int) : Int := Int.tdiv (now - h.start) 1000

/-- One tick per time step (src/engines/engine.hpp:343), at the given times. -/
def History.ticks (h : History) : List Int → Outcome History
  | [] => .ok h
  | t :: ts => do
    let h ← h.tick t
    h.ticks ts

/-! ## Progress -/

/-- Width of the progress bar (src/global/utils/progressbar.h:30). -/
def barWidth : Nat := 70

/-- What `pbar::ProgressBar` shows. -/
structure Progress (K : Type) where
  avg : String
  remain : String
  elapsed : String
  filled : Nat
  empty : Nat
  percent : K
  deriving Repr

/-- `pbar::ProgressBar` on the root rank (src/global/utils/progressbar.cpp:66-122), from the averages
of the ranks (one rank without MPI): the longest average is used.  `max_steps - step` is
computed with 32 bits (src/global/global.h:383).  With `max_steps` equal to 0 the cast of a number
that is not finite is undefined. -/
def progressBar (avgs : List K) (elapsedUs : K) (step maxSteps : Nat) : Outcome (Progress K) := do
  let avg := avgs.foldl max 0
  let a ← toHuman avg "µs"
  let e ← toHuman elapsedUs "µs"
  let r ← toHuman ((((maxSteps + 2 ^ 32 - step) % 2 ^ 32 : Nat) : K) * avg) "µs"
  if maxSteps = 0 then Outcome.ub else pure ()
  let pct : K := (step : K) / (maxSteps : K)
  let n ← toInt (pct * (barWidth : K))
  let nfilled := min n.toNat barWidth
  pure ⟨a, r, e, nfilled, barWidth - nfilled, pct * 100⟩

/-! ## Timers -/

/-- What `Timers::gather` gives for one timer (src/global/utils/timer.h:122-132); the variation between
ranks is separate, see `imbalance`. -/
structure Stat (K : Type) where
  time : K
  perPrtl : K
  perCell : K
  percent : Nat
  deriving Repr, DecidableEq

/-- `static_cast<unsigned short>((time / total) * 100.0)` (src/global/utils/timer.cpp:98-99,
121-122). -/
def timePercent (time total : K) : Outcome Nat :=
  if total = 0 then .ub
  else if ⌊time / total * 100⌋ < 2 ^ 16 then .ok ⌊time / total * 100⌋.toNat else .ub

/-- Readings of the timers on a rank, its particles and its cells. -/
structure RankTimes (K : Type) where
  time : String → K
  npart : Nat
  ncells : Nat

/-- `all_totals[i]`, `local_tot` (src/global/utils/timer.cpp:74-82, 113-119): the sum of the timers
that are not in the list to be ignored. -/
def total (names ignore : List String) (r : RankTimes K) : K :=
  names.foldl (fun a n => if ignore.contains n then a else a + r.time n) 0

/-- The loop of `Timers::gather` over the timers, without MPI
(src/global/utils/timer.cpp:120-131). -/
def gatherLocal (names ignore : List String) (r : RankTimes K) :
    Outcome (List (String × Stat K)) :=
  names.mapM fun n => do
    let p ← timePercent (r.time n) (total names ignore r)
    if r.ncells = 0 then Outcome.ub else pure ()
    pure (n, ⟨r.time n, if r.npart > 0 then r.time n / (r.npart : K) else 0,
      r.time n / (r.ncells : K), p⟩)

/-- The loop of `Timers::gather` over the timers on the root rank with MPI
(src/global/utils/timer.cpp:83-107). -/
def gatherMPI (names ignore : List String) (first : RankTimes K) (others : List (RankTimes K)) :
    Outcome (List (String × Stat K)) :=
  names.mapM fun n => do
    let ranks := first :: others
    let r := ranks.getD (maxIdx (fun a b => decide (a < b)) (ranks.map (fun r => r.time n))) first
    let p ← timePercent (r.time n) (total names ignore r)
    pure (n, ⟨r.time n, if r.npart > 0 then r.time n / (r.npart : K) else 0,
      if r.ncells > 0 then r.time n / (r.ncells : K) else 0, p⟩)

/-- Duration of the row "Total" (src/global/utils/timer.cpp:108, 132). -/
def gatherTotal (names ignore : List String) (first : RankTimes K) (others : List (RankTimes K)) :
    K :=
  (others.map (total names ignore)).foldl max (total names ignore first)

end Field

/-- The timers of the engine in the order of `std::map` (src/engines/engine.hpp:245-252). -/
def engineTimers : List String :=
  ["Checkpoint", "Communications", "CurrentDeposit", "CurrentFiltering", "Custom",
   "FieldBoundaries", "FieldSolver", "Injector", "Output", "ParticleBoundaries", "ParticlePusher",
   "ParticleSort"]

/-- `extras` of `Timers::printAll` (src/global/utils/timer.cpp:139). -/
def extras : List String := ["ParticleSort", "Output", "Checkpoint"]

/-- `tools::ArrayImbalance<duration_t>` (src/global/utils/tools.h:39-55), shown as the variation of a
timer between the ranks (src/global/utils/timer.cpp:100-107).  `std::sqrt`, `math::exp` and the
threshold of `cmp::AlmostZero_host` are parameters; the square root of a negative number is not a
number, its cast undefined. -/
def imbalance {K : Type} [Field K] [LinearOrder K] [IsStrictOrderedRing K] [FloorRing K]
    (sqrt exp : K → K) (eps : K) (values : List K) : Outcome Nat :=
  if values = [] then .err
  else
    let n : K := (values.length : K)
    let mean := values.foldl (· + ·) 0 / n
    let sqSum := values.foldl (fun a v => a + v * v) 0
    if |sqSum| ≤ eps ∨ |mean| ≤ eps then .ok 0
    else
      let arg := sqSum / n / mean - 1
      if arg < 0 then .ub
      else .ok ⌊100 / (1 + exp (-(sqrt arg)))⌋.toNat

/-! ## Flags -/

/-- `Timer::PrintOutput`, `PrintParticleSort`, `PrintCheckpoint`, `Default`
(src/global/global.h:248-258). -/
def printOutputBit : Nat := 8
def printParticleSortBit : Nat := 16
def printCheckpointBit : Nat := 32
def timerDefault : Nat := 64 ||| 1 ||| 2 ||| 4

/-- `timer_flags` of `diag::printDiagnostics` (src/global/utils/diag.cpp:95-110). -/
def timerFlags (printClear printOutput printCheckpoint : Bool) : Nat :=
  let f := timerDefault
  let f := if printClear then f ||| printParticleSortBit else f
  let f := if printOutput then f ||| printOutputBit else f
  if printCheckpoint then f ||| printCheckpointBit else f

/-- The rows of the extra timers and whether they are highlighted
(src/global/utils/timer.cpp:262-285). -/
def extraRows (flags : Nat) : List (String × Bool) :=
  extras.zip ([printParticleSortBit, printOutputBit, printCheckpointBit].map
    (fun b => flags &&& b != 0))

/-- `print_prtl_clear`, `print_output`, `print_checkpoint` of a pass through the main loop
(src/engines/engine.hpp:280-339), from what the writers of the output, of the statistics and of the
checkpoint return: `print_output` begins with false and is combined with `&=`. -/
def loopFlags (clearInterval step : Nat) (wroteOutput wroteStats wroteCheckpoint : Bool) :
    Bool × Bool × Bool :=
  let printClear := clearInterval > 0 && step % clearInterval = 0 && step > 0
  let printOutput := false
  let printOutput := printOutput && wroteOutput
  let printOutput := printOutput && wroteStats
  (printClear, printOutput, wroteCheckpoint)

end Entity.Diag
