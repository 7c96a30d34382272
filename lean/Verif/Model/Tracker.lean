import Verif.Model.Base
import Mathlib.Data.Rat.Defs
import Mathlib.Algebra.Order.Ring.Rat

/-!
# When to write (`tools::Tracker`, src/global/utils/tools.h:281-350)

Times are rational numbers; the wall clock is an argument of the query (the value of
`std::chrono::system_clock::now()` at the call), in seconds.
-/

namespace Entity.Schedule

open Entity Entity.Outcome

/-- `std::isspace` in the "C" locale. -/
def isSpace (c : Char) : Bool := c == ' ' || (9 ≤ c.toNat && c.toNat ≤ 13)

/-- Value of a string of decimal digits. -/
def digitsVal (ds : List Char) : Nat := ds.foldl (fun n c => 10 * n + (c.toNat - '0'.toNat)) 0

/-- The optional sign of a number: negative?, and what follows. -/
def sign : List Char → Bool × List Char
  | '-' :: s => (true, s)
  | '+' :: s => (false, s)
  | s => (false, s)

/-- `std::stoi` (base 10): skips white space, takes an optional sign and the longest run of digits;
throws if there is none or if the value is no 32-bit `int`. -/
def stoi (s : List Char) : Outcome Int :=
  let (neg, s) := sign (s.dropWhile isSpace)
  let ds := s.takeWhile Char.isDigit
  if ds = [] then .err
  else
    let v : Int := if neg then -(digitsVal ds : Int) else digitsVal ds
    if v < -2147483648 ∨ 2147483647 < v then .err else .ok v

/-- `s.substr(pos, n)`; throws if `pos > s.size()`. -/
def substr (s : List Char) (pos n : Nat) : Outcome (List Char) :=
  if s.length < pos then .err else .ok ((s.drop pos).take n)

/-- The members of `Tracker` (tools.h:282-294). -/
structure Tracker where
  initialized : Bool
  interval : Nat
  intervalTime : ℚ
  useTime : Bool
  pending : Bool
  endWall : ℚ
  last : ℚ
  deriving DecidableEq

/-- `Tracker::init` (tools.h:308-329). -/
def init (interval : Nat) (intervalTime : ℚ) (endWalltime : List Char) (startWall : ℚ) :
    Outcome Tracker :=
  let t : Tracker := ⟨true, interval, intervalTime, decide (0 < intervalTime), false, 0, -1⟩
  if endWalltime = [] ∨ endWalltime = "00:00:00".toList then .ok t
  else do
    errorIf (endWalltime.length ≠ 8)
    let h ← substr endWalltime 0 2 >>= stoi
    let m ← substr endWalltime 3 2 >>= stoi
    let s ← substr endWalltime 6 2 >>= stoi
    return { t with pending := true, endWall := startWall + 3600 * h + 60 * m + s }

/-- One call of `shouldWrite`: step, time, and the wall clock at the call. -/
structure Query where
  step : Nat
  time : ℚ
  now : ℚ

/-- `Tracker::shouldWrite` (tools.h:331-348).  `step % 0` is undefined. -/
def shouldWrite (t : Tracker) (q : Query) : Outcome (Bool × Tracker) :=
  if t.initialized = false then .err
  else if t.pending ∧ t.endWall < q.now then .ok (true, { t with pending := false })
  else if t.useTime then
    if t.last < 0 ∨ t.intervalTime ≤ q.time - t.last then .ok (true, { t with last := q.time })
    else .ok (false, t)
  else if t.interval = 0 then .ub
  else .ok (q.step % t.interval == 0, t)

/-- A sequence of calls and their answers. -/
def ask : Tracker → List Query → Outcome (List Bool × Tracker)
  | t, [] => .ok ([], t)
  | t, q :: qs => do
    let (b, t) ← shouldWrite t q
    let (bs, t) ← ask t qs
    return (b :: bs, t)

/-- Whether `WriteCheckpoint` writes (metadomain_chckpt.cpp:104-121, checkpoint.cpp:57-59): the step
and time of the query are those of the finished step. -/
def writesCheckpoint (enabled : Bool) (t : Tracker) (q : Query) : Outcome (Bool × Tracker) :=
  if enabled then do
    let (due, t) ← shouldWrite t q
    return (due && !decide (q.step ≤ 1), t)
  else .ok (false, t)

end Entity.Schedule
