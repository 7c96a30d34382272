import Verif.Model.Base

/-!
# Interpretation of output names (src/output/utils/interpret_prompt.cpp, src/global/utils/formatting.h)

`std::string` is a list of characters.
-/

namespace Entity.Prompt

open Entity

/-- All pieces of a string between the delimiters `_`, as enumerated by `std::sregex_token_iterator`
with sub-match `-1` before the treatment of the last piece (formatting.h:129-135, the delimiter is
always `"_"` where `splitString` is used by the output code). -/
def splitAll : List Char → List (List Char)
  | [] => [[]]
  | c :: cs =>
    if c = '_' then [] :: splitAll cs
    else match splitAll cs with
      | t :: ts => (c :: t) :: ts
      | [] => [[c]]

/-- `fmt::splitString(str, "_")` (formatting.h:129-135): `std::sregex_token_iterator` does not
enumerate an empty piece after the last delimiter, but enumerates the empty string when there is no
delimiter at all. -/
def splitString (s : List Char) : List (List Char) :=
  if 1 < (splitAll s).length ∧ (splitAll s).getLast? = some [] then (splitAll s).dropLast
  else splitAll s

/-- `std::isspace` in the "C" locale, as used by `std::stoi`. -/
def isSpace (c : Char) : Bool :=
  c = ' ' || c = '\n' || c = '\t' || c = '\r' || c = '\x0b' || c = '\x0c'

/-- The sign accepted by `std::stoi`, and the rest of the string. -/
def stoiSign : List Char → Bool × List Char
  | '-' :: s => (true, s)
  | '+' :: s => (false, s)
  | s => (false, s)

/-- `std::stoi` (C++ standard library): leading white space, a sign, decimal digits; whatever
follows is ignored; no digit: `std::invalid_argument`; outside of `int`: `std::out_of_range`. -/
def stoi (s : List Char) : Outcome Int :=
  let r := stoiSign (s.dropWhile isSpace)
  let ds := r.2.takeWhile Char.isDigit
  if ds = [] then .err
  else
    let v : Int := Nat.ofDigitChars 10 ds 0
    let n := if r.1 then -v else v
    if n < -2 ^ 31 ∨ 2 ^ 31 ≤ n then .err else .ok n

/-- The cast `(spidx_t)` (interpret_prompt.cpp:19); `spidx_t` is `uint8_t` (global.h:394). -/
def toSpidx (n : Int) : Nat := (n % 256).toNat

/-- `out::InterpretSpecies` (interpret_prompt.cpp:14-23). -/
def interpretSpecies (inp : List Char) : Outcome (List Nat) :=
  match inp.dropWhile (· ≠ '_') with
  | [] => .ok []
  | _ :: rest => (splitString rest).mapM fun t => do
      let n ← stoi t
      pure (toSpidx n)

/-- Conversion of one component string (interpret_prompt.cpp:29-50): the check of lines 30-33 and the
numbers pushed to `comps_int` (`std::stoi` of one of the digits 0-3 is that digit). -/
def compInt (c : List Char) : Outcome Int :=
  if c = ['t'] then .ok 0
  else if c = ['x'] then .ok 1
  else if c = ['y'] then .ok 2
  else if c = ['z'] then .ok 3
  else if c = ['i'] then .ok (-1)
  else if c = ['j'] then .ok (-2)
  else if c = ['0'] ∨ c = ['1'] ∨ c = ['2'] ∨ c = ['3'] then stoi c
  else .err

/-- One component (interpret_prompt.cpp:52-61). -/
def expandOne (c : Int) : Outcome (List (List Nat)) :=
  if c < 0 then .ok [[1], [2], [3]]
  else do
    Outcome.errorIf (c > 3 ∨ c = 0)
    pure [[c.toNat]]

/-- Two components (interpret_prompt.cpp:62-91): the nested loops. -/
def expandTwo (c1 c2 : Int) : List (List Nat) :=
  if c1 < 0 then
    (List.range 3).flatMap fun i =>
      if c2 < 0 then
        if c2 = c1 then [[i + 1, i + 1]]
        else (List.range' i (3 - i)).map fun j => [i + 1, j + 1]
      else [[i + 1, c2.toNat]]
  else if c2 < 0 then (List.range 3).map fun j => [c1.toNat, j + 1]
  else [[c1.toNat, c2.toNat]]

/-- `out::InterpretComponents` (interpret_prompt.cpp:25-94); an empty list reads `comps_int[0]` outside
of the vector. -/
def interpretComponents (comps : List (List Char)) : Outcome (List (List Nat)) := do
  Outcome.errorIf (2 < comps.length)
  let ints ← comps.mapM compInt
  match ints with
  | [c] => expandOne c
  | [c1, c2] => pure (expandTwo c1 c2)
  | _ => .ub

end Entity.Prompt
