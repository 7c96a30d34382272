import Verif.Model.Base

/-!
# Directions (src/global/arch/directions.h)

A direction is a list of `-1`, `0`, `1`, one entry per dimension (`direction_t<D>` derives from
`std::vector<short>`).
-/

namespace Entity.Dir

open Entity

/-- `direction_t<D>` (directions.h:40-47). -/
abbrev Direction := List Int

/-- `direction_t::operator-` (directions.h:51-57). -/
def neg (d : Direction) : Direction := d.map (fun x => -x)

/-- `direction_t::operator==` (directions.h:59-66): entrywise comparison of the first `D` entries;
`none` models the read past the end when a vector is shorter than `D`. -/
def eqUpTo : Nat → Direction → Direction → Option Bool
  | 0, _, _ => some true
  | _ + 1, [], _ => none
  | _ + 1, _, [] => none
  | n + 1, x :: xs, y :: ys => if x ≠ y then some false else eqUpTo n xs ys

/-- `dir` all zero except entry `i`, as built in `get_assoc_orth` (directions.h:84-85). -/
def unit (size i : Nat) (v : Int) : Direction := (List.replicate size 0).set i v

/-- Loop of `direction_t::get_assoc_orth` (directions.h:82-88) from entry `i` on. -/
def assocOrthFrom (size : Nat) : Nat → Direction → List Direction
  | _, [] => []
  | i, x :: xs =>
    if x ≠ 0 then unit size i x :: assocOrthFrom size (i + 1) xs
    else assocOrthFrom size (i + 1) xs

/-- `direction_t::get_assoc_orth` (directions.h:80-90). -/
def assocOrth (d : Direction) : List Direction := assocOrthFrom d.length 0 d

/-- Loop of `direction_t::get_sign` (directions.h:94-101); the state is `sign`. -/
def getSignLoop : Int → Direction → Outcome Int
  | sign, [] => .ok sign
  | sign, x :: xs =>
    if x ≠ 0 then (if sign ≠ 0 then .err else getSignLoop x xs) else getSignLoop sign xs

/-- `direction_t::get_sign` (directions.h:92-104). -/
def getSign (d : Direction) : Outcome Int := do
  let s ← getSignLoop 0 d
  if s = 0 then .err else .ok s

/-- Loop of `direction_t::get_dim` (directions.h:108-113); the state is `dir`, initially `-1`;
`i` is the loop index. The condition that raises is `dir > 0`, as in the source. -/
def getDimLoop : Int → Int → Direction → Outcome Int
  | dir, _, [] => .ok dir
  | dir, i, x :: xs =>
    if x ≠ 0 then (if dir > 0 then .err else getDimLoop i (i + 1) xs)
    else getDimLoop dir (i + 1) xs

/-- `direction_t::get_dim` (directions.h:106-125): 0, 1, 2 stand for `in::x1`, `in::x2`,
`in::x3`. -/
def getDim (d : Direction) : Outcome Nat := do
  let r ← getDimLoop (-1) 0 d
  if r = -1 then .err
  else if r = 0 then .ok 0
  else if r = 1 then .ok 1
  else if r = 2 then .ok 2
  else .err

/-- `direction_t::hash` (directions.h:150-169).  Division of two non-negative numbers. -/
def hash : Direction → Outcome Int
  | [a] => .ok a
  | [a, b] => .ok ((2 + a + b) * (3 + a + b) / 2 + b)
  | [a, b, c] =>
    let k1 := (2 + a + b) * (3 + a + b) / 2 + b
    .ok ((2 + k1 + c) * (3 + k1 + c) / 2 + c)
  | _ => .ub

/-- `Directions<Dim::_1D>` (directions.h:172-176). -/
def all1 : List Direction := [[-1], [1]]
/-- `Directions<Dim::_1D>::orth` (directions.h:174). -/
def orth1 : List Direction := [[-1], [1]]
/-- `Directions<Dim::_1D>::unique` (directions.h:175). -/
def unique1 : List Direction := [[1]]

/-- `Directions<Dim::_2D>::all` (directions.h:180-189). -/
def all2 : List Direction :=
  [[-1, -1], [-1, 0], [-1, 1], [0, -1], [0, 1], [1, -1], [1, 0], [1, 1]]
/-- `Directions<Dim::_2D>::orth` (directions.h:190-195). -/
def orth2 : List Direction := [[-1, 0], [0, -1], [0, 1], [1, 0]]
/-- `Directions<Dim::_2D>::unique` (directions.h:196-201). -/
def unique2 : List Direction := [[0, 1], [1, 1], [1, 0], [-1, 1]]

/-- `Directions<Dim::_3D>::all` (directions.h:206-233). -/
def all3 : List Direction :=
  [[-1, -1, -1], [-1, -1, 0], [-1, -1, 1], [-1, 0, -1], [-1, 0, 0], [-1, 0, 1],
   [-1, 1, -1], [-1, 1, 0], [-1, 1, 1],
   [0, -1, -1], [0, -1, 0], [0, -1, 1], [0, 0, -1], [0, 0, 1], [0, 1, -1], [0, 1, 0], [0, 1, 1],
   [1, -1, -1], [1, -1, 0], [1, -1, 1], [1, 0, -1], [1, 0, 0], [1, 0, 1],
   [1, 1, -1], [1, 1, 0], [1, 1, 1]]
/-- `Directions<Dim::_3D>::orth` (directions.h:234-241). -/
def orth3 : List Direction :=
  [[-1, 0, 0], [0, -1, 0], [0, 0, -1], [0, 0, 1], [0, 1, 0], [1, 0, 0]]
/-- `Directions<Dim::_3D>::unique` (directions.h:242-256). -/
def unique3 : List Direction :=
  [[0, 0, 1], [0, 1, 0], [1, 0, 0], [1, 1, 0], [-1, 1, 0], [0, 1, 1], [0, -1, 1], [1, 0, 1],
   [-1, 0, 1], [1, 1, 1], [-1, 1, 1], [1, -1, 1], [1, 1, -1]]

/-- The tables by dimension (directions.h:171-257); other dimensions have no table. -/
def allDirs : Nat → List Direction
  | 1 => all1 | 2 => all2 | 3 => all3 | _ => []
/-- `Directions<D>::orth` by dimension. -/
def orthDirs : Nat → List Direction
  | 1 => orth1 | 2 => orth2 | 3 => orth3 | _ => []
/-- `Directions<D>::unique` by dimension. -/
def uniqueDirs : Nat → List Direction
  | 1 => unique1 | 2 => unique2 | 3 => unique3 | _ => []

end Entity.Dir
