import Verif.Model.Directions

/-!
# Particle send tags (src/global/arch/mpi_tags.h)
-/

namespace Entity.Tags

open Entity Entity.Dir

/-- `ParticleTag::dead`, `ParticleTag::alive` (src/global/global.h:168-171). -/
def dead : Int := 0
/-- `ParticleTag::alive` (src/global/global.h:170). -/
def alive : Int := 1

/-- `PrtlSendTag<D>::tag2dir` (mpi_tags.h:24-29). -/
def tag2dir (D : Nat) (tag : Int) : Outcome Direction :=
  if tag - 2 < 0 ∨ tag - 2 ≥ (allDirs D).length then .err
  else match (allDirs D)[(tag - 2).toNat]? with
    | some d => .ok d
    | none => .ub

/-- The chain `if (dir == …) return code; else if …; else raise` of `dir2tag`; each table lists
the pairs (direction, code) in source order. -/
def lookupDir : List (Direction × Int) → Direction → Outcome Int
  | [], _ => .err
  | (k, v) :: rest, d => if d = k then .ok v else lookupDir rest d

/-- Constants and `dir2tag` of `PrtlSendTag<Dim::_1D>` (mpi_tags.h:34-49). -/
def table1 : List (Direction × Int) := [([-1], 2), ([1], 3)]

/-- Constants and `dir2tag` of `PrtlSendTag<Dim::_2D>` (mpi_tags.h:51-84). -/
def table2 : List (Direction × Int) :=
  [([-1, -1], 2), ([-1, 0], 3), ([-1, 1], 4), ([0, -1], 5), ([0, 1], 6), ([1, -1], 7),
   ([1, 0], 8), ([1, 1], 9)]

/-- Constants and `dir2tag` of `PrtlSendTag<Dim::_3D>` (mpi_tags.h:86-173). -/
def table3 : List (Direction × Int) :=
  [([-1, -1, -1], 2), ([-1, -1, 0], 3), ([-1, -1, 1], 4), ([-1, 0, -1], 5), ([-1, 0, 0], 6),
   ([-1, 0, 1], 7), ([-1, 1, -1], 8), ([-1, 1, 0], 9), ([-1, 1, 1], 10), ([0, -1, -1], 11),
   ([0, -1, 0], 12), ([0, -1, 1], 13), ([0, 0, -1], 14), ([0, 0, 1], 15), ([0, 1, -1], 16),
   ([0, 1, 0], 17), ([0, 1, 1], 18), ([1, -1, -1], 19), ([1, -1, 0], 20), ([1, -1, 1], 21),
   ([1, 0, -1], 22), ([1, 0, 0], 23), ([1, 0, 1], 24), ([1, 1, -1], 25), ([1, 1, 0], 26),
   ([1, 1, 1], 27)]

/-- `PrtlSendTag<D>::dir2tag`. -/
def dir2tag : Nat → Direction → Outcome Int
  | 1, d => lookupDir table1 d
  | 2, d => lookupDir table2 d
  | 3, d => lookupDir table3 d
  | _, _ => .ub

/-- `bool` in an arithmetic expression. -/
def b2i (b : Bool) : Int := if b then 1 else 0

/-- `SendTag` in 1D (mpi_tags.h:175-180).  Simplification: no 16-bit wrap-around (the result is at
most 27 for the tags 0 and 1 the function is called with). -/
def sendTag1 (tag : Int) (im1 ip1 : Bool) : Int :=
  (b2i im1 * (2 - 1) + b2i ip1 * (3 - 1) + 1) * tag

/-- `SendTag` in 2D (mpi_tags.h:182-193). -/
def sendTag2 (tag : Int) (im1 ip1 jm1 jp1 : Bool) : Int :=
  (b2i (im1 && jm1) * (2 - 1) +
   b2i (im1 && jp1) * (4 - 1) +
   b2i (ip1 && jm1) * (7 - 1) +
   b2i (ip1 && jp1) * (9 - 1) +
   b2i (im1 && !jp1 && !jm1) * (3 - 1) +
   b2i (ip1 && !jp1 && !jm1) * (8 - 1) +
   b2i (jm1 && !ip1 && !im1) * (5 - 1) +
   b2i (jp1 && !ip1 && !im1) * (6 - 1) + 1) * tag

/-- `SendTag` in 3D (mpi_tags.h:195-232). -/
def sendTag3 (tag : Int) (im1 ip1 jm1 jp1 km1 kp1 : Bool) : Int :=
  (b2i (im1 && jm1 && km1) * (2 - 1) +
   b2i (im1 && jm1 && kp1) * (4 - 1) +
   b2i (im1 && jp1 && km1) * (8 - 1) +
   b2i (im1 && jp1 && kp1) * (10 - 1) +
   b2i (ip1 && jm1 && km1) * (19 - 1) +
   b2i (ip1 && jm1 && kp1) * (21 - 1) +
   b2i (ip1 && jp1 && km1) * (25 - 1) +
   b2i (ip1 && jp1 && kp1) * (27 - 1) +
   b2i (im1 && jm1 && !km1 && !kp1) * (3 - 1) +
   b2i (im1 && jp1 && !km1 && !kp1) * (9 - 1) +
   b2i (ip1 && jm1 && !km1 && !kp1) * (20 - 1) +
   b2i (ip1 && jp1 && !km1 && !kp1) * (26 - 1) +
   b2i (im1 && !jm1 && !jp1 && km1) * (5 - 1) +
   b2i (im1 && !jm1 && !jp1 && kp1) * (7 - 1) +
   b2i (ip1 && !jm1 && !jp1 && km1) * (22 - 1) +
   b2i (ip1 && !jm1 && !jp1 && kp1) * (24 - 1) +
   b2i (!im1 && !ip1 && jm1 && km1) * (11 - 1) +
   b2i (!im1 && !ip1 && jm1 && kp1) * (13 - 1) +
   b2i (!im1 && !ip1 && jp1 && km1) * (16 - 1) +
   b2i (!im1 && !ip1 && jp1 && kp1) * (18 - 1) +
   b2i (!im1 && !ip1 && !jm1 && !jp1 && km1) * (14 - 1) +
   b2i (!im1 && !ip1 && !jm1 && !jp1 && kp1) * (15 - 1) +
   b2i (!im1 && !ip1 && jm1 && !km1 && !kp1) * (12 - 1) +
   b2i (!im1 && !ip1 && jp1 && !km1 && !kp1) * (17 - 1) +
   b2i (im1 && !jm1 && !jp1 && !km1 && !kp1) * (6 - 1) +
   b2i (ip1 && !jm1 && !jp1 && !km1 && !kp1) * (23 - 1) +
   1) * tag

/-- The three overloads; one pair of flags (left through the lower side, left through the upper
side) per dimension. -/
def sendTag (tag : Int) : List (Bool × Bool) → Outcome Int
  | [(a, b)] => .ok (sendTag1 tag a b)
  | [(a, b), (c, d)] => .ok (sendTag2 tag a b c d)
  | [(a, b), (c, d), (e, f)] => .ok (sendTag3 tag a b c d e f)
  | _ => .ub

end Entity.Tags
