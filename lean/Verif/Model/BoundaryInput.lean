import Verif.Model.Enums

/-!
# Boundary conditions from the input file (src/framework/parameters/grid.cpp:53-248)

Values are the numeric codes of `FldsBC` and `PrtlBC` (src/global/enums.h:185-246): in both 1 is
`PERIODIC`.  The strings are taken after `fmt::toLower`, i.e. the argument lists hold lower-case
strings.
-/

namespace Entity.BoundaryInput

open Entity Entity.Enums

/-- `FldsBC::PERIODIC` = `PrtlBC::PERIODIC` = 1 (enums.h:188, 218). -/
def PERIODIC : Nat := 1

/-- The loop that allows `ATMOSPHERE` only once (grid.cpp:69-88 and 101-120). -/
def atmosphereOnce (bcs : List (List String)) : Outcome Unit :=
  if (bcs.flatten.filter (· = "atmosphere")).length > 1 then .err else .ok ()

/-- One dimension of the Cartesian branch (grid.cpp:136-177), for fields or particles. -/
def cartesianAxis (e : EnumTable) (bc : List String) : Outcome (Nat × Nat) :=
  match bc with
  | [] => .err
  | [s] => do
    let v ← pick e s
    if v ≠ PERIODIC then .err else .ok (PERIODIC, PERIODIC)
  | [s, t] => do
    let v ← pick e s
    if v = PERIODIC then .err else do
      let w ← pick e t
      if w = PERIODIC then .err else .ok (v, w)
  | _ => .err

/-- All dimensions, in order. -/
def mapAxes (f : List String → Outcome (Nat × Nat)) :
    List (List String) → Outcome (List (Nat × Nat))
  | [] => .ok []
  | b :: bs => do
    let x ← f b
    let xs ← mapAxes f bs
    return x :: xs

/-- Result: conditions of fields and of particles, one pair per dimension. -/
abbrev Result := List (Nat × Nat) × List (Nat × Nat)

/-- `GetBoundaryConditions`, Cartesian branch (grid.cpp:59-178, 227-247).  Simplification: the
checks of fields and particles are made one after the other instead of interleaved per dimension
(same outcome, since any failing check raises); the promises are not modelled. -/
def cartesian (dim : Nat) (flds prtl : List (List String)) : Outcome Result := do
  if flds.length = 0 ∨ flds.length > 3 then .err else
  let _ ← atmosphereOnce flds
  if prtl.length = 0 ∨ prtl.length > 3 then .err else
  let _ ← atmosphereOnce prtl
  if flds.length ≠ dim then .err else
  if prtl.length ≠ dim then .err else
  let f ← mapAxes (cartesianAxis fldsBC) flds
  let p ← mapAxes (cartesianAxis prtlBC) prtl
  return (f, p)

/-- Non-Cartesian branch for the special-relativistic engine (grid.cpp:179-204): the two radial
conditions are taken as given, the polar direction is `AXIS` (7 in both enumerations), the azimuth
periodic. -/
def sphericalSR (dim : Nat) (flds prtl : List (List String)) : Outcome Result := do
  if flds.length = 0 ∨ flds.length > 3 then .err else
  let _ ← atmosphereOnce flds
  if prtl.length = 0 ∨ prtl.length > 3 then .err else
  let _ ← atmosphereOnce prtl
  if flds.length > 1 then .err else
  if prtl.length > 1 then .err else
  match flds, prtl with
  | [[f0, f1]], [[p0, p1]] => do
    let a ← pick fldsBC f0
    let b ← pick fldsBC f1
    let c ← pick prtlBC p0
    let d ← pick prtlBC p1
    let tail := if dim = 3 then [(PERIODIC, PERIODIC)] else []
    let f := (a, b) :: (7, 7) :: tail
    let p := (c, d) :: (7, 7) :: tail
    if f.length ≠ dim then .err else .ok (f, p)
  | _, _ => .err

/-- Non-Cartesian branch for the general-relativistic engine (grid.cpp:205-224): the inner radial
condition is `HORIZON` (6 in both enumerations). -/
def sphericalGR (dim : Nat) (flds prtl : List (List String)) : Outcome Result := do
  if flds.length = 0 ∨ flds.length > 3 then .err else
  let _ ← atmosphereOnce flds
  if prtl.length = 0 ∨ prtl.length > 3 then .err else
  let _ ← atmosphereOnce prtl
  if flds.length > 1 then .err else
  if prtl.length > 1 then .err else
  match flds, prtl with
  | [[f0]], [[p0]] => do
    let b ← pick fldsBC f0
    let d ← pick prtlBC p0
    let tail := if dim = 3 then [(PERIODIC, PERIODIC)] else []
    let f := (6, b) :: (7, 7) :: tail
    let p := (6, d) :: (7, 7) :: tail
    if f.length ≠ dim then .err else .ok (f, p)
  | _, _ => .err

end Entity.BoundaryInput
