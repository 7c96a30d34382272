import Verif.Model.Base

/-!
# Enumerations with names (src/global/enums.h)
-/

namespace Entity.Enums

open Entity

/-- The static data of a class derived from `EnumBase` (enums.h:116-315): the numeric values of
`variants[]` and the strings of `lookup[]`, in source order. -/
structure EnumTable where
  variants : List Nat
  lookup : List String
  deriving DecidableEq

/-- `EnumBase::to_string` (enums.h:62-64, 90-92): `lookup[val - 1]`; `val = 0` (INVALID) and values
beyond the table read outside the array. -/
def toString (e : EnumTable) (val : Nat) : Outcome String :=
  if val = 0 then .ub
  else match e.lookup[val - 1]? with
    | some s => .ok s
    | none => .ub

/-- Loop of `EnumBase::pick` (enums.h:95-99) over the first `total = size(variants)` names. -/
def pickFrom : List Nat → List String → String → Outcome Nat
  | [], _, _ => .err
  | _ :: _, [], _ => .ub
  | v :: vs, n :: ns, s => if n = s then .ok v else pickFrom vs ns s

/-- `EnumBase::pick` (enums.h:94-102); `raise::Error` throws. -/
def pick (e : EnumTable) (s : String) : Outcome Nat := pickFrom e.variants e.lookup s

/-- Loop of `EnumBase::contains` (enums.h:105-109). -/
def containsFrom : List Nat → List String → String → Outcome Bool
  | [], _, _ => .ok false
  | _ :: _, [], _ => .ub
  | _ :: vs, n :: ns, s => if n = s then .ok true else containsFrom vs ns s

/-- `EnumBase::contains` (enums.h:104-111). -/
def contains (e : EnumTable) (s : String) : Outcome Bool := containsFrom e.variants e.lookup s

/-- `Coord` (enums.h:116-135). -/
def coord : EnumTable := ⟨[1, 2, 3], ["cart", "sph", "qsph"]⟩
/-- `Metric` (enums.h:137-163). -/
def metric : EnumTable := ⟨[1, 2, 3, 4, 5, 6],
  ["minkowski", "spherical", "qspherical", "kerr_schild", "qkerr_schild", "kerr_schild_0"]⟩
/-- `SimEngine` (enums.h:165-183). -/
def simEngine : EnumTable := ⟨[1, 2], ["srpic", "grpic"]⟩
/-- `PrtlBC` (enums.h:185-213). -/
def prtlBC : EnumTable := ⟨[1, 2, 3, 4, 5, 6, 7, 8],
  ["periodic", "absorb", "atmosphere", "custom", "reflect", "horizon", "axis", "sync"]⟩
/-- `FldsBC` (enums.h:215-246). -/
def fldsBC : EnumTable := ⟨[1, 2, 3, 4, 5, 6, 7, 8, 9],
  ["periodic", "match", "fixed", "atmosphere", "custom", "horizon", "axis", "conductor", "sync"]⟩
/-- `FldsID` (enums.h:248-284). -/
def fldsID : EnumTable := ⟨[1, 2, 3, 4, 5, 6, 7, 8, 9, 10, 11, 12, 13, 14, 15],
  ["e", "dive", "d", "divd", "b", "h", "j", "a", "t", "rho", "charge", "n", "nppc", "v", "custom"]⟩
/-- `StatsID` (enums.h:286-315). -/
def statsID : EnumTable := ⟨[1, 2, 3, 4, 5, 6, 7, 8, 9, 10],
  ["b^2", "e^2", "exb", "j.e", "t", "rho", "charge", "n", "npart", "custom"]⟩

/-- All enumerations with a name table. -/
def allEnums : List EnumTable := [coord, metric, simEngine, prtlBC, fldsBC, fldsID, statsID]

/-- The identifiers of the enumerators in the order of their values `1, 2, …` (enums.h:117-122, 138-146,
166-170, 186-196, 216-227, 249-266, 287-299). -/
def identifiers : List (List String) :=
  [["Cartesian", "Spherical", "Qspherical"],
   ["Minkowski", "Spherical", "QSpherical", "Kerr_Schild", "QKerr_Schild", "Kerr_Schild_0"],
   ["SRPIC", "GRPIC"],
   ["PERIODIC", "ABSORB", "ATMOSPHERE", "CUSTOM", "REFLECT", "HORIZON", "AXIS", "SYNC"],
   ["PERIODIC", "MATCH", "FIXED", "ATMOSPHERE", "CUSTOM", "HORIZON", "AXIS", "CONDUCTOR", "SYNC"],
   ["E", "divE", "D", "divD", "B", "H", "J", "A", "T", "Rho", "Charge", "N", "Nppc", "V", "Custom"],
   ["B2", "E2", "ExB", "JdotE", "T", "Rho", "Charge", "N", "Npart", "Custom"]]

/-- `ParticlePusher` flags (enums.h:318-324) as bits: photon 1, boris 2, vay 4, gca 8;
`ParticlePusher::to_string` (enums.h:326-346). -/
def pusherToString (flags : BitVec 8) : String :=
  if flags = 0 then "none"
  else
    let r := if flags &&& 1 ≠ 0 then "photon"
      else if flags &&& 2 ≠ 0 then "boris"
      else if flags &&& 4 ≠ 0 then "vay" else ""
    if flags &&& 8 ≠ 0 then (if r ≠ "" then r ++ "," else r) ++ "gca" else r

/-- `RadiativeDrag::to_string` (enums.h:358-374): synchrotron 1, compton 2. -/
def dragToString (flags : BitVec 8) : String :=
  if flags = 0 then "none"
  else
    let r := if flags &&& 1 ≠ 0 then "synchrotron" else ""
    if flags &&& 2 ≠ 0 then (if r ≠ "" then r ++ "," else r) ++ "compton" else r

/-- `EmissionType::to_string` (enums.h:386-399). -/
def emissionToString (flags : BitVec 8) : String :=
  if flags = 0 then "none" else if flags = 1 then "synchrotron" else if flags = 2 then "compton"
  else if flags = 3 then "custom" else "unknown"

/-- `OutputSmoothingType::to_string` (enums.h:411-422): CONST 1, SPLINE 2. -/
def smoothingToString (flags : BitVec 8) : String :=
  if flags = 0 then "none" else if flags = 1 then "const" else if flags = 2 then "spline" else "unknown"

/-- `OutputSmoothingType::from_string` (enums.h:424-433). -/
def smoothingFromString (s : String) : BitVec 8 :=
  let lo := s.toLower
  if lo = "const" then 1 else if lo = "spline" then 2 else 0

end Entity.Enums
