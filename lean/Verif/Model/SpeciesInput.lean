import Verif.Model.Base

/-!
# Particle species from the input file (src/framework/parameters/particles.cpp)
-/

namespace Entity.SpeciesInput

open Entity

/-- `std::getline(tokenStream, token, ',')` until it fails (particles.cpp:36, 60): the pieces
between commas; a trailing empty piece is not delivered (so the empty string yields no token and
`"a,"` yields only `"a"`). -/
def tokensFrom : List Char → List Char → List (List Char)
  | cur, [] => if cur = [] then [] else [cur]
  | cur, c :: cs => if c = ',' then cur :: tokensFrom [] cs else tokensFrom (cur ++ [c]) cs

/-- Tokens of a string. -/
def tokens (s : List Char) : List (List Char) := tokensFrom [] s

/-- Flags `ParticlePusher` (enums.h:318-324): one Boolean per bit. -/
structure Pusher where
  photon : Bool := false
  boris : Bool := false
  vay : Bool := false
  gca : Bool := false
  deriving DecidableEq, Repr

/-- Loop of `getPusherFlags` over the tokens (particles.cpp:60-76), tokens in lower case. -/
def pusherLoop : Pusher → List (List Char) → Outcome Pusher
  | f, [] => .ok f
  | f, t :: ts =>
    if t = "photon".toList then pusherLoop { f with photon := true } ts
    else if t = "boris".toList then pusherLoop { f with boris := true } ts
    else if t = "vay".toList then pusherLoop { f with vay := true } ts
    else if t = "gca".toList then pusherLoop { f with gca := true } ts
    else .err

/-- `getPusherFlags` (particles.cpp:50-82).  The argument is in lower case. -/
def getPusherFlags (s : List Char) : Outcome Pusher :=
  if s = "none".toList then .ok {}
  else do
    let f ← pusherLoop {} (tokens s)
    if f.photon && f.gca then .err else .ok f

/-- The checks on mass, charge and pusher of `GetParticleSpecies` (particles.cpp:110-117, 157-159).
Mass and charge as integers in arbitrary units: only their being zero matters. -/
def species (mass charge : Int) (pusher : List Char) : Outcome Pusher :=
  if charge ≠ 0 ∧ mass = 0 then .err
  else if pusher = "photon".toList ∧ ¬ (mass = 0 ∧ charge = 0) then .err
  else getPusherFlags pusher

end Entity.SpeciesInput
