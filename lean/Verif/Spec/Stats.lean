import Verif.Model.Stats

/-!
# What the statistics file should contain
-/

namespace Entity.Spec.Stats

open Entity Entity.Stats

/-- The columns a statistic stands for: one per component of a vector or of the stress-energy
tensor, one for a scalar. -/
def columns (s : Stat) : List (Stat × List Nat) :=
  if isVector s.id || s.id = T then s.comp.map fun c => (s, c) else [(s, [])]

/-- The label of a column: the name of the component for vectors, the name of the statistic
otherwise. -/
def label (c : Stat × List Nat) : Outcome (List Char) :=
  if isVector c.1.id then nameOfComp c.1 c.2 else nameOf c.1

/-- A row: step, time and the value of every column summed over the ranks. -/
def rowCells {V : Type} [AddMonoid V] (cols : List (Stat × List Nat)) (e : Env V) : List (Tok V) :=
  .num e.step :: .num e.time :: cols.map fun c => .num (e.value c.1 c.2).sum

/-- The header cells. -/
def headCells {V : Type} (names : List (List Char)) : List (Tok V) :=
  .text "step".toList :: .text "time".toList :: names.map .text

/-- The rows that should be in the file after some runs: a fresh run starts over, a resumed run
appends, a run with the output disabled changes nothing. -/
def kept {V : Type} (rs : List (Run V)) : List (Env V) :=
  rs.foldl (fun acc r => (if r.enabled && !r.resuming then [] else acc) ++
    (if r.enabled then r.rows else [])) []

/-! ## Particle statistics -/

variable {K : Type} [Field K] [LinearOrder K]

/-- The weight of a particle, one if weights are not in use. -/
def weightOf (useWeights : Bool) (p : Prtl K) : K := if useWeights then p.weight else 1

/-- The components of the four-velocity (of the momentum for massless particles). -/
def u4 (sqrt : K → K) (m : K) (p : Prtl K) : Nat → K
  | 0 => sqrt ((if m = 0 then 0 else 1) + (p.ux1 * p.ux1 + p.ux2 * p.ux2 + p.ux3 * p.ux3))
  | 1 => p.ux1
  | 2 => p.ux2
  | _ => p.ux3

/-- What a live particle of mass `m` and charge `q` contributes to a statistic: itself to `Npart`,
its volume-weighted number, mass or charge to `N`, `Rho`, `Charge`, and `m u^a u^b / u^0` to
`T^{ab}`; dead particles contribute nothing. -/
def contribution (sqrt : K → K) (dV : K) (useWeights : Bool) (id : Nat) (m q : K) (a b : Nat)
    (p : Prtl K) : K :=
  if p.tag ≠ Tags.alive then 0
  else if id = Npart then 1
  else dV * weightOf useWeights p *
    (if id = N then 1 else if id = Rho then m else if id = Charge then q
      else (if m = 0 then 1 else m) * u4 sqrt m p a * u4 sqrt m p b / u4 sqrt m p 0)

/-- All particles of species number `s` (counted from one) on all ranks. -/
def everywhere (ranks : List (List (Species K))) (s : Nat) : List (Prtl K) :=
  ranks.flatMap fun R => ((R[s - 1]?).map (·.prtls)).getD []

/-- Every rank holds the same list of species, with these masses and charges. -/
def SameSpecies (sp : List (K × K)) (ranks : List (List (Species K))) : Prop :=
  ∀ R ∈ ranks, R.map (fun r => (r.index, r.mass, r.charge))
    = sp.zipIdx.map fun x => (x.2 + 1, x.1.1, x.1.2)

/-- The species a request stands for: those listed, or all massive ones. -/
def wanted (sp : List (K × K)) (species : List Nat) : List Nat :=
  if species = [] then (sp.zipIdx.filter fun x => decide (0 < x.1.1)).map (·.2 + 1) else species

end Entity.Spec.Stats
