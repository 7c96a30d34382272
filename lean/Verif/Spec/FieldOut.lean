import Verif.Model.FieldOut
import Verif.Spec.Prompt

/-!
# What an output request denotes
-/

namespace Entity.FieldOut

open Entity Entity.Prompt

/-- The quantities the code knows, in small letters (input.example.toml:507). -/
def builtinNames : List (List Char) :=
  ["e", "b", "j", "dive", "rho", "charge", "n", "nppc", "t", "v", "d", "h", "divd", "a"].map
    String.toList

/-- A name that is, up to capital letters, one of the known quantities, possibly followed by an
underscore or by a letter or digit for a component and anything else. -/
def Reserved (name : List Char) : Prop :=
  ∃ p rest, name = p ++ rest ∧ p.map Char.toLower ∈ builtinNames ∧
    (rest = [] ∨ ∃ c ∈ '_' :: Spec.Prompt.letters, rest.head? = some c)

/-- What the components of a field should hold: the requested moment, mass-weighted mean velocity,
divergence, user-defined field or potential; or the components of the field, as they are or
interpolated to the centre of the cell and converted: in flat space `E`, `D` are the electric and `B`,
`H` the magnetic field, both to the orthonormal basis; in GR `D`, `B` are the main fields (contravariant),
`E`, `H` the auxiliary ones (covariant). `E`, `D`, `J` are defined on edges, `B`, `H` on faces. -/
def wanted (gr asIs : Bool) (f : Field) : List Src :=
  let field (a : Arr) (c : Nat) (i : Interp) (p : Prep) : List Src :=
    [0, 1, 2].map fun (k : Nat) => if asIs then .raw a (c + k) else .prepared a (c + k) i p
  match f.id with
  | .E => if gr then field .aux 0 .edges .physCov else field .em 0 .edges .hat
  | .D => field .em 0 .edges (if gr then .physCntrv else .hat)
  | .B => field .em 3 .faces (if gr then .physCntrv else .hat)
  | .H => if gr then field .aux 3 .faces .physCov else field .em 3 .faces .hat
  | .J => field .cur 0 .edges (if gr then .physCntrv else .hat)
  | .divE => [.divergence]
  | .divD => [.divergence]
  | .A => [.potential]
  | .T => f.comp.map fun c => .moment .T c f.species
  | .V => (if gr then [0, 1, 2, 3] else [1, 2, 3]).map fun c => .velocity c f.species
  | .Rho => [.moment .Rho [] f.species]
  | .Charge => [.moment .Charge [] f.species]
  | .N => [.moment .N [] f.species]
  | .Nppc => [.moment .Nppc [] f.species]
  | .Custom => [.custom f.name]

/-- A quantity that can be written: which one, the component of a vector or the two of a tensor, the
species, and the name given by the user if it is user-defined. -/
structure Quantity where
  id : Id
  comp : List Nat
  species : List Nat
  name : List Char
  deriving DecidableEq

/-- The quantities of a field: one, or one for each of its components. -/
def quantities (f : Field) : List Quantity :=
  let name := if f.id = .Custom then f.name else []
  if f.comp = [] then [⟨f.id, [], f.species, name⟩]
  else f.comp.map fun c => ⟨f.id, c, f.species, name⟩

end Entity.FieldOut
