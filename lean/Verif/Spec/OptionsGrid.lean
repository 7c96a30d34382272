import Verif.Spec.Options

/-!
# The documented grid and boundary layers (input.example.toml:18-152)
-/

namespace Entity.Options

variable {K : Type}

/-- The metrics (input.example.toml:53-57): name in lower case, codes of metric and coordinates (1: Cartesian,
2: spherical, 3: quasi-spherical). -/
def metrics : List (String × Nat × Nat) :=
  [("minkowski", 1, 1), ("spherical", 2, 2), ("qspherical", 3, 3), ("kerr_schild", 4, 2),
   ("qkerr_schild", 5, 3), ("kerr_schild_0", 6, 2)]

/-- An interval in the file. -/
def written (e : K × K) : Toml K := .arr [.float e.1, .float e.2]

/-- A list of numbers in the file. -/
def numbers (l : List K) : Toml K := .arr (l.map Toml.float)

/-- One of the boundaries given under the keys `path` is `name` (in lower case). -/
def Boundary (f : Toml K) (path : List String) (name : String) : Prop :=
  ∃ l t s, entry f path = some (.arr l) ∧ .arr t ∈ l ∧ .str s ∈ t ∧ lower s = name

/-- The widths of a layer at both ends (input.example.toml:111-117). -/
def bothEnds [Zero K] : List K → K × K
  | [x] => (x, x)
  | [x, y] => (x, y)
  | _ => (0, 0)

section

variable [Field K] [LinearOrder K]

/-- `w` is 1% of the shortest extent. -/
def Percent (ext : List (K × K)) (w : K) : Prop :=
  (∃ e ∈ ext, w = (e.2 - e.1) / 100) ∧ ∀ e ∈ ext, w ≤ (e.2 - e.1) / 100

/-- The number of subdomains (input.example.toml:19-22). -/
def domainNumber (tasks : Option Nat) : Row K :=
  ⟨["simulation", "domain", "number"], .uint 32, some (.uint (tasks.getD 1))⟩

/-- The stretching (input.example.toml:59-67). -/
def stretching : List (Row K) :=
  [⟨["grid", "metric", "qsph_r0"], .float, some (.real 0)⟩,
   ⟨["grid", "metric", "qsph_h"], .float, some (.real 0)⟩]

/-- The spin (input.example.toml:68-71). -/
def spin : Row K := ⟨["grid", "metric", "ks_a"], .float, some (.real 0)⟩

/-- An atmosphere (input.example.toml:127-146). -/
def atmosphere : List (Row K) :=
  [⟨["grid", "boundaries", "atmosphere", "temperature"], .float, none⟩,
   ⟨["grid", "boundaries", "atmosphere", "density"], .float, none⟩,
   ⟨["grid", "boundaries", "atmosphere", "height"], .float, none⟩,
   ⟨["grid", "boundaries", "atmosphere", "ds"], .float, some (.real 0)⟩]

end

end Entity.Options
