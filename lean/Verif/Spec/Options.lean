import Verif.Model.Options

/-!
# The documented options (input.example.toml)

The documentation of the options, `input.example.toml`, as a table: where an option stands in the file, its
type and its default.  An option without default is required.
-/

namespace Entity.Options

variable {K : Type}

/-- What stands in the file under the keys `path`. -/
def entry : Toml K → List String → Option (Toml K)
  | v, [] => some v
  | .tab t, k :: ks => match t.lookup k with
    | some w => entry w ks
    | none => none
  | _, _ :: _ => none

/-- The documented types; integers with the number of bits of the type in the code. -/
inductive DocTy where
  | float
  | uint (bits : Nat)
  | int (bits : Nat)
  | bool
  | string
  | strings
  | uints (bits : Nat)

/-- What is written in the file is of the documented type and in its range, and means the value. -/
inductive Means : DocTy → Toml K → Val K → Prop
  | float (x : K) : Means .float (.float x) (.real x)
  | uint (bits n : Nat) : n < 2 ^ bits → Means (.uint bits) (.int n) (.uint n)
  | int (bits : Nat) (n : Int) : -(2 ^ (bits - 1)) ≤ n → n < 2 ^ (bits - 1) → 0 < bits →
      Means (.int bits) (.int n) (.int n)
  | bool (b : Bool) : Means .bool (.bool b) (.bool b)
  | string (s : String) : Means .string (.str s) (.str s)
  | strings (l : List String) : Means .strings (.arr (l.map fun (s : String) => .str s)) (.strs l)
  | uints (bits : Nat) (l : List Nat) : (∀ n ∈ l, n < 2 ^ bits) →
      Means (.uints bits) (.arr (l.map fun (n : Nat) => .int (Int.ofNat n))) (.uints l)

/-- An option. -/
structure Row (K : Type) where
  path : List String
  ty : DocTy
  dflt : Option (Val K)

/-- The name under which the option is known to the program and to problem generators. -/
def Row.name (r : Row K) : String := ".".intercalate r.path

/-- The parameters `p` follow the documentation of the option `r` for the file `f`: the value given in the
file is used; if none is given the default is, and an option without default must be given. -/
def Obeys (f : Toml K) (p : Prm K) (r : Row K) : Prop :=
  match entry f r.path with
  | some t => ∀ v, Means r.ty t v → p.get r.name = some v
  | none => ∃ d, r.dflt = some d ∧ p.get r.name = some d

section

variable [Field K]

/-- Options kept on a restart (input.example.toml:153-161, 384-402). -/
def keptOptions : List (Row K) :=
  [⟨["scales", "larmor0"], .float, none⟩,
   ⟨["scales", "skindepth0"], .float, none⟩,
   ⟨["particles", "ppc0"], .float, none⟩,
   ⟨["particles", "use_weights"], .bool, some (.bool false)⟩,
   ⟨["particles", "clear_interval"], .uint 32, some (.uint 100)⟩,
   ⟨["particles", "spatial_sorting_interval"], .uint 32, some (.uint 0)⟩]

/-- Other options (input.example.toml:1-17, 275-383, 477-731): those with the default in the code. -/
def options : List (Row K) :=
  [⟨["simulation", "name"], .string, none⟩,
   ⟨["simulation", "runtime"], .float, none⟩,
   ⟨["algorithms", "current_filters"], .uint 16, some (.uint 0)⟩,
   ⟨["algorithms", "timestep", "CFL"], .float, some (.real (95 / 100))⟩,
   ⟨["algorithms", "timestep", "correction"], .float, some (.real 1)⟩,
   ⟨["algorithms", "deposit", "enable"], .bool, some (.bool true)⟩,
   ⟨["algorithms", "fieldsolver", "enable"], .bool, some (.bool true)⟩,
   ⟨["algorithms", "fieldsolver", "delta_x"], .float, some (.real 0)⟩,
   ⟨["algorithms", "fieldsolver", "delta_y"], .float, some (.real 0)⟩,
   ⟨["algorithms", "fieldsolver", "delta_z"], .float, some (.real 0)⟩,
   ⟨["algorithms", "fieldsolver", "beta_xy"], .float, some (.real 0)⟩,
   ⟨["algorithms", "fieldsolver", "beta_yx"], .float, some (.real 0)⟩,
   ⟨["algorithms", "fieldsolver", "beta_xz"], .float, some (.real 0)⟩,
   ⟨["algorithms", "fieldsolver", "beta_zx"], .float, some (.real 0)⟩,
   ⟨["algorithms", "fieldsolver", "beta_yz"], .float, some (.real 0)⟩,
   ⟨["algorithms", "fieldsolver", "beta_zy"], .float, some (.real 0)⟩,
   ⟨["output", "interval_time"], .float, some (.real (-1))⟩,
   ⟨["output", "fields", "enable"], .bool, some (.bool true)⟩,
   ⟨["output", "fields", "quantities"], .strings, some (.strs [])⟩,
   ⟨["output", "fields", "custom"], .strings, some (.strs [])⟩,
   ⟨["output", "fields", "smoothing", "order"], .uint 16, some (.uint 0)⟩,
   ⟨["output", "fields", "smoothing", "method"], .string, some (.str "spline")⟩,
   ⟨["output", "particles", "enable"], .bool, some (.bool true)⟩,
   ⟨["output", "particles", "stride"], .uint 32, some (.uint 100)⟩,
   ⟨["output", "spectra", "enable"], .bool, some (.bool true)⟩,
   ⟨["output", "spectra", "e_min"], .float, some (.real (1 / 1000))⟩,
   ⟨["output", "spectra", "e_max"], .float, some (.real 1000)⟩,
   ⟨["output", "spectra", "log_bins"], .bool, some (.bool true)⟩,
   ⟨["output", "spectra", "n_bins"], .uint 64, some (.uint 200)⟩,
   ⟨["output", "debug", "as_is"], .bool, some (.bool false)⟩,
   ⟨["output", "debug", "ghosts"], .bool, some (.bool false)⟩,
   ⟨["output", "stats", "quantities"], .strings, some (.strs ["B^2", "E^2", "ExB", "Rho", "T00"])⟩,
   ⟨["output", "stats", "custom"], .strings, some (.strs [])⟩,
   ⟨["checkpoint", "interval"], .uint 32, some (.uint 1000)⟩,
   ⟨["checkpoint", "interval_time"], .float, some (.real (-1))⟩,
   ⟨["checkpoint", "keep"], .int 32, some (.int 2)⟩,
   ⟨["adios2", "aggregators_per_node"], .int 32, some (.int 0)⟩,
   ⟨["adios2", "max_shm_size"], .uint 64, some (.uint 4294967296)⟩,
   ⟨["adios2", "buffer_chunk_size"], .uint 64, some (.uint 16777216)⟩,
   ⟨["diagnostics", "interval"], .uint 32, some (.uint 1)⟩,
   ⟨["diagnostics", "blocking_timers"], .bool, some (.bool false)⟩,
   ⟨["diagnostics", "log_level"], .string, some (.str "VERBOSE")⟩]

/-- Options whose documented default (input.example.toml:478-487, 722-725) is not the one of the code. -/
def otherDefaults : List (Row K) :=
  [⟨["output", "format"], .string, some (.str "hdf5")⟩,
   ⟨["output", "interval"], .uint 32, some (.uint 1)⟩,
   ⟨["diagnostics", "colored_stdout"], .bool, some (.bool true)⟩]

/-- `checkpoint.write_path` (input.example.toml:670-678) of the simulation `name`; `checkpoint.read_path`
is that path unless given. -/
def writePath (name : String) : Row K :=
  ⟨["checkpoint", "write_path"], .string, some (.str (name ++ ".ckpt"))⟩

/-- Options of the general-relativistic engine (input.example.toml:311-319). -/
def optionsGR : List (Row K) :=
  [⟨["algorithms", "gr", "pusher_eps"], .float, some (.real (1 / 1000000))⟩,
   ⟨["algorithms", "gr", "pusher_niter"], .uint 16, some (.uint 10)⟩]

/-- Options of the guiding-centre approximation (input.example.toml:321-330). -/
def optionsGCA : List (Row K) :=
  [⟨["algorithms", "gca", "e_ovr_b_max"], .float, some (.real (9 / 10))⟩,
   ⟨["algorithms", "gca", "larmor_max"], .float, some (.real 0)⟩]

/-- Options of the radiation drag (input.example.toml:199-213). -/
def optionsDrag (kind : String) : List (Row K) :=
  [⟨["radiation", "drag", kind, "gamma_rad"], .float, some (.real 1)⟩]

/-- Options of the emission of photons (input.example.toml:214-273), with the default in the code. -/
def optionsEmission (kind : String) : List (Row K) :=
  [⟨["radiation", "drag", kind, "gamma_rad"], .float, some (.real 1)⟩,
   ⟨["radiation", "emission", kind, "gamma_qed"], .float, some (.real 10)⟩,
   ⟨["radiation", "emission", kind, "photon_weight"], .float, some (.real 1)⟩,
   ⟨["radiation", "emission", kind, "photon_species"], .uint 8, none⟩]

/-- `photon_energy_min` (input.example.toml:220-223, 250-253). -/
def energyMin (kind : String) : Row K :=
  ⟨["radiation", "emission", kind, "photon_energy_min"], .float, some (.real (1 / 10000))⟩

/-! ## Species -/

/-- The value `v` follows the documentation of the option `key` of a species. -/
def Follows (t : Toml K) (key : String) (ty : DocTy) (dflt : Option (Val K)) (v : Val K) : Prop :=
  match entry t [key] with
  | some w => ∀ u, Means ty w u → v = u
  | none => dflt = some v

/-- The names of the pushers (input.example.toml:434) and what they switch on. -/
def pushers : List (String × SpeciesInput.Pusher) :=
  [("boris", { boris := true }), ("vay", { vay := true }),
   ("boris,gca", { boris := true, gca := true }), ("vay,gca", { vay := true, gca := true }),
   ("photon", { photon := true }), ("none", {})]

/-- The names of the drag (input.example.toml:448-453): synchrotron, Compton. -/
def drags : List (String × Bool × Bool) :=
  [("none", false, false), ("synchrotron", true, false), ("compton", false, true),
   ("synchrotron,compton", true, true), ("compton,synchrotron", true, true)]

/-- The names of the emission (input.example.toml:455-460). -/
def emissions : List (String × Nat) := [("none", 0), ("synchrotron", 1), ("compton", 2)]

/-- The species `s` follows the documentation (input.example.toml:411-473): `n` is its number, from 1, `t` and
`t'` its tables in the kept and in the new file, `clear` and `sort` the intervals of all species.  Names
are matched in lower case. -/
structure SpeciesObeys [LinearOrder K] (mpi : Bool) (clear sort n : Nat) (t t' : Toml K) (s : Sp K) :
    Prop where
  index : s.index = n
  label : Follows t "label" .string (some (.str ("s" ++ toString n))) (.str s.label)
  mass : Follows t "mass" .float none (.real s.mass)
  charge : Follows t "charge" .float none (.real s.charge)
  /-- The number of particles is the integral part of the number given. -/
  maxnpart : ∃ x, entry t' ["maxnpart"] = some (.float x) ∧
    (0 ≤ x → (s.maxnpart : K) ≤ x ∧ x < s.maxnpart + 1)
  clearing : Follows t "clear_interval" (.uint 32) (some (.uint clear)) (.uint s.clearing)
  sorting : Follows t "spatial_sorting_interval" (.uint 32) (some (.uint sort)) (.uint s.sorting)
  tracking : Follows t "tracking" .bool (some (.bool false)) (.bool s.tracking)
  npldR : Follows t "n_payloads_real" (.uint 16) (some (.uint 0)) (.uint s.npldR)
  /-- Tracking reserves one or two more. -/
  npldI : ∃ m, Follows t "n_payloads_int" (.uint 16) (some (.uint 0)) (.uint m) ∧
    (m + 2 < 2 ^ 16 → s.npldI = m + (if s.tracking then (if mpi then 2 else 1) else 0))
  pusherGiven : ∀ w, entry t ["pusher"] = some (.str w) → ∀ e ∈ pushers, lower w = e.1 → s.pusher = e.2
  pusherDefault : entry t ["pusher"] = none →
    s.pusher = if s.mass = 0 ∧ s.charge = 0 then { photon := true } else { boris := true }
  emissionGiven : ∀ w, entry t ["emission"] = some (.str w) → ∀ e ∈ emissions, lower w = e.1 →
    s.emission = e.2
  emissionDefault : entry t ["emission"] = none → s.emission = 0
  dragGiven : ∀ w, entry t ["radiative_drag"] = some (.str w) → ∀ e ∈ drags, lower w = e.1 →
    s.dragSyn = e.2.1 ∧ s.dragCom = e.2.2
  /-- The drag comes with the emission. -/
  dragDefault : entry t ["radiative_drag"] = none →
    (s.dragSyn = true ↔ s.emission = 1) ∧ (s.dragCom = true ↔ s.emission = 2)
  massive : s.charge ≠ 0 → s.mass ≠ 0

end

end Entity.Options
