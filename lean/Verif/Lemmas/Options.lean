import Verif.Spec.Options
import Mathlib.Tactic.Common
import Mathlib.Data.List.Nodup
import Mathlib.Tactic.Ring

/-!
# Lemmas about reading the input file
-/

namespace Entity.Options

open Entity Entity.Outcome Entity.Enums Entity.SpeciesInput

variable {K : Type}

/-! ## Looking up entries -/

theorem locate_eq (v : Toml K) (path : List String) :
    locate v path = match entry v path with
      | some t => .ok t
      | none => .err := by
  induction path generalizing v with
  | nil => simp [locate, entry]
  | cons k ks ih =>
    cases v <;> simp only [locate, entry, Toml.at, bind_err]
    rename_i t
    cases List.lookup k t <;> simp [ih]

theorem find_some {α : Type} {g : Toml K → Outcome α} {v t : Toml K} {path : List String}
    (h : entry v path = some t) : find g v path = g t := by
  simp [find, locate_eq, h]

theorem find_none {α : Type} {g : Toml K → Outcome α} {v : Toml K} {path : List String}
    (h : entry v path = none) : find g v path = .err := by
  simp [find, locate_eq, h]

theorem findOr_some {α : Type} {g : Toml K → Outcome α} {v t : Toml K} {path : List String} {d x : α}
    (h : entry v path = some t) (hx : g t = .ok x) : findOr g v path d = x := by
  simp [findOr, find_some h, hx]

theorem findOr_none {α : Type} {g : Toml K → Outcome α} {v : Toml K} {path : List String} {d : α}
    (h : entry v path = none) : findOr g v path d = d := by
  simp [findOr, find_none h]

/-- The getter `g` reads the documented type `ty`; `inj` stores the value. -/
def Reads {α : Type} (g : Toml K → Outcome α) (ty : DocTy) (inj : α → Val K) : Prop :=
  ∀ t v, Means ty t v → ∃ x, g t = .ok x ∧ inj x = v

theorem reads_real : Reads (K := K) getReal .float .real := by
  intro t v h
  cases h
  exact ⟨_, rfl, rfl⟩

theorem reads_bool : Reads (K := K) getBool .bool .bool := by
  intro t v h
  cases h
  exact ⟨_, rfl, rfl⟩

theorem reads_str : Reads (K := K) getStr .string .str := by
  intro t v h
  cases h
  exact ⟨_, rfl, rfl⟩

theorem getUInt_nat {bits n : Nat} (h : n < 2 ^ bits) :
    getUInt bits (.int (n : Int) : Toml K) = .ok n := by
  have : ((n : Int) % 2 ^ bits).toNat = n := by
    rw [Int.emod_eq_of_lt (by omega) (by exact_mod_cast h)]
    simp
  simp [getUInt, this]

theorem reads_uint (bits : Nat) : Reads (K := K) (getUInt bits) (.uint bits) .uint := by
  intro t v h
  cases h with
  | uint _ n h => exact ⟨n, getUInt_nat h, rfl⟩

theorem reads_int (bits : Nat) : Reads (K := K) (getInt bits) (.int bits) .int := by
  intro t v h
  cases h with
  | int _ n h1 h2 h3 =>
    refine ⟨n, ?_, rfl⟩
    have e : (2 : Nat) ^ bits = 2 * 2 ^ (bits - 1) := by
      conv_lhs => rw [show bits = (bits - 1) + 1 by omega]
      rw [pow_succ, Nat.mul_comm]
    have : Int.bmod n (2 ^ bits) = n := by
      have c : ((2 ^ (bits - 1) : Nat) : Int) = 2 ^ (bits - 1) := by push_cast; rfl
      rw [e]
      apply Int.bmod_eq_of_le
      · push_cast; omega
      · push_cast; omega
    simp [getInt, this]

theorem getAll_map {α β : Type} {g : Toml K → Outcome α} (c : β → Toml K) (d : β → α) (l : List β)
    (h : ∀ x ∈ l, g (c x) = .ok (d x)) : getAll g (l.map c) = .ok (l.map d) := by
  induction l with
  | nil => rfl
  | cons x l ih =>
    simp only [List.map_cons, getAll]
    rw [h x (by simp), ih fun y hy => h y (by simp [hy])]
    rfl

theorem reads_strs : Reads (K := K) (getVec getStr) .strings .strs := by
  intro t v h
  cases h with
  | strings l =>
    refine ⟨l, ?_, rfl⟩
    simp only [getVec]
    rw [getAll_map _ id l fun x _ => rfl, List.map_id]

theorem reads_uints (bits : Nat) : Reads (K := K) (getVec (getUInt bits)) (.uints bits) .uints := by
  intro t v h
  cases h with
  | uints _ l h =>
    refine ⟨l, ?_, rfl⟩
    simp only [getVec]
    rw [getAll_map (fun (n : Nat) => Toml.int (Int.ofNat n)) id l fun x hx => getUInt_nat (h x hx),
      List.map_id]

theorem obeys_opt {α : Type} {g : Toml K → Outcome α} {ty : DocTy} {inj : α → Val K} {f : Toml K}
    {p : Prm K} {path : List String} {d : α} (hr : Reads g ty inj)
    (h : p.get (".".intercalate path) = some (inj (findOr g f path d))) :
    Obeys f p ⟨path, ty, some (inj d)⟩ := by
  unfold Obeys
  simp only [Row.name]
  cases he : entry f path with
  | none => exact ⟨_, rfl, by rw [h, findOr_none he]⟩
  | some t =>
    intro v hv
    obtain ⟨x, hx, rfl⟩ := hr t v hv
    rw [h, findOr_some he hx]

theorem obeys_req {α : Type} {g : Toml K → Outcome α} {ty : DocTy} {inj : α → Val K} {f : Toml K}
    {p : Prm K} {path : List String} {x : α} (hr : Reads g ty inj) (hf : find g f path = .ok x)
    (h : p.get (".".intercalate path) = some (inj x)) : Obeys f p ⟨path, ty, none⟩ := by
  unfold Obeys
  simp only [Row.name]
  cases he : entry f path with
  | none => rw [find_none he] at hf; cases hf
  | some t =>
    intro v hv
    obtain ⟨y, hy, rfl⟩ := hr t v hv
    rw [find_some he, hy] at hf
    cases hf
    exact h

/-! ## The container -/

theorem get_sets_not {p : Prm K} {kvs : List (String × Val K)} {k : String}
    (h : k ∉ kvs.map Prod.fst) : (p.sets kvs).get k = p.get k := by
  induction kvs generalizing p with
  | nil => rfl
  | cons e kvs ih =>
    obtain ⟨a, b⟩ := e
    simp only [List.map_cons, List.mem_cons, not_or] at h
    rw [Prm.sets, ih h.2]
    simp [Prm.get, Prm.set, look, Ne.symm h.1]

theorem get_sets_mem {p : Prm K} {kvs : List (String × Val K)} {k : String} {v : Val K}
    (hn : (kvs.map Prod.fst).Nodup) (h : (k, v) ∈ kvs) : (p.sets kvs).get k = some v := by
  induction kvs generalizing p with
  | nil => cases h
  | cons e kvs ih =>
    obtain ⟨a, b⟩ := e
    simp only [List.map_cons, List.nodup_cons] at hn
    rcases List.mem_cons.1 h with h | h
    · cases h
      rw [Prm.sets, get_sets_not hn.1]
      simp [Prm.get, Prm.set, look]
    · exact ih hn.2 h

theorem sets_append (p : Prm K) (a b : List (String × Val K)) :
    p.sets (a ++ b) = (p.sets a).sets b := by
  induction a generalizing p with
  | nil => rfl
  | cons e a ih => exact ih _

theorem get_promise (p : Prm K) (l : List String) (k : String) : (p.promise l).get k = p.get k := rfl

/-! ## The names -/

section

variable [Field K] [LinearOrder K] [IsStrictOrderedRing K] [FloorRing K]

/-- Names set by `outputParams` and `serviceParams`. -/
def outKeys : List String :=
  ["output.format", "output.interval", "output.interval_time",
   "output.fields.enable", "output.fields.interval", "output.fields.interval_time",
   "output.particles.enable", "output.particles.interval", "output.particles.interval_time",
   "output.spectra.enable", "output.spectra.interval", "output.spectra.interval_time",
   "output.stats.enable", "output.stats.interval", "output.stats.interval_time",
   "output.fields.quantities", "output.fields.custom", "output.fields.smoothing.order",
   "output.fields.smoothing.method", "output.fields.downsampling", "output.particles.species",
   "output.particles.stride", "output.spectra.e_min", "output.spectra.e_max", "output.spectra.log_bins",
   "output.spectra.n_bins", "output.stats.quantities", "output.stats.custom", "output.debug.as_is",
   "output.debug.ghosts",
   "checkpoint.interval", "checkpoint.interval_time", "checkpoint.keep", "checkpoint.walltime",
   "checkpoint.write_path", "checkpoint.read_path", "adios2.aggregators_per_node",
   "adios2.max_shm_size", "adios2.buffer_chunk_size", "diagnostics.interval",
   "diagnostics.blocking_timers", "diagnostics.colored_stdout", "diagnostics.log_level"]

/-- Names set by `boundaryParams`. -/
def bKeys : List String :=
  ["grid.boundaries.match.ds", "grid.boundaries.absorb.ds", "grid.boundaries.atmosphere.temperature",
   "grid.boundaries.atmosphere.density", "grid.boundaries.atmosphere.height",
   "grid.boundaries.atmosphere.ds", "grid.boundaries.atmosphere.g", "grid.boundaries.atmosphere.species"]

/-- Names set by `algorithmParams`. -/
def algKeys : List String :=
  ["algorithms.timestep.CFL", "algorithms.timestep.dt", "algorithms.timestep.correction",
   "algorithms.current_filters", "algorithms.deposit.enable", "algorithms.deposit.order",
   "algorithms.fieldsolver.enable",
   "algorithms.fieldsolver.beta_xy", "algorithms.fieldsolver.beta_xz", "algorithms.fieldsolver.beta_yx",
   "algorithms.fieldsolver.beta_yz", "algorithms.fieldsolver.beta_zx", "algorithms.fieldsolver.beta_zy",
   "algorithms.fieldsolver.delta_x", "algorithms.fieldsolver.delta_y", "algorithms.fieldsolver.delta_z",
   "algorithms.gr.pusher_eps", "algorithms.gr.pusher_niter",
   "algorithms.gca.e_ovr_b_max", "algorithms.gca.larmor_max"]

/-- Names set by `emissionParams "synchrotron"`. -/
def synKeys : List String :=
  ["radiation.drag.synchrotron.gamma_rad", "radiation.emission.synchrotron.gamma_qed",
   "radiation.emission.synchrotron.photon_energy_min", "radiation.emission.synchrotron.photon_weight",
   "radiation.emission.synchrotron.photon_species", "radiation.emission.synchrotron.nominal_probability",
   "radiation.emission.synchrotron.nominal_photon_energy"]

/-- Names set by `emissionParams "compton"`. -/
def comKeys : List String :=
  ["radiation.drag.compton.gamma_rad", "radiation.emission.compton.gamma_qed",
   "radiation.emission.compton.photon_energy_min", "radiation.emission.compton.photon_weight",
   "radiation.emission.compton.photon_species", "radiation.emission.compton.nominal_probability",
   "radiation.emission.compton.nominal_photon_energy"]

/-- Names set first by `setMutable`. -/
def mutKeys : List String :=
  ["simulation.name", "simulation.runtime", "grid.boundaries.fields", "grid.boundaries.particles",
   "particles.species"]

theorem out_keys {dim nspec : Nat} {f : Toml K} {out : List (String × Val K)} (name : String)
    (h : outputParams dim nspec f = .ok out) : (out ++ serviceParams name f).map Prod.fst = outKeys := by
  simp only [outputParams, bind_eq_ok, pure_eq, ok.injEq] at h
  obtain ⟨_, _, dwn, _, _, _, rfl⟩ := h
  simp [categoryParams, serviceParams, outKeys]

theorem alg_keys (E : Env K) (dx0 : K) (gr gca : Bool) (f : Toml K) :
    List.Sublist ((algorithmParams E dx0 gr gca f).map Prod.fst) algKeys := by
  have e : (algorithmParams E dx0 true true f).map Prod.fst = algKeys := by
    simp [algorithmParams, algKeys]
  rw [← e]
  simp only [algorithmParams, List.map_append]
  refine List.Sublist.append (List.Sublist.append (List.Sublist.refl _) ?_) ?_
  · cases gr <;> simp
  · cases gca <;> simp

theorem boundary_keys {p : Prm K} {dim coord : Nat} {ext : List (K × K)} {f : Toml K}
    {b : List (String × Val K)} (h : boundaryParams p dim coord ext f = .ok b) :
    List.Sublist (b.map Prod.fst) bKeys := by
  simp only [boundaryParams, bind_eq_ok, pure_eq, ok.injEq] at h
  obtain ⟨atm, ha, rfl⟩ := h
  have e : bKeys = [bKeys[0]] ++ [bKeys[1]] ++ bKeys.drop 2 := rfl
  rw [e, List.map_append, List.map_append]
  refine List.Sublist.append (List.Sublist.append ?_ ?_) ?_
  · split
    · exact List.Sublist.refl _
    · exact List.nil_sublist _
  · split
    · exact List.Sublist.refl _
    · exact List.nil_sublist _
  · split at ha
    · simp only [atmosphereParams, bind_eq_ok, pure_eq, ok.injEq] at ha
      obtain ⟨_, _, _, _, _, _, _, _, rfl⟩ := ha
      exact List.Sublist.refl _
    · cases ha
      exact List.nil_sublist _

theorem syn_keys {w dt : K} {f : Toml K} {x : List (String × Val K)}
    (h : emissionParams "synchrotron" w dt f = .ok x) : x.map Prod.fst = synKeys := by
  simp only [emissionParams, bind_eq_ok, pure_eq, ok.injEq] at h
  obtain ⟨_, _, rfl⟩ := h
  simp [synKeys]

theorem com_keys {w dt : K} {f : Toml K} {x : List (String × Val K)}
    (h : emissionParams "compton" w dt f = .ok x) : x.map Prod.fst = comKeys := by
  simp only [emissionParams, bind_eq_ok, pure_eq, ok.injEq] at h
  obtain ⟨_, _, rfl⟩ := h
  simp [comKeys]

/-- Names set by `keptParams`. -/
def keptKeys : List String :=
  ["scales.larmor0", "scales.skindepth0", "scales.sigma0", "scales.B0", "scales.omegaB0",
   "particles.ppc0", "particles.use_weights", "particles.clear_interval",
   "particles.spatial_sorting_interval", "scales.n0", "scales.q0", "particles.nspec",
   "particles.species"]

theorem kept_keys (f : Toml K) (a b c d : K) (m n q : Nat) (sps : List (Sp K)) :
    (keptParams f a b c d m n q sps).map Prod.fst = keptKeys := rfl

theorem first_keys (name : String) (r : K) (bc : BoundaryInput.Result) (sps : List (Sp K)) :
    (firstParams name r bc sps).map Prod.fst = mutKeys := rfl

theorem immutable_ok {E : Env K} {f : Toml K} {i : Immutable K} (h : setImmutable E f = .ok i) :
    ∃ engName larmor0 skindepth0 ppc0 proms,
      find getStr f ["simulation", "engine"] = .ok engName ∧
      pick simEngine (lower engName) = .ok i.engine ∧
      readGrid E i.engine f = .ok i.grid ∧
      find getReal f ["scales", "larmor0"] = .ok larmor0 ∧
      find getReal f ["scales", "skindepth0"] = .ok skindepth0 ∧
      0 < larmor0 ∧ 0 < skindepth0 ∧
      find getReal f ["particles", "ppc0"] = .ok ppc0 ∧ 0 < ppc0 ∧
      readAllSpecies E i.engine (findOr (getUInt 32) f ["particles", "clear_interval"] 100)
        (findOr (getUInt 32) f ["particles", "spatial_sorting_interval"] 0) 1
        (findOr getArr f ["particles", "species"] []) = .ok (i.species, proms) ∧
      i.omegaB0 = 1 / larmor0 ∧
      i.prm = ((((⟨[], []⟩ : Prm K).set "simulation.engine" (.enum i.engine)).sets
        (gridParams i.grid)).sets
        (keptParams f larmor0 skindepth0 ppc0 i.grid.V0
          (findOr (getUInt 32) f ["particles", "clear_interval"] 100)
          (findOr (getUInt 32) f ["particles", "spatial_sorting_interval"] 0)
          (findOr getArr f ["particles", "species"] []).length i.species)).promise proms := by
  simp only [setImmutable, bind_eq_ok, pure_eq, ok.injEq] at h
  obtain ⟨engName, h1, engine, h2, g, h3, larmor0, h4, skindepth0, h5, ⟨⟩, h6, ppc0, h7, ⟨⟩, h8,
    ⟨sps, proms⟩, h9, rfl⟩ := h
  have h6' : ¬ (larmor0 ≤ 0 ∨ skindepth0 ≤ 0) := by
    intro hc
    simp [errorIf, hc] at h6
  have h8' : ¬ (ppc0 ≤ 0) := by
    intro hc
    simp [errorIf, hc] at h8
  push_neg at h6' h8'
  exact ⟨engName, larmor0, skindepth0, ppc0, proms, h1, h2, h3, h4, h5, h6'.1, h6'.2, h7, h8', h9,
    rfl, rfl⟩

theorem mutable_ok {E : Env K} {i : Immutable K} {f : Toml K} {p : Prm K}
    (h : setMutable E i f = .ok p) :
    ∃ name runtime bc proms sps out p1 b x,
      find getStr f ["simulation", "name"] = .ok name ∧
      find getReal f ["simulation", "runtime"] = .ok runtime ∧
      readBoundaries i.engine i.grid.dim i.grid.coord f = .ok (bc, proms) ∧
      (findOr getArr f ["particles", "species"] []).length = i.species.length ∧
      updateSpecies (findOr getArr f ["particles", "species"] []) i.species = .ok sps ∧
      outputParams i.grid.dim i.species.length f = .ok out ∧
      p1 = ((i.prm.promise proms).sets (firstParams name runtime bc sps)).sets
        (out ++ serviceParams name f) ∧
      boundaryParams p1 i.grid.dim i.grid.coord i.grid.extent f = .ok b ∧
      extraParams p1 i.omegaB0
        (findOr getReal f ["algorithms", "timestep", "CFL"] (95 / 100) * i.grid.dx0) f = .ok x ∧
      (∀ k, k ≠ "output.stats.enable" ∨ i.grid.coord = 1 → p.get k = (p1.sets (b ++
        algorithmParams E i.grid.dx0 (decide (i.engine = 2)) (p1.promised "algorithms.gca.e_ovr_b_max") f
        ++ x)).get k) ∧
      (i.grid.coord ≠ 1 → p.get "output.stats.enable" = some (.bool false)) ∧
      p.promises = i.prm.promises ++ proms := by
  simp only [setMutable, bind_eq_ok, pure_eq, ok.injEq] at h
  obtain ⟨name, h1, runtime, h2, ⟨bc, proms⟩, h3, ⟨⟩, h4, sps, h5, out, h6, b, h7, x, h8, rfl⟩ := h
  have h4' : ¬ ((findOr getArr f ["particles", "species"] []).length ≠ i.species.length) := by
    intro hc
    simp [errorIf, hc] at h4
  have hs : ∀ (p : Prm K) (l : List (String × Val K)), (p.sets l).promises = p.promises := by
    intro p l
    induction l generalizing p with
    | nil => rfl
    | cons e l ih => exact ih _
  refine ⟨name, runtime, bc, proms, sps, out, _, b, x, h1, h2, h3, not_not.1 h4', h5, h6, rfl, h7, h8,
    ?_, ?_, ?_⟩
  · intro k hk
    split
    · rename_i hc
      have : k ≠ "output.stats.enable" := hk.resolve_right hc
      simp [Prm.get, Prm.set, look, this.symm]
    · rfl
  · intro hc
    simp [hc, Prm.get, Prm.set, look]
  · split <;> simp [hs, Prm.set, Prm.promise]

theorem load_ok {E : Env K} {kept f : Toml K} {p : Prm K} (h : load E kept f = .ok p) :
    ∃ i, setImmutable E kept = .ok i ∧ setMutable E i f = .ok p ∧ p.fulfilled = true := by
  simp only [load, bind_eq_ok, pure_eq, ok.injEq] at h
  obtain ⟨i, h1, q, h2, ⟨⟩, h3, rfl⟩ := h
  refine ⟨i, h1, h2, ?_⟩
  by_contra hc
  simp [errorIf, hc] at h3

theorem extra_ok {p : Prm K} {w dt : K} {f : Toml K} {x : List (String × Val K)}
    (h : extraParams p w dt f = .ok x) :
    ∃ e1 e2, x = (if p.promised "radiation.drag.synchrotron.gamma_rad" then dragParams "synchrotron" f
        else []) ++ (if p.promised "radiation.drag.compton.gamma_rad" then dragParams "compton" f else [])
        ++ e1 ++ e2 ∧
      (if p.promised "radiation.emission.synchrotron.photon_species" then
        emissionParams "synchrotron" w dt f else .ok []) = .ok e1 ∧
      (if p.promised "radiation.emission.compton.photon_species" then
        emissionParams "compton" w dt f else .ok []) = .ok e2 := by
  simp only [extraParams, bind_eq_ok, pure_eq, ok.injEq] at h
  obtain ⟨e1, h1, e2, h2, rfl⟩ := h
  exact ⟨e1, e2, rfl, h1, h2⟩

theorem emission_keys {c : Bool} {w dt : K} {f : Toml K} {x : List (String × Val K)}
    (h : (if c then emissionParams "synchrotron" w dt f else .ok []) = .ok x) :
    List.Sublist (x.map Prod.fst) synKeys := by
  split at h
  · rw [syn_keys h]
  · cases h
    exact List.nil_sublist _

theorem emission_keys' {c : Bool} {w dt : K} {f : Toml K} {x : List (String × Val K)}
    (h : (if c then emissionParams "compton" w dt f else .ok []) = .ok x) :
    List.Sublist (x.map Prod.fst) comKeys := by
  split at h
  · rw [com_keys h]
  · cases h
    exact List.nil_sublist _

theorem extra_keys {p : Prm K} {w dt : K} {f : Toml K} {x : List (String × Val K)}
    (h : extraParams p w dt f = .ok x) : ∀ k ∈ x.map Prod.fst, k ∈ synKeys ++ comKeys := by
  obtain ⟨e1, e2, rfl, h1, h2⟩ := extra_ok h
  intro k hk
  simp only [List.map_append, List.mem_append] at hk ⊢
  rcases hk with ((hk | hk) | hk) | hk
  · left
    split at hk
    · simp only [dragParams, List.map_cons, List.map_nil, List.mem_singleton] at hk
      subst hk
      decide
    · cases hk
  · right
    split at hk
    · simp only [dragParams, List.map_cons, List.map_nil, List.mem_singleton] at hk
      subst hk
      decide
    · cases hk
  · exact .inl ((emission_keys h1).subset hk)
  · exact .inr ((emission_keys' h2).subset hk)

theorem mem_keys {l : List (String × Val K)} {k : String} {v : Val K} (h : (k, v) ∈ l) :
    k ∈ l.map Prod.fst := List.mem_map.2 ⟨_, h, rfl⟩

/-- Everything the final container holds. -/
theorem gets {E : Env K} {i : Immutable K} {kept f : Toml K} {p : Prm K}
    (hi : setImmutable E kept = .ok i) (h : setMutable E i f = .ok p) :
    ∃ engName larmor0 skindepth0 ppc0 proms name runtime bc proms' sps out p1 x,
      find getStr kept ["simulation", "engine"] = .ok engName ∧
      pick simEngine (lower engName) = .ok i.engine ∧
      readGrid E i.engine kept = .ok i.grid ∧
      find getReal kept ["scales", "larmor0"] = .ok larmor0 ∧
      find getReal kept ["scales", "skindepth0"] = .ok skindepth0 ∧
      0 < larmor0 ∧ 0 < skindepth0 ∧
      find getReal kept ["particles", "ppc0"] = .ok ppc0 ∧ 0 < ppc0 ∧
      readAllSpecies E i.engine (findOr (getUInt 32) kept ["particles", "clear_interval"] 100)
        (findOr (getUInt 32) kept ["particles", "spatial_sorting_interval"] 0) 1
        (findOr getArr kept ["particles", "species"] []) = .ok (i.species, proms) ∧
      i.omegaB0 = 1 / larmor0 ∧
      find getStr f ["simulation", "name"] = .ok name ∧
      find getReal f ["simulation", "runtime"] = .ok runtime ∧
      readBoundaries i.engine i.grid.dim i.grid.coord f = .ok (bc, proms') ∧
      (findOr getArr f ["particles", "species"] []).length = i.species.length ∧
      updateSpecies (findOr getArr f ["particles", "species"] []) i.species = .ok sps ∧
      outputParams i.grid.dim i.species.length f = .ok out ∧
      p1.promises = proms ++ proms' ∧
      extraParams p1 i.omegaB0
        (findOr getReal f ["algorithms", "timestep", "CFL"] (95 / 100) * i.grid.dx0) f = .ok x ∧
      (∀ k v, (k, v) ∈ keptParams kept larmor0 skindepth0 ppc0 i.grid.V0
          (findOr (getUInt 32) kept ["particles", "clear_interval"] 100)
          (findOr (getUInt 32) kept ["particles", "spatial_sorting_interval"] 0)
          (findOr getArr kept ["particles", "species"] []).length i.species →
        k ≠ "particles.species" → p.get k = some v) ∧
      (∀ k v, (k, v) ∈ firstParams name runtime bc sps → p.get k = some v) ∧
      (∀ k v, (k, v) ∈ out ++ serviceParams name f → k ≠ "output.stats.enable" ∨ i.grid.coord = 1 →
        p.get k = some v) ∧
      (∀ k v, (k, v) ∈ algorithmParams E i.grid.dx0 (decide (i.engine = 2))
        (p1.promised "algorithms.gca.e_ovr_b_max") f → p.get k = some v) ∧
      (∀ k v, k ∈ synKeys ++ comKeys → (∀ q : Prm K, (q.sets x).get k = some v) → p.get k = some v) ∧
      p.get "simulation.engine" = some (.enum i.engine) ∧
      p.get "scales.V0" = some (.real i.grid.V0) ∧
      p.get "scales.dx0" = some (.real i.grid.dx0) := by
  obtain ⟨engName, larmor0, skindepth0, ppc0, proms, h1, h2, h3, h4, h5, h6, h7, h8, h9, h10, h11, h12⟩ :=
    immutable_ok hi
  obtain ⟨name, runtime, bc, proms', sps, out, p1, b, x, m1, m2, m3, m4, m5, m6, m7, m8, m9, m10, m11,
    m12⟩ := mutable_ok h
  have hs : ∀ (p : Prm K) (l : List (String × Val K)), (p.sets l).promises = p.promises := by
    intro p l
    induction l generalizing p with
    | nil => rfl
    | cons e l ih => exact ih _
  have ka := alg_keys E i.grid.dx0 (decide (i.engine = 2)) (p1.promised "algorithms.gca.e_ovr_b_max") f
  have kb := boundary_keys m8
  have kx := extra_keys m9
  have ko := out_keys name m6
  -- a name that is not set by the last three lists
  have late : ∀ k, k ∉ bKeys → k ∉ algKeys → k ∉ synKeys ++ comKeys →
      k ≠ "output.stats.enable" ∨ i.grid.coord = 1 → p.get k = p1.get k := by
    intro k c1 c2 c3 c4
    rw [m10 k c4, get_sets_not]
    simp only [List.map_append, List.mem_append, not_or]
    exact ⟨⟨fun hk => c1 (kb.subset hk), fun hk => c2 (ka.subset hk)⟩, fun hk => c3 (kx k hk)⟩
  -- nor by the list of the output
  have mid : ∀ k, k ∉ bKeys → k ∉ algKeys → k ∉ synKeys ++ comKeys → k ∉ outKeys →
      k ≠ "output.stats.enable" → p.get k = (i.prm.sets (firstParams name runtime bc sps)).get k := by
    intro k c1 c2 c3 c4 c5
    rw [late k c1 c2 c3 (.inl c5), m7, get_sets_not (by rw [ko]; exact c4)]
    by_cases hk : k ∈ (firstParams name runtime bc sps).map Prod.fst
    · obtain ⟨⟨k', v⟩, hv, rfl⟩ := List.mem_map.1 hk
      rw [get_sets_mem (by rw [first_keys]; decide) hv, get_sets_mem (by rw [first_keys]; decide) hv]
    · rw [get_sets_not hk, get_sets_not hk]
      rfl
  -- nor by the first list
  have early : ∀ k, k ∉ bKeys → k ∉ algKeys → k ∉ synKeys ++ comKeys → k ∉ outKeys →
      k ≠ "output.stats.enable" → k ∉ mutKeys → p.get k = i.prm.get k := by
    intro k c1 c2 c3 c4 c5 c6
    rw [mid k c1 c2 c3 c4 c5, get_sets_not (by rw [first_keys]; exact c6)]
  have grid : ∀ k, k ∉ bKeys → k ∉ algKeys → k ∉ synKeys ++ comKeys → k ∉ outKeys →
      k ≠ "output.stats.enable" → k ∉ mutKeys → k ∉ keptKeys → p.get k =
        (((⟨[], []⟩ : Prm K).set "simulation.engine" (.enum i.engine)).sets (gridParams i.grid)).get k := by
    intro k c1 c2 c3 c4 c5 c6 c7
    rw [early k c1 c2 c3 c4 c5 c6, h12, get_promise, get_sets_not (by rw [kept_keys]; exact c7)]
  refine ⟨engName, larmor0, skindepth0, ppc0, proms, name, runtime, bc, proms', sps, out, p1, x, h1, h2,
    h3, h4, h5, h6, h7, h8, h9, h10, h11, m1, m2, m3, m4, m5, m6, ?_, m9, ?_, ?_, ?_, ?_, ?_, ?_, ?_, ?_⟩
  · rw [m7, hs, hs, h12]
    simp only [Prm.promise]
    rw [hs, hs]
    rfl
  · intro k v hk hne
    have hk' : k ∈ keptKeys := by
      have := mem_keys hk
      rwa [kept_keys] at this
    have dis : ∀ k ∈ keptKeys, k ≠ "particles.species" → k ∉ bKeys ∧ k ∉ algKeys ∧
        k ∉ synKeys ++ comKeys ∧ k ∉ outKeys ∧ k ≠ "output.stats.enable" ∧ k ∉ mutKeys := by decide
    obtain ⟨c1, c2, c3, c4, c5, c6⟩ := dis k hk' hne
    rw [early k c1 c2 c3 c4 c5 c6, h12, get_promise]
    exact get_sets_mem (by rw [kept_keys]; decide) hk
  · intro k v hk
    have hk' : k ∈ mutKeys := by
      have := mem_keys hk
      rwa [first_keys] at this
    have dis : ∀ k ∈ mutKeys, k ∉ bKeys ∧ k ∉ algKeys ∧
        k ∉ synKeys ++ comKeys ∧ k ∉ outKeys ∧ k ≠ "output.stats.enable" := by decide
    obtain ⟨c1, c2, c3, c4, c5⟩ := dis k hk'
    rw [mid k c1 c2 c3 c4 c5]
    exact get_sets_mem (by rw [first_keys]; decide) hk
  · intro k v hk hc
    have hk' : k ∈ outKeys := by
      have := mem_keys hk
      rwa [ko] at this
    have dis : ∀ k ∈ outKeys, k ∉ bKeys ∧ k ∉ algKeys ∧ k ∉ synKeys ++ comKeys := by decide
    obtain ⟨c1, c2, c3⟩ := dis k hk'
    rw [late k c1 c2 c3 hc, m7]
    exact get_sets_mem (by rw [ko]; decide) hk
  · intro k v hk
    have hk' : k ∈ algKeys := ka.subset (mem_keys hk)
    have dis : ∀ k ∈ algKeys, k ≠ "output.stats.enable" ∧ k ∉ synKeys ++ comKeys := by decide
    obtain ⟨c1, c2⟩ := dis k hk'
    rw [m10 k (.inl c1), sets_append, get_sets_not fun hx => c2 (kx k hx), sets_append]
    exact get_sets_mem (ka.nodup (by decide)) hk
  · intro k v hk hq
    have dis : ∀ k ∈ synKeys ++ comKeys, k ≠ "output.stats.enable" := by decide
    rw [m10 k (.inl (dis k hk)), sets_append]
    exact hq _
  · rw [grid _ (by decide) (by decide) (by decide) (by decide) (by decide) (by decide) (by decide)]
    rw [get_sets_not]
    · simp [Prm.get, Prm.set, look]
    · simp only [gridParams, List.map_append, List.map_map, List.mem_append, List.map_cons, List.map_nil,
        not_or]
      refine ⟨⟨by decide, ?_⟩, by decide⟩
      intro hc
      obtain ⟨e, _, he⟩ := List.mem_map.1 hc
      have := congrArg (fun s => s.toList.head?) he
      simp at this
  · rw [grid _ (by decide) (by decide) (by decide) (by decide) (by decide) (by decide) (by decide)]
    rw [gridParams, sets_append]
    refine get_sets_mem ?_ (by simp)
    show List.Nodup ["grid.metric.params", "grid.extent", "scales.dx0", "scales.V0"]
    decide
  · rw [grid _ (by decide) (by decide) (by decide) (by decide) (by decide) (by decide) (by decide)]
    rw [gridParams, sets_append]
    refine get_sets_mem ?_ (by simp)
    show List.Nodup ["grid.metric.params", "grid.extent", "scales.dx0", "scales.V0"]
    decide

theorem emission_ok {kind : String} {w dt : K} {f : Toml K} {e : List (String × Val K)}
    (h : emissionParams kind w dt f = .ok e) :
    ∃ s, find (getUInt 8) f ["radiation", "emission", kind, "photon_species"] = .ok s ∧
      e = [("radiation.drag." ++ kind ++ ".gamma_rad",
          .real (findOr getReal f ["radiation", "drag", kind, "gamma_rad"] 1)),
        ("radiation.emission." ++ kind ++ ".gamma_qed",
          .real (findOr getReal f ["radiation", "emission", kind, "gamma_qed"] 10)),
        ("radiation.emission." ++ kind ++ ".photon_energy_min",
          .real (findOr getReal f ["radiation", "emission", kind, "photon_energy_min"] (1 / 1000))),
        ("radiation.emission." ++ kind ++ ".photon_weight",
          .real (findOr getReal f ["radiation", "emission", kind, "photon_weight"] 1)),
        ("radiation.emission." ++ kind ++ ".photon_species", .uint s),
        ("radiation.emission." ++ kind ++ ".nominal_probability",
          .real (w * (1 / 10) * dt * (findOr getReal f ["radiation", "emission", kind, "gamma_qed"] 10 /
            findOr getReal f ["radiation", "drag", kind, "gamma_rad"] 1) ^ 2 /
            findOr getReal f ["radiation", "emission", kind, "photon_weight"] 1)),
        ("radiation.emission." ++ kind ++ ".nominal_photon_energy",
          .real (1 / findOr getReal f ["radiation", "emission", kind, "gamma_qed"] 10 ^ 2))] := by
  simp only [emissionParams, bind_eq_ok, pure_eq, ok.injEq] at h
  obtain ⟨s, hs, rfl⟩ := h
  exact ⟨s, hs, rfl⟩

/-- The parameters of the emission of synchrotron photons. -/
theorem syn_emission {p : Prm K} {w dt : K} {f : Toml K} {x : List (String × Val K)}
    (h : extraParams p w dt f = .ok x)
    (hp : p.promised "radiation.emission.synchrotron.photon_species" = true) :
    ∃ e, emissionParams "synchrotron" w dt f = .ok e ∧ e.map Prod.fst = synKeys ∧
      ∀ k v, (k, v) ∈ e → ∀ q : Prm K, (q.sets x).get k = some v := by
  obtain ⟨e1, e2, rfl, h1, h2⟩ := extra_ok h
  rw [hp] at h1
  simp only [if_true] at h1
  refine ⟨e1, h1, syn_keys h1, fun k v hk q => ?_⟩
  have hk' : k ∈ synKeys := by
    have := mem_keys hk
    rwa [syn_keys h1] at this
  have dis : ∀ k ∈ synKeys, k ∉ comKeys := by decide
  rw [sets_append, get_sets_not fun hx => dis k hk' ((emission_keys' h2).subset hx), sets_append]
  exact get_sets_mem (by rw [syn_keys h1]; decide) hk

theorem com_emission {p : Prm K} {w dt : K} {f : Toml K} {x : List (String × Val K)}
    (h : extraParams p w dt f = .ok x)
    (hp : p.promised "radiation.emission.compton.photon_species" = true) :
    ∃ e, emissionParams "compton" w dt f = .ok e ∧ e.map Prod.fst = comKeys ∧
      ∀ k v, (k, v) ∈ e → ∀ q : Prm K, (q.sets x).get k = some v := by
  obtain ⟨e1, e2, rfl, h1, h2⟩ := extra_ok h
  rw [hp] at h2
  simp only [if_true] at h2
  refine ⟨e2, h2, com_keys h2, fun k v hk q => ?_⟩
  rw [sets_append]
  exact get_sets_mem (by rw [com_keys h2]; decide) hk

/-- The parameter of the synchrotron drag. -/
theorem syn_drag {p : Prm K} {w dt : K} {f : Toml K} {x : List (String × Val K)}
    (h : extraParams p w dt f = .ok x)
    (hp : p.promised "radiation.drag.synchrotron.gamma_rad" = true) (q : Prm K) :
    (q.sets x).get "radiation.drag.synchrotron.gamma_rad" =
      some (.real (findOr getReal f ["radiation", "drag", "synchrotron", "gamma_rad"] 1)) := by
  by_cases he : p.promised "radiation.emission.synchrotron.photon_species" = true
  · obtain ⟨e, h1, _, h3⟩ := syn_emission h he
    obtain ⟨s, _, rfl⟩ := emission_ok h1
    exact h3 _ _ (by simp [List.mem_cons]) q
  · obtain ⟨e1, e2, rfl, h1, h2⟩ := extra_ok h
    simp only [Bool.not_eq_true] at he
    simp only [he, Bool.false_eq_true, if_false, ok.injEq] at h1
    subst h1
    rw [List.append_nil, sets_append, get_sets_not fun hx => absurd ((emission_keys' h2).subset hx) (by decide),
      sets_append, get_sets_not, if_pos hp]
    · simp [dragParams, Prm.sets, Prm.get, Prm.set, look]
    · split
      · simp [dragParams]
      · simp

theorem com_drag {p : Prm K} {w dt : K} {f : Toml K} {x : List (String × Val K)}
    (h : extraParams p w dt f = .ok x)
    (hp : p.promised "radiation.drag.compton.gamma_rad" = true) (q : Prm K) :
    (q.sets x).get "radiation.drag.compton.gamma_rad" =
      some (.real (findOr getReal f ["radiation", "drag", "compton", "gamma_rad"] 1)) := by
  by_cases he : p.promised "radiation.emission.compton.photon_species" = true
  · obtain ⟨e, h1, _, h3⟩ := com_emission h he
    obtain ⟨s, _, rfl⟩ := emission_ok h1
    exact h3 _ _ (by simp [List.mem_cons]) q
  · obtain ⟨e1, e2, rfl, h1, h2⟩ := extra_ok h
    simp only [Bool.not_eq_true] at he
    simp only [he, Bool.false_eq_true, if_false, ok.injEq] at h2
    subst h2
    rw [List.append_nil, sets_append, get_sets_not fun hx => absurd ((emission_keys h1).subset hx) (by decide),
      sets_append, if_pos hp]
    simp [dragParams, Prm.sets, Prm.get, Prm.set, look]

/-! ## Species -/

/-- What is known of a species that is read. -/
theorem species_ok {E : Env K} {engine idx gclear gsort : Nat} {t : Toml K} {s : Sp K} {q : List String}
    (h : readSpecies E engine idx t gclear gsort = .ok (s, q)) :
    ∃ (x : K) (pusherStr dragStr emissionStr : String) (drag : Bool × Bool),
      find getReal t ["mass"] = .ok s.mass ∧ find getReal t ["charge"] = .ok s.charge ∧
      find getReal t ["maxnpart"] = .ok x ∧ castNpart x = .ok s.maxnpart ∧
      s.index = idx ∧ s.label = findOr getStr t ["label"] ("s" ++ toString idx) ∧
      s.clearing = findOr (getUInt 32) t ["clear_interval"] gclear ∧
      s.sorting = findOr (getUInt 32) t ["spatial_sorting_interval"] gsort ∧
      s.tracking = findOr getBool t ["tracking"] false ∧
      s.npldR = findOr (getUInt 16) t ["n_payloads_real"] 0 ∧
      s.npldI = (if s.tracking then (findOr (getUInt 16) t ["n_payloads_int"] 0 +
        (if E.tasks.isSome then 2 else 1)) % 2 ^ 16 else findOr (getUInt 16) t ["n_payloads_int"] 0) ∧
      pusherStr = findOr getStr t ["pusher"] (if s.mass = 0 ∧ s.charge = 0 then "Photon" else "Boris") ∧
      getPusherFlags (lower pusherStr).toList = .ok s.pusher ∧
      emissionStr = findOr getStr t ["emission"] "none" ∧
      getEmission (lower emissionStr) = .ok s.emission ∧
      dragStr = findOr getStr t ["radiative_drag"] "default" ∧
      getDrag (lower (if lower dragStr = "default" then "none" else dragStr)).toList = .ok drag ∧
      s.dragSyn = (drag.1 || (decide (lower dragStr = "default") && s.emission == 1)) ∧
      s.dragCom = (drag.2 || (decide (lower dragStr = "default") && s.emission == 2)) ∧
      (s.charge ≠ 0 → s.mass ≠ 0) ∧
      (s.emission = 1 ∨ s.emission = 2 → ¬ (s.mass = 0 ∧ s.charge = 0)) ∧
      (s.dragSyn = true → engine = 1) ∧ (s.dragCom = true → engine = 1) ∧
      (s.pusher.gca = true → engine = 1) ∧
      (s.dragSyn = true → "radiation.drag.synchrotron.gamma_rad" ∈ q) ∧
      (s.dragCom = true → "radiation.drag.compton.gamma_rad" ∈ q) ∧
      (s.pusher.gca = true → "algorithms.gca.e_ovr_b_max" ∈ q) ∧
      (s.emission = 1 → "radiation.emission.synchrotron.photon_species" ∈ q) ∧
      (s.emission = 2 → "radiation.emission.compton.photon_species" ∈ q) := by
  simp only [readSpecies, bind_eq_ok, pure_eq, ok.injEq, Prod.mk.injEq] at h
  obtain ⟨mass, h1, charge, h2, ⟨⟩, h3, x, h4, n, h5, ⟨⟩, h6, ⟨⟩, h7, pusher, h8, drag, h9, em, h10, ⟨⟩, h11,
    ⟨⟩, h12, ⟨⟩, h13, ⟨⟩, h14, rfl, rfl⟩ := h
  have er : ∀ (c : Prop) [Decidable c], errorIf c = .ok () → ¬ c := by
    intro c _ hc hc'
    simp [errorIf, hc'] at hc
  refine ⟨x, _, _, _, drag, h1, h2, h4, h5, rfl, rfl, rfl, rfl, rfl, rfl, rfl, rfl, ?_, rfl, h10, rfl, ?_,
    rfl, rfl, ?_, ?_, ?_, ?_, ?_, ?_, ?_, ?_, ?_, ?_⟩
  · simpa using h8
  · simpa using h9
  · exact fun hq hm => er _ h3 ⟨hq, hm⟩
  · intro he hm
    exact er _ h11 ⟨he, decide_eq_true hm⟩
  · exact fun hs => not_not.1 fun he => er _ h12 ⟨hs, he⟩
  · exact fun hs => not_not.1 fun he => er _ h13 ⟨hs, he⟩
  · exact fun hs => not_not.1 fun he => er _ h14 ⟨hs, he⟩
  all_goals
    intro hc
    simp only at hc
    simp [hc]

theorem allSpecies_ok {E : Env K} {engine gclear gsort : Nat} {tabs : List (Toml K)} {sps : List (Sp K)}
    {idx : Nat} {q : List String} (hidx : idx < 256)
    (h : readAllSpecies E engine gclear gsort idx tabs = .ok (sps, q)) :
    sps.length = tabs.length ∧ ∀ (n : Nat) (t : Toml K) (s : Sp K), tabs[n]? = some t → sps[n]? = some s →
      ∃ q', readSpecies E engine ((idx + n) % 256) t gclear gsort = .ok (s, q') ∧ ∀ k ∈ q', k ∈ q := by
  induction tabs generalizing idx sps q with
  | nil =>
    simp only [readAllSpecies, ok.injEq, Prod.mk.injEq] at h
    obtain ⟨rfl, rfl⟩ := h
    exact ⟨rfl, fun n t s ht => by simp at ht⟩
  | cons t ts ih =>
    simp only [readAllSpecies, bind_eq_ok, pure_eq, ok.injEq, Prod.mk.injEq, Prod.exists] at h
    obtain ⟨s, q1, h1, ss, qs, h2, rfl, rfl⟩ := h
    obtain ⟨hl, hr⟩ := ih (Nat.mod_lt _ (by omega)) h2
    refine ⟨by simp [hl], fun n t' s' ht hs => ?_⟩
    cases n with
    | zero =>
      simp only [List.getElem?_cons_zero, Option.some.injEq] at ht hs
      subst ht hs
      refine ⟨q1, ?_, fun k hk => by simp [hk]⟩
      rw [Nat.add_zero, Nat.mod_eq_of_lt hidx]
      exact h1
    | succ n =>
      simp only [List.getElem?_cons_succ] at ht hs
      obtain ⟨q', e1, e2⟩ := hr n t' s' ht hs
      refine ⟨q', ?_, fun k hk => by simp [e2 k hk]⟩
      rw [show (idx + (n + 1)) % 256 = ((idx + 1) % 256 + n) % 256 by omega]
      exact e1

theorem update_ok {tabs : List (Toml K)} {sps sps' : List (Sp K)}
    (h : updateSpecies tabs sps = .ok sps') :
    sps'.length = tabs.length ∧ ∀ (n : Nat) (t : Toml K) (s' : Sp K), tabs[n]? = some t → sps'[n]? = some s' →
      ∃ (s : Sp K) (x : K) (m : Nat), sps[n]? = some s ∧ find getReal t ["maxnpart"] = .ok x ∧ castNpart x = .ok m ∧
        s' = { s with maxnpart := m } := by
  induction tabs generalizing sps sps' with
  | nil =>
    simp only [updateSpecies, ok.injEq] at h
    subst h
    exact ⟨rfl, fun n t s ht => by simp at ht⟩
  | cons t ts ih =>
    cases sps with
    | nil => simp [updateSpecies] at h
    | cons s ss =>
      simp only [updateSpecies, bind_eq_ok, pure_eq, ok.injEq] at h
      obtain ⟨x, h1, m, h2, r, h3, rfl⟩ := h
      obtain ⟨hl, hr⟩ := ih h3
      refine ⟨by simp [hl], fun n t' s' ht hs => ?_⟩
      cases n with
      | zero =>
        simp only [List.getElem?_cons_zero, Option.some.injEq] at ht hs
        subst ht hs
        exact ⟨s, x, m, rfl, h1, h2, rfl⟩
      | succ n =>
        simp only [List.getElem?_cons_succ] at ht hs ⊢
        exact hr n t' s' ht hs

end

end Entity.Options
