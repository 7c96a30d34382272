import Verif.Lemmas.OptionsAll
import Mathlib.Data.Rat.Floor

/-!
# C148, C149: the options of the input file mean what the documentation says
-/

namespace Entity.Options

open Entity Entity.Outcome Entity.Enums Entity.SpeciesInput

variable {K : Type} [Field K] [LinearOrder K] [IsStrictOrderedRing K] [FloorRing K]

/-- C148: for every input file that is accepted (on a restart: `kept` is the file of the first run), the
parameters follow the documentation: what is given with the documented type is used, for what is not given
the documented default is, and required options are given.

Not proved, as it is not so: the documented default of three options (`C148_default_counterexample`), and
that options of a wrong type are refused (`C148_type_counterexample`).  For the three options the given value
is used. -/
theorem C148_options_partial (E : Env K) (kept f : Toml K) (p : Prm K) (h : load E kept f = .ok p) :
    (∀ r ∈ keptOptions, Obeys kept p r) ∧ (∀ r ∈ options, Obeys f p r) ∧
    (∀ r ∈ otherDefaults (K := K), ∀ t v, entry f r.path = some t → Means r.ty t v → p.get r.name = some v) ∧
    (∃ name, entry f ["simulation", "name"] = some (.str name) ∧ Obeys f p (writePath name)) ∧
    (∀ s, entry f ["checkpoint", "read_path"] = some (.str s) →
      p.get "checkpoint.read_path" = some (.str s)) ∧
    (entry f ["checkpoint", "read_path"] = none →
      p.get "checkpoint.read_path" = p.get "checkpoint.write_path") ∧
    (p.get "simulation.engine" = some (.enum 2) → ∀ r ∈ optionsGR, Obeys f p r) := by
  obtain ⟨name, s1, s2, s3, s4, s5, s6, s7⟩ := service_options h
  refine ⟨kept_options h, all_options h, ?_, ⟨name, s1, s2⟩, ?_, ?_, gr_options h⟩
  · intro r hr t v ht hv
    simp only [otherDefaults, List.mem_cons, List.not_mem_nil, or_false] at hr
    rcases hr with rfl | rfl | rfl
    · obtain ⟨x, hx, rfl⟩ := reads_str t v hv
      exact s5.trans (by rw [findOr_some ht hx])
    · obtain ⟨x, hx, rfl⟩ := reads_uint 32 t v hv
      exact s6.trans (by rw [findOr_some ht hx])
    · obtain ⟨x, hx, rfl⟩ := reads_bool t v hv
      exact s7.trans (by rw [findOr_some ht hx])
  · intro s hs
    rw [s3, findOr_some (g := getStr) (x := s) hs rfl]
  · intro hs
    rw [s3, findOr_none hs, s4]

/-- C148: the parameters of the guiding-centre approximation, of the drag and of the emission of photons
follow the documentation whenever some species uses them. -/
theorem C148_physics_partial (E : Env K) (kept f : Toml K) (p : Prm K) (h : load E kept f = .ok p)
    (sps : List (Sp K)) (hs : p.get "particles.species" = some (.species sps)) (s : Sp K) (hmem : s ∈ sps) :
    (s.pusher.gca = true → ∀ r ∈ optionsGCA, Obeys f p r) ∧
    (s.dragSyn = true → ∀ r ∈ optionsDrag "synchrotron", Obeys f p r) ∧
    (s.dragCom = true → ∀ r ∈ optionsDrag "compton", Obeys f p r) ∧
    (s.emission = 1 → ∀ r ∈ optionsEmission "synchrotron", Obeys f p r) ∧
    (s.emission = 2 → ∀ r ∈ optionsEmission "compton", Obeys f p r) := by
  obtain ⟨a, b, c⟩ := gca_drag_options h hs hmem
  exact ⟨a, b, c, fun he => (all_syn h hs hmem he).1, fun he => (all_com h hs hmem he).1⟩

/-- C148: the inferred parameters have the documented values. -/
theorem C148_inferred (E : Env K) (kept f : Toml K) (p : Prm K) (h : load E kept f = .ok p) :
    ∃ larmor0 skindepth0 ppc0 V0 dx0 n0 cfl,
      p.get "scales.larmor0" = some (.real larmor0) ∧ p.get "scales.skindepth0" = some (.real skindepth0) ∧
      p.get "particles.ppc0" = some (.real ppc0) ∧ p.get "scales.V0" = some (.real V0) ∧
      p.get "scales.dx0" = some (.real dx0) ∧ p.get "scales.n0" = some (.real n0) ∧
      p.get "algorithms.timestep.CFL" = some (.real cfl) ∧
      0 < larmor0 ∧ 0 < skindepth0 ∧ 0 < ppc0 ∧
      n0 = ppc0 / V0 ∧ p.get "scales.q0" = some (.real (1 / (n0 * skindepth0 ^ 2))) ∧
      p.get "scales.sigma0" = some (.real ((skindepth0 / larmor0) ^ 2)) ∧
      p.get "scales.B0" = some (.real (1 / larmor0)) ∧
      p.get "scales.omegaB0" = some (.real (1 / larmor0)) ∧
      p.get "algorithms.timestep.dt" = some (.real (cfl * dx0)) := inferred h

/-- C148: nominal probability and photon energy of the emission have the documented values. -/
theorem C148_nominal (E : Env K) (kept f : Toml K) (p : Prm K) (h : load E kept f = .ok p)
    (sps : List (Sp K)) (hs : p.get "particles.species" = some (.species sps)) (s : Sp K) (hmem : s ∈ sps) :
    (s.emission = 1 → ∃ qed rad w omega dt,
      p.get "radiation.emission.synchrotron.gamma_qed" = some (.real qed) ∧
      p.get "radiation.drag.synchrotron.gamma_rad" = some (.real rad) ∧
      p.get "radiation.emission.synchrotron.photon_weight" = some (.real w) ∧
      p.get "scales.omegaB0" = some (.real omega) ∧
      p.get "algorithms.timestep.dt" = some (.real dt) ∧
      p.get "radiation.emission.synchrotron.nominal_probability" =
        some (.real (1 / 10 * omega * dt * (qed / rad) ^ 2 / w)) ∧
      p.get "radiation.emission.synchrotron.nominal_photon_energy" = some (.real ((1 / qed) ^ 2))) ∧
    (s.emission = 2 → ∃ qed rad w omega dt,
      p.get "radiation.emission.compton.gamma_qed" = some (.real qed) ∧
      p.get "radiation.drag.compton.gamma_rad" = some (.real rad) ∧
      p.get "radiation.emission.compton.photon_weight" = some (.real w) ∧
      p.get "scales.omegaB0" = some (.real omega) ∧
      p.get "algorithms.timestep.dt" = some (.real dt) ∧
      p.get "radiation.emission.compton.nominal_probability" =
        some (.real (1 / 10 * omega * dt * (qed / rad) ^ 2 / w)) ∧
      p.get "radiation.emission.compton.nominal_photon_energy" = some (.real ((1 / qed) ^ 2))) :=
  ⟨fun he => (all_syn h hs hmem he).2.1, fun he => (all_com h hs hmem he).2.1⟩

/-- C149: the species of an accepted file are those of the file, in order, each with the documented options.
On a restart everything but `maxnpart` comes from the file of the first run.

Not proved, as it is not so: that `maxnpart` may be given as an integer
(`C149_maxnpart_counterexample`). -/
theorem C149_species_partial (E : Env K) (kept f : Toml K) (p : Prm K) (h : load E kept f = .ok p)
    (T T' : List (Toml K)) (hT : entry kept ["particles", "species"] = some (.arr T))
    (hT' : entry f ["particles", "species"] = some (.arr T')) :
    T'.length = T.length ∧ p.get "particles.nspec" = some (.uint T.length) ∧
    ∃ clear sort sps, p.get "particles.clear_interval" = some (.uint clear) ∧
      p.get "particles.spatial_sorting_interval" = some (.uint sort) ∧
      p.get "particles.species" = some (.species sps) ∧ sps.length = T.length ∧
      ∀ (n : Nat) (t t' : Toml K) (s : Sp K), T[n]? = some t → T'[n]? = some t' → sps[n]? = some s →
        n < 255 → SpeciesObeys E.tasks.isSome clear sort (n + 1) t t' s := by
  obtain ⟨a, b, clear, sort, sps, c, d, e, g, hh⟩ := all_species h hT hT'
  refine ⟨a, b, clear, sort, sps, c, d, e, g, fun n t t' s h1 h2 h3 h4 => ?_⟩
  have := hh n t t' s h1 h2 h3
  rwa [Nat.mod_eq_of_lt (by omega)] at this

/-- C148: in every accepted file without them, the format of the output, its interval, and the colours of
the diagnostics are not the documented ones (files "BPFile" instead of "hdf5", every 100 steps instead of
every step, no colours), nor is the smallest energy of emitted photons (1e-3 instead of 1e-4). -/
theorem C148_default_counterexample (E : Env K) (kept f : Toml K) (p : Prm K) (h : load E kept f = .ok p) :
    (∀ r ∈ otherDefaults, entry f r.path = none → ¬ Obeys f p r) ∧
    (∀ sps, p.get "particles.species" = some (.species sps) → ∀ s ∈ sps,
      (s.emission = 1 → entry f (energyMin (K := K) "synchrotron").path = none →
        ¬ Obeys f p (energyMin "synchrotron")) ∧
      (s.emission = 2 → entry f (energyMin (K := K) "compton").path = none →
        ¬ Obeys f p (energyMin "compton"))) := by
  obtain ⟨name, s1, s2, s3, s4, s5, s6, s7⟩ := service_options h
  constructor
  · intro r hr hn
    simp only [otherDefaults, List.mem_cons, List.not_mem_nil, or_false] at hr
    rcases hr with rfl | rfl | rfl <;> simp only [Obeys, hn] <;> rintro ⟨d, hd, hg⟩ <;>
      simp only [Option.some.injEq] at hd <;> subst hd <;> simp only at hn
    · have := s5.symm.trans hg
      simp [findOr_none hn] at this
    · have := s6.symm.trans hg
      simp [findOr_none hn] at this
    · have := s7.symm.trans hg
      simp [findOr_none hn] at this
  · intro sps hs s hmem
    have ne : (1 / 1000 : K) ≠ 1 / 10000 := by norm_num
    constructor
    · intro he hn
      have e3 := (all_syn h hs hmem he).2.2
      simp only [energyMin] at hn
      simp only [Obeys, energyMin, hn]
      rintro ⟨d, hd, hg⟩
      simp only [Option.some.injEq] at hd
      subst hd
      have := e3.symm.trans hg
      rw [findOr_none hn] at this
      simp only [Option.some.injEq, Val.real.injEq] at this
      exact ne this
    · intro he hn
      have e3 := (all_com h hs hmem he).2.2
      simp only [energyMin] at hn
      simp only [Obeys, energyMin, hn]
      rintro ⟨d, hd, hg⟩
      simp only [Option.some.injEq] at hd
      subst hd
      have := e3.symm.trans hg
      rw [findOr_none hn] at this
      simp only [Option.some.injEq, Val.real.injEq] at this
      exact ne this

/-! ## Concrete files -/

/-- A machine without MPI; the metric has cells of size 1/2 and volume 1/4. -/
def exEnv : Env ℚ := ⟨none, fun x => x, 22 / 7, fun _ _ _ _ => .ok (1 / 2, 1 / 4), 1⟩

/-- A two-dimensional box with electrons that emit photons, and photons; `alg` and `label` are varied
below. -/
def exFile (alg : Toml ℚ) (label : String) (maxnpart : Toml ℚ) : Toml ℚ :=
  .tab [("simulation", .tab [("name", .str "test"), ("engine", .str "SRPIC"), ("runtime", .float 10)]),
    ("grid", .tab [("resolution", .arr [.int 64, .int 32]),
      ("extent", .arr [.arr [.float 0, .float 32], .arr [.float 0, .float 16]]),
      ("metric", .tab [("metric", .str "Minkowski")]),
      ("boundaries", .tab [("fields", .arr [.arr [.str "PERIODIC"], .arr [.str "PERIODIC"]]),
        ("particles", .arr [.arr [.str "PERIODIC"], .arr [.str "PERIODIC"]])])]),
    ("scales", .tab [("larmor0", .float 2), ("skindepth0", .float 4)]),
    ("algorithms", alg),
    ("radiation", .tab [("emission", .tab [("synchrotron", .tab [("photon_species", .int 2)])])]),
    ("particles", .tab [("ppc0", .float 8), ("clear_interval", .int 50),
      ("species", .arr [
        .tab [("label", .str label), ("mass", .float 1), ("charge", .float (-1)),
          ("maxnpart", maxnpart), ("pusher", .str "Vay,GCA"), ("emission", .str "Synchrotron"),
          ("tracking", .bool true)],
        .tab [("mass", .float 0), ("charge", .float 0), ("maxnpart", .float 500)]])])]

/-- A test on the parameters of an accepted file. -/
def accepted (E : Env ℚ) (kept f : Toml ℚ) (c : Prm ℚ → Bool) : Bool :=
  match load E kept f with
  | .ok p => c p
  | _ => false

def isReal (p : Prm ℚ) (k : String) (x : ℚ) : Bool :=
  match p.get k with
  | some (.real y) => decide (y = x)
  | _ => false

def spec (p : Prm ℚ) (c : List (Sp ℚ) → Bool) : Bool :=
  match p.get "particles.species" with
  | some (.species l) => c l
  | _ => false

/-- The file is accepted; a restart takes the name and the size of the species from the respective files. -/
example : accepted exEnv (exFile (.tab []) "e-" (.float 1000))
    (exFile (.tab [("timestep", .tab [("CFL", .float (1 / 2))])]) "new" (.float (4001 / 2)))
    (fun p => isReal p "algorithms.timestep.CFL" (1 / 2) && isReal p "algorithms.timestep.dt" (1 / 4) &&
      isReal p "scales.q0" (1 / 512) && isReal p "scales.sigma0" 4 && isReal p "algorithms.gca.e_ovr_b_max" (9 / 10) &&
      isReal p "radiation.emission.synchrotron.photon_energy_min" (1 / 1000) &&
      isReal p "radiation.emission.synchrotron.nominal_probability" (5 / 4) &&
      spec p fun l => l.map (fun s => (s.label, s.maxnpart, s.clearing, s.pusher.vay, s.pusher.gca, s.dragSyn,
        s.emission, s.npldI)) ==
        [("e-", 2000, 50, true, true, true, 1, 1), ("s2", 500, 50, false, false, false, 0, 0)]) = true := by
  decide +kernel

/-- C148: an option of a wrong type is not refused: with `CFL = 1`, an integer, the run takes 0.95, without
a message. -/
theorem C148_type_counterexample :
    accepted exEnv (exFile (.tab []) "e-" (.float 1000))
      (exFile (.tab [("timestep", .tab [("CFL", .int 1)])]) "e-" (.float 1000))
      (fun p => isReal p "algorithms.timestep.CFL" (95 / 100)) = true := by
  decide +kernel

/-- C149: the documentation gives `maxnpart` the type uint; a file with `maxnpart = 1000` is refused. -/
theorem C149_maxnpart_counterexample (E : Env K) (kept f : Toml K) (T : List (Toml K))
    (hT : entry kept ["particles", "species"] = some (.arr T)) (t : Toml K) (ht : t ∈ T) (m : Int)
    (hm : entry t ["maxnpart"] = some (.int m)) : ∀ p, load E kept f ≠ .ok p := by
  intro p h
  obtain ⟨i, hi, -, -⟩ := load_ok h
  obtain ⟨_, _, _, _, _, -, -, -, -, -, -, -, -, -, h10, -⟩ := immutable_ok hi
  rw [findOr_some (g := getArr) hT rfl] at h10
  obtain ⟨l2, u2⟩ := allSpecies_ok (by omega) h10
  obtain ⟨n, hn⟩ := List.mem_iff_getElem?.1 ht
  have hlt := (List.getElem?_eq_some_iff.1 hn).1
  obtain ⟨q', r1, -⟩ := u2 n t _ hn (List.getElem?_eq_getElem (by omega))
  obtain ⟨x, -, -, -, -, -, -, c, -⟩ := species_ok r1
  rw [find_some hm] at c
  cases c

example : accepted exEnv (exFile (.tab []) "e-" (.int 1000)) (exFile (.tab []) "e-" (.int 1000))
    (fun _ => true) = false := by decide +kernel

end Entity.Options
