import Verif.Lemmas.Options

/-!
# All options are read as documented
-/

namespace Entity.Options

open Entity Entity.Outcome Entity.Enums Entity.SpeciesInput

variable {K : Type} [Field K] [LinearOrder K] [IsStrictOrderedRing K] [FloorRing K]

theorem out_ok {dim nspec : Nat} {f : Toml K} {out : List (String × Val K)}
    (h : outputParams dim nspec f = .ok out) : ∃ dwn, outputParams dim nspec f = .ok out ∧
      out = [("output.format", .str (findOr getStr f ["output", "format"] "BPFile")),
          ("output.interval", .uint (findOr (getUInt 32) f ["output", "interval"] 100)),
          ("output.interval_time", .real (findOr getReal f ["output", "interval_time"] (-1)))] ++
        categoryParams f (findOr (getUInt 32) f ["output", "interval"] 100)
          (findOr getReal f ["output", "interval_time"] (-1)) "fields" ++
        categoryParams f (findOr (getUInt 32) f ["output", "interval"] 100)
          (findOr getReal f ["output", "interval_time"] (-1)) "particles" ++
        categoryParams f (findOr (getUInt 32) f ["output", "interval"] 100)
          (findOr getReal f ["output", "interval_time"] (-1)) "spectra" ++
        categoryParams f (findOr (getUInt 32) f ["output", "interval"] 100)
          (findOr getReal f ["output", "interval_time"] (-1)) "stats" ++
        [("output.fields.quantities",
            .strs (findOr (getVec getStr) f ["output", "fields", "quantities"] [])),
         ("output.fields.custom", .strs (findOr (getVec getStr) f ["output", "fields", "custom"] [])),
         ("output.fields.smoothing.order",
           .uint (findOr (getUInt 16) f ["output", "fields", "smoothing", "order"] 0)),
         ("output.fields.smoothing.method",
           .str (findOr getStr f ["output", "fields", "smoothing", "method"] "spline")),
         ("output.fields.downsampling", .uints dwn),
         ("output.particles.species", .uints (findOr (getVec (getUInt 8)) f
           ["output", "particles", "species"]
           ((List.range nspec).map fun (i : Nat) => (i + 1) % 2 ^ 8))),
         ("output.particles.stride", .uint (findOr (getUInt 32) f ["output", "particles", "stride"] 100)),
         ("output.spectra.e_min", .real (findOr getReal f ["output", "spectra", "e_min"] (1 / 1000))),
         ("output.spectra.e_max", .real (findOr getReal f ["output", "spectra", "e_max"] 1000)),
         ("output.spectra.log_bins", .bool (findOr getBool f ["output", "spectra", "log_bins"] true)),
         ("output.spectra.n_bins", .uint (findOr (getUInt 64) f ["output", "spectra", "n_bins"] 200)),
         ("output.stats.quantities", .strs (findOr (getVec getStr) f ["output", "stats", "quantities"]
           ["B^2", "E^2", "ExB", "Rho", "T00"])),
         ("output.stats.custom", .strs (findOr (getVec getStr) f ["output", "stats", "custom"] [])),
         ("output.debug.as_is", .bool (findOr getBool f ["output", "debug", "as_is"] false)),
         ("output.debug.ghosts", .bool (findOr getBool f ["output", "debug", "ghosts"] false))] := by
  have h0 := h
  simp only [outputParams, bind_eq_ok, pure_eq, ok.injEq] at h
  obtain ⟨⟨⟩, _, dwn, _, ⟨⟩, _, rfl⟩ := h
  exact ⟨dwn, h0, rfl⟩

theorem all_options {E : Env K} {kept f : Toml K} {p : Prm K} (h : load E kept f = .ok p) :
    ∀ r ∈ options, Obeys f p r := by
  obtain ⟨i, hi, hm, _⟩ := load_ok h
  obtain ⟨engName, larmor0, skindepth0, ppc0, proms, name, runtime, bc, proms', sps, out, p1, x, -, -, -,
    -, -, -, -, -, -, -, -, m1, m2, -, -, -, m6, -, -, -, hFirst, hOut, hAlg, -, -, -, -⟩ := gets hi hm
  obtain ⟨dwn, -, rfl⟩ := out_ok m6
  unfold options
  refine List.forall_mem_cons.2 ⟨obeys_req reads_str m1 (hFirst "simulation.name" _ (by simp [firstParams])), ?_⟩
  refine List.forall_mem_cons.2 ⟨obeys_req reads_real m2 (hFirst "simulation.runtime" _ (by simp [firstParams])), ?_⟩
  refine List.forall_mem_cons.2 ⟨obeys_opt (reads_uint 16) (hAlg "algorithms.current_filters" _ (by simp [algorithmParams])), ?_⟩
  refine List.forall_mem_cons.2 ⟨obeys_opt reads_real (hAlg "algorithms.timestep.CFL" _ (by simp [algorithmParams])), ?_⟩
  refine List.forall_mem_cons.2 ⟨obeys_opt reads_real (hAlg "algorithms.timestep.correction" _ (by simp [algorithmParams])), ?_⟩
  refine List.forall_mem_cons.2 ⟨obeys_opt reads_bool (hAlg "algorithms.deposit.enable" _ (by simp [algorithmParams])), ?_⟩
  refine List.forall_mem_cons.2 ⟨obeys_opt reads_bool (hAlg "algorithms.fieldsolver.enable" _ (by simp [algorithmParams])), ?_⟩
  refine List.forall_mem_cons.2 ⟨obeys_opt reads_real (hAlg "algorithms.fieldsolver.delta_x" _ (by simp [algorithmParams])), ?_⟩
  refine List.forall_mem_cons.2 ⟨obeys_opt reads_real (hAlg "algorithms.fieldsolver.delta_y" _ (by simp [algorithmParams])), ?_⟩
  refine List.forall_mem_cons.2 ⟨obeys_opt reads_real (hAlg "algorithms.fieldsolver.delta_z" _ (by simp [algorithmParams])), ?_⟩
  refine List.forall_mem_cons.2 ⟨obeys_opt reads_real (hAlg "algorithms.fieldsolver.beta_xy" _ (by simp [algorithmParams])), ?_⟩
  refine List.forall_mem_cons.2 ⟨obeys_opt reads_real (hAlg "algorithms.fieldsolver.beta_yx" _ (by simp [algorithmParams])), ?_⟩
  refine List.forall_mem_cons.2 ⟨obeys_opt reads_real (hAlg "algorithms.fieldsolver.beta_xz" _ (by simp [algorithmParams])), ?_⟩
  refine List.forall_mem_cons.2 ⟨obeys_opt reads_real (hAlg "algorithms.fieldsolver.beta_zx" _ (by simp [algorithmParams])), ?_⟩
  refine List.forall_mem_cons.2 ⟨obeys_opt reads_real (hAlg "algorithms.fieldsolver.beta_yz" _ (by simp [algorithmParams])), ?_⟩
  refine List.forall_mem_cons.2 ⟨obeys_opt reads_real (hAlg "algorithms.fieldsolver.beta_zy" _ (by simp [algorithmParams])), ?_⟩
  refine List.forall_mem_cons.2 ⟨obeys_opt reads_real (hOut "output.interval_time" _ (by simp [categoryParams, serviceParams]) (.inl (by decide))), ?_⟩
  refine List.forall_mem_cons.2 ⟨obeys_opt reads_bool (hOut "output.fields.enable" _ (by simp [categoryParams, serviceParams]) (.inl (by decide))), ?_⟩
  refine List.forall_mem_cons.2 ⟨obeys_opt reads_strs (hOut "output.fields.quantities" _ (by simp [categoryParams, serviceParams]) (.inl (by decide))), ?_⟩
  refine List.forall_mem_cons.2 ⟨obeys_opt reads_strs (hOut "output.fields.custom" _ (by simp [categoryParams, serviceParams]) (.inl (by decide))), ?_⟩
  refine List.forall_mem_cons.2 ⟨obeys_opt (reads_uint 16) (hOut "output.fields.smoothing.order" _ (by simp [categoryParams, serviceParams]) (.inl (by decide))), ?_⟩
  refine List.forall_mem_cons.2 ⟨obeys_opt reads_str (hOut "output.fields.smoothing.method" _ (by simp [categoryParams, serviceParams]) (.inl (by decide))), ?_⟩
  refine List.forall_mem_cons.2 ⟨obeys_opt reads_bool (hOut "output.particles.enable" _ (by simp [categoryParams, serviceParams]) (.inl (by decide))), ?_⟩
  refine List.forall_mem_cons.2 ⟨obeys_opt (reads_uint 32) (hOut "output.particles.stride" _ (by simp [categoryParams, serviceParams]) (.inl (by decide))), ?_⟩
  refine List.forall_mem_cons.2 ⟨obeys_opt reads_bool (hOut "output.spectra.enable" _ (by simp [categoryParams, serviceParams]) (.inl (by decide))), ?_⟩
  refine List.forall_mem_cons.2 ⟨obeys_opt reads_real (hOut "output.spectra.e_min" _ (by simp [categoryParams, serviceParams]) (.inl (by decide))), ?_⟩
  refine List.forall_mem_cons.2 ⟨obeys_opt reads_real (hOut "output.spectra.e_max" _ (by simp [categoryParams, serviceParams]) (.inl (by decide))), ?_⟩
  refine List.forall_mem_cons.2 ⟨obeys_opt reads_bool (hOut "output.spectra.log_bins" _ (by simp [categoryParams, serviceParams]) (.inl (by decide))), ?_⟩
  refine List.forall_mem_cons.2 ⟨obeys_opt (reads_uint 64) (hOut "output.spectra.n_bins" _ (by simp [categoryParams, serviceParams]) (.inl (by decide))), ?_⟩
  refine List.forall_mem_cons.2 ⟨obeys_opt reads_bool (hOut "output.debug.as_is" _ (by simp [categoryParams, serviceParams]) (.inl (by decide))), ?_⟩
  refine List.forall_mem_cons.2 ⟨obeys_opt reads_bool (hOut "output.debug.ghosts" _ (by simp [categoryParams, serviceParams]) (.inl (by decide))), ?_⟩
  refine List.forall_mem_cons.2 ⟨obeys_opt reads_strs (hOut "output.stats.quantities" _ (by simp [categoryParams, serviceParams]) (.inl (by decide))), ?_⟩
  refine List.forall_mem_cons.2 ⟨obeys_opt reads_strs (hOut "output.stats.custom" _ (by simp [categoryParams, serviceParams]) (.inl (by decide))), ?_⟩
  refine List.forall_mem_cons.2 ⟨obeys_opt (reads_uint 32) (hOut "checkpoint.interval" _ (by simp [categoryParams, serviceParams]) (.inl (by decide))), ?_⟩
  refine List.forall_mem_cons.2 ⟨obeys_opt reads_real (hOut "checkpoint.interval_time" _ (by simp [categoryParams, serviceParams]) (.inl (by decide))), ?_⟩
  refine List.forall_mem_cons.2 ⟨obeys_opt (reads_int 32) (hOut "checkpoint.keep" _ (by simp [categoryParams, serviceParams]) (.inl (by decide))), ?_⟩
  refine List.forall_mem_cons.2 ⟨obeys_opt (reads_int 32) (hOut "adios2.aggregators_per_node" _ (by simp [categoryParams, serviceParams]) (.inl (by decide))), ?_⟩
  refine List.forall_mem_cons.2 ⟨obeys_opt (reads_uint 64) (hOut "adios2.max_shm_size" _ (by simp [categoryParams, serviceParams]) (.inl (by decide))), ?_⟩
  refine List.forall_mem_cons.2 ⟨obeys_opt (reads_uint 64) (hOut "adios2.buffer_chunk_size" _ (by simp [categoryParams, serviceParams]) (.inl (by decide))), ?_⟩
  refine List.forall_mem_cons.2 ⟨obeys_opt (reads_uint 32) (hOut "diagnostics.interval" _ (by simp [categoryParams, serviceParams]) (.inl (by decide))), ?_⟩
  refine List.forall_mem_cons.2 ⟨obeys_opt reads_bool (hOut "diagnostics.blocking_timers" _ (by simp [categoryParams, serviceParams]) (.inl (by decide))), ?_⟩
  refine List.forall_mem_cons.2 ⟨obeys_opt reads_str (hOut "diagnostics.log_level" _ (by simp [categoryParams, serviceParams]) (.inl (by decide))), ?_⟩
  exact fun r hr => by cases hr

theorem kept_options {E : Env K} {kept f : Toml K} {p : Prm K} (h : load E kept f = .ok p) :
    ∀ r ∈ keptOptions, Obeys kept p r := by
  obtain ⟨i, hi, hm, _⟩ := load_ok h
  obtain ⟨engName, larmor0, skindepth0, ppc0, proms, name, runtime, bc, proms', sps, out, p1, x, -, -, -,
    h4, h5, -, -, h8, -, -, -, -, -, -, -, -, -, -, -, hKept, -⟩ := gets hi hm
  unfold keptOptions
  refine List.forall_mem_cons.2 ⟨obeys_req reads_real h4 (hKept "scales.larmor0" _ (by simp [keptParams])
    (by decide)), ?_⟩
  refine List.forall_mem_cons.2 ⟨obeys_req reads_real h5 (hKept "scales.skindepth0" _ (by simp [keptParams])
    (by decide)), ?_⟩
  refine List.forall_mem_cons.2 ⟨obeys_req reads_real h8 (hKept "particles.ppc0" _ (by simp [keptParams])
    (by decide)), ?_⟩
  refine List.forall_mem_cons.2 ⟨obeys_opt reads_bool (hKept "particles.use_weights" _
    (by simp [keptParams]) (by decide)), ?_⟩
  refine List.forall_mem_cons.2 ⟨obeys_opt (reads_uint 32) (hKept "particles.clear_interval" _
    (by simp [keptParams]) (by decide)), ?_⟩
  refine List.forall_mem_cons.2 ⟨obeys_opt (reads_uint 32) (hKept "particles.spatial_sorting_interval" _
    (by simp [keptParams]) (by decide)), ?_⟩
  exact fun r hr => by cases hr

theorem service_options {E : Env K} {kept f : Toml K} {p : Prm K} (h : load E kept f = .ok p) :
    ∃ name, entry f ["simulation", "name"] = some (.str name) ∧ Obeys f p (writePath name) ∧
      p.get "checkpoint.read_path" = some (.str (findOr getStr f ["checkpoint", "read_path"]
        (findOr getStr f ["checkpoint", "write_path"] (name ++ ".ckpt")))) ∧
      p.get "checkpoint.write_path" =
        some (.str (findOr getStr f ["checkpoint", "write_path"] (name ++ ".ckpt"))) ∧
      p.get "output.format" = some (.str (findOr getStr f ["output", "format"] "BPFile")) ∧
      p.get "output.interval" = some (.uint (findOr (getUInt 32) f ["output", "interval"] 100)) ∧
      p.get "diagnostics.colored_stdout" =
        some (.bool (findOr getBool f ["diagnostics", "colored_stdout"] false)) := by
  obtain ⟨i, hi, hm, _⟩ := load_ok h
  obtain ⟨engName, larmor0, skindepth0, ppc0, proms, name, runtime, bc, proms', sps, out, p1, x, -, -, -,
    -, -, -, -, -, -, -, -, m1, m2, -, -, -, m6, -, -, -, hFirst, hOut, hAlg, -, -, -, -⟩ := gets hi hm
  obtain ⟨dwn, -, rfl⟩ := out_ok m6
  refine ⟨name, ?_, obeys_opt reads_str (hOut "checkpoint.write_path" _
    (by simp [categoryParams, serviceParams]) (.inl (by decide))), ?_, ?_, ?_, ?_, ?_⟩
  · cases he : entry f ["simulation", "name"] with
    | none => rw [find_none he] at m1; cases m1
    | some t =>
      rw [find_some he] at m1
      cases t <;> simp_all [getStr]
  all_goals exact hOut _ _ (by simp [categoryParams, serviceParams]) (.inl (by decide))

theorem gr_options {E : Env K} {kept f : Toml K} {p : Prm K} (h : load E kept f = .ok p)
    (hg : p.get "simulation.engine" = some (.enum 2)) : ∀ r ∈ optionsGR, Obeys f p r := by
  obtain ⟨i, hi, hm, _⟩ := load_ok h
  obtain ⟨engName, larmor0, skindepth0, ppc0, proms, name, runtime, bc, proms', sps, out, p1, x, -, -, -,
    -, -, -, -, -, -, -, -, -, -, -, -, -, -, -, -, -, -, -, hAlg, -, he, -, -⟩ := gets hi hm
  rw [hg] at he
  simp only [Option.some.injEq, Val.enum.injEq] at he
  rw [← he] at hAlg
  unfold optionsGR
  refine List.forall_mem_cons.2 ⟨obeys_opt reads_real (hAlg "algorithms.gr.pusher_eps" _
    (by simp [algorithmParams])), ?_⟩
  refine List.forall_mem_cons.2 ⟨obeys_opt (reads_uint 16) (hAlg "algorithms.gr.pusher_niter" _
    (by simp [algorithmParams])), ?_⟩
  exact fun r hr => by cases hr

theorem inferred {E : Env K} {kept f : Toml K} {p : Prm K} (h : load E kept f = .ok p) :
    ∃ larmor0 skindepth0 ppc0 V0 dx0 n0 cfl,
      p.get "scales.larmor0" = some (.real larmor0) ∧ p.get "scales.skindepth0" = some (.real skindepth0) ∧
      p.get "particles.ppc0" = some (.real ppc0) ∧ p.get "scales.V0" = some (.real V0) ∧
      p.get "scales.dx0" = some (.real dx0) ∧ p.get "scales.n0" = some (.real n0) ∧
      p.get "algorithms.timestep.CFL" = some (.real cfl) ∧
      0 < larmor0 ∧ 0 < skindepth0 ∧ 0 < ppc0 ∧
      n0 = ppc0 / V0 ∧ p.get "scales.q0" = some (.real (1 / (n0 * skindepth0 ^ 2))) ∧
      p.get "scales.sigma0" = some (.real ((skindepth0 / larmor0) ^ 2)) ∧
      p.get "scales.B0" = some (.real (1 / larmor0)) ∧
      p.get "scales.omegaB0" = some (.real (1 / larmor0)) ∧
      p.get "algorithms.timestep.dt" = some (.real (cfl * dx0)) := by
  obtain ⟨i, hi, hm, _⟩ := load_ok h
  obtain ⟨engName, larmor0, skindepth0, ppc0, proms, name, runtime, bc, proms', sps, out, p1, x, -, -, -,
    -, -, h6, h7, -, h9, -, -, -, -, -, -, -, -, -, -, hKept, -, -, hAlg, -, -, hV, hD⟩ := gets hi hm
  have k : ∀ k v, _ → k ≠ "particles.species" → p.get k = some v := hKept
  refine ⟨larmor0, skindepth0, ppc0, i.grid.V0, i.grid.dx0, ppc0 / i.grid.V0, _,
    k _ _ (by simp [keptParams]) (by decide), k _ _ (by simp [keptParams]) (by decide),
    k _ _ (by simp [keptParams]) (by decide), hV, hD,
    k _ _ (by simp [keptParams]) (by decide), hAlg _ _ (by simp [algorithmParams]; rfl), h6, h7, h9, rfl, ?_,
    k _ _ (by simp [keptParams]) (by decide),
    k _ _ (by simp [keptParams]) (by decide), k _ _ (by simp [keptParams]) (by decide),
    hAlg _ _ (by simp [algorithmParams])⟩
  have : (1 : K) / (ppc0 / i.grid.V0 * skindepth0 ^ 2) = i.grid.V0 / (ppc0 * skindepth0 ^ 2) := by
    rw [div_mul_eq_mul_div, one_div_div]
  rw [this]
  exact k _ _ (by simp [keptParams]) (by decide)

/-- The promises of a species are made. -/
theorem species_promises {E : Env K} {engine gclear gsort : Nat} {tabs tabs' : List (Toml K)}
    {sps sps' : List (Sp K)} {q : List String}
    (h : readAllSpecies E engine gclear gsort 1 tabs = .ok (sps, q))
    (hu : updateSpecies tabs' sps = .ok sps') {s : Sp K} (hs : s ∈ sps') :
    (s.dragSyn = true → "radiation.drag.synchrotron.gamma_rad" ∈ q) ∧
    (s.dragCom = true → "radiation.drag.compton.gamma_rad" ∈ q) ∧
    (s.pusher.gca = true → "algorithms.gca.e_ovr_b_max" ∈ q) ∧ True ∧
    (s.emission = 1 → "radiation.emission.synchrotron.photon_species" ∈ q) ∧
    (s.emission = 2 → "radiation.emission.compton.photon_species" ∈ q) := by
  obtain ⟨n, hn⟩ := List.mem_iff_getElem?.1 hs
  obtain ⟨l1, u1⟩ := update_ok hu
  obtain ⟨l2, u2⟩ := allSpecies_ok (by omega) h
  have hlt : n < tabs'.length := by
    rw [← l1]
    exact (List.getElem?_eq_some_iff.1 hn).1
  obtain ⟨s0, x, m, e1, -, -, rfl⟩ := u1 n _ s (List.getElem?_eq_getElem hlt) hn
  have hlt2 : n < tabs.length := by
    rw [← l2]
    exact (List.getElem?_eq_some_iff.1 e1).1
  obtain ⟨q', r1, r2⟩ := u2 n _ s0 (List.getElem?_eq_getElem hlt2) e1
  obtain ⟨_, _, _, _, _, -, -, -, -, -, -, -, -, -, -, -, -, -, -, -, -, -, -, -, -, -, -, -, -, c1, c2, c3, c4,
    c5⟩ := species_ok r1
  exact ⟨fun hc => r2 _ (c1 hc), fun hc => r2 _ (c2 hc), fun hc => r2 _ (c3 hc), trivial,
    fun hc => r2 _ (c4 hc), fun hc => r2 _ (c5 hc)⟩

theorem gca_drag_options {E : Env K} {kept f : Toml K} {p : Prm K} (h : load E kept f = .ok p)
    {sps : List (Sp K)} (hs : p.get "particles.species" = some (.species sps)) {s : Sp K} (hmem : s ∈ sps) :
    (s.pusher.gca = true → ∀ r ∈ optionsGCA, Obeys f p r) ∧
    (s.dragSyn = true → ∀ r ∈ optionsDrag "synchrotron", Obeys f p r) ∧
    (s.dragCom = true → ∀ r ∈ optionsDrag "compton", Obeys f p r) := by
  obtain ⟨i, hi, hm, _⟩ := load_ok h
  obtain ⟨engName, larmor0, skindepth0, ppc0, proms, name, runtime, bc, proms', sps', out, p1, x, -, -, -,
    -, -, -, -, -, -, h10, h11, -, -, -, -, m5, -, m7, m8, -, hFirst, -, hAlg, hX, -, -, -⟩ := gets hi hm
  have e0 := hFirst "particles.species" (.species sps') (by simp [firstParams])
  rw [hs] at e0
  cases e0
  obtain ⟨q1, q2, q3, -, -⟩ := species_promises h10 m5 hmem
  have pr : ∀ k, k ∈ proms → p1.promised k = true := by
    intro k hk
    simp only [Prm.promised, m7, decide_eq_true_eq, List.mem_append]
    exact .inl hk
  refine ⟨fun hc => ?_, fun hc => ?_, fun hc => ?_⟩
  · rw [pr _ (q3 hc)] at hAlg
    unfold optionsGCA
    refine List.forall_mem_cons.2 ⟨obeys_opt reads_real (hAlg "algorithms.gca.e_ovr_b_max" _
      (by simp [algorithmParams])), ?_⟩
    refine List.forall_mem_cons.2 ⟨obeys_opt reads_real (hAlg "algorithms.gca.larmor_max" _
      (by simp [algorithmParams])), ?_⟩
    exact fun r hr => by cases hr
  · unfold optionsDrag
    refine List.forall_mem_cons.2 ⟨obeys_opt reads_real (hX "radiation.drag.synchrotron.gamma_rad" _
      (by decide) (syn_drag m8 (pr _ (q1 hc)))), fun r hr => by cases hr⟩
  · unfold optionsDrag
    refine List.forall_mem_cons.2 ⟨obeys_opt reads_real (hX "radiation.drag.compton.gamma_rad" _
      (by decide) (com_drag m8 (pr _ (q2 hc)))), fun r hr => by cases hr⟩

theorem all_syn {E : Env K} {kept f : Toml K} {p : Prm K} (h : load E kept f = .ok p) {sps : List (Sp K)}
    (hs : p.get "particles.species" = some (.species sps)) {s : Sp K} (hmem : s ∈ sps)
    (he : s.emission = 1) :
    (∀ r ∈ optionsEmission "synchrotron", Obeys f p r) ∧
    (∃ qed rad w omega dt, p.get "radiation.emission.synchrotron.gamma_qed" = some (.real qed) ∧
      p.get "radiation.drag.synchrotron.gamma_rad" = some (.real rad) ∧
      p.get "radiation.emission.synchrotron.photon_weight" = some (.real w) ∧
      p.get "scales.omegaB0" = some (.real omega) ∧
      p.get "algorithms.timestep.dt" = some (.real dt) ∧
      p.get "radiation.emission.synchrotron.nominal_probability" =
        some (.real (1 / 10 * omega * dt * (qed / rad) ^ 2 / w)) ∧
      p.get "radiation.emission.synchrotron.nominal_photon_energy" = some (.real ((1 / qed) ^ 2))) ∧
    p.get "radiation.emission.synchrotron.photon_energy_min" = some (.real (findOr getReal f
      ["radiation", "emission", "synchrotron", "photon_energy_min"] (1 / 1000))) := by
  obtain ⟨i, hi, hm, _⟩ := load_ok h
  obtain ⟨engName, larmor0, skindepth0, ppc0, proms, name, runtime, bc, proms', sps', out, p1, x, -, -, -,
    -, -, -, -, -, -, h10, h11, -, -, -, -, m5, -, m7, m8, hKept, hFirst, -, hAlg, hX, -, -, -⟩ := gets hi hm
  have e0 := hFirst "particles.species" (.species sps') (by simp [firstParams])
  rw [hs] at e0
  cases e0
  obtain ⟨-, -, -, -, hq⟩ := species_promises h10 m5 hmem
  have hp : p1.promised "radiation.emission.synchrotron.photon_species" = true := by
    simp only [Prm.promised, m7, decide_eq_true_eq, List.mem_append]
    exact .inl (hq.1 he)
  obtain ⟨e, g1, g2, g3⟩ := syn_emission m8 hp
  have hE : ∀ k v, (k, v) ∈ e → p.get k = some v := fun k v hk => hX k v (by
    have := mem_keys hk
    rw [g2] at this
    exact List.mem_append.2 (by tauto)) (g3 k v hk)
  obtain ⟨sp, gs, rfl⟩ := emission_ok g1
  refine ⟨?_, ⟨_, _, _, _, _, hE _ _ (by simp [List.mem_cons]; rfl), hE _ _ (by simp [List.mem_cons]; rfl),
    hE _ _ (by simp [List.mem_cons]; rfl), hKept _ (.real (1 / larmor0)) (by simp [keptParams]) (by decide),
    hAlg _ (.real (findOr getReal f ["algorithms", "timestep", "CFL"] (95 / 100) * i.grid.dx0))
      (by simp [algorithmParams]), ?_, ?_⟩, ?_⟩
  · unfold optionsEmission
    refine List.forall_mem_cons.2 ⟨obeys_opt reads_real (hE "radiation.drag.synchrotron.gamma_rad" _
      (by simp [List.mem_cons])), ?_⟩
    refine List.forall_mem_cons.2 ⟨obeys_opt reads_real (hE "radiation.emission.synchrotron.gamma_qed" _
      (by simp [List.mem_cons])), ?_⟩
    refine List.forall_mem_cons.2 ⟨obeys_opt reads_real (hE "radiation.emission.synchrotron.photon_weight" _
      (by simp [List.mem_cons])), ?_⟩
    refine List.forall_mem_cons.2 ⟨obeys_req (reads_uint 8) gs
      (hE "radiation.emission.synchrotron.photon_species" _ (by simp [List.mem_cons])), ?_⟩
    exact fun r hr => by cases hr
  · rw [← h11, mul_comm (1 / 10) i.omegaB0]
    exact hE _ _ (by simp [List.mem_cons])
  · rw [div_pow, one_pow]
    exact hE _ _ (by simp [List.mem_cons])
  · exact hE _ _ (by simp [List.mem_cons])

theorem all_com {E : Env K} {kept f : Toml K} {p : Prm K} (h : load E kept f = .ok p) {sps : List (Sp K)}
    (hs : p.get "particles.species" = some (.species sps)) {s : Sp K} (hmem : s ∈ sps)
    (he : s.emission = 2) :
    (∀ r ∈ optionsEmission "compton", Obeys f p r) ∧
    (∃ qed rad w omega dt, p.get "radiation.emission.compton.gamma_qed" = some (.real qed) ∧
      p.get "radiation.drag.compton.gamma_rad" = some (.real rad) ∧
      p.get "radiation.emission.compton.photon_weight" = some (.real w) ∧
      p.get "scales.omegaB0" = some (.real omega) ∧
      p.get "algorithms.timestep.dt" = some (.real dt) ∧
      p.get "radiation.emission.compton.nominal_probability" =
        some (.real (1 / 10 * omega * dt * (qed / rad) ^ 2 / w)) ∧
      p.get "radiation.emission.compton.nominal_photon_energy" = some (.real ((1 / qed) ^ 2))) ∧
    p.get "radiation.emission.compton.photon_energy_min" = some (.real (findOr getReal f
      ["radiation", "emission", "compton", "photon_energy_min"] (1 / 1000))) := by
  obtain ⟨i, hi, hm, _⟩ := load_ok h
  obtain ⟨engName, larmor0, skindepth0, ppc0, proms, name, runtime, bc, proms', sps', out, p1, x, -, -, -,
    -, -, -, -, -, -, h10, h11, -, -, -, -, m5, -, m7, m8, hKept, hFirst, -, hAlg, hX, -, -, -⟩ := gets hi hm
  have e0 := hFirst "particles.species" (.species sps') (by simp [firstParams])
  rw [hs] at e0
  cases e0
  obtain ⟨-, -, -, -, hq⟩ := species_promises h10 m5 hmem
  have hp : p1.promised "radiation.emission.compton.photon_species" = true := by
    simp only [Prm.promised, m7, decide_eq_true_eq, List.mem_append]
    exact .inl (hq.2 he)
  obtain ⟨e, g1, g2, g3⟩ := com_emission m8 hp
  have hE : ∀ k v, (k, v) ∈ e → p.get k = some v := fun k v hk => hX k v (by
    have := mem_keys hk
    rw [g2] at this
    exact List.mem_append.2 (by tauto)) (g3 k v hk)
  obtain ⟨sp, gs, rfl⟩ := emission_ok g1
  refine ⟨?_, ⟨_, _, _, _, _, hE _ _ (by simp [List.mem_cons]; rfl), hE _ _ (by simp [List.mem_cons]; rfl),
    hE _ _ (by simp [List.mem_cons]; rfl), hKept _ (.real (1 / larmor0)) (by simp [keptParams]) (by decide),
    hAlg _ (.real (findOr getReal f ["algorithms", "timestep", "CFL"] (95 / 100) * i.grid.dx0))
      (by simp [algorithmParams]), ?_, ?_⟩, ?_⟩
  · unfold optionsEmission
    refine List.forall_mem_cons.2 ⟨obeys_opt reads_real (hE "radiation.drag.compton.gamma_rad" _
      (by simp [List.mem_cons])), ?_⟩
    refine List.forall_mem_cons.2 ⟨obeys_opt reads_real (hE "radiation.emission.compton.gamma_qed" _
      (by simp [List.mem_cons])), ?_⟩
    refine List.forall_mem_cons.2 ⟨obeys_opt reads_real (hE "radiation.emission.compton.photon_weight" _
      (by simp [List.mem_cons])), ?_⟩
    refine List.forall_mem_cons.2 ⟨obeys_req (reads_uint 8) gs
      (hE "radiation.emission.compton.photon_species" _ (by simp [List.mem_cons])), ?_⟩
    exact fun r hr => by cases hr
  · rw [← h11, mul_comm (1 / 10) i.omegaB0]
    exact hE _ _ (by simp [List.mem_cons])
  · rw [div_pow, one_pow]
    exact hE _ _ (by simp [List.mem_cons])
  · exact hE _ _ (by simp [List.mem_cons])

/-! ## Species -/

omit [Field K] [LinearOrder K] [IsStrictOrderedRing K] [FloorRing K] in
theorem follows_opt {α : Type} {g : Toml K → Outcome α} {ty : DocTy} {inj : α → Val K} {t : Toml K}
    {key : String} {d x : α} (hr : Reads g ty inj) (h : x = findOr g t [key] d) :
    Follows t key ty (some (inj d)) (inj x) := by
  subst h
  unfold Follows
  cases he : entry t [key] with
  | none => simp [findOr_none he]
  | some w =>
    intro u hu
    obtain ⟨x, hx, rfl⟩ := hr w u hu
    rw [findOr_some he hx]

omit [Field K] [LinearOrder K] [IsStrictOrderedRing K] [FloorRing K] in
theorem follows_req {α : Type} {g : Toml K → Outcome α} {ty : DocTy} {inj : α → Val K} {t : Toml K}
    {key : String} {x : α} {d : Option (Val K)} (hr : Reads g ty inj) (h : find g t [key] = .ok x) :
    Follows t key ty d (inj x) := by
  unfold Follows
  cases he : entry t [key] with
  | none => rw [find_none he] at h; cases h
  | some w =>
    intro u hu
    obtain ⟨y, hy, rfl⟩ := hr w u hu
    rw [find_some he, hy] at h
    cases h
    rfl

omit [Field K] [LinearOrder K] [IsStrictOrderedRing K] [FloorRing K] in
theorem find_real {t : Toml K} {path : List String} {x : K} (h : find getReal t path = .ok x) :
    entry t path = some (.float x) := by
  cases he : entry t path with
  | none => rw [find_none he] at h; cases h
  | some w =>
    rw [find_some he] at h
    cases w <;> simp_all [getReal]

theorem species_obeys {E : Env K} {engine idx gclear gsort : Nat} {t t' : Toml K} {s : Sp K}
    {q : List String} {x : K} {m : Nat} (h : readSpecies E engine idx t gclear gsort = .ok (s, q))
    (hx : find getReal t' ["maxnpart"] = .ok x) (hm : castNpart x = .ok m) :
    SpeciesObeys E.tasks.isSome gclear gsort idx t t' { s with maxnpart := m } := by
  obtain ⟨y, ps, ds, es, drag, c1, c2, -, -, c3, c4, c5, c6, c7, c8, c9, c10, c11, c12, c13, c14, c15, c16,
    c17, c18, -, -, -, -, -, -, -, -, -⟩ := species_ok h
  constructor
  · exact c3
  · exact follows_opt reads_str c4
  · exact follows_req reads_real c1
  · exact follows_req reads_real c2
  · refine ⟨x, find_real hx, fun h0 => ?_⟩
    simp only [castNpart] at hm
    split at hm
    · cases hm
      have hf : (0 : Int) ≤ ⌊x⌋ := Int.floor_nonneg.2 h0
      have hc : ((⌊x⌋.toNat : Nat) : K) = ((⌊x⌋ : Int) : K) := by
        rw [← Int.cast_natCast, Int.toNat_of_nonneg hf]
      constructor
      · simp only [hc]
        exact Int.floor_le x
      · simp only [hc]
        exact Int.lt_floor_add_one x
    · cases hm
  · exact follows_opt (reads_uint 32) c5
  · exact follows_opt (reads_uint 32) c6
  · exact follows_opt reads_bool c7
  · exact follows_opt (reads_uint 16) c8
  · refine ⟨_, follows_opt (reads_uint 16) rfl, fun hb => ?_⟩
    simp only [c9]
    cases s.tracking
    · simp
    · simp only [if_true]
      apply Nat.mod_eq_of_lt
      split <;> omega
  · intro w hw e he hl
    rw [c10, findOr_some (g := getStr) (x := w) hw rfl, hl] at c11
    simp only [pushers, List.mem_cons, List.not_mem_nil, or_false] at he
    rcases he with rfl | rfl | rfl | rfl | rfl | rfl <;>
      exact (ok.inj (c11.symm.trans (by decide)))
  · intro hw
    rw [c10, findOr_none hw] at c11
    simp only
    split at c11
    · rename_i hc
      rw [if_pos hc]
      exact (ok.inj (c11.symm.trans (by decide)))
    · rename_i hc
      rw [if_neg hc]
      exact (ok.inj (c11.symm.trans (by decide)))
  · intro w hw e he hl
    rw [c12, findOr_some (g := getStr) (x := w) hw rfl, hl] at c13
    simp only [emissions, List.mem_cons, List.not_mem_nil, or_false] at he
    rcases he with rfl | rfl | rfl <;> exact (ok.inj (c13.symm.trans (by decide)))
  · intro hw
    rw [c12, findOr_none hw] at c13
    exact (ok.inj (c13.symm.trans (by decide)))
  · intro w hw e he hl
    rw [findOr_some (g := getStr) (x := w) hw rfl] at c14
    subst c14
    simp only [drags, List.mem_cons, List.not_mem_nil, or_false] at he
    have hd : lower ds ≠ "default" := by
      rw [hl]
      rcases he with rfl | rfl | rfl | rfl | rfl <;> decide
    rw [if_neg hd, hl] at c15
    simp only [hd, decide_false, Bool.false_and, Bool.or_false] at c16 c17
    have key : getDrag e.1.toList = .ok e.2 := by
      rcases he with rfl | rfl | rfl | rfl | rfl <;> decide
    rw [key] at c15
    cases c15
    exact ⟨c16, c17⟩
  · intro hw
    rw [findOr_none hw] at c14
    subst c14
    have hd : lower "default" = "default" := by decide
    rw [if_pos hd] at c15
    have hdr : drag = (false, false) := ok.inj (c15.symm.trans (by decide))
    simp only [hd, hdr, decide_true, Bool.true_and, Bool.false_or] at c16 c17
    simp [c16, c17]
  · exact c18

theorem all_species {E : Env K} {kept f : Toml K} {p : Prm K} (h : load E kept f = .ok p)
    {T T' : List (Toml K)} (hT : entry kept ["particles", "species"] = some (.arr T))
    (hT' : entry f ["particles", "species"] = some (.arr T')) :
    T'.length = T.length ∧ p.get "particles.nspec" = some (.uint T.length) ∧
    ∃ clear sort sps, p.get "particles.clear_interval" = some (.uint clear) ∧
      p.get "particles.spatial_sorting_interval" = some (.uint sort) ∧
      p.get "particles.species" = some (.species sps) ∧ sps.length = T.length ∧
      ∀ (n : Nat) (t t' : Toml K) (s : Sp K), T[n]? = some t → T'[n]? = some t' → sps[n]? = some s →
        SpeciesObeys E.tasks.isSome clear sort ((n + 1) % 256) t t' s := by
  obtain ⟨i, hi, hm, _⟩ := load_ok h
  obtain ⟨engName, larmor0, skindepth0, ppc0, proms, name, runtime, bc, proms', sps, out, p1, x, -, -, -,
    -, -, -, -, -, -, h10, h11, -, -, -, m4, m5, -, -, -, hKept, hFirst, -⟩ := gets hi hm
  have eT : findOr getArr kept ["particles", "species"] [] = T := findOr_some hT rfl
  have eT' : findOr getArr f ["particles", "species"] [] = T' := findOr_some hT' rfl
  rw [eT] at h10 hKept
  rw [eT'] at m4 m5
  obtain ⟨l2, u2⟩ := allSpecies_ok (by omega) h10
  obtain ⟨l1, u1⟩ := update_ok m5
  refine ⟨by omega, hKept _ _ (by simp [keptParams]) (by decide), _, _, sps,
    hKept _ _ (by simp [keptParams]; rfl) (by decide), hKept _ _ (by simp [keptParams]; rfl) (by decide),
    hFirst _ _ (by simp [firstParams]), by omega, ?_⟩
  intro n t t' s a b c
  obtain ⟨s0, y, m, e1, e2, e3, rfl⟩ := u1 n t' s b c
  obtain ⟨q', r1, -⟩ := u2 n t s0 a e1
  rw [Nat.add_comm n 1]
  exact species_obeys r1 e2 e3

end Entity.Options
