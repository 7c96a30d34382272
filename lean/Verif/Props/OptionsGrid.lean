import Verif.Lemmas.OptionsGrid
import Verif.Props.Options

/-!
# C150: grid and boundary layers are those of the input file
-/

namespace Entity.Options

open Entity Entity.Outcome Entity.Enums Entity.SpeciesInput

variable {K : Type} [Field K] [LinearOrder K] [IsStrictOrderedRing K] [FloorRing K]

/-- C150: the grid of an accepted file (on a restart: the file `kept` of the first run).  Resolution,
extent, metric, coordinates, decomposition and the parameters of the metric are those given, with the
documented defaults; curvilinear grids are two-dimensional and reach from pole to pole. -/
theorem C150_grid (E : Env K) (kept f : Toml K) (p : Prm K) (h : load E kept f = .ok p) :
    ∃ dim m c eng, p.get "grid.dim" = some (.enum dim) ∧ p.get "grid.metric.metric" = some (.enum m) ∧
      p.get "grid.metric.coord" = some (.enum c) ∧ p.get "simulation.engine" = some (.enum eng) ∧
      1 ≤ dim ∧ dim ≤ 3 ∧ (c ≠ 1 → dim = 2) ∧ Obeys kept p (domainNumber E.tasks) ∧
      (∀ l : List Nat, (∀ n ∈ l, n < 2 ^ 32) →
        entry kept ["grid", "resolution"] = some (.arr (l.map fun (n : Nat) => .int (Int.ofNat n))) →
        p.get "grid.resolution" = some (.uints l) ∧ dim = l.length) ∧
      (∀ w, entry kept ["grid", "metric", "metric"] = some (.str w) →
        (lower w, m, c) ∈ metrics) ∧
      (c = 1 → ∀ l : List (K × K), entry kept ["grid", "extent"] = some (.arr (l.map written)) →
        dim ≤ l.length ∧ p.get "grid.extent" = some (.pairs (l.take dim))) ∧
      (c ≠ 1 → ∀ e : K × K, entry kept ["grid", "extent"] = some (.arr [written e]) →
        p.get "grid.extent" = some (.pairs [e, (0, E.pi)])) ∧
      (∀ l : List Int, (∀ n ∈ l, -2 ^ 31 ≤ n ∧ n < 2 ^ 31) →
        entry kept ["simulation", "domain", "decomposition"] = some (.arr (l.map Toml.int)) →
        dim ≤ l.length ∧ p.get "simulation.domain.decomposition" = some (.ints (l.take dim))) ∧
      (entry kept ["simulation", "domain", "decomposition"] = none →
        p.get "simulation.domain.decomposition" = some (.ints (List.replicate dim (-1)))) ∧
      (c = 3 → (∀ r ∈ stretching, Obeys kept p r) ∧ ∃ r0 h l,
        p.get "grid.metric.qsph_r0" = some (.real r0) ∧ p.get "grid.metric.qsph_h" = some (.real h) ∧
        p.get "grid.metric.params" = some (.map l) ∧ l.lookup "r0" = some r0 ∧ l.lookup "h" = some h) ∧
      (eng = 2 → m ≠ 6 → Obeys kept p spin ∧ ∃ a l, p.get "grid.metric.ks_a" = some (.real a) ∧
        p.get "grid.metric.ks_rh" = some (.real (1 + E.sqrt (1 - a ^ 2))) ∧
        p.get "grid.metric.params" = some (.map l) ∧ l.lookup "a" = some a) := by
  obtain ⟨engName, i, bc, proms, b, p1, h1, h2, h3, he, hg, -⟩ := gets_grid h
  obtain ⟨name, dec, g1, g2, g3, g4, g5, g6, g7, g8, g9, g10, g11, g12, g13, g14, g15, g16⟩ := grid_ok h3
  have ex := hg "grid.extent" (.pairs i.grid.extent) (by simp [gridParams])
  refine ⟨i.grid.dim, i.grid.metric, i.grid.coord, i.engine, hg _ _ (by simp [gridParams]),
    hg _ _ (by simp [gridParams]), hg _ _ (by simp [gridParams]), he, g9, g10, g12, ?_, ?_, ?_, ?_, ?_, ?_,
    ?_, ?_, ?_⟩
  · refine obeys_opt (reads_uint 32) (hg "simulation.domain.number" _ ?_)
    rw [← g3]
    simp [gridParams]
  · intro l hl hf
    obtain ⟨x, hx, hx'⟩ := reads_uints 32 _ _ (Means.uints (K := K) 32 l hl)
    rw [find_some hf, hx] at g7
    cases g7
    cases hx'
    exact ⟨hg _ _ (by simp [gridParams]), g8⟩
  · intro w hw
    rw [find_some hw] at g1
    cases g1
    rw [g11]
    simp only [pick, metric, pickFrom] at g2
    repeat' split at g2
    all_goals first
      | (rename_i hn; rw [← hn, ← ok.inj g2]; decide)
      | cases g2
  · intro hc l hl
    rw [hc] at g13
    obtain ⟨e1, e2⟩ := extent_cart g13 hl
    rw [e1] at ex
    exact ⟨e2, ex⟩
  · intro hc e hl
    rw [g12 hc] at g13
    rw [extent_sph hc g13 hl] at ex
    exact ex
  · intro l hl hf
    have hx : getVec (getInt 32) (.arr (l.map Toml.int) : Toml K) = .ok l := by
      simp only [getVec]
      rw [getAll_map Toml.int id l fun x hx => ?_, List.map_id]
      obtain ⟨y, hy, hy'⟩ := reads_int (K := K) 32 _ _ (Means.int 32 x (hl x hx).1 (hl x hx).2 (by omega))
      rw [hy]
      cases hy'
      rfl
    rw [findOr_some hf hx] at g4
    subst g4
    refine ⟨g6, ?_⟩
    rw [← g5]
    exact hg _ _ (by simp [gridParams])
  · intro hf
    rw [findOr_none hf] at g4
    subst g4
    have : List.replicate i.grid.dim (-1 : Int) = [-1, -1, -1].take i.grid.dim := by
      have : i.grid.dim = 1 ∨ i.grid.dim = 2 ∨ i.grid.dim = 3 := by omega
      rcases this with e | e | e <;> rw [e] <;> rfl
    rw [this, ← g5]
    exact hg _ _ (by simp [gridParams])
  · intro hc
    have hm : ∀ e ∈ i.grid.metricParams, p.get ("grid.metric." ++ e.1) = some (.real e.2) := by
      intro e hme
      refine hg _ _ ?_
      simp only [gridParams, List.mem_append, List.mem_map]
      exact .inl (.inr ⟨e, hme, rfl⟩)
    rw [if_pos hc] at g14
    have a1 := hm ("qsph_r0", findOr getReal kept ["grid", "metric", "qsph_r0"] 0) (by rw [g14]; simp)
    have a2 := hm ("qsph_h", findOr getReal kept ["grid", "metric", "qsph_h"] 0) (by rw [g14]; simp)
    refine ⟨?_, _, _, i.grid.metricShort, a1, a2, hg _ _ (by simp [gridParams]), ?_, ?_⟩
    · unfold stretching
      refine List.forall_mem_cons.2 ⟨obeys_opt reads_real a1, ?_⟩
      refine List.forall_mem_cons.2 ⟨obeys_opt reads_real a2, ?_⟩
      exact fun r hr => by cases hr
    · rw [g15, g14]
      simp [shortParams, hc, List.lookup]
    · rw [g15, g14]
      simp [shortParams, hc, List.lookup]
  · intro hc hc'
    have hm : ∀ e ∈ i.grid.metricParams, p.get ("grid.metric." ++ e.1) = some (.real e.2) := by
      intro e hme
      refine hg _ _ ?_
      simp only [gridParams, List.mem_append, List.mem_map]
      exact .inl (.inr ⟨e, hme, rfl⟩)
    have hcc : i.engine = 2 ∧ i.grid.metric ≠ 6 := ⟨hc, hc'⟩
    simp only [hcc, and_self, if_true, ne_eq, not_false_eq_true] at g14
    have a1 := hm ("ks_a", findOr getReal kept ["grid", "metric", "ks_a"] 0) (by rw [g14]; simp)
    have a2 := hm ("ks_rh", 1 + E.sqrt (1 - findOr getReal kept ["grid", "metric", "ks_a"] 0 ^ 2))
      (by rw [g14]; simp)
    refine ⟨obeys_opt reads_real a1, _, i.grid.metricShort, a1, a2, hg _ _ (by simp [gridParams]), ?_⟩
    rw [g15, g14]
    by_cases h3 : i.grid.coord = 3 <;> simp [shortParams, h3, hc, hc', List.lookup]

/-- C150: the layers of matching and absorbing boundaries and the atmosphere have the documented sizes
whenever one of the boundaries needs them.

Not proved, as it is not so: that lists of a wrong shape are refused
(`C150_layers_counterexample`). -/
theorem C150_layers_partial (E : Env K) (kept f : Toml K) (p : Prm K) (h : load E kept f = .ok p) :
    ∃ dim c ext, p.get "grid.dim" = some (.enum dim) ∧ p.get "grid.metric.coord" = some (.enum c) ∧
      p.get "grid.extent" = some (.pairs ext) ∧
      (Boundary f ["grid", "boundaries", "fields"] "match" → c = 1 →
        (∀ x, entry f ["grid", "boundaries", "match", "ds"] = some (.float x) →
          p.get "grid.boundaries.match.ds" = some (.pairs (List.replicate dim (x, x)))) ∧
        (∀ l : List (List K), entry f ["grid", "boundaries", "match", "ds"] = some (.arr (l.map numbers)) →
          l.length = dim → (∀ e ∈ l, e.length ≤ 2) →
          p.get "grid.boundaries.match.ds" = some (.pairs (l.map bothEnds))) ∧
        (entry f ["grid", "boundaries", "match", "ds"] = none → ∃ w, Percent ext w ∧
          p.get "grid.boundaries.match.ds" = some (.pairs (List.replicate dim (w, w))))) ∧
      (Boundary f ["grid", "boundaries", "fields"] "match" → c ≠ 1 →
        (∀ x, entry f ["grid", "boundaries", "match", "ds"] = some (.float x) →
          p.get "grid.boundaries.match.ds" = some (.pairs [(x, x)])) ∧
        (entry f ["grid", "boundaries", "match", "ds"] = none → ∃ w, Percent (ext.take 1) w ∧
          p.get "grid.boundaries.match.ds" = some (.pairs [(w, w)]))) ∧
      (Boundary f ["grid", "boundaries", "particles"] "absorb" →
        ∃ w, Percent (if c = 1 then ext else ext.take 1) w ∧
          Obeys f p ⟨["grid", "boundaries", "absorb", "ds"], .float, some (.real w)⟩) ∧
      (Boundary f ["grid", "boundaries", "fields"] "atmosphere" ∨
        Boundary f ["grid", "boundaries", "particles"] "atmosphere" →
        (∀ r ∈ atmosphere, Obeys f p r) ∧
        ∃ t hh, p.get "grid.boundaries.atmosphere.temperature" = some (.real t) ∧
          p.get "grid.boundaries.atmosphere.height" = some (.real hh) ∧
          p.get "grid.boundaries.atmosphere.g" = some (.real (t / hh)) ∧
          ∀ a b : Nat, a < 2 ^ 8 → b < 2 ^ 8 → entry f ["grid", "boundaries", "atmosphere", "species"] =
            some (.arr [.int a, .int b]) →
            p.get "grid.boundaries.atmosphere.species" = some (.upair a b)) := by
  obtain ⟨engName, i, bc, proms, b, p1, h1, h2, h3, he, hg, hb, hp, hbp, hB⟩ := gets_grid h
  obtain ⟨name, dec, g1, g2, g3, g4, g5, g6, g7, g8, g9, g10, g11, g12, g13, -⟩ := grid_ok h3
  obtain ⟨q1, q2, q3⟩ := bnd_promises hb
  have hne := extent_ne g13
  have take1 : ∀ c ≠ 1, Percent (i.grid.extent.take 1) (refExtent c i.grid.extent * (1 / 100)) := by
    intro c hc
    cases hx : i.grid.extent with
    | nil => exact absurd hx hne
    | cons e es =>
      have := refExtent_percent (ext := [e]) (by simp)
      simpa [refExtent, hc] using this
  simp only [boundaryParams, bind_eq_ok, pure_eq, ok.injEq] at hbp
  obtain ⟨atm, ha, rfl⟩ := hbp
  have mem1 : ∀ e, e ∈ (if p1.promised "grid.boundaries.match.ds" = true then
      [("grid.boundaries.match.ds", Val.pairs (if i.grid.coord = 1 then
        matchCartesian i.grid.dim (refExtent i.grid.coord i.grid.extent * (1 / 100)) f
        else [(findOr getReal f ["grid", "boundaries", "match", "ds"]
          (refExtent i.grid.coord i.grid.extent * (1 / 100)),
          findOr getReal f ["grid", "boundaries", "match", "ds"]
          (refExtent i.grid.coord i.grid.extent * (1 / 100)))]))] else []) → p.get e.1 = some e.2 :=
    fun e he => hB e.1 e.2 (List.mem_append.2 (.inl (List.mem_append.2 (.inl he))))
  refine ⟨i.grid.dim, i.grid.coord, i.grid.extent, hg _ _ (by simp [gridParams]),
    hg _ _ (by simp [gridParams]), hg _ _ (by simp [gridParams]), ?_, ?_, ?_, ?_⟩
  · intro hm hc
    rw [if_pos (hp _ (q1 hm)), if_pos hc] at mem1
    have hv := mem1 _ (List.mem_singleton.2 rfl)
    simp only at hv
    rw [hc] at hv
    refine ⟨fun x hx => ?_, fun l hl hlen hle => ?_, fun hn => ⟨_, refExtent_percent hne, ?_⟩⟩
    · rw [hv]
      simp [matchCartesian, find_some hx, getReal]
    · rw [hv]
      simp [matchCartesian, find_some hl, getReal, getVec_numbers, hlen, matchLoop_ok l hle]
    · rw [hv]
      simp [matchCartesian, find_none hn]
  · intro hm hc
    rw [if_pos (hp _ (q1 hm)), if_neg hc] at mem1
    have hv := mem1 _ (List.mem_singleton.2 rfl)
    simp only at hv
    refine ⟨fun x hx => ?_, fun hn => ⟨_, take1 _ hc, ?_⟩⟩
    · rw [hv, findOr_some (g := getReal) (x := x) hx rfl]
    · rw [hv, findOr_none hn]
  · intro hm
    have hv : p.get "grid.boundaries.absorb.ds" = some (.real (findOr getReal f
        ["grid", "boundaries", "absorb", "ds"] (refExtent i.grid.coord i.grid.extent * (1 / 100)))) := by
      refine hB _ _ (List.mem_append.2 (.inl (List.mem_append.2 (.inr ?_))))
      rw [if_pos (hp _ (q2 hm))]
      simp
    refine ⟨_, ?_, obeys_opt reads_real hv⟩
    split
    · rename_i hc
      rw [hc]
      exact refExtent_percent hne
    · rename_i hc
      exact take1 _ hc
  · intro hm
    rw [if_pos (hp _ (q3 hm))] at ha
    simp only [atmosphereParams, bind_eq_ok, pure_eq, ok.injEq] at ha
    obtain ⟨t, a1, hh, a2, n, a3, ⟨s1, s2⟩, a4, rfl⟩ := ha
    have hv : ∀ k v, _ → p.get k = some v := fun k v hk => hB k v (List.mem_append.2 (.inr hk))
    have v1 := hv "grid.boundaries.atmosphere.temperature" (.real t) (by simp)
    have v2 := hv "grid.boundaries.atmosphere.density" (.real n) (by simp)
    have v3 := hv "grid.boundaries.atmosphere.height" (.real hh) (by simp)
    have v4 := hv "grid.boundaries.atmosphere.ds"
      (.real (findOr getReal f ["grid", "boundaries", "atmosphere", "ds"] 0)) (by simp)
    refine ⟨?_, t, hh, v1, v3, hv _ _ (by simp), fun a b ha hb hs => ?_⟩
    · unfold atmosphere
      refine List.forall_mem_cons.2 ⟨obeys_req reads_real a1 v1, ?_⟩
      refine List.forall_mem_cons.2 ⟨obeys_req reads_real a3 v2, ?_⟩
      refine List.forall_mem_cons.2 ⟨obeys_req reads_real a2 v3, ?_⟩
      refine List.forall_mem_cons.2 ⟨obeys_opt reads_real v4, ?_⟩
      exact fun r hr => by cases hr
    · rw [find_some hs] at a4
      simp only [getPair, getUInt_nat ha, getUInt_nat hb, bind_ok, pure_eq, ok.injEq,
        Prod.mk.injEq] at a4
      obtain ⟨rfl, rfl⟩ := a4
      exact hv _ _ (by simp)

/-! ## Concrete files -/

/-- A two-dimensional box with matching layers; `ds` as given. -/
def exMatch (ds : List (String × Toml ℚ)) : Toml ℚ :=
  .tab [("simulation", .tab [("name", .str "test"), ("engine", .str "SRPIC"), ("runtime", .float 10)]),
    ("grid", .tab [("resolution", .arr [.int 64, .int 32]),
      ("extent", .arr [.arr [.float 0, .float 32], .arr [.float (-2), .float 14]]),
      ("metric", .tab [("metric", .str "Minkowski")]),
      ("boundaries", .tab [("fields", .arr [.arr [.str "MATCH", .str "MATCH"], .arr [.str "MATCH", .str "FIXED"]]),
        ("particles", .arr [.arr [.str "ABSORB", .str "REFLECT"], .arr [.str "ABSORB", .str "ABSORB"]]),
        ("match", .tab ds)])]),
    ("scales", .tab [("larmor0", .float 2), ("skindepth0", .float 4)]),
    ("particles", .tab [("ppc0", .float 8)])]

def isPairs (p : Prm ℚ) (k : String) (l : List (ℚ × ℚ)) : Bool :=
  match p.get k with
  | some (.pairs m) => decide (m = l)
  | _ => false

example : Boundary (exMatch []) ["grid", "boundaries", "fields"] "match" :=
  ⟨_, _, "MATCH", rfl, List.mem_cons_self .., List.mem_cons_self .., by decide⟩

/-- The default and lists of the right shape. -/
example : accepted exEnv (exMatch []) (exMatch []) (fun p => isPairs p "grid.extent" [(0, 32), (-2, 14)] &&
      isPairs p "grid.boundaries.match.ds" [(16 / 100, 16 / 100), (16 / 100, 16 / 100)] &&
      isReal p "grid.boundaries.absorb.ds" (16 / 100)) = true ∧
    accepted exEnv (exMatch []) (exMatch [("ds", .arr [.arr [.float 1], .arr [.float 2, .float 3]])])
      (fun p => isPairs p "grid.boundaries.match.ds" [(1, 1), (2, 3)]) = true := by
  decide +kernel

/-- C150: lists of a wrong shape are not refused.  With one entry in a two-dimensional box the default is
taken, with three widths in the second entry there are three pairs for two directions: the first pair that
was given and the default for both directions.  An integer is also replaced by the default. -/
theorem C150_layers_counterexample :
    accepted exEnv (exMatch []) (exMatch [("ds", .arr [.arr [.float 1]])])
      (fun p => isPairs p "grid.boundaries.match.ds" [(16 / 100, 16 / 100), (16 / 100, 16 / 100)]) = true ∧
    accepted exEnv (exMatch [])
      (exMatch [("ds", .arr [.arr [.float 1], .arr [.float 1, .float 2, .float 3]])])
      (fun p => isPairs p "grid.boundaries.match.ds"
        [(1, 1), (16 / 100, 16 / 100), (16 / 100, 16 / 100)]) = true ∧
    accepted exEnv (exMatch []) (exMatch [("ds", .int 1)])
      (fun p => isPairs p "grid.boundaries.match.ds" [(16 / 100, 16 / 100), (16 / 100, 16 / 100)]) = true := by
  decide +kernel

end Entity.Options
