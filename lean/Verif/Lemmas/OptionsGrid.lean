import Verif.Lemmas.OptionsAll
import Verif.Spec.OptionsGrid
import Mathlib.Tactic.NormNum

/-!
# Grid and boundary layers of the input file
-/

namespace Entity.Options

open Entity Entity.Outcome Entity.Enums Entity.SpeciesInput

variable {K : Type} [Field K] [LinearOrder K] [IsStrictOrderedRing K] [FloorRing K]

/-- The names set by `gridParams`. -/
def gridKeys : List String :=
  ["simulation.domain.number", "simulation.domain.decomposition", "grid.resolution", "grid.dim",
   "grid.metric.metric", "grid.metric.coord", "grid.metric.qsph_r0", "grid.metric.qsph_h",
   "grid.metric.ks_a", "grid.metric.ks_rh", "grid.metric.params", "grid.extent", "scales.dx0", "scales.V0"]

omit [LinearOrder K] [IsStrictOrderedRing K] [FloorRing K] in
theorem coord_ok {engine dim m : Nat} {f : Toml K} {c : Nat} {l : List (String × K)}
    (h : coordParams engine dim m f = .ok (c, l)) :
    c = (if m = 1 then 1 else if m = 5 ∨ m = 3 then 3 else 2) ∧ (c ≠ 1 → dim ≠ 1 ∧ dim ≠ 3) ∧
    l = (if c = 3 then [("qsph_r0", findOr getReal f ["grid", "metric", "qsph_r0"] 0),
      ("qsph_h", findOr getReal f ["grid", "metric", "qsph_h"] 0)] else []) := by
  have er : ∀ (c : Prop) [Decidable c], errorIf c = .ok () → ¬ c := by
    intro c _ hc hc'
    simp [errorIf, hc'] at hc
  unfold coordParams at h
  split at h
  · simp only [bind_eq_ok, pure_eq, ok.injEq, Prod.mk.injEq] at h
    obtain ⟨⟨⟩, -, rfl, rfl⟩ := h
    rename_i hm
    simp [hm]
  · rename_i hm
    rw [if_neg hm]
    split at h
    · simp only [bind_eq_ok, pure_eq, ok.injEq, Prod.mk.injEq] at h
      obtain ⟨⟨⟩, h1, ⟨⟩, h2, rfl, rfl⟩ := h
      rename_i hm
      rw [if_pos hm]
      exact ⟨rfl, fun _ => ⟨er _ h1, er _ h2⟩, rfl⟩
    · simp only [bind_eq_ok, pure_eq, ok.injEq, Prod.mk.injEq] at h
      obtain ⟨⟨⟩, h1, ⟨⟩, h2, rfl, rfl⟩ := h
      rename_i hm
      rw [if_neg hm]
      exact ⟨rfl, fun _ => ⟨er _ h1, er _ h2⟩, rfl⟩

omit [LinearOrder K] [IsStrictOrderedRing K] [FloorRing K] in
/-- What a grid is made of. -/
theorem grid_ok {E : Env K} {engine : Nat} {f : Toml K} {g : Grid K} (h : readGrid E engine f = .ok g) :
    ∃ name dec, find getStr f ["grid", "metric", "metric"] = .ok name ∧
      pick metric (lower name) = .ok g.metric ∧
      g.number = findOr (getUInt 32) f ["simulation", "domain", "number"] (E.tasks.getD 1) ∧
      dec = findOr (getVec (getInt 32)) f ["simulation", "domain", "decomposition"] [-1, -1, -1] ∧
      g.decomposition = dec.take g.dim ∧ g.dim ≤ dec.length ∧
      find (getVec (getUInt 32)) f ["grid", "resolution"] = .ok g.resolution ∧
      g.dim = g.resolution.length ∧ 1 ≤ g.dim ∧ g.dim ≤ 3 ∧
      g.coord = (if g.metric = 1 then 1 else if g.metric = 5 ∨ g.metric = 3 then 3 else 2) ∧
      (g.coord ≠ 1 → g.dim = 2) ∧
      readExtent E g.dim g.coord f = .ok g.extent ∧
      g.metricParams = (if g.coord = 3 then [("qsph_r0", findOr getReal f ["grid", "metric", "qsph_r0"] 0),
        ("qsph_h", findOr getReal f ["grid", "metric", "qsph_h"] 0)] else []) ++
        (if engine = 2 ∧ g.metric ≠ 6 then [("ks_a", findOr getReal f ["grid", "metric", "ks_a"] 0),
          ("ks_rh", 1 + E.sqrt (1 - findOr getReal f ["grid", "metric", "ks_a"] 0 ^ 2))] else []) ∧
      g.metricShort = shortParams engine g.metric g.coord g.metricParams ∧
      E.scale g.metric g.resolution g.extent g.metricShort = .ok (g.dx0, g.V0) := by
  have er : ∀ (c : Prop) [Decidable c], errorIf c = .ok () → ¬ c := by
    intro c _ hc hc'
    simp [errorIf, hc'] at hc
  simp only [readGrid, bind_eq_ok, pure_eq, ok.injEq] at h
  obtain ⟨res, h1, ⟨⟩, h2, ⟨⟩, h3, ⟨m, c, prm⟩, h4, ext, h5, ⟨dx0, V0⟩, h6, rfl⟩ := h
  have h2' := er _ h2
  have h3' := er _ h3
  push_neg at h2'
  simp only [readMetric, bind_eq_ok] at h4
  obtain ⟨name, h7, m', h8, ⟨c', l⟩, h9, h10⟩ := h4
  obtain ⟨k1, k2, k3⟩ := coord_ok h9
  have key : m' = m ∧ c' = c ∧ prm = l ++ (if engine = 2 ∧ m' ≠ 6 then
      [("ks_a", findOr getReal f ["grid", "metric", "ks_a"] 0),
        ("ks_rh", 1 + E.sqrt (1 - findOr getReal f ["grid", "metric", "ks_a"] 0 ^ 2))] else []) := by
    split at h10
    · rename_i hc
      rw [if_pos hc]
      simp only [pure_eq, ok.injEq, Prod.mk.injEq] at h10
      obtain ⟨rfl, rfl, rfl⟩ := h10
      exact ⟨rfl, rfl, rfl⟩
    · rename_i hc
      rw [if_neg hc]
      simp only [pure_eq, ok.injEq, Prod.mk.injEq] at h10
      obtain ⟨rfl, rfl, rfl⟩ := h10
      exact ⟨rfl, rfl, by simp⟩
  obtain ⟨rfl, rfl, rfl⟩ := key
  rw [k3] at h6 ⊢
  have hdec : ∀ (d : Nat) (l : List Int), (if d < l.length then l.take d else l) = l.take d := by
    intro d l
    split
    · rfl
    · rw [List.take_of_length_le (by omega)]
  have hle : res.length ≤ (findOr (getVec (getInt 32)) f ["simulation", "domain", "decomposition"]
      [-1, -1, -1]).length := by
    rw [hdec, not_not, List.length_take] at h3'
    omega
  refine ⟨name, _, h7, h8, rfl, rfl, hdec _ _, hle, h1, rfl, by show 1 ≤ res.length; omega, h2'.2, k1, ?_, h5, rfl, rfl,
    h6⟩
  intro hc
  have := k2 hc
  simp only at this ⊢
  omega

omit [LinearOrder K] [IsStrictOrderedRing K] [FloorRing K] in
theorem grid_keys {E : Env K} {engine : Nat} {f : Toml K} {g : Grid K}
    (h : readGrid E engine f = .ok g) : List.Sublist ((gridParams g).map Prod.fst) gridKeys := by
  obtain ⟨name, dec, -, -, -, -, -, -, -, -, -, -, -, -, -, k, -⟩ := grid_ok h
  have e : gridKeys = gridKeys.take 6 ++ ((gridKeys.drop 6).take 2 ++ (gridKeys.drop 8).take 2) ++
    gridKeys.drop 10 := by decide
  rw [e, gridParams, k]
  simp only [List.map_append]
  refine List.Sublist.append (List.Sublist.append (List.Sublist.refl _) (List.Sublist.append ?_ ?_))
    (List.Sublist.refl _)
  · split
    · simp only [List.map_cons, List.map_nil]
      exact List.Sublist.refl _
    · exact List.nil_sublist _
  · split
    · simp only [List.map_cons, List.map_nil]
      exact List.Sublist.refl _
    · exact List.nil_sublist _

/-- The parameters of the grid and of the boundaries as they are seen. -/
theorem gets_grid {E : Env K} {kept f : Toml K} {p : Prm K} (h : load E kept f = .ok p) :
    ∃ (engName : String) (i : Immutable K) (bc : BoundaryInput.Result) (proms : List String)
      (b : List (String × Val K)) (p1 : Prm K), find getStr kept ["simulation", "engine"] = .ok engName ∧
      pick simEngine (lower engName) = .ok i.engine ∧
      readGrid E i.engine kept = .ok i.grid ∧
      p.get "simulation.engine" = some (.enum i.engine) ∧
      (∀ k v, (k, v) ∈ gridParams i.grid → p.get k = some v) ∧
      readBoundaries i.engine i.grid.dim i.grid.coord f = .ok (bc, proms) ∧
      (∀ k ∈ proms, p1.promised k = true) ∧
      boundaryParams p1 i.grid.dim i.grid.coord i.grid.extent f = .ok b ∧
      ∀ k v, (k, v) ∈ b → p.get k = some v := by
  obtain ⟨i, hi, hm, _⟩ := load_ok h
  obtain ⟨engName, larmor0, skindepth0, ppc0, proms, h1, h2, h3, h4, h5, h6, h7, h8, h9, h10, h11, h12⟩ :=
    immutable_ok hi
  obtain ⟨name, runtime, bc, proms', sps, out, p1, b, x, m1, m2, m3, m4, m5, m6, m7, m8, m9, m10, m11,
    m12⟩ := mutable_ok hm
  have hs : ∀ (p : Prm K) (l : List (String × Val K)), (p.sets l).promises = p.promises := by
    intro p l
    induction l generalizing p with
    | nil => rfl
    | cons e l ih => exact ih _
  have ka := alg_keys E i.grid.dx0 (decide (i.engine = 2)) (p1.promised "algorithms.gca.e_ovr_b_max") f
  have kb := boundary_keys m8
  have kx := extra_keys m9
  have ko := out_keys name m6
  have kg := grid_keys h3
  have eng : p.get "simulation.engine" = some (.enum i.engine) := by
    obtain ⟨_, _, _, _, _, _, _, _, _, _, _, _, _, -, -, -, -, -, -, -, -, -, -, -, -, -, -, -, -, -, -, -,
      -, -, -, -, -, he, -, -⟩ := gets hi hm
    exact he
  refine ⟨engName, i, bc, proms', b, p1, h1, h2, h3, eng, ?_, m3, ?_, m8, ?_⟩
  · intro k v hk
    have hk' : k ∈ gridKeys := kg.subset (mem_keys hk)
    have dis : ∀ k ∈ gridKeys, k ∉ bKeys ∧ k ∉ algKeys ∧ k ∉ synKeys ++ comKeys ∧ k ∉ outKeys ∧
        k ≠ "output.stats.enable" ∧ k ∉ mutKeys ∧ k ∉ keptKeys := by decide
    obtain ⟨c1, c2, c3, c4, c5, c6, c7⟩ := dis k hk'
    rw [m10 k (.inl c5), get_sets_not, m7, get_sets_not (by rw [ko]; exact c4),
      get_sets_not (by rw [first_keys]; exact c6), get_promise, h12, get_promise,
      get_sets_not (by rw [kept_keys]; exact c7)]
    · exact get_sets_mem (kg.nodup (by decide)) hk
    · simp only [List.map_append, List.mem_append, not_or]
      exact ⟨⟨fun hk => c1 (kb.subset hk), fun hk => c2 (ka.subset hk)⟩, fun hk => c3 (kx k hk)⟩
  · intro k hk
    simp only [Prm.promised, m7, decide_eq_true_eq]
    rw [hs, hs]
    exact List.mem_append.2 (.inr hk)
  · intro k v hk
    have hk' : k ∈ bKeys := kb.subset (mem_keys hk)
    have dis : ∀ k ∈ bKeys, k ∉ algKeys ∧ k ∉ synKeys ++ comKeys ∧ k ≠ "output.stats.enable" := by decide
    obtain ⟨c1, c2, c3⟩ := dis k hk'
    rw [m10 k (.inl c3), sets_append, get_sets_not fun hx => c2 (kx k hx), sets_append,
      get_sets_not fun hx => c1 (ka.subset hx)]
    exact get_sets_mem (kb.nodup (by decide)) hk

omit [Field K] [LinearOrder K] [IsStrictOrderedRing K] [FloorRing K] in
theorem getAll_numbers (l : List K) : getAll getReal (l.map Toml.float) = .ok l := by
  rw [getAll_map Toml.float id l fun x _ => rfl, List.map_id]

omit [Field K] [LinearOrder K] [IsStrictOrderedRing K] [FloorRing K] in
theorem getVec_numbers (l : List (List K)) :
    getVec (getVec getReal) (.arr (l.map numbers)) = .ok l := by
  simp only [getVec]
  rw [getAll_map numbers id l fun x _ => getAll_numbers x, List.map_id]

omit [Field K] [LinearOrder K] [IsStrictOrderedRing K] [FloorRing K] in
theorem getVec_written (l : List (K × K)) :
    getVec (getVec getReal) (.arr (l.map written)) = .ok (l.map fun e => [e.1, e.2]) := by
  simp only [getVec]
  rw [getAll_map written (fun e => [e.1, e.2]) l fun x _ => rfl]

omit [LinearOrder K] [IsStrictOrderedRing K] [FloorRing K] in
theorem pairwise_map (l : List (K × K)) : pairwise (l.map fun e => [e.1, e.2]) = .ok l := by
  induction l with
  | nil => rfl
  | cons e l ih => simp [pairwise, ih]

omit [LinearOrder K] [IsStrictOrderedRing K] [FloorRing K] in
theorem extent_cart {E : Env K} {dim : Nat} {f : Toml K} {l ext : List (K × K)}
    (h : readExtent E dim 1 f = .ok ext) (hf : entry f ["grid", "extent"] = some (.arr (l.map written))) :
    ext = l.take dim ∧ dim ≤ l.length := by
  simp only [readExtent, find_some hf, getVec_written, bind_ok] at h
  have e : (if dim < (l.map fun e => [e.1, e.2]).length then (l.map fun e => [e.1, e.2]).take dim
      else l.map fun e => [e.1, e.2]) = (l.take dim).map fun e => [e.1, e.2] := by
    split
    · rw [List.map_take]
    · rename_i hc
      rw [List.length_map, not_lt] at hc
      rw [List.take_of_length_le hc]
  rw [e] at h
  cases hl : l.take dim with
  | nil => rw [hl] at h; simp at h
  | cons x xs =>
    rw [← hl]
    have hh : ((l.take dim).map fun e => [e.1, e.2]).head? = some [x.1, x.2] := by simp [hl]
    rw [hh] at h
    simp only [ne_eq, not_true_eq_false, if_false, bind_eq_ok, errorIf] at h
    obtain ⟨⟨⟩, -, ⟨⟩, -, ⟨⟩, h3, h4⟩ := h
    rw [pairwise_map] at h4
    refine ⟨(ok.inj h4).symm, ?_⟩
    by_contra hc
    have : (l.take dim).length ≠ dim := by rw [List.length_take]; omega
    rw [List.length_map, if_pos this] at h3
    cases h3

omit [LinearOrder K] [IsStrictOrderedRing K] [FloorRing K] in
theorem extent_sph {E : Env K} {c : Nat} (hc : c ≠ 1) {f : Toml K} {e : K × K} {ext : List (K × K)}
    (h : readExtent E 2 c f = .ok ext) (hf : entry f ["grid", "extent"] = some (.arr [written e])) :
    ext = [e, (0, E.pi)] := by
  have hw : getVec (getVec getReal) (.arr [written e]) = .ok [[e.1, e.2]] := getVec_written [e]
  simp [readExtent, find_some hf, hw, errorIf, hc, pairwise, bind_eq_ok, pure_eq] at h
  exact h.symm

/-! ## Boundary layers -/

omit [Field K] [LinearOrder K] [IsStrictOrderedRing K] [FloorRing K] in
theorem getAll_mem {α : Type} {g : Toml K → Outcome α} {l : List (Toml K)} {r : List α}
    (h : getAll g l = .ok r) {t : Toml K} (ht : t ∈ l) : ∃ x ∈ r, g t = .ok x := by
  induction l generalizing r with
  | nil => cases ht
  | cons a l ih =>
    simp only [getAll, bind_eq_ok, pure_eq, ok.injEq] at h
    obtain ⟨x, h1, xs, h2, rfl⟩ := h
    rcases List.mem_cons.1 ht with rfl | ht
    · exact ⟨x, by simp, h1⟩
    · obtain ⟨y, hy, hy'⟩ := ih h2 ht
      exact ⟨y, by simp [hy], hy'⟩

omit [Field K] [LinearOrder K] [IsStrictOrderedRing K] [FloorRing K] in
theorem names_mem {f : Toml K} {path : List String} {l : List (List String)} {name : String}
    (h : getNames f path = .ok l) (hb : Boundary f path name) : name ∈ l.flatten := by
  obtain ⟨a, t, s, h1, h2, h3, rfl⟩ := hb
  simp only [getNames, find_some h1, bind_eq_ok, pure_eq, ok.injEq, getVec] at h
  obtain ⟨r, hr, rfl⟩ := h
  obtain ⟨x, hx, hx'⟩ := getAll_mem hr h2
  simp only [getVec] at hx'
  obtain ⟨y, hy, hy'⟩ := getAll_mem hx' h3
  cases hy'
  rw [List.mem_flatten]
  exact ⟨x.map lower, List.mem_map.2 ⟨x, hx, rfl⟩, List.mem_map.2 ⟨s, hy, rfl⟩⟩

theorem bnd_promises {engine dim coord : Nat} {f : Toml K} {bc : BoundaryInput.Result} {proms : List String}
    (h : readBoundaries engine dim coord f = .ok (bc, proms)) :
    (Boundary f ["grid", "boundaries", "fields"] "match" → "grid.boundaries.match.ds" ∈ proms) ∧
    (Boundary f ["grid", "boundaries", "particles"] "absorb" → "grid.boundaries.absorb.ds" ∈ proms) ∧
    (Boundary f ["grid", "boundaries", "fields"] "atmosphere" ∨
      Boundary f ["grid", "boundaries", "particles"] "atmosphere" →
      "grid.boundaries.atmosphere.temperature" ∈ proms) := by
  simp only [readBoundaries, bind_eq_ok, pure_eq, ok.injEq, Prod.mk.injEq] at h
  obtain ⟨fl, h1, pr, h2, r, h3, rfl, rfl⟩ := h
  refine ⟨fun hb => ?_, fun hb => ?_, fun hb => ?_⟩
  · simp [names_mem h1 hb]
  · simp [names_mem h2 hb]
  · rcases hb with hb | hb
    · simp [names_mem h1 hb, atmospherePromises]
    · simp [names_mem h2 hb, atmospherePromises]

omit [IsStrictOrderedRing K] [FloorRing K] in
theorem foldl_min (es : List (K × K)) (m : K) :
    let r := es.foldl (fun m x => min m (x.2 - x.1)) m
    (r = m ∨ ∃ e ∈ es, r = e.2 - e.1) ∧ r ≤ m ∧ ∀ e ∈ es, r ≤ e.2 - e.1 := by
  induction es generalizing m with
  | nil => simp
  | cons e es ih =>
    obtain ⟨h1, h2, h3⟩ := ih (min m (e.2 - e.1))
    simp only [List.foldl_cons]
    refine ⟨?_, h2.trans (min_le_left _ _), ?_⟩
    · rcases h1 with h1 | ⟨x, hx, h1⟩
      · rcases min_choice m (e.2 - e.1) with hm | hm
        · exact .inl (h1.trans hm)
        · exact .inr ⟨e, by simp, h1.trans hm⟩
      · exact .inr ⟨x, by simp [hx], h1⟩
    · intro x hx
      rcases List.mem_cons.1 hx with rfl | hx
      · exact h2.trans (min_le_right _ _)
      · exact h3 x hx

omit [FloorRing K] in
theorem refExtent_percent {ext : List (K × K)} (h : ext ≠ []) :
    Percent ext (refExtent 1 ext * (1 / 100)) := by
  cases ext with
  | nil => exact absurd rfl h
  | cons e es =>
    obtain ⟨h1, h2, h3⟩ := foldl_min es (e.2 - e.1)
    simp only [refExtent, if_true]
    have hd : ∀ x : K, x * (1 / 100) = x / 100 := fun x => by ring
    rw [hd]
    constructor
    · rcases h1 with h1 | ⟨x, hx, h1⟩
      · exact ⟨e, by simp, by rw [h1]⟩
      · exact ⟨x, by simp [hx], by rw [h1]⟩
    · intro x hx
      apply div_le_div_of_nonneg_right _ (by norm_num)
      rcases List.mem_cons.1 hx with rfl | hx
      · exact h2
      · exact h3 x hx

omit [LinearOrder K] [IsStrictOrderedRing K] [FloorRing K] in
theorem matchLoop_ok (l : List (List K)) (h : ∀ e ∈ l, e.length ≤ 2) :
    matchLoop l = (l.map bothEnds, false) := by
  induction l with
  | nil => rfl
  | cons e l ih =>
    have i := ih fun x hx => h x (by simp [hx])
    have he := h e (by simp)
    match e, he with
    | [], _ => simp [matchLoop, i, bothEnds]
    | [x], _ => simp [matchLoop, i, bothEnds]
    | [x, y], _ => simp [matchLoop, i, bothEnds]

omit [IsStrictOrderedRing K] [FloorRing K] in
theorem extent_ne {E : Env K} {dim c : Nat} {f : Toml K} {ext : List (K × K)}
    (h : readExtent E dim c f = .ok ext) : ext ≠ [] := by
  rintro rfl
  simp only [readExtent, bind_eq_ok] at h
  obtain ⟨raw, -, h⟩ := h
  split at h
  · cases h
  · rename_i e0 he0
    simp only [bind_eq_ok] at h
    obtain ⟨⟨⟩, -, ⟨⟩, -, ⟨⟩, -, h⟩ := h
    have ne : ∀ l : List (List K), pairwise l = .ok [] → l = [] := by
      intro l hl
      match l, hl with
      | [], _ => rfl
      | [] :: _, hl => simp [pairwise] at hl
      | [_] :: _, hl => simp [pairwise] at hl
      | [_, _] :: _, hl => simp [pairwise, bind_eq_ok, pure_eq] at hl
      | (_ :: _ :: _ :: _) :: _, hl => simp [pairwise] at hl
    have h' := ne _ h
    split at h'
    · simp at h'
    · rw [h'] at he0
      simp at he0

end Entity.Options
