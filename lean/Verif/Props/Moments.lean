import Verif.Lemmas.Moments

/-!
# C60, C61: moments of the particle distribution
-/

namespace Entity.Moments

open Entity Entity.Push Entity.Shapes Entity.Deposit Entity.Tags

variable {K : Type} [Field K] [LinearOrder K] [IsStrictOrderedRing K]

/-! ## Specification -/

/-- The species a request refers to: those with the given (one-based) numbers, or all massive ones if
none are given. -/
def chosen (species : List (Species K)) (specs : List Nat) : List (Species K) :=
  if specs = [] then species.filter (fun s => decide (0 < s.mass))
  else specs.filterMap (fun sp => species[sp - 1]?)

/-- The sum of what all particles of the chosen species contribute. -/
def totalContribution (cfg : Cfg K) (env : Env K) (species : List (Species K)) (specs : List Nat) : K :=
  ((chosen species specs).map fun s => (s.prtls.map (contribution cfg env s.mass s.charge)).sum).sum

/-- What one cell should hold: all contributions times the share of the cell. -/
def cellContribution (cfg : Cfg K) (env : Env K) (species : List (Species K)) (specs : List Nat)
    (n : List Int) : K :=
  ((chosen species specs).map fun s => (s.prtls.map fun p =>
    contribution cfg env s.mass s.charge p *
      (List.zipWith (fun a m => share cfg.smoothing cfg.order a.1 a.2 (m - (cfg.NG : Int)))
        p.pos n).prod).sum).sum

/-- A valid request: species are numbered by position, the numbers requested exist, the request makes
sense for the chosen species, and their live particles are in active cells. -/
structure Request (cfg : Cfg K) (env : Env K) (nAct : List Nat) (species : List (Species K))
    (specs : List Nat) : Prop where
  index : ∀ (k : Nat) (s : Species K), species[k]? = some s → s.index = k + 1
  exist : ∀ sp ∈ specs, 0 < sp ∧ sp ≤ species.length
  sensible : ∀ s ∈ chosen species specs, Sensible cfg nAct s.mass
  inside : ∀ s ∈ chosen species specs, ∀ p ∈ s.prtls, Inside cfg env nAct s.mass p

/-! ## Lemmas -/

variable {cfg : Cfg K} {env : Env K} {nAct : List Nat} {species : List (Species K)}
  {specs : List Nat} {sched : Nat → List (Prtl K) → List (Prtl K)}

theorem selected_map (hi : ∀ (k : Nat) (s : Species K), species[k]? = some s → s.index = k + 1)
    (he : ∀ sp ∈ specs, 0 < sp ∧ sp ≤ species.length) :
    (∀ sp ∈ selected species specs, 0 < sp ∧ sp ≤ species.length) ∧
    (selected species specs).map (fun sp => species[sp - 1]?) = (chosen species specs).map some := by
  unfold selected chosen
  rcases specs with _ | ⟨a, l⟩
  · have hm : ∀ s ∈ species.filter (fun s => decide (0 < s.mass)),
        species[s.index - 1]? = some s ∧ 0 < s.index ∧ s.index ≤ species.length := by
      intro s hs
      obtain ⟨k, hk⟩ := List.mem_iff_getElem?.mp (List.mem_filter.mp hs).1
      have hlt := (List.getElem?_eq_some_iff.mp hk).1
      rw [hi k s hk]
      exact ⟨by simpa using hk, by omega, by omega⟩
    simp only [List.isEmpty_nil, if_true, List.map_map]
    refine ⟨?_, List.map_congr_left fun s hs => (hm s hs).1⟩
    intro sp hsp
    obtain ⟨s, hs, rfl⟩ := List.mem_map.mp hsp
    exact (hm s hs).2
  · simp only [List.isEmpty_cons, Bool.false_eq_true, if_false, reduceCtorEq]
    refine ⟨he, ?_⟩
    generalize a :: l = l at he
    induction l with
    | nil => rfl
    | cons b l ih =>
      have hb := he b (by simp)
      have : species[b - 1]? = some species[b - 1] := List.getElem?_eq_getElem (by omega)
      rw [List.map_cons, List.filterMap_cons_some (f := fun sp => species[sp - 1]?) this, List.map_cons, this,
        ih (fun q hq => he q (by simp [hq]))]

theorem compute_eq (hs : ∀ i l, (sched i l).Perm l) (hr : Request cfg env nAct species specs)
    (J : Cur K) (nAll : List Nat) : computeMoments cfg env nAll sched species specs J =
      applyAll nAll (allUpds cfg env sched species (selected species specs)) J := by
  obtain ⟨h1, h2⟩ := selected_map hr.index hr.exist
  unfold computeMoments
  have hn : ¬ ((selected species specs).any
      (fun sp => decide (species.length < sp) || decide (sp = 0)) = true) := by
    simp only [List.any_eq_true, Bool.or_eq_true, decide_eq_true_eq, not_exists, not_and, not_or]
    intro sp hsp
    have := h1 sp hsp
    omega
  dsimp only
  unfold Outcome.errorIf
  rw [if_neg hn, Outcome.bind_ok]
  apply speciesLoop_eq hs _ h1
  intro sp hsp s hsome
  have : some s ∈ (chosen species specs).map some := by
    rw [← h2]; exact List.mem_map.mpr ⟨sp, hsp, hsome⟩
  obtain ⟨s', hs', he⟩ := List.mem_map.mp this
  cases he
  exact ⟨hr.sensible s hs', hr.inside s hs'⟩

/-- Sums over all additions, species by species. -/
theorem allUpds_sum (hs : ∀ i l, (sched i l).Perm l) (hr : Request cfg env nAct species specs)
    (g : Upd K → K) (G : Species K → Prtl K → K)
    (hg : ∀ s ∈ chosen species specs, ∀ p ∈ s.prtls,
      ((upds cfg env s.mass s.charge p).map g).sum = G s p) :
    ((allUpds cfg env sched species (selected species specs)).map g).sum =
      ((chosen species specs).map fun s => (s.prtls.map (G s)).sum).sum := by
  have h2 := (selected_map hr.index hr.exist).2
  have key : ∀ (sel : List Nat) (ch : List (Species K)),
      sel.map (fun sp => species[sp - 1]?) = ch.map some →
      (∀ s ∈ ch, ∀ p ∈ s.prtls, ((upds cfg env s.mass s.charge p).map g).sum = G s p) →
      ((allUpds cfg env sched species sel).map g).sum =
        (ch.map fun s => (s.prtls.map (G s)).sum).sum := by
    intro sel
    induction sel with
    | nil =>
      intro ch h _
      cases ch with
      | nil => rfl
      | cons a b => simp at h
    | cons sp sel ih =>
      intro ch h hG
      cases ch with
      | nil => simp at h
      | cons s ch =>
        rw [List.map_cons, List.map_cons, List.cons.injEq] at h
        have e : allUpds cfg env sched species (sp :: sel) =
            (sched sp s.prtls).flatMap (upds cfg env s.mass s.charge) ++
              allUpds cfg env sched species sel := by
          unfold allUpds; rw [List.flatMap_cons, h.1]
        rw [e, List.map_append, List.sum_append, ih ch h.2 (fun q hq => hG q (by simp [hq])),
          List.map_cons, List.sum_cons]
        congr 1
        have e2 : ∀ l : List (Prtl K), (∀ p ∈ l, p ∈ s.prtls) →
            ((l.flatMap (upds cfg env s.mass s.charge)).map g).sum = (l.map (G s)).sum := by
          intro l
          induction l with
          | nil => simp
          | cons p l ihl =>
            intro hl
            rw [List.flatMap_cons, List.map_append, List.sum_append, ihl (fun q hq => hl q (by simp [hq])),
              hG s (by simp) p (hl p (by simp)), List.map_cons, List.sum_cons]
        rw [e2 _ (fun p hp => (hs _ _).mem_iff.mp hp)]
        exact ((hs sp s.prtls).map _).sum_eq
  exact key _ _ h2 hg

theorem mem_allUpds (hs : ∀ i l, (sched i l).Perm l) (hr : Request cfg env nAct species specs)
    {u : Upd K} (hu : u ∈ allUpds cfg env sched species (selected species specs)) :
    ∃ s ∈ chosen species specs, ∃ p ∈ s.prtls, p.tag ≠ dead ∧
      u ∈ upds cfg env s.mass s.charge p := by
  have h2 := (selected_map hr.index hr.exist).2
  unfold allUpds at hu
  obtain ⟨sp, hsp, hu⟩ := List.mem_flatMap.mp hu
  have : species[sp - 1]? ∈ (chosen species specs).map some := by
    rw [← h2]; exact List.mem_map.mpr ⟨sp, hsp, rfl⟩
  obtain ⟨s, hs', he⟩ := List.mem_map.mp this
  rw [← he] at hu
  obtain ⟨p, hp, hu⟩ := List.mem_flatMap.mp hu
  refine ⟨s, hs', p, (hs _ _).mem_iff.mp hp, ?_, hu⟩
  intro hd
  rw [(upds_dead hd).2] at hu
  simp at hu

theorem run_ok (hs : ∀ i l, (sched i l).Perm l) (hr : Request cfg env nAct species specs) (J : Cur K) :
    (∀ u ∈ allUpds cfg env sched species (selected species specs), u.comp = cfg.buffIdx ∧
      inArray (nAct.map (· + 2 * cfg.NG)) u.idx = true) ∧
    ∃ J', computeMoments cfg env (nAct.map (· + 2 * cfg.NG)) sched species specs J = .ok J' ∧
      ∀ c n, J' c n = J c n + total (allUpds cfg env sched species (selected species specs)) c n := by
  have h1 : ∀ u ∈ allUpds cfg env sched species (selected species specs), u.comp = cfg.buffIdx ∧
      inArray (nAct.map (· + 2 * cfg.NG)) u.idx = true := by
    intro u hu
    obtain ⟨s, hs', p, hp, ht, hu⟩ := mem_allUpds hs hr hu
    have := upds_spec (charge := s.charge) (hr.sensible s hs') (hr.inside s hs' p hp) ht
    exact ⟨this.comp u hu, this.inside u hu⟩
  refine ⟨h1, ?_⟩
  obtain ⟨J', hJ⟩ := applyAll_defined (J := J) (fun u hu => (h1 u hu).2)
  exact ⟨J', by rw [compute_eq hs hr]; exact hJ, applyAll_ok hJ⟩

theorem val_total (hs : ∀ i l, (sched i l).Perm l) (hr : Request cfg env nAct species specs) :
    valSum (allUpds cfg env sched species (selected species specs)) =
      totalContribution cfg env species specs := by
  unfold valSum totalContribution
  apply allUpds_sum hs hr
  intro s hs' p hp
  by_cases ht : p.tag = dead
  · rw [(upds_dead ht).2]; simp [contribution, ht]
  · exact (upds_spec (charge := s.charge) (hr.sensible s hs') (hr.inside s hs' p hp) ht).sum

/-! ## C60 -/

/-- **C60**: for every moment, smoothing method and order, in one, two and three dimensions, in
Cartesian and curvilinear coordinates and for every schedule, the computation never leaves the array,
changes no other component of the buffer, and increases the sum over all cells (including ghost cells,
which are added to the neighbours by the synchronisation, C15) by the sum of the particles'
contributions. -/
theorem C60_total (hs : ∀ i l, (sched i l).Perm l) (hr : Request cfg env nAct species specs)
    (J : Cur K) :
    ∃ J', computeMoments cfg env (nAct.map (· + 2 * cfg.NG)) sched species specs J = .ok J' ∧
      arraySum (nAct.map (· + 2 * cfg.NG)) J' cfg.buffIdx =
        arraySum (nAct.map (· + 2 * cfg.NG)) J cfg.buffIdx +
          totalContribution cfg env species specs ∧
      ∀ c, c ≠ cfg.buffIdx → ∀ n, J' c n = J c n := by
  obtain ⟨h1, J', hJ, ht⟩ := run_ok hs hr J
  refine ⟨J', hJ, ?_, ?_⟩
  · unfold arraySum
    rw [regionSum_add _ (fun u hu => (h1 u hu).2) (fun u hu => ⟨(h1 u hu).1, rfl⟩) J J'
      (fun n => ht _ n), val_total hs hr]
  · intro c hc n
    rw [ht]
    have : total (allUpds cfg env sched species (selected species specs)) c n = 0 := by
      unfold total
      apply List.sum_eq_zero
      intro x hx
      obtain ⟨u, hu, rfl⟩ := List.mem_map.mp hx
      exact if_neg (fun e => hc (e.1.symm.trans (h1 u hu).1))
    rw [this, add_zero]

/-- **C60**, cell by cell: in Cartesian coordinates every cell receives from every particle its
contribution times the share of the cell (the B-spline of the smoothing order at the distance between
particle and cell centre, or equal shares). -/
theorem C60_cells (hs : ∀ i l, (sched i l).Perm l) (hr : Request cfg env nAct species specs)
    (hc : cfg.cartesian = true) (J : Cur K) :
    ∃ J', computeMoments cfg env (nAct.map (· + 2 * cfg.NG)) sched species specs J = .ok J' ∧
      ∀ n : List Int, n.length = nAct.length →
        J' cfg.buffIdx n = J cfg.buffIdx n + cellContribution cfg env species specs n := by
  obtain ⟨h1, J', hJ, ht⟩ := run_ok hs hr J
  refine ⟨J', hJ, fun n hn => ?_⟩
  rw [ht]
  congr 1
  unfold total cellContribution
  apply allUpds_sum hs hr
  intro s hs' p hp
  by_cases hd : p.tag = dead
  · rw [(upds_dead hd).2]; simp [contribution, hd]
  · exact (upds_spec (charge := s.charge) (hr.sensible s hs') (hr.inside s hs' p hp) hd).at_
      (by simp [Cfg.axisMin, hc]) (by simp [Cfg.axisMax, hc]) n hn

/-! ## C61 -/

/-- **C61** (part): with the lower axis in the subdomain nothing is lost from the active rows, as long
as no particle is so near to the *upper* axis that its window reaches beyond the last row. -/
theorem C61_lower_axis_partial (hs : ∀ i l, (sched i l).Perm l)
    (hr : Request cfg env nAct species specs) (h2 : 2 ≤ nAct.length)
    (hmin : cfg.axisMin = true) (hw : (cfg.order + 1) / 2 < cfg.ni2)
    (hup : ∀ s ∈ chosen species specs, ∀ p ∈ s.prtls, p.tag ≠ dead →
      ∀ a, p.pos[1]? = some a → a.1 + (((cfg.order + 1) / 2 : Nat) : Int) < (cfg.ni2 : Int)) (J : Cur K) :
    ∃ J', computeMoments cfg env (nAct.map (· + 2 * cfg.NG)) sched species specs J = .ok J' ∧
      regionSum (nAct.map (· + 2 * cfg.NG)) (activeRow cfg.NG cfg.ni2) J' cfg.buffIdx =
        regionSum (nAct.map (· + 2 * cfg.NG)) (activeRow cfg.NG cfg.ni2) J cfg.buffIdx +
          totalContribution cfg env species specs := by
  obtain ⟨h1, J', hJ, ht⟩ := run_ok hs hr J
  refine ⟨J', hJ, ?_⟩
  rw [regionSum_add _ (fun u hu => (h1 u hu).2) (fun u hu => ⟨(h1 u hu).1, ?_⟩) J J'
      (fun n => ht _ n), val_total hs hr]
  obtain ⟨s, hs', p, hp, hd, hu⟩ := mem_allUpds hs hr hu
  have hS := hr.sensible s hs'
  have ho : cfg.ord = cfg.order := Nat.mod_eq_of_lt hS.order
  obtain ⟨a, d, ha, hd1, hd2, he⟩ := (upds_spec (charge := s.charge) hS
    (hr.inside s hs' p hp) hd).rows h2 u hu
  have hup' := hup s hs' p hp hd a ha
  have ha0 : 0 ≤ a.1 := by
    have hF := ((hr.inside s hs' p hp).resolve_left hd).1
    have hl := (List.forall₂_iff_get.mp hF).1
    obtain ⟨hlt, rfl⟩ := List.getElem?_eq_some_iff.mp ha
    exact ((List.forall₂_iff_get.mp hF).2 1 hlt (by omega)).1
  unfold Cfg.window at hd1 hd2
  rw [ho] at hd1 hd2
  unfold activeRow
  rw [he]
  unfold row
  simp only [hmin, true_and, Bool.and_eq_true, decide_eq_true_eq]
  split_ifs <;> omega

/-- A configuration with the polar axis on both sides, two rows, linear smoothing, one unit of charge
number. -/
def axisCfg : Cfg ℚ where
  NG := 2
  nBuf := 6
  dim := 2
  cartesian := false
  gr := false
  kind := .N
  comps := []
  buffIdx := 0
  useWeights := false
  bcs := [(.FIXED, .FIXED), (.AXIS, .AXIS)]
  ni2 := 2
  invN0 := 1
  order := 1
  smoothing := .spline

/-- A metric with unit volume elements. -/
def unitEnv : Env ℚ := ⟨id, fun _ => 1, (·.u), fun _ => 1, (·.u), fun _ v => v⟩

/-- A particle in a column of one cell. -/
def axisPrtl (i : Int) (dx : ℚ) : Prtl ℚ := ⟨alive, [(0, 1/2), (i, dx)], ⟨0, 0, 0⟩, 1⟩

/-- **C61** fails at the upper axis: of a particle in the last row, 1/4 goes to the ghost row beyond
the axis (index `NG + ni2`) and is lost from the active rows. -/
theorem C61_upper_axis_counterexample :
    ∃ J', computeMoments axisCfg unitEnv [5, 6] (fun _ l => l) [⟨1, 1, 1, [axisPrtl 1 (3/4)]⟩] [1]
        (fun _ _ => 0) = .ok J' ∧
      totalContribution axisCfg unitEnv [⟨1, 1, 1, [axisPrtl 1 (3/4)]⟩] [1] = 1 ∧
      arraySum [5, 6] J' 0 = 1 ∧
      regionSum [5, 6] (activeRow 2 2) J' 0 = 3/4 ∧ J' 0 [2, 4] = 1/4 := by
  have h : (match computeMoments axisCfg unitEnv [5, 6] (fun _ l => l)
      [⟨1, 1, 1, [axisPrtl 1 (3/4)]⟩] [1] (fun _ _ => 0) with
    | .ok J' => decide (totalContribution axisCfg unitEnv [⟨1, 1, 1, [axisPrtl 1 (3/4)]⟩] [1] = 1 ∧
        arraySum [5, 6] J' 0 = 1 ∧ regionSum [5, 6] (activeRow 2 2) J' 0 = 3/4 ∧ J' 0 [2, 4] = 1/4)
    | _ => false) = true := by decide +kernel
  rcases hc : computeMoments axisCfg unitEnv [5, 6] (fun _ l => l)
      [⟨1, 1, 1, [axisPrtl 1 (3/4)]⟩] [1] (fun _ _ => 0) with J' | _ | _
  · rw [hc] at h
    exact ⟨J', rfl, of_decide_eq_true h⟩
  · rw [hc] at h; simp at h
  · rw [hc] at h; simp at h

/-- At the lower axis nothing is lost, but what falls beyond the axis is not put into the mirror cell:
a particle in row 0 at a quarter of the cell has 1/4 beyond the axis, mirrored into row 0 all of it
should stay there, but the code puts the quarter into row 1. -/
theorem C61_mirror_counterexample :
    ∃ J', computeMoments axisCfg unitEnv [5, 6] (fun _ l => l) [⟨1, 1, 1, [axisPrtl 0 (1/4)]⟩] [1]
        (fun _ _ => 0) = .ok J' ∧ J' 0 [2, 2] = 3/4 ∧ J' 0 [2, 3] = 1/4 := by
  have h : (match computeMoments axisCfg unitEnv [5, 6] (fun _ l => l)
      [⟨1, 1, 1, [axisPrtl 0 (1/4)]⟩] [1] (fun _ _ => 0) with
    | .ok J' => decide (J' 0 [2, 2] = 3/4 ∧ J' 0 [2, 3] = 1/4)
    | _ => false) = true := by decide +kernel
  rcases hc : computeMoments axisCfg unitEnv [5, 6] (fun _ l => l)
      [⟨1, 1, 1, [axisPrtl 0 (1/4)]⟩] [1] (fun _ _ => 0) with J' | _ | _
  · rw [hc] at h
    exact ⟨J', rfl, of_decide_eq_true h⟩
  · rw [hc] at h; simp at h
  · rw [hc] at h; simp at h

/-! ## Cases -/

/-- Charge density of two species (one selected twice as heavy, weights used) at order 3 in one
dimension: a request meeting the hypotheses of `C60_total`. -/
def exCfg : Cfg ℚ where
  NG := 2
  nBuf := 6
  dim := 1
  cartesian := true
  gr := false
  kind := .Charge
  comps := []
  buffIdx := 3
  useWeights := true
  bcs := []
  ni2 := 0
  invN0 := 1/2
  order := 3
  smoothing := .spline

/-- Two species, one particle dead. -/
def exSpecies : List (Species ℚ) :=
  [⟨1, 1, -1, [⟨alive, [(0, 1/4)], ⟨0, 0, 0⟩, 2⟩, ⟨dead, [(7, 1/4)], ⟨0, 0, 0⟩, 5⟩]⟩,
   ⟨2, 2, 1, [⟨alive, [(3, 7/8)], ⟨0, 0, 0⟩, 6⟩]⟩]

example : Request exCfg unitEnv [4] exSpecies [] := by
  have hch : ∀ s ∈ chosen exSpecies [], s ∈ exSpecies := by
    intro s hs; exact (List.mem_filter.mp hs).1
  refine ⟨?_, by simp, fun s hs => ?_, fun s hs => ?_⟩
  · intro k s h
    match k, h with
    | 0, h => cases h; rfl
    | 1, h => cases h; rfl
    | k + 2, h => simp [exSpecies] at h
  · have hm : s.mass ≠ 0 := by
      have := hch s hs
      simp only [exSpecies, List.mem_cons, List.not_mem_nil, or_false] at this
      rcases this with rfl | rfl <;> norm_num
    exact ⟨rfl, by decide, by decide, by simp, by decide, by decide, fun _ => ⟨rfl, by decide⟩,
      by decide, fun _ => hm, by decide, by decide, by decide⟩
  · intro p hp
    have := hch s hs
    simp only [exSpecies, List.mem_cons, List.not_mem_nil, or_false] at this
    rcases this with rfl | rfl
    · simp only [List.mem_cons, List.not_mem_nil, or_false] at hp
      rcases hp with rfl | rfl
      · right; simp [exCfg, unitEnv]; norm_num
      · left; rfl
    · simp only [List.mem_cons, List.not_mem_nil, or_false] at hp
      rcases hp with rfl
      right; simp [exCfg, unitEnv]; norm_num

example : (match computeMoments exCfg unitEnv [8] (fun _ l => l.reverse) exSpecies []
      (fun _ _ => 0) with
    | .ok J' => decide (arraySum [8] J' 3 = 2 ∧ totalContribution exCfg unitEnv exSpecies [] = 2)
    | _ => false) = true := by decide +kernel

end Entity.Moments
