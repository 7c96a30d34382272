import Verif.Lemmas.FilterTorus
import Mathlib.Tactic.Linarith

/-!
# C37, C38, C39, C77, C78: the current filter
-/

namespace Entity.Filter

open Entity Entity.Topology Entity.Kernel Entity.Ranks Entity.FieldSolver Entity.Decomp

variable {K : Type} [Field K] {m : Meta} {dN : List (List Nat)}

/-! ## Lemmas -/

/-- What a filter pass makes of the global fields. -/
def stepG (N : List Nat) (g : GMem K) : GMem K := globalStep N (plainFilter N.length) (copyG g)

theorem passes_shows (h : Built m dN) (hp : AllPeriodic m) (hD : dN.length ∈ [1, 2, 3])
    {ng : Nat} (hng : 1 ≤ ng) (hw : Wide dN ng) {n : Nat} {M M' : MMem K} {g : GMem K}
    (hg : Shows m (dN.map List.sum) ng selJ M g) (hd : FilterPasses m ng n M M') :
    Shows m (dN.map List.sum) ng selJ M' ((stepG (dN.map List.sum))^[n] g) := by
  induction hd with
  | zero M => exact hg
  | succ _ h2 ih =>
    rw [Function.iterate_succ_apply']
    have := filterPass_shows h hp hD hng hw (fun c hc => by simp [selJ, hc]) (ih hg) h2
    show Shows m _ ng selJ _ (globalStep _ (plainFilter (dN.map List.sum).length) _)
    rw [List.length_map]
    exact this

theorem exists_shown (h : Built m dN) (hp : AllPeriodic m) (hD : dN.length ∈ [1, 2, 3])
    {ng : Nat} (hw : Wide dN ng) {sel : Nat → Nat → Bool} {M0 M : MMem K}
    (hc : CommAll m ng sel M0 M) : ∃ g : GMem K, Shows m (dN.map List.sum) ng sel M g := by
  have h1 : 1 ≤ dN.length := by simp at hD; omega
  have h3 : dN.length ≤ 3 := by simp at hD; omega
  have : Inhabited K := ⟨0⟩
  obtain ⟨g, hg⟩ := exists_global h ng M0
  exact ⟨g, shows_of_comm h hp h1 h3 hw hc (fun _ _ h => h) (fun a k hs => hg a k rfl)⟩

theorem selJ_lt {k : Nat} (hk : k < 3) : selJ 1 k = true := by simp [selJ, hk]

/-! ## C37 -/

/-- **C37 (total).** Any number of filter passes, each with its halo exchange, on a periodic box
divided in any way among ranks conserves the total of each component of the current over all active
cells of all ranks. -/
theorem C37_total [CharZero K] (h : Built m dN) (hp : AllPeriodic m) (hD : dN.length ∈ [1, 2, 3])
    {ng : Nat} (hng : 1 ≤ ng) (hw : Wide dN ng) {n : Nat} {M0 M M' : MMem K}
    (hc : CommAll m ng selJ M0 M) (hd : FilterPasses m ng n M M')
    {A : Finset (Nat × List Int)} (hA : ∀ q j, (q, j) ∈ A ↔ Active m ng q j) {k : Nat} (hk : k < 3) :
    ∑ c ∈ A, M' c.1 ⟨1, k, c.2⟩ = ∑ c ∈ A, M c.1 ⟨1, k, c.2⟩ := by
  obtain ⟨g, hg⟩ := exists_shown h hp hD hw hc
  have hN : (dN.map List.sum).length ∈ [1, 2, 3] := by simpa using hD
  have key : ∀ {P : MMem K} {g : GMem K}, Shows m (dN.map List.sum) ng selJ P g →
      ∑ c ∈ A, P c.1 ⟨1, k, c.2⟩ =
        ∑ c ∈ A, g 1 k ((globalPos m (dN.map List.sum) ng c.1 c.2).getD []) := by
    intro P g hs
    refine Finset.sum_congr rfl fun c hc => ?_
    have ha := (hA c.1 c.2).1 hc
    obtain ⟨p, hp⟩ := globalPos_isSome (dN.map List.sum) (active_inArray ha)
    rw [hs 1 k (selJ_lt hk) c.1 c.2 p (active_inArray ha) hp, hp, Option.getD_some]
  rw [key hg, key (passes_shows h hp hD hng hw hg hd)]
  clear hd hg hc
  induction n generalizing g with
  | zero => rfl
  | succ n ih =>
    rw [Function.iterate_succ_apply, ih (stepG (dN.map List.sum) g)]
    simp only [stepG, filterG hN g hk, wsum]
    have : ∀ ws : List (List Int × K), (∀ w ∈ ws, w.1.length = dN.length) →
        ∑ c ∈ A, (ws.map (fun w => w.2 * g 1 k (wrap (dN.map List.sum) (List.zipWith (· + ·)
          ((globalPos m (dN.map List.sum) ng c.1 c.2).getD []) w.1)))).sum =
        (ws.map (·.2)).sum * ∑ c ∈ A, g 1 k ((globalPos m (dN.map List.sum) ng c.1 c.2).getD []) := by
      intro ws hws
      induction ws with
      | nil => simp
      | cons w ws ih' =>
        simp only [List.map_cons, List.sum_cons]
        rw [Finset.sum_add_distrib, ih' (fun v hv => hws v (List.mem_cons_of_mem _ hv)),
          ← Finset.mul_sum, sum_shift h hw hA (hws w List.mem_cons_self) (g 1 k), add_mul]
    rw [this _ (fun w hw => (weights_dim hN hw).1.trans (by simp)), weights_sum hN, one_mul]

/-- **C37 (uniform).** A uniform current is unchanged in every cell, active or ghost. -/
theorem C37_uniform [CharZero K] (h : Built m dN) (hp : AllPeriodic m) (hD : dN.length ∈ [1, 2, 3])
    {ng : Nat} (hng : 1 ≤ ng) (hw : Wide dN ng) {n : Nat} {M M' : MMem K} {u : Nat → K}
    (hu : ∀ r i k, InArray m ng r i → k < 3 → M r ⟨1, k, i⟩ = u k) (hd : FilterPasses m ng n M M')
    {r : Nat} {i : List Int} (hi : InArray m ng r i) {k : Nat} (hk : k < 3) :
    M' r ⟨1, k, i⟩ = u k := by
  have hN : (dN.map List.sum).length ∈ [1, 2, 3] := by simpa using hD
  have hs : Shows m (dN.map List.sum) ng selJ M (fun _ k _ => u k) := by
    intro a c hs r i p hi hip
    simp only [selJ, Bool.and_eq_true, beq_iff_eq, decide_eq_true_eq] at hs
    obtain ⟨rfl, hc⟩ := hs
    exact hu r i c hi hc
  obtain ⟨p, hip⟩ := globalPos_isSome (dN.map List.sum) hi
  rw [passes_shows h hp hD hng hw hs hd 1 k (selJ_lt hk) r i p hi hip]
  have key : ∀ n p, (stepG (dN.map List.sum))^[n] (fun _ k _ => u k) 1 k p = u k := by
    intro n
    induction n with
    | zero => intro p; rfl
    | succ n ih =>
      intro p
      rw [Function.iterate_succ_apply', stepG, filterG hN _ hk]
      simp only [ih]
      exact wsum_uniform hN _ _
  exact key n p

theorem wsum_sub (ws : List (List Int × K)) (f g : List Int → K) (p : List Int) :
    wsum ws f p - wsum ws g p = wsum ws (fun q => f q - g q) p := by
  unfold wsum
  induction ws with
  | nil => simp
  | cons w ws ih => simp only [List.map_cons, List.sum_cons]; rw [← ih]; ring

theorem wsum_add (ws : List (List Int × K)) (f g : List Int → K) (p : List Int) :
    wsum ws f p + wsum ws g p = wsum ws (fun q => f q + g q) p := by
  unfold wsum
  induction ws with
  | nil => simp
  | cons w ws ih => simp only [List.map_cons, List.sum_cons]; rw [← ih]; ring

theorem pos_comm (p o w : List Int) :
    List.zipWith (· + ·) (List.zipWith (· + ·) p o) w =
      List.zipWith (· + ·) (List.zipWith (· + ·) p w) o := by
  induction p generalizing o w with
  | nil => simp
  | cons x p ih => cases o <;> cases w <;> simp [ih, add_right_comm]

theorem wsum_shift (ws : List (List Int × K)) (f : List Int → K) (p o : List Int) :
    wsum ws f (List.zipWith (· + ·) p o) = wsum ws (fun q => f (List.zipWith (· + ·) q o)) p := by
  unfold wsum
  simp only [pos_comm p o]

theorem divDown_wsum {D : Nat} (hD : D ∈ [1, 2, 3]) (ws : List (List Int × K))
    (U : Nat → List Int → K) (p : List Int) :
    divDown D (fun c o => wsum ws (U c) (List.zipWith (· + ·) p o)) =
      wsum ws (fun q => divDown D (fun c o => U c (List.zipWith (· + ·) q o))) p := by
  simp only [List.mem_cons, List.not_mem_nil, or_false] at hD
  rcases hD with rfl | rfl | rfl <;>
  simp only [divDown, List.range_succ, List.range_zero, List.nil_append, List.map_append, List.map_cons,
    List.map_nil, List.sum_append, List.sum_cons, List.sum_nil, add_zero, wsum_shift, wsum_sub, wsum_add,
    List.cons_append]

/-- **C37 (divergence).** Filter the current and, independently, a density.  If at the beginning the
density equals the divergence of the current in every cell, it still does after any number of passes:
the divergence of the filtered current is the filtered divergence. -/
theorem C37_divergence (h : Built m dN) (hp : AllPeriodic m) (hD : dN.length ∈ [1, 2, 3])
    {ng : Nat} (hng : 1 ≤ ng) (hw : Wide dN ng) {n : Nat} {M0 M M' P0 P P' : MMem K}
    (hc : CommAll m ng selJ M0 M) (hd : FilterPasses m ng n M M')
    (hcP : CommAll m ng selJ P0 P) (hdP : FilterPasses m ng n P P')
    (hini : ∀ r i, Active m ng r i → P r ⟨1, 0, i⟩ = divDown dN.length (current (M r) i))
    {r : Nat} {i : List Int} (hi : Active m ng r i) :
    P' r ⟨1, 0, i⟩ = divDown dN.length (current (M' r) i) := by
  obtain ⟨g, hg⟩ := exists_shown h hp hD hw hc
  obtain ⟨q, hq⟩ := exists_shown h hp hD hw hcP
  have hN : (dN.map List.sum).length ∈ [1, 2, 3] := by simpa using hD
  -- the divergence on a rank and on the box
  have hdiv : ∀ {M : MMem K} {g : GMem K}, Shows m (dN.map List.sum) ng selJ M g →
      ∀ {r i p}, Active m ng r i → globalPos m (dN.map List.sum) ng r i = some p →
      divDown dN.length (current (M r) i) =
        divDown dN.length (fun c o => g 1 c (wrap (dN.map List.sum) (List.zipWith (· + ·) p o))) := by
    intro M g hs r i p hi hip
    have key : ∀ c, c < 3 → ∀ o : List Int, o.length = dN.length →
        (∀ x ∈ o, (-1 : Int) ≤ x ∧ x ≤ 1) → current (M r) i c o =
          g 1 c (wrap (dN.map List.sum) (List.zipWith (· + ·) p o)) := by
      intro c hc o ho hb
      refine Shows.around h hs hi hip ho (fun x hx => ?_) (selJ_lt hc)
      have := hb x hx
      omega
    have hD' := hD
    simp only [List.mem_cons, List.not_mem_nil, or_false] at hD'
    generalize dN.length = D at key hD'
    rcases hD' with rfl | rfl | rfl
    all_goals
      simp only [divDown, List.range_succ, List.range_zero, List.nil_append, List.map_append, List.map_cons,
        List.map_nil, List.sum_append, List.sum_cons, List.sum_nil, List.cons_append]
    · rw [key 0 (by decide) _ (by decide) (by decide), key 0 (by decide) _ (by decide) (by decide)]
    · rw [key 0 (by decide) _ (by decide) (by decide), key 0 (by decide) _ (by decide) (by decide),
        key 1 (by decide) _ (by decide) (by decide), key 1 (by decide) _ (by decide) (by decide)]
    · rw [key 0 (by decide) _ (by decide) (by decide), key 0 (by decide) _ (by decide) (by decide),
        key 1 (by decide) _ (by decide) (by decide), key 1 (by decide) _ (by decide) (by decide),
        key 2 (by decide) _ (by decide) (by decide), key 2 (by decide) _ (by decide) (by decide)]
  -- at the beginning
  have h0 : ∀ p, p.length = dN.length → q 1 0 (wrap (dN.map List.sum) p) =
      divDown dN.length (fun c o => g 1 c (wrap (dN.map List.sum) (List.zipWith (· + ·) p o))) := by
    intro p hpl
    obtain ⟨r, i, hi, hip⟩ := cover h hw (p := wrap (dN.map List.sum) p)
      (by simp [wrap, hpl]) (wrap_wrap _ _)
    have := hini r i hi
    rw [hq 1 0 (selJ_lt (by decide)) r i _ (active_inArray hi) hip, hdiv hg hi hip] at this
    rw [this]
    simp only [wrap_add]
  -- afterwards
  have hn : ∀ n p, p.length = dN.length →
      (stepG (dN.map List.sum))^[n] q 1 0 (wrap (dN.map List.sum) p) =
      divDown dN.length (fun c o => (stepG (dN.map List.sum))^[n] g 1 c
        (wrap (dN.map List.sum) (List.zipWith (· + ·) p o))) := by
    intro n
    induction n with
    | zero => exact h0
    | succ n ih =>
      intro p hpl
      rw [Function.iterate_succ_apply', Function.iterate_succ_apply', stepG, stepG,
        filterG_unroll hN _ (by decide)]
      have e : divDown dN.length (fun c o => globalStep (dN.map List.sum)
            (plainFilter (dN.map List.sum).length) (copyG ((stepG (dN.map List.sum))^[n] g)) 1 c
            (wrap (dN.map List.sum) (List.zipWith (· + ·) p o))) =
          divDown dN.length (fun c o => wsum (weights (dN.map List.sum).length)
            (fun q => (stepG (dN.map List.sum))^[n] g 1 c (wrap (dN.map List.sum) q))
            (List.zipWith (· + ·) p o)) := by
        have key : ∀ c, c < 3 → ∀ o, globalStep (dN.map List.sum)
            (plainFilter (dN.map List.sum).length) (copyG ((stepG (dN.map List.sum))^[n] g)) 1 c
            (wrap (dN.map List.sum) (List.zipWith (· + ·) p o)) =
            wsum (weights (dN.map List.sum).length)
            (fun q => (stepG (dN.map List.sum))^[n] g 1 c (wrap (dN.map List.sum) q))
            (List.zipWith (· + ·) p o) := fun c hc o => filterG_unroll hN _ hc _
        unfold divDown
        congr 1
        apply List.map_congr_left
        intro a ha
        have ha : a < 3 := by simp at hD ha; omega
        beta_reduce
        rw [key a ha, key a ha]
      rw [e, divDown_wsum hD]
      unfold wsum
      congr 1
      apply List.map_congr_left
      intro w hw
      have hwl := (weights_dim hN hw).1
      simp only [List.length_map] at hwl
      beta_reduce
      rw [ih _ (by simp [hpl, hwl])]
  obtain ⟨p, hip⟩ := globalPos_isSome (dN.map List.sum) (active_inArray hi)
  obtain ⟨hpl, hpw⟩ := globalPos_wrapped h (active_lt hi) (active_length h (active_inArray hi)) hip
  rw [passes_shows h hp hD hng hw hq hdP 1 0 (selJ_lt (by decide)) r i p (active_inArray hi) hip,
    hdiv (passes_shows h hp hD hng hw hg hd) hi hip, ← hn n p hpl, hpw]

/-- The hypotheses of C37 can be met from any current on a periodic 2 × 1 decomposition, with a
density that is the divergence of the current. -/
example (n : Nat) (M0 : MMem ℚ) : ∃ M M' P0 P P' : MMem ℚ, CommAll perMeta 2 selJ M0 M ∧
    FilterPasses perMeta 2 n M M' ∧ CommAll perMeta 2 selJ P0 P ∧ FilterPasses perMeta 2 n P P' ∧
    ∀ r i, Active perMeta 2 r i → P r ⟨1, 0, i⟩ = divDown 2 (current (M r) i) := by
  have hp : AllPeriodic perMeta := ⟨rfl, by decide⟩
  have hw : Wide [[5, 6], [7]] 2 := by unfold Wide; decide
  have passes : ∀ (n : Nat) (M : MMem ℚ), ∃ M', FilterPasses perMeta 2 n M M' := by
    intro n M
    induction n with
    | zero => exact ⟨M, .zero M⟩
    | succ n ih =>
      obtain ⟨M1, h1⟩ := ih
      obtain ⟨M2, h2⟩ := exists_runs (K := ℚ) perMeta_built hp (by decide) hw [.filter] M1
      cases h2 with
      | cons h2 h3 => exact ⟨_, .succ h1 h2⟩
  obtain ⟨M, hM⟩ := exists_comm perMeta_built hp (by decide) hw selJ M0
  obtain ⟨M', hM'⟩ := passes n M
  let P0 : MMem ℚ := fun r l => divDown 2 (current (M r) l.idx)
  obtain ⟨P, hP⟩ := exists_comm perMeta_built hp (by decide) hw selJ P0
  obtain ⟨P', hP'⟩ := passes n P
  refine ⟨M, M', P0, P, P', hM, hM', hP, hP', fun r i hi => ?_⟩
  obtain ⟨G, hG, g1, _, _⟩ := C14_halo_exchange perMeta_built hp.good (by decide) (by decide) hw
    (fun r i => P0 r ⟨1, 0, i⟩)
  rw [(hP 1 0).1 rfl] at hG
  cases hG
  exact g1 r i hi

/-! ## C38 -/

/-- Exchanges leave active cells alone. -/
theorem comm_active (h : Built m dN) (hp : AllPeriodic m) (hD : dN.length ∈ [1, 2, 3]) {ng : Nat}
    (hw : Wide dN ng) {sel : Nat → Nat → Bool} {M M' : MMem K} (hc : CommAll m ng sel M M')
    {r : Nat} {i : List Int} (hi : Active m ng r i) (a c : Nat) : M' r ⟨a, c, i⟩ = M r ⟨a, c, i⟩ := by
  have h1 : 1 ≤ dN.length := by simp at hD; omega
  have h3 : dN.length ≤ 3 := by simp at hD; omega
  by_cases hs : sel a c = true
  · obtain ⟨G, hG, g1, _, _⟩ := C14_halo_exchange h hp.good h1 h3 hw (fun r i => M r ⟨a, c, i⟩)
    rw [(hc a c).1 hs] at hG
    cases hG
    exact g1 r i hi
  · exact (hc a c).2 (by simpa using hs) r i

theorem filterPass_at (h : Built m dN) (hp : AllPeriodic m) (hD : dN.length ∈ [1, 2, 3]) {ng : Nat}
    (hw : Wide dN ng) {M M' : MMem K} (hd : FilterPass m ng M M') {r : Nat} {i : List Int}
    (hi : Active m ng r i) {k : Nat} (hk : k < 3) :
    M' r ⟨1, k, i⟩ = wsum (weights dN.length) (fun q => M r ⟨1, k, q⟩) i := by
  obtain ⟨M1, hl, hc⟩ := hd
  rw [comm_active h hp hD hw hc hi]
  have hr := active_lt hi
  have hl' : LaunchAll m ng (fun _ t => atCell (plainFilter dN.length) t)
      (fun r => copyToBuffer (M r)) M1 := by
    intro r hr
    refine launch_congr (fun t ht => ?_) (hl r hr)
    have htl := active_length h (active_inArray ((mem_activeCells hr).1 ht))
    show atCell (filterCart (filterCfg m ng r) t) t = atCell (plainFilter dN.length) t
    rw [filterCart_plain (filterCfg_cond h hp ng hr) (by rw [htl]; exact hD), htl]
  rw [launchAll_active (f := fun _ _ => plainFilter dN.length) h
    (fun _ _ _ => ⟨plainFilter_own hD, (plainFilter_reach hD le_rfl).dimd⟩) hl' hi,
    plainFilter_eval hD _ hk]
  unfold wsum
  congr 1
  apply List.map_congr_left
  intro w _
  simp [copyToBuffer, Loc.at, hk]

/-- **C38 (one and two dimensions).** A filter pass replaces every component of the current in every
active cell by the (1/4, 1/2, 1/4) filter along each axis, one after the other.  Missing: three
dimensions, where it is false (`C38_three_dimensions_counterexample`). -/
theorem C38_separable_partial [CharZero K] (h : Built m dN) (hp : AllPeriodic m)
    (hD : dN.length ∈ [1, 2]) {ng : Nat} (hw : Wide dN ng) {M M' : MMem K}
    (hd : FilterPass m ng M M') {r : Nat} {i : List Int} (hi : Active m ng r i) {k : Nat}
    (hk : k < 3) : M' r ⟨1, k, i⟩ = smoothAll dN.length (fun q => M r ⟨1, k, q⟩) i := by
  have hD3 : dN.length ∈ [1, 2, 3] := by simp at hD ⊢; omega
  rw [filterPass_at h hp hD3 hw hd hi hk]
  have hil := active_length h (active_inArray hi)
  generalize (fun q => M r ⟨1, k, q⟩) = f
  simp only [List.mem_cons, List.not_mem_nil, or_false] at hD
  rcases hD with hD | hD <;> rw [hD] at hil ⊢
  · match i, hil with
    | [x], _ =>
      simp only [smoothAll, List.range_succ, List.range_zero, List.nil_append, List.foldl_cons, List.foldl_nil,
        smooth, List.modify_cons, wsum, weights, List.map_cons, List.map_nil, List.sum_cons,
        List.sum_nil, List.zipWith_cons_cons, List.zipWith_nil_left, if_true, add_zero, sub_eq_add_neg]
      ring
  · match i, hil with
    | [x, y], _ =>
      simp only [smoothAll, List.range_succ, List.range_zero, List.nil_append, List.foldl_cons, List.foldl_nil,
        smooth, List.modify_cons, wsum, weights, List.map_cons, List.map_nil, List.sum_cons,
        List.sum_nil, List.zipWith_cons_cons, List.zipWith_nil_left, if_true, add_zero, sub_eq_add_neg,
        List.cons_append, List.modify_zero_cons, List.modify_succ_cons, Nat.one_ne_zero, if_false,
        one_ne_zero]
      ring

/-- A cubic box in one piece. -/
def cubeMeta : Meta where
  counts := [1, 1, 1]
  doms := (Decomp.createDomains 1 [[5], [5], [5]]).getD []
  bcs := [(.PERIODIC, .PERIODIC), (.PERIODIC, .PERIODIC), (.PERIODIC, .PERIODIC)]

/-- **In three dimensions the filter is not the separable one**: of a current in cell (4, 5, 3) one
pass leaves nothing in the diagonal neighbour (4, 4, 4), instead of 1/32. -/
theorem C38_three_dimensions_counterexample : ∃ M M' : MMem ℚ, FilterPass cubeMeta 2 M M' ∧
    Active cubeMeta 2 0 [4, 4, 4] ∧ M' 0 ⟨1, 0, [4, 4, 4]⟩ = 0 ∧
    smoothAll 3 (fun q => M 0 ⟨1, 0, q⟩) [4, 4, 4] = 1/32 := by
  have hb : Built cubeMeta [[5], [5], [5]] := ⟨by decide, rfl, by decide +kernel⟩
  have hp : AllPeriodic cubeMeta := ⟨rfl, by decide⟩
  have hw : Wide [[5], [5], [5]] 2 := by unfold Wide; decide
  have ha : Active cubeMeta 2 0 [4, 4, 4] := ⟨⟨0, [0, 0, 0], [0, 0, 0], [5, 5, 5]⟩, by decide +kernel, by
    refine .cons ?_ (.cons ?_ (.cons ?_ .nil)) <;> decide⟩
  let M : MMem ℚ := fun _ l => if l.idx = [4, 5, 3] then 1 else 0
  obtain ⟨M', h'⟩ := exists_runs (K := ℚ) hb hp (by decide) hw [.filter] M
  cases h' with
  | cons h1 h2 =>
    rename_i M1
    refine ⟨M, M1, h1, ha, ?_, ?_⟩
    · rw [filterPass_at hb hp (by decide) hw h1 ha (by decide)]
      decide +kernel
    · decide +kernel

/-! ## C39 -/

/-- Checkable form: offsets of all accesses along axis `a` are in a range. -/
def offsB (a : Nat) (lo hi : Int) (as : List (Assign K)) : Bool :=
  (locs as).all fun l => decide (lo ≤ l.idx.getD a 0) && decide (l.idx.getD a 0 ≤ hi)

theorem offs_of {a : Nat} {lo hi : Int} {as : List (Assign K)} (h : offsB a lo hi as = true) :
    ∀ l ∈ locs as, lo ≤ l.idx.getD a 0 ∧ l.idx.getD a 0 ≤ hi := by
  intro l hl
  simpa using List.all_eq_true.1 h l hl

theorem filter_offs (c : Cfg) {t : List Int} (ht : t.length ∈ [1, 2, 3]) {a : Nat} (ha : a < t.length)
    (hb : ∀ b, b ≠ a → c.cond b = (false, false)) :
    if c.atWall a (t.getD a 0) then
      if (c.cond a).1 then offsB a 0 1 (filterCart c t : List (Assign K)) = true
      else offsB a (-1) 0 (filterCart c t : List (Assign K)) = true
    else offsB a (-1) 1 (filterCart c t : List (Assign K)) = true := by
  have e : ∀ b, b ≠ a → ∀ i, c.atWall b i = false ∧ c.nextWall b i = false := by
    intro b hba i; simp [Cfg.atWall, Cfg.nextWall, hb b hba]
  match t, ht with
  | [i1], _ =>
    obtain rfl : a = 0 := by simpa using ha
    simp only [filterCart, filter1, Cfg.side, List.getD_cons_zero]
    repeat' split
    all_goals kernel_rfl
  | [i1, i2], _ =>
    obtain rfl | rfl : a = 0 ∨ a = 1 := by simp at ha; omega
    · have h1 := e 1 (by decide) i2
      simp only [filterCart, filter2, Cfg.side, h1, List.getD_cons_zero]
      repeat' split
      all_goals first | contradiction | kernel_rfl
    · have h1 := e 0 (by decide) i1
      simp only [filterCart, filter2, Cfg.side, h1, List.getD_cons_zero, List.getD_cons_succ]
      repeat' split
      all_goals first | contradiction | kernel_rfl
  | [i1, i2, i3], _ =>
    obtain rfl | rfl | rfl : a = 0 ∨ a = 1 ∨ a = 2 := by simp at ha; omega
    · have h1 := e 1 (by decide) i2
      have h2 := e 2 (by decide) i3
      simp only [filterCart, filter3, Cfg.side, h1, h2, List.getD_cons_zero]
      repeat' split
      all_goals first | contradiction | kernel_rfl
    · have h1 := e 0 (by decide) i1
      have h2 := e 2 (by decide) i3
      simp only [filterCart, filter3, Cfg.side, h1, h2, List.getD_cons_zero, List.getD_cons_succ]
      repeat' split
      all_goals first | contradiction | kernel_rfl
    · have h1 := e 0 (by decide) i1
      have h2 := e 1 (by decide) i2
      simp only [filterCart, filter3, Cfg.side, h1, h2, List.getD_cons_zero, List.getD_cons_succ]
      repeat' split
      all_goals first | contradiction | kernel_rfl

/-- The cells on the inner side of the lower (`upper = false`) or upper wall across axis `a`. -/
def Inside (c : Cfg) (a : Nat) (upper : Bool) (i : List Int) : Prop :=
  if upper then i.getD a 0 < c.imax a else c.imin ≤ i.getD a 0

/-- **C39 (a conductor on one side).** If the only conducting wall of a subdomain is the lower or the
upper one across axis `a`, the filter is insensitive to what is stored beyond it: currents that agree
inside the wall are filtered to the same currents in every active cell.  Missing: conductors on both
sides of an axis and on several axes, where it is false (`C39_both_sides_counterexample`,
`C39_corner_counterexample`). -/
theorem C39_one_side_partial (c : Cfg) {D a : Nat} (hD : D ∈ [1, 2, 3]) (ha : a < D) (upper : Bool)
    (hca : c.cond a = (!upper, upper)) (hcb : ∀ b, b ≠ a → c.cond b = (false, false))
    {cells : List (List Int)}
    (hc : ∀ t ∈ cells, t.length = D ∧ c.imin ≤ t.getD a 0 ∧ t.getD a 0 < c.imax a)
    {M1 M2 M1' M2' : Mem K} (hM : ∀ l, Inside c a upper l.idx → M1 l = M2 l)
    (h1 : Launch cells ((FieldKernel.filter c).body D) M1 M1')
    (h2 : Launch cells ((FieldKernel.filter c).body D) M2 M2') {t : List Int} (ht : t ∈ cells)
    (k l : Nat) : M1' ⟨k, l, t⟩ = M2' ⟨k, l, t⟩ := by
  obtain ⟨htl, hlo, hhi⟩ := hc t ht
  rw [FieldKernel.launch_at (.filter c) hD (fun t ht => (hc t ht).1) h1 ht,
    FieldKernel.launch_at (.filter c) hD (fun t ht => (hc t ht).1) h2 ht]
  show runBody (filterCart c t) _ _ = runBody (filterCart c t) _ _
  have key : ∀ l ∈ locs (filterCart c t : List (Assign K)),
      if upper then l.idx.getD a 0 + t.getD a 0 < c.imax a else c.imin ≤ l.idx.getD a 0 + t.getD a 0 := by
    intro l hl
    have hf := filter_offs (K := K) c (t := t) (by rw [htl]; exact hD) (by rw [htl]; exact ha) hcb
    rw [hca] at hf
    cases upper with
    | false =>
      simp only [Bool.not_false, if_true, Bool.false_eq_true, if_false] at hf ⊢
      split at hf
      · have := offs_of hf l hl; omega
      · rename_i hw
        have := offs_of hf l hl
        simp [Cfg.atWall, hca, -List.getD_eq_getElem?_getD] at hw
        omega
    | true =>
      simp only [Bool.not_true, if_true, Bool.false_eq_true, if_false] at hf ⊢
      split at hf
      · have := offs_of hf l hl; omega
      · rename_i hw
        have := offs_of hf l hl
        simp [Cfg.atWall, hca, -List.getD_eq_getElem?_getD] at hw
        omega
  have hreach : Reach D 2 (filterCart c t : List (Assign K)) := (FieldKernel.filter c).reach hD htl le_rfl
  have hat : ∀ l : Loc, l.idx.length = D → (l.at t).idx.getD a 0 = l.idx.getD a 0 + t.getD a 0 := by
    intro l hl
    simp only [Loc.at, List.getD_eq_getElem?_getD, List.getElem?_zipWith]
    rw [List.getElem?_eq_getElem (by omega), List.getElem?_eq_getElem (by omega)]
    simp [add_comm]
  refine runBody_congr _ (S := fun l => Inside c a upper (l.at t).idx) ?_ (fun l hl => hM _ hl) _ ?_
  · intro l hl
    have := key l ((accessed_iff _ _).1 hl)
    unfold Inside
    rw [hat l (hreach l hl).1]
    exact this
  · unfold Inside
    rw [hat _ (by simp [here])]
    simp only [here]
    rw [show (List.replicate D (0 : Int)).getD a 0 = 0 by simp [List.getD_eq_getElem?_getD, List.getElem?_replicate, ha]]
    cases upper <;> simp [-List.getD_eq_getElem?_getD] <;> omega

/-- A one-dimensional subdomain with five active cells. -/
def wallCfg (lo hi : Bool) : Cfg := ⟨false, false, fun a => if a = 0 then (lo, hi) else (false, false), 2, fun _ => 5⟩

/-- A current in one place. -/
def spike (k : Nat) (i : List Int) : Mem ℚ := fun l => if (l.arr = 1 ∨ l.arr = 2) ∧ l.comp = k ∧ l.idx = i then 1 else 0

/-- The hypotheses of C39 hold with a conductor on the right and a current only beyond it. -/
example : ∃ M' : Mem ℚ, Launch [[2], [3], [4], [5], [6]] ((FieldKernel.filter (wallCfg false true)).body 1)
    (spike 0 [7]) M' ∧ ∀ t ∈ [[2], [3], [4], [5], [6]], M' ⟨1, 0, t⟩ = 0 := by
  obtain ⟨M1, e1, _, _⟩ := C36_schedule_independent (FieldKernel.filter (wallCfg false true)) (D := 1)
    (by simp [FieldKernel.Dims]) (cells := [[2], [3], [4], [5], [6]]) (by decide) (spike 0 [7])
  obtain ⟨M2, e2, v, _⟩ := C36_schedule_independent (FieldKernel.filter (wallCfg false true)) (D := 1)
    (by simp [FieldKernel.Dims]) (cells := [[2], [3], [4], [5], [6]]) (by decide) (fun _ => (0 : ℚ))
  refine ⟨M1, (e1 M1).2 rfl, fun t ht => ?_⟩
  rw [C39_one_side_partial (wallCfg false true) (a := 0) (by decide) (by decide) true rfl
    (by intro b hb; simp [wallCfg, hb]) (by decide) (M2 := fun _ => 0) ?_ ((e1 M1).2 rfl) ((e2 M2).2 rfl) ht,
    v t ht]
  · revert ht; revert t; decide +kernel
  · intro l hl
    unfold spike
    rw [if_neg]
    rintro ⟨_, _, h⟩
    rw [h] at hl
    exact absurd hl (by unfold Inside; decide)

/-- **With conductors on both sides of an axis the filter reads beyond the upper one**: a current
stored just behind the upper wall leaks into the last active cell. -/
theorem C39_both_sides_counterexample : ∃ (M1 M2 M1' M2' : Mem ℚ),
    (∀ l, Inside (wallCfg true true) 0 true l.idx → M1 l = M2 l) ∧
    Launch [[2], [3], [4], [5], [6]] ((FieldKernel.filter (wallCfg true true)).body 1) M1 M1' ∧
    Launch [[2], [3], [4], [5], [6]] ((FieldKernel.filter (wallCfg true true)).body 1) M2 M2' ∧
    M1' ⟨1, 0, [6]⟩ = 1/4 ∧ M2' ⟨1, 0, [6]⟩ = 0 := by
  obtain ⟨M1, e1, v1, _⟩ := C36_schedule_independent (FieldKernel.filter (wallCfg true true)) (D := 1)
    (by simp [FieldKernel.Dims]) (cells := [[2], [3], [4], [5], [6]]) (by decide) (spike 0 [7])
  obtain ⟨M2, e2, v2, _⟩ := C36_schedule_independent (FieldKernel.filter (wallCfg true true)) (D := 1)
    (by simp [FieldKernel.Dims]) (cells := [[2], [3], [4], [5], [6]]) (by decide) (fun _ => (0 : ℚ))
  refine ⟨_, _, M1, M2, ?_, (e1 M1).2 rfl, (e2 M2).2 rfl, ?_, ?_⟩
  · intro l hl
    unfold spike
    rw [if_neg]
    rintro ⟨_, _, h⟩
    rw [h] at hl
    exact absurd hl (by unfold Inside; decide)
  · rw [v1 [6] (by decide)]; decide +kernel
  · rw [v2 [6] (by decide)]; decide +kernel

/-- A two-dimensional subdomain with conducting lower walls across both axes. -/
def cornerCfg : Cfg := ⟨false, false, fun a => if a < 2 then (true, false) else (false, false), 2, fun _ => 5⟩

/-- **In the corner of two conducting walls the filter reads beyond one of them.** -/
theorem C39_corner_counterexample : ∃ (M1 M2 M1' M2' : Mem ℚ),
    (∀ l, Inside cornerCfg 1 false l.idx → M1 l = M2 l) ∧
    Launch [[2, 2]] ((FieldKernel.filter cornerCfg).body 2) M1 M1' ∧
    Launch [[2, 2]] ((FieldKernel.filter cornerCfg).body 2) M2 M2' ∧
    M1' ⟨1, 0, [2, 2]⟩ = 3/16 ∧ M2' ⟨1, 0, [2, 2]⟩ = 0 := by
  obtain ⟨M1, e1, v1, _⟩ := C36_schedule_independent (FieldKernel.filter cornerCfg) (D := 2)
    (by simp [FieldKernel.Dims]) (cells := [[2, 2]]) (by decide) (spike 0 [2, 1])
  obtain ⟨M2, e2, v2, _⟩ := C36_schedule_independent (FieldKernel.filter cornerCfg) (D := 2)
    (by simp [FieldKernel.Dims]) (cells := [[2, 2]]) (by decide) (fun _ => (0 : ℚ))
  refine ⟨_, _, M1, M2, ?_, (e1 M1).2 rfl, (e2 M2).2 rfl, ?_, ?_⟩
  · intro l hl
    unfold spike
    rw [if_neg]
    rintro ⟨_, _, h⟩
    rw [h] at hl
    exact absurd hl (by unfold Inside; decide)
  · rw [v1 [2, 2] (by decide)]; decide +kernel
  · rw [v2 [2, 2] (by decide)]; decide +kernel

/-! ## C78 -/

/-- **C78 (normal component).** In one dimension, the component of the current normal to the walls
(stored at cell centres) filtered next to a conducting upper wall is the mirror image of what it is
next to a conducting lower wall.  Missing: the tangential components, stored at the nodes, for which
it is false (`C78_tangential_counterexample`). -/
theorem C78_mirror_partial {lo up : Cfg} (hng : lo.ng = up.ng) (hs : lo.size 0 = up.size 0)
    (hlo : lo.cond 0 = (true, false)) (hup : up.cond 0 = (false, true)) (hs2 : 2 ≤ lo.size 0)
    {M1 M2 M1' M2' : Mem K}
    (hM : ∀ x, M2 ⟨2, 0, [x]⟩ = M1 ⟨2, 0, [lo.imin + lo.imax 0 - 1 - x]⟩) {cells1 cells2 : List (List Int)}
    (hc1 : ∀ t ∈ cells1, t.length = 1) (hc2 : ∀ t ∈ cells2, t.length = 1)
    (h1 : Launch cells1 ((FieldKernel.filter lo).body 1) M1 M1')
    (h2 : Launch cells2 ((FieldKernel.filter up).body 1) M2 M2') {x : Int} (hx2 : [x] ∈ cells2)
    (hx1 : [lo.imin + lo.imax 0 - 1 - x] ∈ cells1) :
    M2' ⟨1, 0, [x]⟩ = M1' ⟨1, 0, [lo.imin + lo.imax 0 - 1 - x]⟩ := by
  rw [FieldKernel.launch_at _ (by simp [FieldKernel.Dims]) hc1 h1 hx1,
    FieldKernel.launch_at _ (by simp [FieldKernel.Dims]) hc2 h2 hx2]
  show runBody (filter1 up x) _ _ = runBody (filter1 lo _) _ _
  have e1 : up.imin = lo.imin := by simp [Cfg.imin, hng]
  have e2 : up.imax 0 = lo.imax 0 := by simp [Cfg.imax, hng, hs]
  have hat : ∀ (t : Int) (M : Mem K) (a c : Nat) (o : Int), M ((⟨a, c, [o]⟩ : Loc).at [t]) = M ⟨a, c, [t + o]⟩ :=
    fun _ _ _ _ _ => rfl
  have c1 : lo.imin + lo.imax 0 - 1 - x = lo.imin ↔ x = lo.imax 0 - 1 := by omega
  have c2 : lo.imin + lo.imax 0 - 1 - x = lo.imin + 1 ↔ x = lo.imax 0 - 2 := by omega
  unfold filter1
  simp only [Cfg.atWall, Cfg.nextWall, Cfg.side, hlo, hup, e1, e2, c1, c2, Bool.true_and, Bool.false_and,
    Bool.or_false, Bool.false_or, beq_iff_eq, Bool.false_eq_true, if_true, if_false]
  by_cases w0 : x = lo.imax 0 - 1
  · rw [if_pos w0, if_pos w0]
    have L : ∀ (o : Int) (f : Mem K), runBody [arr 1 0 :=. threeQuarters * bf 0 [0] + inv 4 * bf 0 [o]] f ⟨1, 0, here 1⟩
        = (3 * (1 / 4)) * f ⟨2, 0, [0]⟩ + (1 / ((4 : Nat) : K)) * f ⟨2, 0, [o]⟩ := by intro o f; kernel_rfl
    rw [L, L]
    simp only [hat, hM]
    congr 4 <;> [skip; skip] <;> ring_nf
  · rw [if_neg w0, if_neg w0]
    have L1 : ∀ (f : Mem K), runBody [ arr 1 0 :=. inv 2 * bf 0 [0] + inv 4 * (bf 0 [-1] + bf 0 [1]),
      arr 1 1 :=. inv 2 * bf 1 [0] + inv 4 * bf 1 [-1],
      arr 1 2 :=. inv 2 * bf 2 [0] + inv 4 * bf 2 [-1] ] f ⟨1, 0, here 1⟩
        = (1 / ((2 : Nat) : K)) * f ⟨2, 0, [0]⟩ + (1 / ((4 : Nat) : K)) * (f ⟨2, 0, [-1]⟩ + f ⟨2, 0, [1]⟩) := by intro f; kernel_rfl
    have L2 : ∀ (f : Mem K), runBody [ arr 1 0 :=. inv 2 * bf 0 [0] + inv 4 * (bf 0 [-1] + bf 0 [1]),
      arr 1 1 :=. inv 2 * bf 1 [0] + inv 4 * bf 1 [1],
      arr 1 2 :=. inv 2 * bf 2 [0] + inv 4 * bf 2 [1] ] f ⟨1, 0, here 1⟩
        = (1 / ((2 : Nat) : K)) * f ⟨2, 0, [0]⟩ + (1 / ((4 : Nat) : K)) * (f ⟨2, 0, [-1]⟩ + f ⟨2, 0, [1]⟩) := by intro f; kernel_rfl
    have L3 : ∀ (f : Mem K), runBody [ arr 1 0 :=. interior1 0, arr 1 1 :=. interior1 1, arr 1 2 :=. interior1 2 ] f ⟨1, 0, here 1⟩
        = (1 / ((2 : Nat) : K)) * f ⟨2, 0, [0]⟩ + (1 / ((4 : Nat) : K)) * (f ⟨2, 0, [-1]⟩ + f ⟨2, 0, [1]⟩) := by intro f; kernel_rfl
    have fin : ∀ (g1 g2 : Mem K), g1 = (fun l => M2 (l.at [x])) → g2 = (fun l => M1 (l.at [lo.imin + lo.imax 0 - 1 - x])) →
        (1 / ((2 : Nat) : K)) * g1 ⟨2, 0, [0]⟩ + (1 / ((4 : Nat) : K)) * (g1 ⟨2, 0, [-1]⟩ + g1 ⟨2, 0, [1]⟩) =
        (1 / ((2 : Nat) : K)) * g2 ⟨2, 0, [0]⟩ + (1 / ((4 : Nat) : K)) * (g2 ⟨2, 0, [-1]⟩ + g2 ⟨2, 0, [1]⟩) := by
      rintro g1 g2 rfl rfl
      simp only [hat, hM]
      rw [show lo.imin + lo.imax 0 - 1 - (x + 0) = lo.imin + lo.imax 0 - 1 - x + 0 by ring,
        show lo.imin + lo.imax 0 - 1 - (x + -1) = lo.imin + lo.imax 0 - 1 - x + 1 by ring,
        show lo.imin + lo.imax 0 - 1 - (x + 1) = lo.imin + lo.imax 0 - 1 - x + -1 by ring]
      ring
    split <;> simp only [L1, L2, L3] <;> exact fin _ _ rfl rfl

/-- **The components along the walls are not treated alike at the two walls**: a current at the first
node inside the lower wall is halved by a pass, one at the mirrored node (the last one inside the
upper wall) is left as it is. -/
theorem C78_tangential_counterexample : ∃ M1' M2' : Mem ℚ,
    Launch [[2], [3], [4], [5], [6]] ((FieldKernel.filter (wallCfg true false)).body 1) (spike 1 [3]) M1' ∧
    Launch [[2], [3], [4], [5], [6]] ((FieldKernel.filter (wallCfg false true)).body 1) (spike 1 [6]) M2' ∧
    M1' ⟨1, 1, [3]⟩ = 1/2 ∧ M2' ⟨1, 1, [6]⟩ = 1 := by
  obtain ⟨M1, e1, v1, _⟩ := C36_schedule_independent (FieldKernel.filter (wallCfg true false)) (D := 1)
    (by simp [FieldKernel.Dims]) (cells := [[2], [3], [4], [5], [6]]) (by decide) (spike 1 [3])
  obtain ⟨M2, e2, v2, _⟩ := C36_schedule_independent (FieldKernel.filter (wallCfg false true)) (D := 1)
    (by simp [FieldKernel.Dims]) (cells := [[2], [3], [4], [5], [6]]) (by decide) (spike 1 [6])
  refine ⟨M1, M2, (e1 M1).2 rfl, (e2 M2).2 rfl, ?_, ?_⟩
  · rw [v1 [3] (by decide)]; decide +kernel
  · rw [v2 [6] (by decide)]; decide +kernel

/-! ## C77 -/

/-- The filter along x1, in the column `y`. -/
def col (g : List Int → K) (x y : Int) : K := g [x, y] / 2 + (g [x - 1, y] + g [x + 1, y]) / 4

theorem smoothAll_two (g : List Int → K) (x y : Int) :
    smoothAll 2 g [x, y] = col g x y / 2 + (col g x (y - 1) + col g x (y + 1)) / 4 := by
  simp only [smoothAll, List.range_succ, List.range_zero, List.nil_append, List.foldl_cons, List.foldl_nil,
    smooth, List.cons_append, List.modify_zero_cons, List.modify_succ_cons, col]

/-- A column of the even continuation. -/
theorem col_even (lo hi : Int) (aMin aMax : Bool) (f : List Int → K) (x y : Int) :
    col (evenExt aMin aMax lo hi f) x y =
      if aMin && decide (y < lo) then col f x (2 * lo - y)
      else if aMax && decide (hi < y) then col f x (2 * hi - y) else col f x y := by
  simp only [col, evenExt]; split_ifs <;> rfl

theorem col_odd (lo hi : Int) (aMin aMax : Bool) (f : List Int → K) (x y : Int) :
    col (oddExt aMin aMax lo hi f) x y =
      if aMin && decide (y = lo) then 0 else if aMin && decide (y < lo) then -col f x (2 * lo - y)
      else if aMax && decide (y = hi) then 0
      else if aMax && decide (hi < y) then -col f x (2 * hi - y) else col f x y := by
  simp only [col, oddExt]; split_ifs <;> ring

theorem col_oddHalf (lo hi : Int) (aMin aMax : Bool) (f : List Int → K) (x y : Int) :
    col (oddHalfExt aMin aMax lo hi f) x y =
      if aMin && decide (y < lo) then -col f x (2 * lo - 1 - y)
      else if aMax && decide (hi ≤ y) then -col f x (2 * hi - 1 - y) else col f x y := by
  simp only [col, oddHalfExt]; split_ifs <;> ring

/-- The value of `FILTER2D_IN_I1`. -/
def rawCol (f : Mem K) (k : Nat) (o : Int) : K := (1 / ((2 : Nat) : K)) * f ⟨2, k, [0, o]⟩ +
  (1 / ((4 : Nat) : K)) * (f ⟨2, k, [0 - 1, o]⟩ + f ⟨2, k, [0 + 1, o]⟩)

/-- The value of the interior stencil. -/
def rawInterior (f : Mem K) (c : Nat) : K :=
  (1 / ((4 : Nat) : K)) * f ⟨2, c, [0, 0]⟩ +
    (1 / ((8 : Nat) : K)) * (f ⟨2, c, [-1, 0]⟩ + f ⟨2, c, [1, 0]⟩ + f ⟨2, c, [0, -1]⟩ + f ⟨2, c, [0, 1]⟩) +
    (1 / ((16 : Nat) : K)) * (f ⟨2, c, [-1, -1]⟩ + f ⟨2, c, [1, 1]⟩ + f ⟨2, c, [-1, 1]⟩ + f ⟨2, c, [1, -1]⟩)

theorem rawInterior_eq [CharZero K] (f : Mem K) (c : Nat) :
    rawInterior f c = rawCol f c 0 / 2 + (rawCol f c (-1) + rawCol f c 1) / 4 := by
  unfold rawInterior rawCol
  norm_num
  ring

set_option maxHeartbeats 2000000 in
/-- **C77.** On an axisymmetric grid the filtered current in every active cell (and on the upper axis)
is the separable (1/4, 1/2, 1/4) filter of the current continued across the axes: the radial
component evenly, the polar component (stored between the nodes) and the azimuthal component oddly. -/
theorem C77_axis [CharZero K] (c : Cfg) (hs : 3 ≤ c.size 1) {cells : List (List Int)}
    (hc : ∀ t ∈ cells, t.length = 2) {M M' : Mem K}
    (h : Launch cells ((FieldKernel.filterSpherical c).body 2) (copyToBuffer M) M') {x y : Int}
    (ht : [x, y] ∈ cells) (hlo : c.imin ≤ y) (hhi : y < c.imax 1 ∨ c.axisMax = true ∧ y = c.imax 1) :
    M' ⟨1, 0, [x, y]⟩ =
        smoothAll 2 (evenExt c.axisMin c.axisMax c.imin (c.imax 1) fun q => M ⟨1, 0, q⟩) [x, y] ∧
    (y < c.imax 1 → M' ⟨1, 1, [x, y]⟩ =
        smoothAll 2 (oddHalfExt c.axisMin c.axisMax c.imin (c.imax 1) fun q => M ⟨1, 1, q⟩) [x, y]) ∧
    M' ⟨1, 2, [x, y]⟩ =
        smoothAll 2 (oddExt c.axisMin c.axisMax c.imin (c.imax 1) fun q => M ⟨1, 2, q⟩) [x, y] := by
  have hL : ∀ k, M' ⟨1, k, [x, y]⟩ = runBody (filter2sph c y)
      (fun l => copyToBuffer M (l.at [x, y])) ⟨1, k, here 2⟩ := fun k =>
    FieldKernel.launch_at (.filterSpherical c) (show FieldKernel.Dims _ 2 from rfl) hc h ht 1 k
  rw [hL, hL, hL, smoothAll_two, smoothAll_two, smoothAll_two]
  simp only [col_even, col_odd, col_oddHalf]
  set f : Mem K := fun l => copyToBuffer M (l.at [x, y]) with hf
  have hcol : ∀ k < 3, ∀ o : Int, rawCol f k o =
      col (fun q => M ⟨1, k, q⟩) x (y + o) := by
    intro k hk o
    have e : ∀ a b : Int, f ⟨2, k, [a, b]⟩ = M ⟨1, k, [x + a, y + b]⟩ := by
      intro a b
      show copyToBuffer M ⟨2, k, [x + a, y + b]⟩ = _
      simp [copyToBuffer, hk]
    simp only [rawCol, e, col]
    norm_num [sub_eq_add_neg]
    ring
  have hlen : c.imin + 3 ≤ c.imax 1 := by simp only [Cfg.imin, Cfg.imax]; omega
  clear_value f
  have H0 := hcol 0 (by decide)
  have H1 := hcol 1 (by decide)
  have H2 := hcol 2 (by decide)
  have two : ((2 : Nat) : K) = 2 := by norm_num
  have four : ((4 : Nat) : K) = 4 := by norm_num
  unfold filter2sph
  by_cases b1 : (c.axisMin && y == c.imin) = true
  · rw [if_pos b1]
    simp only [Bool.and_eq_true, beq_iff_eq] at b1
    obtain ⟨b1, rfl⟩ := b1
    refine ⟨Eq.trans (b := 1 / ((2 : Nat) : K) * rawCol f 0 0 + 1 / ((2 : Nat) : K) * rawCol f 0 1) (by kernel_rfl) ?_,
      fun _ => Eq.trans (b := 1 / ((4 : Nat) : K) * (rawCol f 1 0 + rawCol f 1 1)) (by kernel_rfl) ?_,
      Eq.trans (b := 0) (by kernel_rfl) ?_⟩
    all_goals
      simp only [H0, H1, H2, b1, two, four, Bool.true_and, Bool.and_eq_true, decide_eq_true_eq]
      split_ifs <;> first | (exfalso; omega) | ring_nf
  by_cases b2 : (c.axisMin && y == c.imin + 1) = true
  · rw [if_neg b1, if_pos b2]
    simp only [Bool.and_eq_true, beq_iff_eq] at b2
    obtain ⟨b2, rfl⟩ := b2
    refine ⟨Eq.trans (b := 1 / ((2 : Nat) : K) * rawCol f 0 0 +
        1 / ((4 : Nat) : K) * (rawCol f 0 1 + rawCol f 0 (-1))) (by kernel_rfl) ?_,
      fun _ => Eq.trans (b := 1 / ((2 : Nat) : K) * rawCol f 1 0 +
        1 / ((4 : Nat) : K) * (rawCol f 1 (-1) + rawCol f 1 1)) (by kernel_rfl) ?_,
      Eq.trans (b := 1 / ((2 : Nat) : K) * rawCol f 2 0 + 1 / ((4 : Nat) : K) * rawCol f 2 1)
        (by kernel_rfl) ?_⟩
    all_goals
      simp only [H0, H1, H2, b2, two, four, Bool.true_and, Bool.and_eq_true, decide_eq_true_eq]
      split_ifs <;> first | (exfalso; omega) | ring_nf
  by_cases b3 : (c.axisMax && y == c.imax 1 - 1) = true
  · rw [if_neg b1, if_neg b2, if_pos b3]
    simp only [Bool.and_eq_true, beq_iff_eq] at b3
    obtain ⟨b3, rfl⟩ := b3
    refine ⟨Eq.trans (b := 1 / ((2 : Nat) : K) * rawCol f 0 0 +
        1 / ((4 : Nat) : K) * (rawCol f 0 (-1) + rawCol f 0 1)) (by kernel_rfl) ?_,
      fun _ => Eq.trans (b := 1 / ((4 : Nat) : K) * (rawCol f 1 0 + rawCol f 1 (-1))) (by kernel_rfl) ?_,
      Eq.trans (b := 1 / ((2 : Nat) : K) * rawCol f 2 0 + 1 / ((4 : Nat) : K) * rawCol f 2 (-1))
        (by kernel_rfl) ?_⟩
    all_goals
      simp only [H0, H1, H2, b3, two, four, Bool.true_and, Bool.and_eq_true, decide_eq_true_eq]
      split_ifs <;> first | (exfalso; omega) | ring_nf
  by_cases b4 : (c.axisMax && y == c.imax 1) = true
  · rw [if_neg b1, if_neg b2, if_neg b3, if_pos b4]
    simp only [Bool.and_eq_true, beq_iff_eq] at b4
    obtain ⟨b4, rfl⟩ := b4
    refine ⟨Eq.trans (b := 1 / ((2 : Nat) : K) * rawCol f 0 0 + 1 / ((2 : Nat) : K) * rawCol f 0 (-1))
        (by kernel_rfl) ?_, fun hlt => absurd hlt (lt_irrefl _), Eq.trans (b := 0) (by kernel_rfl) ?_⟩
    all_goals
      simp only [H0, H1, H2, b4, two, four, Bool.true_and, Bool.and_eq_true, decide_eq_true_eq]
      split_ifs <;> first | (exfalso; omega) | ring_nf
  rw [if_neg b1, if_neg b2, if_neg b3, if_neg b4]
  simp only [Bool.and_eq_true, beq_iff_eq, not_and] at b1 b2 b3 b4
  refine ⟨Eq.trans (b := rawInterior f 0) (by kernel_rfl) ?_,
    fun _ => Eq.trans (b := rawInterior f 1) (by kernel_rfl) ?_,
    Eq.trans (b := rawInterior f 2) (by kernel_rfl) ?_⟩
  all_goals
    rw [rawInterior_eq]
    simp only [H0, H1, H2, two, four, Bool.and_eq_true, decide_eq_true_eq]
    cases ha : c.axisMin <;> cases hb : c.axisMax <;>
      simp only [ha, hb, forall_const, Bool.false_eq_true, false_and, true_and, or_false, if_false,
        IsEmpty.forall_iff, reduceCtorEq] at b1 b2 b3 b4 hhi ⊢ <;>
      (try split_ifs) <;> first | (exfalso; omega) | ring_nf

/-- An axisymmetric subdomain from axis to axis. -/
def polarCfg : Cfg := ⟨true, true, fun _ => (false, false), 2, fun _ => 4⟩

/-- The hypotheses of C77 hold, for a current in the second cell from the axis. -/
example : ∃ M' : Mem ℚ, Launch [[4, 2], [4, 3], [4, 4], [4, 5], [4, 6]]
    ((FieldKernel.filterSpherical polarCfg).body 2) (copyToBuffer (spike 1 [4, 2])) M' ∧
    M' ⟨1, 1, [4, 2]⟩ = 1/8 := by
  obtain ⟨M1, e1, _, _⟩ := C36_schedule_independent (FieldKernel.filterSpherical polarCfg) (D := 2)
    rfl (cells := [[4, 2], [4, 3], [4, 4], [4, 5], [4, 6]]) (by decide) (copyToBuffer (spike 1 [4, 2]))
  refine ⟨M1, (e1 M1).2 rfl, ?_⟩
  rw [(C77_axis polarCfg (by decide) (by decide) ((e1 M1).2 rfl) (by decide) (by decide)
    (.inl (by decide))).2.1 (by decide)]
  decide +kernel

end Entity.Filter
