import Verif.Lemmas.Atmosphere

/-!
# C124: replenishment of the atmosphere
-/

namespace Entity.Atmosphere

open Entity Entity.Inject Entity.Push Entity.Tags Entity.Deposit

variable {K : Type} [Field K] [LinearOrder K] [IsStrictOrderedRing K]

/-! ## Specification -/

/-- Density of a species in cell `c`: every live particle in the cell counts `f` (its mass for the mass
density, one for the number density), times its weight if particles have weights, over `n0` and the
volume element of the cell. -/
def density (D : Nat) (useW : Bool) (f n0 : K) (vol : Cell → K) (a : Sp K) (c : Cell) : K :=
  (a.st.used.map fun q => if q.tag = dead ∨ cells D q ≠ c then 0
    else f * (if useW = true then q.weight else 1)).sum / (n0 * vol c)

/-- What a call needs: a grid of one to three dimensions with cells `range`, all of them active; the two
species exist, differ, have positive masses and room for the largest possible number of pairs; their
live particles lie in the cells and have nonnegative weights; the metric maps centres of cells back and
forth and has a positive volume element, which is `V0` in Cartesian coordinates; `n0 = ppc0 / V0`;
positive peak density and scale height; in curvilinear coordinates the atmosphere lies at the inner
boundary and its surface at positive radius; random numbers lie between 0 and 1. -/
structure Setting [FloorRing K] (mpi : Bool) (l : Loc K) (exp : K → K) (cfg : Moments.Cfg K)
    (env : Moments.Env K) (co : Coords K) (p : Atm K) (nAct : List Nat) (mq : List (K × K)) (n0 : K)
    (range : List Cell) (dr : NDraw K) (sps : List (Sp K)) (a1 a2 : Sp K) (m1 m2 : K) : Prop where
  dim : nAct.length = cfg.dim
  dim1 : 1 ≤ cfg.dim
  dim3 : cfg.dim ≤ 3
  ni2 : ∀ n, nAct[1]? = some n → n = cfg.ni2
  bcs : cfg.cartesian = false → 2 ≤ cfg.dim → 2 ≤ cfg.bcs.length
  curv : l.curv = !cfg.cartesian
  prm : p.prm = l.curv
  nodup : range.Nodup
  active : ∀ c ∈ range, List.Forall₂ (fun (i : Int) (n : Nat) => 0 ≤ i ∧ i < n) c nAct
  s1 : p.s1 ≠ 0
  s2 : p.s2 ≠ 0
  ne : p.s1 ≠ p.s2
  sp1 : sps[p.s1 - 1]? = some a1
  sp2 : sps[p.s2 - 1]? = some a2
  mass1 : (mq[p.s1 - 1]?).map Prod.fst = some m1
  mass2 : (mq[p.s2 - 1]?).map Prod.fst = some m2
  pos1 : 0 < m1
  pos2 : 0 < m2
  v1 : Valid mpi a1
  v2 : Valid mpi a2
  d1 : a1.kind.D = cfg.dim
  d2 : a2.kind.D = cfg.dim
  in1 : ∀ q ∈ a1.st.used, q.tag = dead ∨ (cells cfg.dim q ∈ range ∧ 0 ≤ q.weight)
  in2 : ∀ q ∈ a2.st.used, q.tag = dead ∨ (cells cfg.dim q ∈ range ∧ 0 ≤ q.weight)
  room1 : a1.st.npart + range.length * ⌈p.nmax * p.ppc0 / 2⌉₊ ≤ a1.st.arr.length
  room2 : a2.st.npart + range.length * ⌈p.nmax * p.ppc0 / 2⌉₊ ≤ a2.st.arr.length
  inv : ∀ c ∈ range, co.toCd (co.toPh (centre c)) = centre c
  vol : ∀ c ∈ range, 0 < env.sqrtDetH (centre c)
  cart : cfg.cartesian = true → ∀ c ∈ range, env.sqrtDetH (centre c) * p.invV0 = 1
  V0 : 0 < p.invV0
  ppc0 : 0 < p.ppc0
  eqn0 : n0 = p.ppc0 * p.invV0
  invN0 : cfg.invN0 = 1 / n0
  nmax : 0 < p.nmax
  height : 0 < p.height
  minus : cfg.cartesian = false → p.plus = false ∧ 0 < p.xsurf
  hexp : ∀ y, y ≤ 0 → 0 ≤ exp y ∧ exp y ≤ 1
  rnd : ∀ c, 0 ≤ dr.rnd c

/-! ## Lemmas -/

/-- The target density exists, is not negative and at most the peak density. -/
theorem target_range {exp : K → K} {cart : Bool} {p : Atm K} (hexp : ∀ y, y ≤ 0 → 0 ≤ exp y ∧ exp y ≤ 1)
    (hn : 0 < p.nmax) (hh : 0 < p.height) (hm : cart = false → p.plus = false ∧ 0 < p.xsurf) (x : List K) :
    ∃ t, targetAt exp cart p x = .ok t ∧ 0 ≤ t ∧ t ≤ p.nmax := by
  have key : ∀ y, y ≤ 0 → ∃ t, Outcome.ok (p.nmax * exp y) = .ok t ∧ 0 ≤ t ∧ t ≤ p.nmax := by
    intro y hy
    obtain ⟨h1, h2⟩ := hexp y hy
    exact ⟨_, rfl, mul_nonneg hn.le h1, by nlinarith⟩
  have zero : ∃ t, Outcome.ok (0 : K) = .ok t ∧ 0 ≤ t ∧ t ≤ p.nmax := ⟨0, rfl, le_refl _, hn.le⟩
  unfold targetAt profile
  generalize x.getD p.axis 0 = y
  split_ifs with h1 h2 h3 h4 h5
  · exact zero
  · push Not at h2
    exact key _ (div_nonpos_of_nonpos_of_nonneg (by linarith [h2.2]) hh.le)
  · have := hm (by simpa using h3)
    simp [this.1] at h1
  · exact zero
  · push Not at h4
    exact key _ (div_nonpos_of_nonpos_of_nonneg (by linarith [h4.1]) hh.le)
  · push Not at h4
    have hs := (hm (by simpa using h5)).2
    apply key
    have h6 : 0 ≤ p.xsurf / p.height := (div_pos hs hh).le
    have h7 : p.xsurf / y ≤ 1 := (div_le_one (by linarith [h4.1])).2 h4.1
    nlinarith

theorem cellIndex_centre [FloorRing K] {NG : Nat} {c : Cell} (hc : ∀ i ∈ c, 0 ≤ i) :
    cellIndex (K := K) NG (centre c) = .ok (c.map fun i => i + (NG : Int)) := by
  unfold cellIndex centre
  rw [if_neg]
  · rw [List.map_map]
    congr 1
    apply List.map_congr_left
    intro i hi
    have hf : ⌊(i : K) + 1 / 2⌋ = i := by
      rw [Int.floor_eq_iff]
      constructor <;> linarith
    simp only [Function.comp_apply, hf]
    rw [max_eq_left (hc i hi)]
  · simp only [List.any_map, List.any_eq_true, Function.comp_apply, decide_eq_true_eq, not_exists, not_and]
    intro i hi h
    have : (0 : K) ≤ i := by exact_mod_cast hc i hi
    linarith

theorem density_nonneg {D : Nat} {useW : Bool} {f n0 : K} {vol : Cell → K} {a : Sp K} {c : Cell}
    (hf : 0 ≤ f) (hn : 0 < n0) (hv : 0 < vol c) (hw : ∀ q ∈ a.st.used, q.tag = dead ∨ 0 ≤ q.weight) :
    0 ≤ density D useW f n0 vol a c := by
  unfold density
  apply div_nonneg _ (mul_pos hn hv).le
  apply List.sum_nonneg
  intro x hx
  obtain ⟨q, hq, rfl⟩ := List.mem_map.1 hx
  split_ifs with h h2
  · exact le_refl _
  · exact mul_nonneg hf ((hw q hq).resolve_left (fun e => h (Or.inl e)))
  · simpa using hf

section Floor

variable [FloorRing K] {mpi : Bool} {l : Loc K} {exp : K → K} {cfg : Moments.Cfg K}
  {env : Moments.Env K} {co : Coords K} {p : Atm K} {nAct : List Nat} {mq : List (K × K)} {n0 : K}
  {range : List Cell} {dr : NDraw K} {sps : List (Sp K)} {a1 a2 : Sp K} {m1 m2 : K}

/-- The sum of what the particles of a species add to a cell is its mass density there. -/
theorem added_density {m : K} {a : Sp K} {c : Cell} (h3 : cfg.dim ≤ 3) (hinv : cfg.invN0 = 1 / n0)
    (hn0 : n0 ≠ 0) (hv : env.sqrtDetH (centre c) ≠ 0) :
    ((a.st.used.map (forMoments cfg.dim)).map
      (addedAt cfg env m 0 (c.map fun i => i + (cfg.NG : Int)))).sum =
      density cfg.dim (!cfg.cartesian) m n0 (fun c => env.sqrtDetH (centre c)) a c := by
  unfold density
  rw [List.map_map, div_eq_mul_inv, ← List.sum_map_mul_right]
  congr 1
  apply List.map_congr_left
  intro q _
  simp only [Function.comp_apply, addedAt, true_and]
  have hpos := forMoments_pos h3 q
  have hmap : ((forMoments cfg.dim q).pos.map fun a => a.1 + (cfg.NG : Int)) =
      (cells cfg.dim q).map fun i => i + (cfg.NG : Int) := by
    rw [← hpos, List.map_map]; rfl
  have hcen : ((forMoments cfg.dim q).pos.map fun a => (a.1 : K) + 1 / 2) = centre (cells cfg.dim q) := by
    rw [← hpos, centre, List.map_map]; rfl
  have htag : (forMoments cfg.dim q).tag = q.tag := rfl
  have hwt : (forMoments cfg.dim q).weight = q.weight := rfl
  rw [htag, hmap]
  by_cases hd : q.tag = dead
  · simp [hd]
  · by_cases hc : cells cfg.dim q = c
    · rw [if_neg hd, if_pos (by rw [hc]), if_neg (by simp [hd, hc])]
      unfold ownUpd
      dsimp only
      rw [hcen, hc, hwt, hinv]
      have hcc : (if (!cfg.cartesian) = true then q.weight else (1 : K)) =
          if cfg.cartesian = true then 1 else q.weight := by
        rcases Bool.eq_false_or_eq_true cfg.cartesian with hcc | hcc <;> simp [hcc]
      rw [hcc]
      field_simp
    · rw [if_neg hd, if_neg, if_pos (Or.inr hc), zero_mul]
      intro h
      exact hc (List.map_injective_iff.2 (fun x y h => by simpa using h) h)

/-- New particles raise the density of a cell by their number over `ppc0`. -/
theorem density_added {D n : Nat} {f : K} {a b : Sp K} {c : Cell} {w : Cell → K} {vol : Cell → K}
    {useW : Bool} (hE : Extends a b n)
    (hw : ∀ q ∈ news a b, cells D q = c → f * (if useW = true then q.weight else 1) / (n0 * vol c) = w c) :
    density D useW f n0 vol b c = density D useW f n0 vol a c +
      (((news a b).map (cells D)).count c : K) * w c := by
  have hu : b.st.used = a.st.used ++ news a b := by
    rw [← hE.kept, news, List.take_append_drop]
  unfold density
  rw [hu, List.map_append, List.sum_append, add_div]
  congr 1
  have hlive := hE.live
  generalize news a b = N at hw hlive ⊢
  clear hu hE
  induction N with
  | nil => simp
  | cons q N ih =>
    rw [List.map_cons, List.map_cons, List.sum_cons, List.count_cons, add_div,
      ih (fun q hq => hw q (List.mem_cons_of_mem _ hq)) (fun q hq => hlive q (List.mem_cons_of_mem _ hq))]
    have ht : q.tag ≠ dead := by rw [hlive q (by simp)]; decide
    by_cases hc : cells D q = c
    · rw [if_neg (by simp [ht, hc]), hw q (by simp) hc]
      simp [hc]; ring
    · simp [ht, hc]

/-- The density that the call sees. -/
def seen (assumeEmpty : Bool) (D : Nat) (useW : Bool) (m1 m2 n0 : K) (vol : Cell → K) (a1 a2 : Sp K)
    (c : Cell) : K :=
  if assumeEmpty = true then 0 else density D useW m1 n0 vol a1 c + density D useW m2 n0 vol a2 c

/-- **C124**: for every metric, grid, schedule and random numbers the call succeeds and adds pairs; in
every cell the number of pairs is zero where the mass density of the two species (taken to be zero if
the atmosphere is assumed empty) is at least nine tenths of the target, and otherwise differs by less
than one from `ppc0 / 2` times the difference between target and mass density.  Every new pair raises
the number density of its cell by `2 / ppc0`. -/
theorem C124_pairs
    (S : Setting mpi l exp cfg env co p nAct mq n0 range dr sps a1 a2 m1 m2) (assumeEmpty : Bool)
    (recv : List Int → K) (hrecv : ∀ n, recv n = 0)
    (sched : Nat → List (Moments.Prtl K) → List (Moments.Prtl K)) (hs : ∀ i l, (sched i l).Perm l)
    (σ : List (Cell × Nat) → List (Cell × Nat)) (hσ : ∀ l, (σ l).Perm l) :
    ∃ b1 b2 n, particlesIn mpi l exp cfg env co p assumeEmpty (nAct.map (· + 2 * cfg.NG)) mq recv sched
        range dr σ sps = .ok ((sps.set (p.s1 - 1) b1).set (p.s2 - 1) b2) ∧
      Extends a1 b1 n ∧ Extends a2 b2 n ∧
      ∀ c ∈ range, ∃ (k : Nat) (t : K),
        targetAt exp cfg.cartesian p (co.toPh (centre c)) = .ok t ∧
        ((news a1 b1).map (cells cfg.dim)).count c = k ∧
        ((news a2 b2).map (cells cfg.dim)).count c = k ∧
        (9 / 10 * t ≤ seen assumeEmpty cfg.dim (!cfg.cartesian) m1 m2 n0
            (fun c => env.sqrtDetH (centre c)) a1 a2 c → k = 0) ∧
        (seen assumeEmpty cfg.dim (!cfg.cartesian) m1 m2 n0
            (fun c => env.sqrtDetH (centre c)) a1 a2 c < 9 / 10 * t →
          |(k : K) - p.ppc0 / 2 * (t - seen assumeEmpty cfg.dim (!cfg.cartesian) m1 m2 n0
            (fun c => env.sqrtDetH (centre c)) a1 a2 c)| < 1) ∧
        density cfg.dim (!cfg.cartesian) 1 n0 (fun c => env.sqrtDetH (centre c)) b1 c +
            density cfg.dim (!cfg.cartesian) 1 n0 (fun c => env.sqrtDetH (centre c)) b2 c =
          density cfg.dim (!cfg.cartesian) 1 n0 (fun c => env.sqrtDetH (centre c)) a1 c +
            density cfg.dim (!cfg.cartesian) 1 n0 (fun c => env.sqrtDetH (centre c)) a2 c +
            k * (2 / p.ppc0) := by
  set vol : Cell → K := fun c => env.sqrtDetH (centre c) with hvol
  set ρ : Cell → K := seen assumeEmpty cfg.dim (!cfg.cartesian) m1 m2 n0 vol a1 a2 with hρ
  have hn0 : 0 < n0 := by rw [S.eqn0]; exact mul_pos S.ppc0 S.V0
  have hlen : ∀ c ∈ range, c.length = cfg.dim := fun c hc => (S.active c hc).length_eq.trans S.dim
  have hge : ∀ c ∈ range, ∀ i ∈ c, (0 : Int) ≤ i := by
    intro c hc i hi
    obtain ⟨d, hd, rfl⟩ := List.getElem_of_mem hi
    have h := S.active c hc
    exact ((List.forall₂_iff_get.1 h).2 d hd (by rw [← h.length_eq]; exact hd)).1
  have hin : ∀ (a : Sp K), (∀ q ∈ a.st.used, q.tag = dead ∨ (cells cfg.dim q ∈ range ∧ 0 ≤ q.weight)) →
      ∀ q ∈ a.st.used, q.tag = dead ∨ InCells nAct (forMoments cfg.dim q).pos := by
    intro a h q hq
    rcases h q hq with h | ⟨h, _⟩
    · exact Or.inl h
    · right
      have hF := S.active _ h
      rw [← forMoments_pos S.dim3 q] at hF
      unfold InCells
      rw [List.forall₂_map_left_iff] at hF
      exact hF
  have hρ0 : ∀ c ∈ range, 0 ≤ ρ c := by
    intro c hc
    rw [hρ, seen]
    split_ifs
    · exact le_refl _
    · exact add_nonneg
        (density_nonneg S.pos1.le hn0 (S.vol c hc) (fun q hq => (S.in1 q hq).imp id And.right))
        (density_nonneg S.pos2.le hn0 (S.vol c hc) (fun q hq => (S.in2 q hq).imp id And.right))
  -- the buffer
  obtain ⟨q1, hq1, hm1⟩ := Option.map_eq_some_iff.1 S.mass1
  obtain ⟨q2, hq2, hm2⟩ := Option.map_eq_some_iff.1 S.mass2
  obtain ⟨J, hJ, hJr⟩ : ∃ J : Cur K, buffer cfg env p assumeEmpty (nAct.map (· + 2 * cfg.NG)) mq recv sched
      sps = .ok J ∧
      ∀ c ∈ range, J 0 (c.map fun i => i + (cfg.NG : Int)) = ρ c := by
    unfold buffer
    by_cases hae : assumeEmpty = true
    · rw [if_pos hae]
      exact ⟨_, rfl, fun c _ => by rw [hρ, seen, if_pos hae]⟩
    · rw [if_neg hae]
      obtain ⟨J1, e1, r1⟩ := addSpecies_own (env := env) S.dim (by rw [S.dim]; exact S.dim1)
        (by rw [S.dim]; exact S.dim3) S.ni2 S.bcs (hs 0) S.s1 S.sp1 hq1 (by rw [hm1]; exact S.pos1.ne')
        (hin a1 S.in1) (fun _ _ => 0)
      obtain ⟨J2, e2, r2⟩ := addSpecies_own (env := env) S.dim (by rw [S.dim]; exact S.dim1)
        (by rw [S.dim]; exact S.dim3) S.ni2 S.bcs (hs 1) S.s2 S.sp2 hq2 (by rw [hm2]; exact S.pos2.ne')
        (hin a2 S.in2) J1
      refine ⟨fun c n => J2 c n + recv n, by rw [e1, Outcome.bind_ok, e2, Outcome.bind_ok]; rfl,
        fun c hc => ?_⟩
      dsimp only
      rw [r2, r1, hrecv, hm1, hm2, zero_add, add_zero,
        added_density S.dim3 S.invN0 hn0.ne' (S.vol c hc).ne',
        added_density S.dim3 S.invN0 hn0.ne' (S.vol c hc).ne', hρ, seen, if_neg hae]
  -- the numbers per cell
  have ht : ∀ c ∈ range, ∃ t, targetAt exp cfg.cartesian p (co.toPh (centre c)) = .ok t ∧ 0 ≤ t ∧
      t ≤ p.nmax := fun c _ => target_range S.hexp S.nmax S.height S.minus _
  choose! t ht ht0 htm using ht
  have hsd : ∀ c ∈ range, replenish cfg.NG co.toCd (J 0) (targetAt exp cfg.cartesian p) p.nmax
      (co.toPh (centre c)) = .ok (if 9 / 10 * t c > ρ c then (t c - ρ c) / p.nmax else 0) := by
    intro c hc
    unfold replenish
    rw [S.inv c hc, cellIndex_centre (hge c hc), Outcome.bind_ok, ht c hc, Outcome.bind_ok, hJr c hc]
    rfl
  set sd := replenish cfg.NG co.toCd (J 0) (targetAt exp cfg.cartesian p) p.nmax with hsddef
  set dr' : NDraw K := { dr with
    ppc := fun c => match sd (co.toPh (centre c)) with
      | .ok v => p.nmax * p.ppc0 * (1 / 2) * v
      | _ => 0
    wei := fun c => if l.curv = true then env.sqrtDetH (centre c) * p.invV0 else 1 } with hdr'
  have hdraw : draws l.curv co env.sqrtDetH p sd dr range = .ok dr' := by
    unfold draws
    rw [mapM_ok _ (fun c => if 9 / 10 * t c > ρ c then (t c - ρ c) / p.nmax else 0) range hsd,
      Outcome.bind_ok]
    rfl
  have hppc : ∀ c ∈ range, dr'.ppc c = if 9 / 10 * t c > ρ c then p.ppc0 / 2 * (t c - ρ c) else 0 := by
    intro c hc
    have : dr'.ppc c = match sd (co.toPh (centre c)) with
      | .ok v => p.nmax * p.ppc0 * (1 / 2) * v
      | _ => 0 := rfl
    rw [this, hsd c hc]
    dsimp only
    have := S.nmax.ne'
    split_ifs
    · field_simp
    · ring
  have hppc0 : ∀ c ∈ range, 0 ≤ dr'.ppc c := by
    intro c hc
    rw [hppc c hc]
    split_ifs with h
    · have := ht0 c hc
      have := S.ppc0
      apply mul_nonneg (by positivity)
      linarith
    · exact le_refl _
  have hrnd : ∀ c, 0 ≤ dr'.rnd c := S.rnd
  have hle : ∀ c ∈ range, cellCount dr' c ≤ ⌈p.nmax * p.ppc0 / 2⌉₊ := by
    intro c hc
    apply cellCount_le (hppc0 c hc) (hrnd c)
    rw [hppc c hc]
    have h1 := S.ppc0
    have h2 := S.nmax
    split_ifs with h
    · have := htm c hc
      have := hρ0 c hc
      have : p.ppc0 * (t c - ρ c) ≤ p.ppc0 * p.nmax := by
        apply mul_le_mul_of_nonneg_left _ h1.le
        linarith
      linarith
    · positivity
  have hsum : (range.map (cellCount dr')).sum ≤ range.length * ⌈p.nmax * p.ppc0 / 2⌉₊ := by
    have := List.sum_le_card_nsmul (range.map (cellCount dr')) ⌈p.nmax * p.ppc0 / 2⌉₊ (by
      intro x hx
      obtain ⟨c, hc, rfl⟩ := List.mem_map.1 hx
      exact hle c hc)
    simpa using this
  obtain ⟨b1, b2, evs, e, hperm, hel, r1, r2⟩ := nonUniform_core mpi l l.curv (fun h => h) range p.s1 p.s2
    S.s1 S.s2 S.ne dr' hppc0 σ hσ sps a1 a2 S.sp1 S.sp2 S.v1 S.v2 cfg.dim S.d1 S.d2 _ rfl
    (le_trans (by omega) S.room1) (le_trans (by omega) S.room2)
  have hmem : ∀ x ∈ evs, x.1 ∈ range := by
    intro x hx
    obtain ⟨c, hc, hx⟩ := List.mem_flatMap.1 (hperm.mem_iff.1 hx)
    obtain ⟨j, _, rfl⟩ := List.mem_map.1 hx
    exact hc
  have n1 := news_eq hel S.d1 S.dim3 (fun e he => hlen _ (hmem e he)) r1
  have n2 := news_eq hel S.d2 S.dim3 (fun e he => hlen _ (hmem e he)) r2
  refine ⟨b1, b2, _, ?_, r1.extends, r2.extends, fun c hc => ⟨cellCount dr' c, t c, ht c hc, ?_⟩⟩
  · unfold particlesIn
    rw [hJ, Outcome.bind_ok]
    dsimp only
    rw [hdraw, Outcome.bind_ok, S.prm]
    exact e
  have side : ∀ (a b : Sp K) (n : Nat), (news a b).map (fun q => (cells cfg.dim q, q.weight)) =
      evs.map (fun e => (e.1, dr'.wei e.1)) → Extends a b n →
      ((news a b).map (cells cfg.dim)).count c = cellCount dr' c ∧
      density cfg.dim (!cfg.cartesian) 1 n0 vol b c = density cfg.dim (!cfg.cartesian) 1 n0 vol a c +
        (cellCount dr' c : K) * (1 / p.ppc0) := by
    intro a b n hn hE
    have h1 : (news a b).map (cells cfg.dim) = evs.map Prod.fst := by
      have := congrArg (List.map Prod.fst) hn
      simpa [List.map_map, Function.comp_def] using this
    have h2 : ((news a b).map (cells cfg.dim)).count c = cellCount dr' c := by
      rw [h1]; exact events_count S.nodup hperm hc
    refine ⟨h2, ?_⟩
    rw [← h2]
    apply density_added (w := fun _ => 1 / p.ppc0) hE
    intro q hq hqc
    have : (cells cfg.dim q, q.weight) ∈ evs.map (fun e => (e.1, dr'.wei e.1)) := by
      rw [← hn]; exact List.mem_map.2 ⟨q, hq, rfl⟩
    obtain ⟨e, he, heq⟩ := List.mem_map.1 this
    rw [Prod.mk.injEq] at heq
    have hwei : q.weight = if l.curv = true then env.sqrtDetH (centre c) * p.invV0 else 1 := by
      rw [← heq.2, heq.1, hqc]
    have hv := (S.vol c hc).ne'
    have hp := S.ppc0.ne'
    have hV := S.V0.ne'
    have hvc : vol c = env.sqrtDetH (centre c) := rfl
    rw [hwei, S.curv, S.eqn0, hvc]
    rcases Bool.eq_false_or_eq_true cfg.cartesian with hcc | hcc
    · have := S.cart hcc c hc
      simp only [hcc, Bool.not_true, Bool.false_eq_true, if_false, mul_one]
      rw [mul_assoc, mul_comm p.invV0, this, mul_one]
    · simp only [hcc, Bool.not_false, if_true, one_mul]
      field_simp
  obtain ⟨k1, g1⟩ := side a1 b1 _ n1 r1.extends
  obtain ⟨k2, g2⟩ := side a2 b2 _ n2 r2.extends
  refine ⟨k1, k2, fun h => ?_, fun h => ?_, ?_⟩
  · apply cellCount_zero _ (hrnd c)
    rw [hppc c hc, if_neg (not_lt.2 h)]
  · have := cellCount_close (hppc0 c hc) (hrnd c)
    rw [hppc c hc, if_pos h] at this
    exact this
  · rw [g1, g2]; ring

/-- **C124** (part): if both species have mass one and the atmosphere is not assumed to be empty, every
cell with less than nine tenths of the target number density is brought to within one pair of the
target, and the other cells receive nothing.

Missing: species with other masses, see `C124_mass_counterexample`. -/
theorem C124_restores_partial
    (S : Setting mpi l exp cfg env co p nAct mq n0 range dr sps a1 a2 1 1)
    (recv : List Int → K) (hrecv : ∀ n, recv n = 0)
    (sched : Nat → List (Moments.Prtl K) → List (Moments.Prtl K)) (hs : ∀ i l, (sched i l).Perm l)
    (σ : List (Cell × Nat) → List (Cell × Nat)) (hσ : ∀ l, (σ l).Perm l) :
    ∃ b1 b2, particlesIn mpi l exp cfg env co p false (nAct.map (· + 2 * cfg.NG)) mq recv sched
        range dr σ sps = .ok ((sps.set (p.s1 - 1) b1).set (p.s2 - 1) b2) ∧
      ∀ c ∈ range, ∀ t, targetAt exp cfg.cartesian p (co.toPh (centre c)) = .ok t →
        let N := fun (x1 x2 : Sp K) =>
          density cfg.dim (!cfg.cartesian) 1 n0 (fun c => env.sqrtDetH (centre c)) x1 c +
            density cfg.dim (!cfg.cartesian) 1 n0 (fun c => env.sqrtDetH (centre c)) x2 c
        (9 / 10 * t ≤ N a1 a2 → N b1 b2 = N a1 a2) ∧
        (N a1 a2 < 9 / 10 * t → |N b1 b2 - t| < 2 / p.ppc0) := by
  obtain ⟨b1, b2, n, e, _, _, h⟩ := C124_pairs S false recv hrecv sched hs σ hσ
  refine ⟨b1, b2, e, fun c hc t ht => ?_⟩
  obtain ⟨k, t', ht', _, _, hz, hk, hd⟩ := h c hc
  have : t' = t := by rw [ht] at ht'; exact (Outcome.ok.inj ht').symm
  subst this
  simp only [seen, Bool.false_eq_true, if_false] at hz hk
  intro N
  have hN : N b1 b2 = N a1 a2 + k * (2 / p.ppc0) := hd
  refine ⟨fun hle => ?_, fun hlt => ?_⟩
  · rw [hN, hz hle]; simp
  · have h1 := hk hlt
    rw [hN]
    have hp := S.ppc0
    have h2 : N a1 a2 + k * (2 / p.ppc0) - t' = (k - p.ppc0 / 2 * (t' - N a1 a2)) * (2 / p.ppc0) := by
      field_simp; ring
    rw [h2, abs_mul, abs_of_pos (by positivity : 0 < 2 / p.ppc0)]
    have h3 : 0 < 2 / p.ppc0 := by positivity
    calc _ < 1 * (2 / p.ppc0) := by
          apply mul_lt_mul_of_pos_right _ h3
          exact h1
      _ = _ := one_mul _

end Floor

/-- **C124**: without smoothing nothing is deposited in ghost cells, so that the exchange of ghost cells
between subdomains has nothing to add. -/
theorem C124_no_ghosts {cfg : Moments.Cfg K} {env : Moments.Env K} {nAct : List Nat}
    (hdim : nAct.length = cfg.dim) (h1 : 1 ≤ cfg.dim) (h3 : cfg.dim ≤ 3)
    (hni : ∀ n, nAct[1]? = some n → n = cfg.ni2)
    (hbc : cfg.cartesian = false → 2 ≤ cfg.dim → 2 ≤ cfg.bcs.length)
    {sched : List (Moments.Prtl K) → List (Moments.Prtl K)} (hs : ∀ l, (sched l).Perm l)
    {mq : List (K × K)} {sps : List (Sp K)} {s : Nat} (hs0 : s ≠ 0) {a : Sp K}
    (ha : sps[s - 1]? = some a) {q : K × K} (hq : mq[s - 1]? = some q) (hm : q.1 ≠ 0)
    (hin : ∀ p ∈ a.st.used, p.tag = dead ∨
      List.Forall₂ (fun (i : Int) (n : Nat) => 0 ≤ i ∧ i < n) (cells cfg.dim p) nAct) (J : Cur K) :
    ∃ J', addSpecies (request cfg) env (nAct.map (· + 2 * cfg.NG)) sched mq sps J s = .ok J' ∧
      ∀ c n, ¬ List.Forall₂ (fun (i : Int) (N : Nat) => (cfg.NG : Int) ≤ i ∧ i < N + cfg.NG) n nAct →
        J' c n = J c n := by
  have hin' : ∀ p ∈ a.st.used, p.tag = dead ∨ InCells nAct (forMoments cfg.dim p).pos := by
    intro p hp
    refine (hin p hp).imp id fun h => ?_
    rw [← forMoments_pos h3 p, List.forall₂_map_left_iff] at h
    exact h
  obtain ⟨J', e, r⟩ := addSpecies_own (env := env) hdim (by omega) (by omega) hni hbc hs hs0 ha hq hm hin' J
  refine ⟨J', e, fun c n hn => ?_⟩
  rw [r, List.sum_eq_zero, add_zero]
  intro x hx
  obtain ⟨p', hp', rfl⟩ := List.mem_map.1 hx
  obtain ⟨p, hp, rfl⟩ := List.mem_map.1 hp'
  unfold addedAt
  split_ifs with hd hc
  · rfl
  · exfalso
    apply hn
    rw [← hc.2, List.forall₂_map_left_iff]
    refine ((hin' p hp).resolve_left hd).imp fun a n h => ?_
    omega
  · rfl

/-! ## Cases -/

/-- A species with room for `cap` particles and one live particle in each of the given cells. -/
def exAtmSp (cap : Nat) (at_ : List Int) : Sp ℚ :=
  { exSp cap with
    st := { arr := (at_.map fun i => { blank with tag := alive, i1 := i, weight := 1 })
              ++ ((exSp cap).st.arr.drop at_.length),
            npart := at_.length } }

/-- One dimension, cells of size one, surface at 0, layer of two cells, `ppc0 = 4`, `V0 = 1`. -/
def exAtm : Atm ℚ :=
  { axis := 0, plus := false, xsurf := 0, ds := 2, height := 1, nmax := 2, s1 := 1, s2 := 2, ppc0 := 4,
    invV0 := 1, prm := false }

/-- Two cells along one axis. -/
def exCfg : Moments.Cfg ℚ :=
  { NG := 2, nBuf := 6, dim := 1, cartesian := true, gr := false, kind := .Rho, comps := [], buffIdx := 0,
    useWeights := false, bcs := [], ni2 := 1, invN0 := 1 / 4, order := 0, smoothing := .spline }

/-- Metric with unit cells. -/
def exEnv : Moments.Env ℚ :=
  { sqrt := id, sqrtDetH := fun _ => 1, tetrad := fun p => p.u, contra0 := fun _ => 1,
    contra := fun p => p.u, toPU := fun _ v => v }

/-- A function that, like the exponential, lies between 0 and 1 at negative arguments. -/
def exExp (y : ℚ) : ℚ := 1 / (1 - y)

/-- The call on three cells, the third of which lies outside the layer; `m2` is the mass of the second
species and `a1`, `a2` the cells where the species have particles. -/
def exCall (m2 : ℚ) (a1 a2 : List Int) : Outcome (List (Sp ℚ)) :=
  particlesIn true exLoc exExp exCfg exEnv ⟨id, id⟩ exAtm false [7] [(1, -1), (m2, 1)] (fun _ => 0)
    (fun _ l => l) [[0], [1], [2]] exN id [exAtmSp 13 a1, exAtmSp 13 a2]

/-- Equal masses.  The targets are 4/3 and 4/5, the number densities 1/2 and 0: the call adds one or two
pairs (the deficit is 5/3 of a pair) and two pairs (8/5), none in the third cell. -/
example : exSee (fun q => q.i1) (exCall 1 [0] [0]) = [[0, 0, 1, 1], [0, 0, 1, 1]] := by
  decide +kernel

example : Setting true exLoc exExp exCfg exEnv ⟨id, id⟩ exAtm [3] [(1, -1), (1, 1)] 4 [[0], [1], [2]] exN
    [exAtmSp 13 [0], exAtmSp 13 [0]] (exAtmSp 13 [0]) (exAtmSp 13 [0]) 1 1 := by
  have hv : Valid true (exAtmSp 13 [0]) := by
    refine ⟨by decide, by simp [Room, exAtmSp, exSp], ?_, by decide +kernel, by decide +kernel⟩
    intro q hq
    simp only [exAtmSp, exSp, List.mem_append, List.mem_map, List.mem_singleton] at hq
    rcases hq with ⟨i, _, rfl⟩ | hq
    · rfl
    · have := List.mem_of_mem_drop hq
      rw [List.eq_of_mem_replicate this]; rfl
  have hu : (exAtmSp 13 [0]).st.used = [{ blank with tag := alive, i1 := 0, weight := 1 }] := rfl
  have hin : ∀ q ∈ (exAtmSp 13 [0]).st.used, q.tag = dead ∨
      (cells exCfg.dim q ∈ ([[0], [1], [2]] : List Cell) ∧ 0 ≤ q.weight) := by
    rw [hu]
    intro q hq
    rw [List.mem_singleton] at hq
    subst hq
    right
    exact ⟨by decide, by norm_num⟩
  refine ⟨rfl, by decide, by decide, by simp, by simp [exCfg], rfl, rfl, by decide, ?_, by decide, by decide,
    by decide, rfl, rfl, rfl, rfl, by norm_num, by norm_num, hv, hv, rfl, rfl, hin, hin, by decide +kernel,
    by decide +kernel, fun _ _ => rfl, ?_, ?_, by decide +kernel, by decide +kernel, by norm_num [exAtm],
    by norm_num [exCfg], by decide +kernel, by decide +kernel, by simp [exCfg], ?_, ?_⟩
  · intro c hc
    fin_cases hc <;> simp
  · intro c _; simp [exEnv]
  · intro _ c _; simp [exEnv, exAtm]
  · intro y hy
    unfold exExp
    exact ⟨by apply div_nonneg <;> linarith, (div_le_one (by linarith)).2 (by linarith)⟩
  · intro c
    simp only [exN]
    split_ifs <;> norm_num

/-- **C124** fails for species with other masses: the density compared with the target number density is
the mass density.  With masses 1 and 25 and the same particles as above the first cell, which holds
3/8 of the target number density, receives nothing. -/
theorem C124_mass_counterexample :
    exSee (fun q => q.i1) (exCall 25 [0] [0]) = [[0, 1, 1], [0, 1, 1]] ∧
    targetAt exExp true exAtm [1 / 2] = .ok (4 / 3) ∧
    density 1 false 1 4 (fun _ => 1) (exAtmSp 13 [0]) [0] + density 1 false 1 4 (fun _ => 1) (exAtmSp 13 [0]) [0]
      < 9 / 10 * (4 / 3 : ℚ) := by
  decide +kernel

/-- **C124** fails for a layer of thickness zero, which is the default of `grid.boundaries.atmosphere.ds`
and documented as "no limit": the target density is zero everywhere and nothing is ever injected. -/
theorem C124_ds_counterexample (exp : K → K) (cart plus : Bool) (nmax height xsurf x : K) :
    profile exp cart plus nmax height xsurf 0 x = .ok 0 := by
  unfold profile
  split_ifs with h1 h2 h3 h4 h5
  · rfl
  · push Not at h2; linarith [h2.1, h2.2]
  · push Not at h2; linarith [h2.1, h2.2]
  · rfl
  · push Not at h4; linarith [h4.1, h4.2]
  · push Not at h4; linarith [h4.1, h4.2]

end Entity.Atmosphere
