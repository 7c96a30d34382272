import Verif.Lemmas.DiagTime
import Mathlib.Analysis.SpecialFunctions.Exp
import Mathlib.Analysis.SpecialFunctions.Sqrt

/-!
# C152: durations and progress; C153: timers, numbers of particles, highlighted rows

`Spec.Shows` is in Verif/Spec/Diag.lean.
-/

namespace Entity.Diag
open Spec

section Field
variable {K : Type} [Field K] [LinearOrder K] [IsStrictOrderedRing K] [FloorRing K]

/-! ## C152 -/

/-- **C152 (durations).**  Any duration of less than 2³¹ hours is shown as a number of hours,
minutes, seconds, milliseconds or microseconds and a number of the next smaller unit, rounded
down: what is shown is at most the duration and less than one smaller unit below it. -/
theorem C152_duration (t : K) (h0 : 0 ≤ t) (h : t < 2 ^ 31 * (60 * 60 * 1000000)) :
    ∃ text, toHuman t "µs" = .ok text ∧ Shows t text :=
  toHuman_shows h0 h

example : toHuman (3723500000 : ℚ) "µs" = .ok "1hr 2min" := by decide +kernel
example : toHuman (61999999 : ℚ) "µs" = .ok "1min 1s" := by decide +kernel
example : toHuman (999 : ℚ) "µs" = .ok "999µs 0µs" := by decide +kernel

/-- **C152 (durations of timers).**  The number and the unit in the table of timers give the duration
in microseconds, exactly up to the printed digits. -/
theorem C152_convert (t : K) :
    ∃ size : K, ((convertTime t "µs").2, size) ∈
        [("ns", 1 / 1000), ("µs", 1), ("ms", 1000), (" s", 1000000)] ∧
      (convertTime t "µs").1 * size = t := by
  unfold convertTime
  split
  · exact ⟨1000000, by simp, by norm_num⟩
  split
  · exact ⟨1000, by simp, by norm_num⟩
  split
  · exact ⟨1 / 1000, by simp, by norm_num; ring⟩
  · exact ⟨1, by simp, by simp⟩

example : convertTime (2500 : ℚ) "µs" = (5 / 2, "ms") := by decide +kernel

/-- **C152 (average over the last steps).**  The history is created with room for `cap` steps at the
time `c` and `tick` is called at the times `early`, then `recent` (nanoseconds of a clock that does
not go back), where `recent` are the last `cap` calls, or all of them if they are fewer.  Then
the average is the time taken by the recent steps over their number, rounded down by less than a
microsecond. -/
theorem C152_average (cap : Nat) (c : Int) (early recent : List Int)
    (hmono : (c :: (early ++ recent)).Pairwise (· ≤ ·)) (hne : recent ≠ [])
    (hrecent : recent.length = cap ∨ early = [] ∧ recent.length ≤ cap) :
    ∃ h : History, (History.new cap c).ticks (early ++ recent) = .ok h ∧
      (h.average : K) ≤
        ((recent.getLastD c - early.getLastD c : Int) : K) / 1000 / (recent.length : K) ∧
      ((recent.getLastD c - early.getLastD c : Int) : K) / 1000 / (recent.length : K) <
        (h.average : K) + 1 := by
  have hlen : 0 < recent.length := List.length_pos_iff.mpr hne
  have hcap : 0 < cap := by rcases hrecent with h | h <;> omega
  have ht := ticks_ok (early ++ recent) (History.new cap c) hcap (by simp [History.new])
  refine ⟨_, ht, ?_⟩
  have hd : ((History.new cap c).durations ++
        (gaps (History.new cap c).prevStart (early ++ recent)).map (Int.tdiv · 1000)).drop
        ((History.new cap c).durations.length + (early ++ recent).length -
          (History.new cap c).capacity) =
      (gaps (early.getLastD c) recent).map (Int.tdiv · 1000) := by
    simp only [History.new, List.nil_append, List.length_nil, zero_add, gaps_append, List.map_append,
      List.length_append]
    rcases hrecent with h | ⟨rfl, h⟩
    · rw [h, Nat.add_sub_cancel, List.drop_left' (by simp [gaps_length])]
    · simp only [List.length_nil, zero_add, gaps, List.map_nil, List.nil_append]
      rw [Nat.sub_eq_zero_of_le h, List.drop_zero]
  have hnn : ∀ d ∈ gaps (early.getLastD c) recent, 0 ≤ d := by
    intro d hd
    refine gaps_nonneg hmono d ?_
    rw [gaps_append]; exact List.mem_append_right _ hd
  have hgne : gaps (early.getLastD c) recent ≠ [] := by
    intro h
    have := congrArg List.length h
    rw [gaps_length] at this; simp at this; exact hne this
  obtain ⟨b1, b2⟩ := tdiv_sum hnn hgne
  have hlast : recent.getLastD (early.getLastD c) = recent.getLastD c := by
    cases recent with
    | nil => exact absurd rfl hne
    | cons x xs => simp only [List.getLastD_cons]
  rw [gaps_sum, hlast, gaps_length] at b2
  rw [gaps_sum, hlast] at b1
  have hav : History.average (K := K) { (History.new cap c) with
      durations := (gaps (early.getLastD c) recent).map (Int.tdiv · 1000)
      prevStart := (early ++ recent).getLastD (History.new cap c).prevStart } =
      ((((gaps (early.getLastD c) recent).map (Int.tdiv · 1000)).sum : Int) : K) /
        (recent.length : K) := by
    rw [History.average, if_neg (by simpa using hgne), foldl_cast, zero_add]
    simp [gaps_length]
  rw [hd, hav]
  set S := ((gaps (early.getLastD c) recent).map (Int.tdiv · 1000)).sum
  set D := recent.getLastD c - early.getLastD c
  have hlK : (0 : K) < (recent.length : K) := by exact_mod_cast hlen
  have c1 : (1000 : K) * (S : K) ≤ (D : K) := by exact_mod_cast b1
  have c2 : (D : K) < 1000 * (S : K) + 1000 * (recent.length : K) := by exact_mod_cast b2
  constructor
  · rw [div_le_div_iff_of_pos_right hlK]; linarith
  · rw [div_lt_iff₀ hlK, add_mul, div_mul_cancel₀ _ hlK.ne']; linarith

example : (History.new 2 0).ticks [1000000, 3000000, 4000000] =
    .ok ⟨2, [2000, 1000], 0, 4000000⟩ := by decide +kernel
example : (History.average (K := ℚ) ⟨2, [2000, 1000], 0, 4000000⟩) = 1500 := by decide +kernel

/-- **C152 (progress).**  With `step` of `maxSteps` steps reported and the averages of the ranks,
the report shows the longest average, the time elapsed, the longest average times the number
of steps from `step` to the end, a bar of 70 characters filled in proportion and the percentage. -/
theorem C152_progress (avgs : List K) (elapsed : K) (step maxSteps : Nat)
    (hstep : step < maxSteps) (hmax : maxSteps < 2 ^ 32) (hne : avgs ≠ [])
    (havg : ∀ a ∈ avgs, 0 ≤ a ∧ (maxSteps : K) * a < 2 ^ 31 * (60 * 60 * 1000000))
    (h0 : 0 ≤ elapsed) (helapsed : elapsed < 2 ^ 31 * (60 * 60 * 1000000)) :
    ∃ (p : Progress K) (avg : K), progressBar avgs elapsed step maxSteps = .ok p ∧
      avg ∈ avgs ∧ (∀ a ∈ avgs, a ≤ avg) ∧
      Shows avg p.avg ∧ Shows elapsed p.elapsed ∧
      Shows (((maxSteps : K) - (step : K)) * avg) p.remain ∧
      p.percent = 100 * (step : K) / (maxSteps : K) ∧
      p.filled + p.empty = 70 ∧
      p.filled * maxSteps ≤ 70 * step ∧ 70 * step < (p.filled + 1) * maxSteps := by
  obtain ⟨m1, m2, m3⟩ := foldl_max_spec avgs (0 : K)
  set avg := avgs.foldl max 0 with havgdef
  have hmem : avg ∈ avgs := by
    rcases m3 with h | h
    · obtain ⟨x, hx⟩ := List.exists_mem_of_ne_nil avgs hne
      have : x = avg := le_antisymm (m2 x hx) (by rw [h]; exact (havg x hx).1)
      rw [← this]; exact hx
    · exact h
  have hM1 : (1 : K) ≤ (maxSteps : K) := by exact_mod_cast (by omega : 1 ≤ maxSteps)
  have hM0 : (0 : K) < (maxSteps : K) := by linarith
  have hS0 : (0 : K) ≤ (step : K) := by positivity
  have hSM : (step : K) < (maxSteps : K) := by exact_mod_cast hstep
  obtain ⟨ha0, haB⟩ := havg avg hmem
  have hsub : (maxSteps + 2 ^ 32 - step) % 2 ^ 32 = maxSteps - step := by omega
  have hcast : ((maxSteps - step : Nat) : K) = (maxSteps : K) - (step : K) :=
    Nat.cast_sub hstep.le
  obtain ⟨ta, hta, hsa⟩ := toHuman_shows ha0 (lt_of_le_of_lt (by nlinarith) haB)
  obtain ⟨te, hte, hse⟩ := toHuman_shows h0 helapsed
  obtain ⟨tr, htr, hsr⟩ := toHuman_shows (t := ((maxSteps : K) - (step : K)) * avg)
    (mul_nonneg (by linarith) ha0) (lt_of_le_of_lt (by nlinarith) haB)
  have hq0 : (0 : K) ≤ (step : K) / (maxSteps : K) * (barWidth : K) := by positivity
  have hq : (step : K) / (maxSteps : K) * (barWidth : K) < 2 ^ 31 := by
    have : (step : K) / (maxSteps : K) < 1 := by rw [div_lt_one hM0]; exact hSM
    have hb : (barWidth : K) = 70 := by norm_num [barWidth]
    rw [hb]; norm_num; linarith
  obtain ⟨n, hn, hn1, hn2⟩ := toInt_ok hq0 hq
  have hb : (barWidth : K) = 70 := by norm_num [barWidth]
  have hnle : n * maxSteps ≤ 70 * step := by
    rw [hb, div_mul_eq_mul_div, le_div_iff₀ hM0] at hn1
    have : ((n * maxSteps : Nat) : K) ≤ ((70 * step : Nat) : K) := by push_cast; linarith
    exact_mod_cast this
  have hnlt : 70 * step < (n + 1) * maxSteps := by
    rw [hb, div_mul_eq_mul_div, div_lt_iff₀ hM0] at hn2
    have : ((70 * step : Nat) : K) < (((n + 1) * maxSteps : Nat) : K) := by push_cast; linarith
    exact_mod_cast this
  have hn70 : n ≤ 70 := by
    by_contra hc
    have : 71 * maxSteps ≤ n * maxSteps := Nat.mul_le_mul_right _ (by omega)
    omega
  refine ⟨⟨ta, tr, te, n, 70 - n, (step : K) / (maxSteps : K) * 100⟩, avg, ?_, hmem, m2, hsa, hse,
    hsr, ?_, ?_, hnle, hnlt⟩
  · simp only [progressBar]
    rw [← havgdef, hta]
    simp only [Outcome.bind_ok]
    rw [hte]
    simp only [Outcome.bind_ok]
    rw [hsub, hcast, htr]
    simp only [Outcome.bind_ok]
    rw [if_neg (by omega)]
    simp only [Outcome.bind_ok, Outcome.pure_eq]
    rw [hn]
    simp only [Outcome.bind_ok, Int.toNat_natCast]
    rw [show min n barWidth = n from Nat.min_eq_left hn70]
    rfl
  · simp only; ring
  · simp only; omega

example : (match progressBar [(1500 : ℚ), 2000] 90000000 49 100 with
    | .ok p => decide (p.avg = "2ms 0µs" ∧ p.remain = "102ms 0µs" ∧ p.elapsed = "1min 30s" ∧
        p.filled = 34 ∧ p.percent = 49)
    | _ => false) = true := by decide +kernel

/-! ## C153 -/

omit [LinearOrder K] [IsStrictOrderedRing K] [FloorRing K] in
theorem ite_swap (m : Nat) (x : K) : (if m > 0 then x else 0) = if m = 0 then 0 else x := by
  rcases m with _ | m <;> simp

/-- **C153 (timers, one process).**  Timers not negative, of which some that count was running, cells
on the grid, and no timer more than 655 times the total.  Every row shows the reading of its
timer, the time per particle and per cell, and the percentage of the total rounded down; the
total is the sum of the timers except those to be ignored. -/
theorem C153_timers_partial (names ignore : List String) (r : RankTimes K)
    (hnn : ∀ n ∈ names, 0 ≤ r.time n) (hcells : 0 < r.ncells)
    (tot : K) (htot : tot = ((names.filter (fun n => !ignore.contains n)).map r.time).sum)
    (hpos : 0 < tot) (hbound : ∀ n ∈ names, r.time n * 100 < tot * 2 ^ 16) :
    ∃ percent : String → Nat,
      gatherLocal names ignore r = .ok (names.map fun n =>
        (n, ⟨r.time n, if r.npart = 0 then 0 else r.time n / (r.npart : K),
          r.time n / (r.ncells : K), percent n⟩)) ∧
      gatherTotal names ignore r [] = tot ∧
      ∀ n ∈ names, (percent n : K) * tot ≤ 100 * r.time n ∧
        100 * r.time n < ((percent n : K) + 1) * tot := by
  have ht : total names ignore r = tot := by rw [total_eq, htot]
  have hp : ∀ n, ∃ p : Nat, n ∈ names → timePercent (r.time n) tot = .ok p ∧
      (p : K) * tot ≤ 100 * r.time n ∧ 100 * r.time n < ((p : K) + 1) * tot := by
    intro n
    by_cases hn : n ∈ names
    · obtain ⟨p, h⟩ := timePercent_ok (hnn n hn) hpos (hbound n hn)
      exact ⟨p, fun _ => h⟩
    · exact ⟨0, fun h => absurd h hn⟩
  choose percent hpercent using hp
  refine ⟨percent, ?_, by simp [gatherTotal, ht], fun n hn => (hpercent n hn).2⟩
  rw [gatherLocal]
  apply mapM_ok
  intro n hn
  rw [ht, (hpercent n hn).1]
  simp only [Outcome.bind_ok]
  rw [if_neg (by omega)]
  simp only [Outcome.pure_eq, Outcome.bind_ok, ite_swap]

/-- **C153 (timers, several processes).**  Every row belongs to a rank on which the timer is largest: it
shows the reading there, divided by the particles and the cells of that rank, and the
percentage of the total of that rank.  The total shown is the largest of the ranks. -/
theorem C153_timers_mpi_partial (names ignore : List String) (first : RankTimes K)
    (others : List (RankTimes K))
    (hnn : ∀ r ∈ first :: others, ∀ n ∈ names, 0 ≤ r.time n)
    (tot : RankTimes K → K)
    (htot : ∀ r, tot r = ((names.filter (fun n => !ignore.contains n)).map r.time).sum)
    (hpos : ∀ r ∈ first :: others, 0 < tot r)
    (hbound : ∀ r ∈ first :: others, ∀ n ∈ names, r.time n * 100 < tot r * 2 ^ 16) :
    ∃ (slowest : String → RankTimes K) (percent : String → Nat),
      gatherMPI names ignore first others = .ok (names.map fun n =>
        (n, ⟨(slowest n).time n,
          if (slowest n).npart = 0 then 0 else (slowest n).time n / ((slowest n).npart : K),
          if (slowest n).ncells = 0 then 0 else (slowest n).time n / ((slowest n).ncells : K),
          percent n⟩)) ∧
      (∀ n ∈ names, slowest n ∈ first :: others ∧
        (∀ r ∈ first :: others, r.time n ≤ (slowest n).time n) ∧
        (percent n : K) * tot (slowest n) ≤ 100 * (slowest n).time n ∧
        100 * (slowest n).time n < ((percent n : K) + 1) * tot (slowest n)) ∧
      (∃ r ∈ first :: others, gatherTotal names ignore first others = tot r) ∧
      ∀ r ∈ first :: others, tot r ≤ gatherTotal names ignore first others := by
  have ht : total names ignore = tot := by funext r; rw [total_eq, htot]
  let slowest : String → RankTimes K := fun n =>
    (first :: others).getD (maxIdx (fun a b => decide (a < b))
      ((first :: others).map (fun r => r.time n))) first
  have hsl : ∀ n, slowest n ∈ first :: others ∧
      ∀ r ∈ first :: others, r.time n ≤ (slowest n).time n := by
    intro n
    obtain ⟨w, hw, hmax⟩ := maxIdx_max ((first :: others).map (fun r => r.time n)) (by simp)
    rw [List.getElem?_map, Option.map_eq_some_iff] at hw
    obtain ⟨r0, hr0, rfl⟩ := hw
    have e : slowest n = r0 := by
      simp only [slowest, List.getD_eq_getElem?_getD]
      simp only [List.map_cons] at hr0 ⊢
      rw [hr0]; rfl
    rw [e]
    refine ⟨List.mem_of_getElem? hr0, fun r hr => hmax _ (List.mem_map.mpr ⟨r, hr, rfl⟩)⟩
  have hp : ∀ n, ∃ p : Nat, n ∈ names → timePercent ((slowest n).time n) (tot (slowest n)) = .ok p ∧
      (p : K) * tot (slowest n) ≤ 100 * (slowest n).time n ∧
      100 * (slowest n).time n < ((p : K) + 1) * tot (slowest n) := by
    intro n
    by_cases hn : n ∈ names
    · obtain ⟨p, h⟩ := timePercent_ok (hnn _ (hsl n).1 n hn) (hpos _ (hsl n).1)
        (hbound _ (hsl n).1 n hn)
      exact ⟨p, fun _ => h⟩
    · exact ⟨0, fun h => absurd h hn⟩
  choose percent hpercent using hp
  refine ⟨slowest, percent, ?_, fun n hn => ⟨(hsl n).1, (hsl n).2, (hpercent n hn).2⟩, ?_, ?_⟩
  · rw [gatherMPI]
    apply mapM_ok
    intro n hn
    have := (hpercent n hn).1
    simp only [slowest] at this ⊢
    rw [ht, this]
    simp only [Outcome.bind_ok, Outcome.pure_eq, ite_swap]
  · obtain ⟨_, _, h3⟩ := foldl_max_spec (others.map tot) (tot first)
    rw [gatherTotal, ht]
    rcases h3 with h | h
    · exact ⟨first, by simp, h⟩
    · obtain ⟨r, hr, he⟩ := List.mem_map.1 h
      exact ⟨r, by simp [hr], he.symm⟩
  · obtain ⟨h1, h2, _⟩ := foldl_max_spec (others.map tot) (tot first)
    rw [gatherTotal, ht]
    intro r hr
    rcases List.mem_cons.1 hr with rfl | hr
    · exact h1
    · exact h2 _ (List.mem_map.mpr ⟨r, hr, rfl⟩)

/-- Two ranks with two timers, one of them ignored in the total. -/
def exRanks : RankTimes ℚ × RankTimes ℚ :=
  (⟨fun n => if n = "Output" then 500 else 40, 10, 64⟩,
   ⟨fun n => if n = "Output" then 300 else 50, 0, 64⟩)

example : gatherMPI ["Output", "ParticlePusher"] extras exRanks.1 [exRanks.2] =
    .ok [("Output", ⟨500, 50, 500 / 64, 1250⟩), ("ParticlePusher", ⟨50, 0, 50 / 64, 100⟩)] := by
  decide +kernel

/-- **C153 (a long output).**  A step of 10 ms followed by an output of 10 s: the percentage of the
output does not fit in `unsigned short`, its cast is undefined behaviour. -/
theorem C153_timers_counterexample :
    gatherLocal (K := ℚ) ["FieldSolver", "Output"] extras
      ⟨fun n => if n = "Output" then 10000000 else 10000, 1000, 1000⟩ = .ub := by decide +kernel

end Field

/-- **C153 (numbers of particles).**  With less than 2³² particles in total and not more than allocated on
any rank: the report shows the sum over the ranks, the smallest and the largest number, and for
both the percentage of the room allocated on a rank with that number. -/
theorem C153_particles_partial (ranks : List (Nat × Nat)) (hne : ranks ≠ [])
    (hr : ∀ r ∈ ranks, 0 < r.2 ∧ r.1 ≤ r.2) (hsum : (ranks.map Prod.fst).sum < 2 ^ 32) :
    ∃ lo hi : Nat × Nat, lo ∈ ranks ∧ hi ∈ ranks ∧ (∀ r ∈ ranks, lo.1 ≤ r.1 ∧ r.1 ≤ hi.1) ∧
      npartStatsMPI (ranks.map Prod.fst) (ranks.map Prod.snd) =
        .ok [((ranks.map Prod.fst).sum, 0), (lo.1, 100 * lo.1 / lo.2),
          (hi.1, 100 * hi.1 / hi.2)] := by
  have htot : (ranks.map Prod.fst).foldl (fun a b => (a + b) % 2 ^ 32) 0 =
      (ranks.map Prod.fst).sum := by
    have : ∀ (l : List Nat) (a : Nat), a + l.sum < 2 ^ 32 →
        l.foldl (fun a b => (a + b) % 2 ^ 32) a = a + l.sum := by
      intro l
      induction l with
      | nil => intro a _; simp
      | cons x l ih =>
        intro a ha
        simp only [List.sum_cons] at ha
        rw [List.foldl_cons, Nat.mod_eq_of_lt (by omega), ih _ (by omega), List.sum_cons]
        omega
    rw [this _ _ (by omega), zero_add]
  have pct : ∀ r ∈ ranks, percentage r.1 r.2 = .ok (100 * r.1 / r.2) := by
    intro r hr'
    obtain ⟨h0, h⟩ := hr r hr'
    have : 100 * r.1 / r.2 ≤ 100 := by
      apply Nat.div_le_of_le_mul; rw [Nat.mul_comm r.2]; exact Nat.mul_le_mul_left _ h
    rw [percentage, if_neg (by omega), if_pos (by omega)]
  have hne' : ranks.map Prod.fst ≠ [] := by simpa using hne
  obtain ⟨w, hw, hmax⟩ := maxIdx_max (ranks.map Prod.fst) hne'
  obtain ⟨v, hv, hmin⟩ := maxIdx_min (ranks.map Prod.fst) hne'
  rw [List.getElem?_map, Option.map_eq_some_iff] at hw hv
  obtain ⟨hi, hhi, rfl⟩ := hw
  obtain ⟨lo, hlo, rfl⟩ := hv
  refine ⟨lo, hi, List.mem_of_getElem? hlo, List.mem_of_getElem? hhi, ?_, ?_⟩
  · intro r hr'
    exact ⟨hmin _ (List.mem_map.mpr ⟨r, hr', rfl⟩), hmax _ (List.mem_map.mpr ⟨r, hr', rfl⟩)⟩
  · unfold npartStatsMPI
    simp only [List.getD_eq_getElem?_getD, List.getElem?_map, hhi, hlo, Option.map_some,
      Option.getD_some]
    rw [htot, pct lo (List.mem_of_getElem? hlo), pct hi (List.mem_of_getElem? hhi)]
    rfl

example : npartStatsMPI [300, 100, 200] [1000, 500, 500] =
    .ok [(600, 0), (100, 20), (300, 30)] := by decide +kernel

/-- **C153 (more than 2³² particles).**  Two ranks with 3·10⁹ particles each: the total shown is not
the sum. -/
theorem C153_particles_counterexample :
    npartStatsMPI [3000000000, 3000000000] [4000000000, 4000000000] =
      .ok [(1705032704, 0), (3000000000, 75), (3000000000, 75)] := by decide +kernel

/-- **C153 (variation between ranks).**  Any number of ranks, all of them exactly as slow as the others,
with at least a millisecond: the variation shown is 99 % or 100 %. -/
theorem C153_variation_counterexample (n : Nat) (hn : 0 < n) (T eps : ℝ) (hT : 1000 ≤ T)
    (heps : eps < 1) :
    ∃ p, imbalance Real.sqrt Real.exp eps (List.replicate n T) = .ok p ∧ 99 ≤ p ∧ p ≤ 100 := by
  have hnR : (0 : ℝ) < (n : ℝ) := by exact_mod_cast hn
  have hsum : (List.replicate n T).foldl (· + ·) 0 = n * T := by
    have : ∀ (m : Nat) (a : ℝ), (List.replicate m T).foldl (· + ·) a = a + m * T := by
      intro m
      induction m with
      | zero => intro a; simp
      | succ m ih => intro a; rw [List.replicate_succ, List.foldl_cons, ih]; push_cast; ring
    rw [this, zero_add]
  have hsq : (List.replicate n T).foldl (fun a v => a + v * v) 0 = n * (T * T) := by
    have : ∀ (m : Nat) (a : ℝ), (List.replicate m T).foldl (fun a v => a + v * v) a =
        a + m * (T * T) := by
      intro m
      induction m with
      | zero => intro a; simp
      | succ m ih => intro a; rw [List.replicate_succ, List.foldl_cons, ih]; push_cast; ring
    rw [this, zero_add]
  have hmean : (n : ℝ) * T / n = T := by field_simp
  have harg : (n : ℝ) * (T * T) / n / T - 1 = T - 1 := by
    have : T ≠ 0 := by linarith
    field_simp
  have h1 : (1 : ℝ) ≤ n := by exact_mod_cast hn
  have hz : ¬ (|(n : ℝ) * (T * T)| ≤ eps ∨ |T| ≤ eps) := by
    rintro (h | h)
    · have := le_abs_self ((n : ℝ) * (T * T)); nlinarith
    · have := le_abs_self T; linarith
  have hs : 31 ≤ Real.sqrt (T - 1) := by
    apply Real.le_sqrt_of_sq_le; linarith
  have hexp : Real.exp (-(Real.sqrt (T - 1))) ≤ 1 / 99 := by
    have h2 : Real.exp (-(Real.sqrt (T - 1))) ≤ Real.exp (-31) := Real.exp_le_exp.mpr (by linarith)
    have h3 : (99 : ℝ) ≤ Real.exp 31 := by
      have := Real.quadratic_le_exp_of_nonneg (x := 31) (by norm_num)
      linarith
    have h4 : Real.exp (-31) ≤ 1 / 99 := by
      rw [Real.exp_neg, ← one_div]
      exact one_div_le_one_div_of_le (by norm_num) h3
    linarith
  have hpos := Real.exp_pos (-(Real.sqrt (T - 1)))
  set e := Real.exp (-(Real.sqrt (T - 1))) with he
  have hlo : (99 : ℝ) ≤ 100 / (1 + e) := by rw [le_div_iff₀ (by linarith)]; linarith
  have hhi : 100 / (1 + e) ≤ 100 := by rw [div_le_iff₀ (by linarith)]; linarith
  refine ⟨⌊100 / (1 + e)⌋.toNat, ?_, ?_, ?_⟩
  · unfold imbalance
    rw [if_neg (by simp; omega)]
    simp only [List.length_replicate]
    rw [hsum, hsq, hmean, if_neg hz, harg, if_neg (by linarith)]
  · have : (99 : ℤ) ≤ ⌊100 / (1 + e)⌋ := Int.le_floor.mpr (by exact_mod_cast hlo)
    omega
  · have : ⌊100 / (1 + e)⌋ ≤ (100 : ℤ) := by
      have := Int.floor_le (100 / (1 + e))
      have h' : ((⌊100 / (1 + e)⌋ : ℤ) : ℝ) ≤ ((100 : ℤ) : ℝ) := by push_cast; linarith
      exact_mod_cast h'
    omega

/-- **C153 (highlighted rows).**  The rows of the extra timers are highlighted exactly for what the
flags of the report say. -/
theorem C153_highlight (clear output checkpoint : Bool) :
    extraRows (timerFlags clear output checkpoint) =
      [("ParticleSort", clear), ("Output", output), ("Checkpoint", checkpoint)] := by
  cases clear <;> cases output <;> cases checkpoint <;> decide

/-- **C153 (output is never highlighted).**  In a pass of the main loop that wrote output, statistics and a
checkpoint, the checkpoint is highlighted and the output is not. -/
theorem C153_highlight_counterexample (clearInterval step : Nat) :
    ∃ b, (fun f : Bool × Bool × Bool => extraRows (timerFlags f.1 f.2.1 f.2.2))
      (loopFlags clearInterval step true true true) =
        [("ParticleSort", b), ("Output", false), ("Checkpoint", true)] :=
  ⟨_, C153_highlight _ false true⟩

end Entity.Diag
