import Verif.Lemmas.Clock

/-!
# C164: number of steps, time and outputs by time in floating-point numbers
-/

namespace Entity.Clock

open Entity Entity.Float Entity.Startup

/-- **C164, number of steps.** The number of steps is the quotient of runtime and time step rounded down, up
to one rounding error: the run does not go on beyond the runtime, and one more step would reach it, up to the
factor `1 ± 2 ^ -p`. -/
theorem C164_number {F : Fmt} {runtime dt : ℚ} {n : Nat} (hd : 0 < dt)
    (hr : 2 ^ (F.emin + F.p) ≤ runtime / dt) (h : maxSteps F runtime dt = .ok n) :
    n * dt ≤ (1 + 2 ^ (-(F.p : Int))) * runtime ∧ (1 - 2 ^ (-(F.p : Int))) * runtime < (n + 1) * dt := by
  have q0 : 0 < runtime / dt := lt_of_lt_of_le (two_zpow_pos _) hr
  have e := round_err_rel F (x := runtime / dt) (A := runtime / dt) (by rw [abs_of_pos q0]) hr
  unfold maxSteps at h
  rw [if_neg hd.ne'] at h
  split at h
  · cases h
  rename_i hb
  rw [not_or, not_le, not_le] at hb
  injection h with h
  have hrun : runtime = runtime / dt * dt := by field_simp
  generalize runtime / dt = q at *
  rw [abs_le] at e
  have f1 := Int.floor_le (F.round q)
  have f2 := Int.lt_floor_add_one (F.round q)
  have hq : 0 ≤ F.round q := by
    unfold Fmt.round
    refine mul_nonneg ?_ (two_zpow_pos _).le
    have h1 := nearestEven_err (q / 2 ^ F.quantum q)
    have h2 : 0 < q / 2 ^ F.quantum q := div_pos q0 (two_zpow_pos _)
    rw [abs_le] at h1
    have h3 : (-1 : ℚ) < (nearestEven (q / 2 ^ F.quantum q) : ℚ) := by linarith [h1.1]
    have h4 : (-1 : ℤ) < nearestEven (q / 2 ^ F.quantum q) := by exact_mod_cast h3
    exact_mod_cast (by omega : (0 : ℤ) ≤ nearestEven (q / 2 ^ F.quantum q))
  have hf : 0 ≤ ⌊F.round q⌋ := Int.floor_nonneg.2 hq
  have hn : (n : ℚ) = (⌊F.round q⌋ : ℚ) := by
    rw [← h]
    exact_mod_cast Int.toNat_of_nonneg hf
  rw [hn, hrun]
  constructor
  · have : (⌊F.round q⌋ : ℚ) * dt ≤ ((1 + 2 ^ (-(F.p : Int))) * q) * dt :=
      mul_le_mul_of_nonneg_right (by linarith [e.2]) hd.le
    linarith
  · have : ((1 - 2 ^ (-(F.p : Int))) * q) * dt < ((⌊F.round q⌋ : ℚ) + 1) * dt :=
      mul_lt_mul_of_pos_right (by linarith [e.1]) hd
    linarith

/-- **C164, number of steps.** A runtime that is exactly `N` time steps gives `N` steps. -/
theorem C164_number_exact {F : Fmt} (hF : F.Ok) {dt : ℚ} (hd : 0 < dt) {N : Nat} (h1 : N ≤ 2 ^ F.p)
    (h2 : N < 4294967296) : maxSteps F (N * dt) dt = .ok N := by
  unfold maxSteps
  have e : (N : ℚ) * dt / dt = N := by field_simp
  have r : F.round (N : ℚ) = N := by
    have := round_rep hF (rep_int hF (n := (N : Int)) (by
      rw [abs_of_nonneg (by omega)]; exact_mod_cast h1))
    simpa using this
  rw [if_neg hd.ne', e, r, if_neg]
  · simp
  · rw [not_or, not_le, not_le]
    constructor
    · have : (0 : ℚ) ≤ N := by positivity
      linarith
    · exact_mod_cast h2

/-- **C164 fails for decimal inputs:** a runtime of 0.3 with a time step of 0.1, both rounded to `double`, gives
two steps: the run ends a whole step early. -/
theorem C164_counterexample_number : maxSteps b64 (b64.round (3 / 10)) (b64.round (1 / 10)) = .ok 2 := by
  decide +kernel

/-- **C164, time.** After `k` of the `n` steps of a run to the time `T` the clock shows `t0 + k dt` up to
`2 k` rounding errors of `T`, and every step advances it by `dt` up to two rounding errors. -/
theorem C164_time {F : Fmt} {t0 dt T : ℚ} {n : Nat} (h : Run F t0 dt n T) :
    (∀ k ≤ n, |time F t0 dt k - (t0 + k * dt)| ≤ 2 * k * (2 ^ (-(F.p : Int)) * T)) ∧
    ∀ k < n, |time F t0 dt (k + 1) - time F t0 dt k - dt| ≤ 2 * (2 ^ (-(F.p : Int)) * T) := by
  refine ⟨fun k hk => time_err h hk, fun k hk => ?_⟩
  have r := time_step h hk
  rwa [show time F t0 dt (k + 1) - time F t0 dt k - dt = time F t0 dt (k + 1) - (time F t0 dt k + dt) by ring]

/-- Example: a million steps in `double` up to the time 1000 (the error is at most 3e-7). -/
example : Run b64 0 (b64.round (1 / 1000)) 1000000 1001 := by
  have hr : b64.round (1 / 1000) ≤ 1001 / 1000000 ∧ 0 < b64.round (1 / 1000) := by decide +kernel
  refine ⟨wide_b64, le_rfl, hr.2, ?_, ?_, ?_⟩
  · have := hr.1
    push_cast
    linarith
  · norm_num [b64]
  · refine le_trans (zpow_mono (b := 0) (by decide)) ?_
    norm_num

/-- **C164, outputs by time.** Successive outputs of a schedule by simulation time are separated by the interval,
rounded up to steps, up to `4 n + 6` rounding errors of the final time. -/
theorem C164_outputs {F : Fmt} {t0 dt T interval : ℚ} {n : Nat} (h : Run F t0 dt n T) (hdt : F.Rep dt)
    (hi : 0 < interval) (last : ℚ) :
    List.IsChain (Gap dt interval ((4 * n + 6) * (2 ^ (-(F.p : Int)) * T)))
      (writes F t0 dt interval last 0 n) :=
  writes_chain h hdt hi _ last 0 n (by omega) rfl

/-- **C164, outputs every `m` steps.** If the interval is exactly `m` time steps and the rounding errors of the
run are less than a step, successive outputs are `m` or `m + 1` steps apart.
Missing: always `m` (`C164_counterexample_outputs`). -/
theorem C164_outputs_partial {F : Fmt} {t0 dt T : ℚ} {n m : Nat} (h : Run F t0 dt n T) (hdt : F.Rep dt)
    (hm : 0 < m) (hE : (4 * n + 6) * (2 ^ (-(F.p : Int)) * T) < dt) (last : ℚ) :
    List.IsChain (fun i j => j = i + m ∨ j = i + m + 1) (writes F t0 dt (m * dt) last 0 n) := by
  have d0 := h.pos
  have m0 : (0 : ℚ) < m := by exact_mod_cast hm
  refine (C164_outputs h hdt (interval := m * dt) (by positivity) last).imp ?_
  intro i j g
  obtain ⟨a, b, c⟩ := g
  have k1 : ((m : ℚ) - 1) * dt < ((j - i : ℕ) : ℚ) * dt := by linarith
  have k2 : ((j - i : ℕ) : ℚ) * dt < (m + 2) * dt := by linarith
  have l1 : ((m : ℚ) - 1) < ((j - i : ℕ) : ℚ) := lt_of_mul_lt_mul_right k1 d0.le
  have l2 : ((j - i : ℕ) : ℚ) < ((m + 2 : ℕ) : ℚ) := by
    push_cast
    exact lt_of_mul_lt_mul_right k2 d0.le
  have l2' : j - i < m + 2 := by exact_mod_cast l2
  have l1' : (m : ℚ) < ((j - i + 1 : ℕ) : ℚ) := by push_cast; linarith
  have l1'' : m < j - i + 1 := by exact_mod_cast l1'
  omega

/-- **C164 fails for outputs:** outputs every 1.0 with a time step of 0.1 in `double` (ten steps reach the
interval and nine do not): the outputs of the first 120 steps are ten and eleven steps apart, from step 41 on
always eleven, so that they lag behind the schedule more and more. -/
theorem C164_counterexample_outputs :
    let dt := b64.round (1 / 10)
    9 * dt < 1 ∧ 1 ≤ 10 * dt ∧
    writes b64 0 dt 1 (-1) 0 120 = [0, 11, 21, 31, 41, 52, 63, 74, 85, 96, 107, 118] := by
  decide +kernel

/-- The hypotheses of `C164_outputs_partial` for a thousand steps of 1/8. -/
example (last : ℚ) : List.IsChain (fun i j => j = i + 8 ∨ j = i + 8 + 1)
    (writes b64 0 (1 / 8) ((8 : ℕ) * (1 / 8)) last 0 1000) := by
  refine C164_outputs_partial (T := 125) ⟨wide_b64, le_rfl, by norm_num, by norm_num, by norm_num [b64], ?_⟩
    ⟨1, -3, by decide, by decide, by norm_num⟩ (by decide) (by norm_num [b64]) last
  exact le_trans (zpow_mono (b := 0) (by decide)) (by norm_num)

/-- Example: a time step that is a power of two has no such lag. -/
example : writes b64 0 (1 / 8) 1 (-1) 0 50 = [0, 8, 16, 24, 32, 40, 48] := by decide +kernel

end Entity.Clock
