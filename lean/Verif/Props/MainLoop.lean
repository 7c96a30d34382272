import Verif.Model.MainLoop
import Mathlib.Tactic.Linarith
import Mathlib.Tactic.FieldSimp
import Mathlib.Tactic.Ring
import Mathlib.Tactic.NormNum
import Mathlib.Algebra.Order.Field.Rat

/-!
# Properties C66, C79, C80: the main loop
-/

namespace Entity.MainLoop

open Entity Entity.Outcome

/-! ## Specification -/

/-- What happens in the step that starts as number `k` at time `t`: the fields and particles are
advanced, then the output for the finished step `k + 1` at time `t + dt` is offered to the three
writers, then, every `diagInterval` steps, the report is printed. -/
def stepEvents (c : Cfg) (k : Nat) (t : ℚ) (clear output chk : Bool) : List Event :=
  [.forward k t, .post k t, .write (k + 1) k (t + c.dt) t, .stats (k + 1) k (t + c.dt) t,
    .checkpoint (k + 1) k (t + c.dt) t] ++
  if 0 < c.diagInterval ∧ (k + 1) % c.diagInterval = 0 then [.report k c.maxSteps t clear output chk] else []

/-- The report announces a clearing of dead particles. -/
def clears (c : Cfg) (k : Nat) : Bool := decide (0 < c.clearInterval ∧ k % c.clearInterval = 0 ∧ 0 < k)

theorem iter_eq (c : Cfg) (w : Writers) (s : St) :
    iter c w s = (⟨s.step + 1, s.time + c.dt⟩,
      stepEvents c s.step s.time (clears c s.step) false (w.checkpoint (s.step + 1))) := by
  simp only [iter, stepEvents, clears, Bool.false_and, Nat.add_sub_cancel, add_sub_cancel_right,
    ← Bool.decide_and, and_assoc]

/-- The loop in closed form. -/
theorem loop_eq (c : Cfg) (w : Writers) (n : Nat) : ∀ s : St, c.maxSteps - s.step = n →
    loop c w s = (⟨s.step + n, s.time + n * c.dt⟩,
      (List.range n).flatMap (fun i => stepEvents c (s.step + i) (s.time + i * c.dt)
        (clears c (s.step + i)) false (w.checkpoint (s.step + i + 1)))) := by
  induction n with
  | zero =>
    intro s hs
    rw [loop, if_neg (by omega)]
    simp
  | succ n ih =>
    intro s hs
    rw [loop, if_pos (by omega)]
    have h := ih ⟨s.step + 1, s.time + c.dt⟩ (show c.maxSteps - (s.step + 1) = n by omega)
    simp only [iter_eq, h]
    refine Prod.ext ?_ ?_
    · simp only [St.mk.injEq]
      refine ⟨by omega, ?_⟩
      push_cast; ring
    · simp only [List.range_succ_eq_map, List.flatMap_cons, List.flatMap_map, Nat.cast_zero, zero_mul,
        add_zero]
      congr 1
      congr 1
      funext i
      rw [show s.step + 1 + i = s.step + Nat.succ i by omega]
      congr 1
      push_cast; ring

/-! ## C66 -/

/-- **C66.** A run started at step `k0` and time `t0` (0 and 0, or those of a checkpoint) performs exactly
the steps `k0, …, max − 1`, each with its stages once and in order, step `k` at time
`t0 + (k − k0)·dt`; it ends at step `max` and time `t0 + (max − k0)·dt` (or at once, if `k0 ≥ max`). -/
theorem C66_accounting (c : Cfg) (w : Writers) (k0 : Nat) (t0 : ℚ) :
    (loop c w ⟨k0, t0⟩).1 = ⟨max k0 c.maxSteps, t0 + ((c.maxSteps - k0 : Nat) : ℚ) * c.dt⟩ ∧
    ∃ out chk : Nat → Bool, (loop c w ⟨k0, t0⟩).2 = (List.range (c.maxSteps - k0)).flatMap (fun i =>
      stepEvents c (k0 + i) (t0 + i * c.dt) (clears c (k0 + i)) (out i) (chk i)) := by
  rw [loop_eq c w _ ⟨k0, t0⟩ rfl]
  refine ⟨?_, fun _ => false, fun i => w.checkpoint (k0 + i + 1), rfl⟩
  simp only [St.mk.injEq, and_true]
  omega

/-- **C66 (number of steps).** The number of steps is the largest `n` with `n·dt ≤ runtime`. -/
theorem C66_number {runtime dt : ℚ} (hd : 0 < dt) (hr : 0 ≤ runtime) {n : Nat}
    (h : maxSteps runtime dt = .ok n) : n * dt ≤ runtime ∧ runtime < (n + 1) * dt := by
  unfold maxSteps at h
  split_ifs at h with h1 h2
  cases h
  have hq : 0 ≤ runtime / dt := by positivity
  have hf : 0 ≤ ⌊runtime / dt⌋ := Int.floor_nonneg.2 hq
  have e : ((⌊runtime / dt⌋.toNat : Nat) : ℚ) = (⌊runtime / dt⌋ : ℚ) := by
    exact_mod_cast Int.toNat_of_nonneg hf
  rw [e]
  constructor
  · rw [← le_div_iff₀ hd]; exact Int.floor_le _
  · rw [← div_lt_iff₀ hd]; exact Int.lt_floor_add_one _

/-- **C66 (resuming).** A run interrupted after any number of steps and resumed at the step and time it
had reached does the same as an uninterrupted run, and ends in the same state. -/
theorem C66_resume (c : Cfg) (w : Writers) (k0 k1 : Nat) (t0 : ℚ) (h0 : k0 ≤ k1) (h1 : k1 ≤ c.maxSteps) :
    let first := loop { c with maxSteps := k1 } w ⟨k0, t0⟩
    (loop c w ⟨k0, t0⟩).1 = (loop c w first.1).1 ∧
    ∀ e, (∀ k total t a b d, e ≠ Event.report k total t a b d) →
      (e ∈ (loop c w ⟨k0, t0⟩).2 ↔ e ∈ first.2 ∨ e ∈ (loop c w first.1).2) := by
  intro first
  have hf : first = _ := loop_eq { c with maxSteps := k1 } w (k1 - k0) ⟨k0, t0⟩ rfl
  have h2 := loop_eq c w (c.maxSteps - k1) first.1 (by rw [hf]; show c.maxSteps - (k0 + (k1 - k0)) = _; omega)
  rw [loop_eq c w (c.maxSteps - k0) ⟨k0, t0⟩ rfl, h2, hf]
  simp only
  constructor
  · rw [St.mk.injEq]
    refine ⟨by omega, ?_⟩
    rw [Nat.cast_sub h0, Nat.cast_sub h1, Nat.cast_sub (h0.trans h1)]
    ring
  · intro e he
    have hrep : ∀ (M : Nat) (k : Nat) (t : ℚ) (a b d : Bool), e ∈ stepEvents { c with maxSteps := M } k t a b d ↔
        e ∈ [Event.forward k t, .post k t, .write (k + 1) k (t + c.dt) t, .stats (k + 1) k (t + c.dt) t,
          .checkpoint (k + 1) k (t + c.dt) t] := by
      intro M k t a b d
      simp only [stepEvents, List.mem_append]
      constructor
      · rintro (h | h)
        · exact h
        · split_ifs at h
          · simp only [List.mem_singleton] at h; exact absurd h (he _ _ _ _ _ _)
          · simp at h
      · exact .inl
    have hc : ({ c with maxSteps := c.maxSteps } : Cfg) = c := rfl
    have hrep' := hrep c.maxSteps
    rw [hc] at hrep'
    simp only [List.mem_flatMap, List.mem_range, hrep, hrep']
    constructor
    · rintro ⟨i, hi, h⟩
      by_cases hik : i < k1 - k0
      · exact .inl ⟨i, hik, h⟩
      · refine .inr ⟨i - (k1 - k0), by omega, ?_⟩
        rw [show k0 + (k1 - k0) + (i - (k1 - k0)) = k0 + i by omega]
        rw [show t0 + ((k1 - k0 : Nat) : ℚ) * c.dt + ((i - (k1 - k0) : Nat) : ℚ) * c.dt = t0 + i * c.dt by
          rw [Nat.cast_sub (by omega : k1 - k0 ≤ i)]; ring]
        exact h
    · rintro (⟨i, hi, h⟩ | ⟨i, hi, h⟩)
      · exact ⟨i, by omega, h⟩
      · refine ⟨i + (k1 - k0), by omega, ?_⟩
        rw [show k0 + (i + (k1 - k0)) = k0 + (k1 - k0) + i by omega]
        rw [show t0 + ((i + (k1 - k0) : Nat) : ℚ) * c.dt = t0 + ((k1 - k0 : Nat) : ℚ) * c.dt + i * c.dt by
          push_cast; ring]
        exact h

/-! ## C79 -/

/-- **C79 (checkpoints).** Every report says that a checkpoint was written exactly if one was.
Missing: the same for output, which the report never announces (`C79_counterexample`). -/
theorem C79_checkpoint_partial (c : Cfg) (w : Writers) (k0 : Nat) (t0 : ℚ) {k total : Nat} {t : ℚ} {a b d : Bool}
    (h : Event.report k total t a b d ∈ (loop c w ⟨k0, t0⟩).2) : d = w.checkpoint (k + 1) := by
  rw [loop_eq c w _ ⟨k0, t0⟩ rfl] at h
  simp only [List.mem_flatMap, List.mem_range, stepEvents, List.mem_append] at h
  obtain ⟨i, _, h⟩ := h
  split_ifs at h <;> simp at h
  obtain ⟨rfl, _, _, _, _, rfl⟩ := h
  rfl

/-- **No report ever says that output was written**, whatever is written. -/
theorem C79_counterexample (c : Cfg) (w : Writers) (k0 : Nat) (t0 : ℚ) {k total : Nat} {t : ℚ} {a b d : Bool}
    (h : Event.report k total t a b d ∈ (loop c w ⟨k0, t0⟩).2) : b = false := by
  rw [loop_eq c w _ ⟨k0, t0⟩ rfl] at h
  simp only [List.mem_flatMap, List.mem_range, stepEvents, List.mem_append] at h
  obtain ⟨i, _, h⟩ := h
  split_ifs at h <;> simp at h
  exact h.2.2.2.2.1

/-- Reports exist, also for steps with output and a checkpoint. -/
example : (loop ⟨1 / 4, 3, 2, 2⟩ ⟨fun _ => true, fun _ => true, fun k => k == 2⟩ ⟨0, 0⟩).2 =
    [.forward 0 0, .post 0 0, .write 1 0 (1/4) 0, .stats 1 0 (1/4) 0, .checkpoint 1 0 (1/4) 0,
     .forward 1 (1/4), .post 1 (1/4), .write 2 1 (1/2) (1/4), .stats 2 1 (1/2) (1/4),
     .checkpoint 2 1 (1/2) (1/4), .report 1 3 (1/4) false false true,
     .forward 2 (1/2), .post 2 (1/2), .write 3 2 (3/4) (1/2), .stats 3 2 (3/4) (1/2),
     .checkpoint 3 2 (3/4) (1/2)] := by
  rw [loop_eq _ _ 3 _ rfl]
  decide +kernel

/-! ## C80 -/

/-- **C80 (same time step).** A run resumed at step `k1` and time `k1·dt` with the same time step, but
possibly another runtime, ends at a time `t` with `t ≤ runtime < t + dt`, provided it had not passed
the runtime already.  Missing: another time step, which the program accepts on restart
(`C80_counterexample`). -/
theorem C80_same_dt_partial (c : Cfg) (w : Writers) {runtime : ℚ} (hd : 0 < c.dt) (hr : 0 ≤ runtime)
    (hm : maxSteps runtime c.dt = .ok c.maxSteps) {k1 : Nat} (h1 : k1 * c.dt ≤ runtime) :
    let t := (loop c w ⟨k1, k1 * c.dt⟩).1.time
    t ≤ runtime ∧ runtime < t + c.dt := by
  intro t
  obtain ⟨a, b⟩ := C66_number hd hr hm
  have hk : k1 ≤ c.maxSteps := by
    by_contra hlt
    have : (c.maxSteps : ℚ) + 1 ≤ k1 := by exact_mod_cast (by omega : c.maxSteps + 1 ≤ k1)
    nlinarith
  have ht : t = c.maxSteps * c.dt := by
    show (loop c w ⟨k1, k1 * c.dt⟩).1.time = _
    rw [(C66_accounting c w k1 _).1]
    simp only
    rw [Nat.cast_sub hk]; ring
  rw [ht]
  constructor
  · exact a
  · linarith

/-- **With another time step the resumed run ends at the wrong time**: the step count of the
checkpoint, counted in old time steps, is compared with the number of new time steps.  After `k1` steps
of `dt`, a restart with `dt'` ends `k1·(dt − dt')` away from where it should. -/
theorem C80_wrong_end (c : Cfg) (w : Writers) (dt0 : ℚ) {k1 : Nat} (h : k1 ≤ c.maxSteps) :
    (loop c w ⟨k1, k1 * dt0⟩).1.time = c.maxSteps * c.dt + k1 * (dt0 - c.dt) := by
  rw [(C66_accounting c w k1 _).1]
  simp only
  rw [Nat.cast_sub h]; ring

/-- Runtime 100, time step 1, checkpoint at step 50; resumed with time step 1/2 the run ends at 125,
and with time step 2 it ends at once, at 50. -/
theorem C80_counterexample : ∃ c c' : Cfg, ∀ w : Writers,
    maxSteps 100 c.dt = .ok c.maxSteps ∧ maxSteps 100 c'.dt = .ok c'.maxSteps ∧
    (loop c w ⟨50, 50⟩).1.time = 125 ∧ (loop c' w ⟨50, 50⟩).1.time = 50 := by
  refine ⟨⟨1 / 2, 200, 0, 0⟩, ⟨2, 50, 0, 0⟩, fun w => ⟨?_, ?_, ?_, ?_⟩⟩
  · decide +kernel
  · decide +kernel
  · rw [(C66_accounting _ w 50 50).1]; norm_num
  · rw [(C66_accounting _ w 50 50).1]; norm_num

example : maxSteps 100 (1 / 3) = .ok 300 ∧ maxSteps 1 (1 / 4294967296) = .ub ∧ maxSteps 1 0 = .ub := by
  decide +kernel

end Entity.MainLoop
