import Verif.Lemmas.Third
import Verif.Props.Shapes

/-!
# C161: charge conservation with the constant one third of the program

The deposit of particles of orders 1 ... 11 multiplies by a named constant that stands for 1/3.  C30 and
C73 take it to be exactly 1/3.  Here the constant is that of the program, in single precision (the default)
the literal `0.333333f`, in double precision `0.3333333333333333`.

Specification: `rho`, `div`, `Fit` (Props/Deposit.lean), `current`, `compSum` (Props/DepositTotal.lean), as in
C30 and C73.
-/

namespace Entity.Deposit

open Entity Entity.Push Entity.Shapes Entity.Tags

variable {K : Type} [Field K] [LinearOrder K] [IsStrictOrderedRing K]

theorem fit_length {n : List Int} {ps : List (DPrtl K)} (hfit : ∀ p ∈ ps, Fit n.length p) :
    ∀ p ∈ ps, p.tag = dead ∨ p.ax.length = n.length := fun p hp => (hfit p hp).imp id And.left

/-- **C161, one and two dimensions.**  The constant does not enter the flux along the axes of the grid: the
divergence of the deposited current is minus the change of the charge over the time step, whatever the
constant.  Not for order 7, whose weights contain the constant too (`C161_order7_sum`). -/
theorem C161_plane_partial (single : Bool) (O : Nat) (h1 : 1 ≤ O) (h2 : O ≤ 11) (_h7 : O ≠ 7) (NG : Int)
    (charge dt : K) (nAll : List Nat) (n : List Int) (hn : n.length < 3) (ps : List (DPrtl K))
    (hfit : ∀ p ∈ ps, Fit n.length p) (us vs : List (Upd K))
    (hu : depositAllAt (third single) O NG charge dt ps = .ok us) (hv : vs.Perm us)
    (J J' : Cur K) (hJ : applyAll nAll vs J = .ok J') :
    div (fun c k => J' c k - J c k) n =
      -(rho O NG charge xNew ps n - rho O NG charge xOld ps n) / dt := by
  rw [depositAllAt_eq _ h1 NG charge dt (fit_length hfit)] at hu
  obtain ⟨ws, hw, hu⟩ := Outcome.bind_eq_ok.mp hu
  simp only [Outcome.ok.injEq] at hu
  subst hu
  rw [deposit_diff hv hJ]
  have e : total (ws.map (scaleUpd (factor (third single) n.length))) =
      fun c k => factor (third single) n.length c * total ws c k := by
    funext c k; exact total_scaled _ _ _ _
  rw [e, div_scaled _ _ _ 1 fun d hd => by
    rw [factor, if_neg]; omega, one_mul]
  exact launch hw (fun p hp vs' hv' => esirkepov_one h1 h2 (hfit p hp) hv')

/-- **C161, three dimensions.**  The divergence of the deposited current is minus three times the constant
times the change of the charge over the time step.  Not for order 7. -/
theorem C161_space_partial (single : Bool) (O : Nat) (h1 : 1 ≤ O) (h2 : O ≤ 11) (_h7 : O ≠ 7) (NG : Int)
    (charge dt : K) (nAll : List Nat) (n : List Int) (hn : n.length = 3) (ps : List (DPrtl K))
    (hfit : ∀ p ∈ ps, Fit n.length p) (us vs : List (Upd K))
    (hu : depositAllAt (third single) O NG charge dt ps = .ok us) (hv : vs.Perm us)
    (J J' : Cur K) (hJ : applyAll nAll vs J = .ok J') :
    div (fun c k => J' c k - J c k) n =
      3 * third single * (-(rho O NG charge xNew ps n - rho O NG charge xOld ps n) / dt) := by
  rw [depositAllAt_eq _ h1 NG charge dt (fit_length hfit)] at hu
  obtain ⟨ws, hw, hu⟩ := Outcome.bind_eq_ok.mp hu
  simp only [Outcome.ok.injEq] at hu
  subst hu
  rw [deposit_diff hv hJ]
  have e : total (ws.map (scaleUpd (factor (third single) n.length))) =
      fun c k => factor (third single) n.length c * total ws c k := by
    funext c k; exact total_scaled _ _ _ _
  rw [e, div_scaled _ _ _ (3 * third single) fun d hd => by
    rw [factor, if_pos (Or.inl hn)]]
  congr 1
  exact launch hw (fun p hp vs' hv' => esirkepov_one h1 h2 (hfit p hp) hv')

/-- **C161, many steps in three dimensions.**  Let the particles of each step start where those of the step
before ended.  After any number of steps the charge that the currents have failed to carry to or from a node
is the change of its charge since the start times one minus three times the constant: it does not
accumulate with the number of steps. -/
theorem C161_drift_partial (single : Bool) (O : Nat) (h1 : 1 ≤ O) (h2 : O ≤ 11) (h7 : O ≠ 7) (NG : Int)
    (charge dt : K) (hdt : dt ≠ 0) (nAll : List Nat) (n : List Int) (hn : n.length = 3)
    (ps : Nat → List (DPrtl K)) (hfit : ∀ s, ∀ p ∈ ps s, Fit n.length p)
    (hnext : ∀ s, rho O NG charge xOld (ps (s + 1)) n = rho O NG charge xNew (ps s) n)
    (us vs : Nat → List (Upd K))
    (hu : ∀ s, depositAllAt (third single) O NG charge dt (ps s) = .ok (us s))
    (hv : ∀ s, (vs s).Perm (us s)) (J : Nat → Cur K)
    (hJ : ∀ s, applyAll nAll (vs s) (fun _ _ => 0) = .ok (J s)) (N : Nat) :
    rho O NG charge xOld (ps N) n - rho O NG charge xOld (ps 0) n +
        dt * ((List.range N).map (fun s => div (J s) n)).sum =
      (1 - 3 * third single) *
        (rho O NG charge xOld (ps N) n - rho O NG charge xOld (ps 0) n) := by
  induction N with
  | zero => simp
  | succ N ih =>
    have h := C161_space_partial single O h1 h2 h7 NG charge dt nAll n hn (ps N) (hfit N) _ _ (hu N) (hv N)
      _ _ (hJ N)
    simp only [sub_zero] at h
    rw [List.range_succ, List.map_append, List.sum_append, List.map_singleton, List.sum_singleton]
    change _ + dt * (_ + div (fun c k => J N c k) n) = _
    rw [h, ← hnext N]
    have e : dt * (3 * third single * (-(rho O NG charge xOld (ps (N + 1)) n -
        rho O NG charge xOld (ps N) n) / dt)) = -(3 * third single *
          (rho O NG charge xOld (ps (N + 1)) n - rho O NG charge xOld (ps N) n)) := by
      field_simp
    rw [mul_add, e]
    linear_combination ih

/-- **C161, sum of the current.**  In three dimensions all components, in two dimensions the one across the
grid, sum up to three times the constant times charge times velocity; the other components of the current
have the exact sum.  Not for order 7. -/
theorem C161_total_partial (single : Bool) (O : Nat) (h1 : 1 ≤ O) (h2 : O ≤ 11) (_h7 : O ≠ 7) (NG : Int)
    (charge dt : K) (D : Nat) (c : Nat) (hc : c < 3) (ps : List (DPrtl K)) (hfit : ∀ p ∈ ps, Fit D p)
    (us : List (Upd K)) (hu : depositAllAt (third single) O NG charge dt ps = .ok us) :
    compSum us c = (if D = 3 ∨ D = 2 ∧ c = 2 then 3 * third single else 1) *
      (ps.map (current charge dt c)).sum := by
  rw [depositAllAt_eq (D := D) _ h1 NG charge dt fun p hp => (hfit p hp).imp id And.left] at hu
  obtain ⟨ws, hw, hu⟩ := Outcome.bind_eq_ok.mp hu
  simp only [Outcome.ok.injEq] at hu
  subst hu
  rw [compSum_scaled, C73_total_current O h2 NG charge dt c hc ps
    (fun p hp => (hfit p hp).imp id And.right) ws hw]
  rfl

/-- **C161, order 7.**  The eight weights of a particle of order 7 strictly inside its cell add up to
`1 + (1/3 - t) (d² + (1 - d)²)`, `t` the constant and `d` the offset in the cell. -/
theorem C161_order7_sum (single : Bool) (d : K) (d0 : 0 < d) (d1 : d < 1) :
    ∑ n ∈ Finset.range 8, S7At (third single) |3 + d - (n : K)| =
      1 + (1 / 3 - third single) * (d ^ 2 + (1 - d) ^ 2) := by
  obtain ⟨m, S, e, -, hs, -⟩ := C31_weights false 7 (by norm_num) (by norm_num) 0 d d0.le d1.le
  have e' : order false 7 0 d = .ok (0 - 3, fun n => shape 7 |3 + d - (n : K)|) := rfl
  rw [e'] at e
  simp only [Outcome.ok.injEq, Prod.mk.injEq] at e
  rw [← e.2] at hs
  simp only [S7At_eq, Finset.sum_add_distrib, ← Finset.mul_sum]
  have hs' : ∑ n ∈ Finset.range 8, S7 |3 + d - (n : K)| = 1 := hs
  rw [hs']
  congr 2
  have far : ∀ x : K, 1 ≤ |x| → (if |x| < 1 then |x| ^ 2 else 0) = 0 := fun x h => if_neg (not_lt.mpr h)
  have near : ∀ x : K, |x| < 1 → (if |x| < 1 then |x| ^ 2 else 0) = x ^ 2 := fun x h => by
    rw [if_pos h, sq_abs]
  simp only [Finset.sum_range_succ, Finset.sum_range_zero]
  rw [far _ (by rw [le_abs]; left; push_cast; linarith), far _ (by rw [le_abs]; left; push_cast; linarith),
    far _ (by rw [le_abs]; left; push_cast; linarith),
    near _ (by rw [abs_lt]; push_cast; constructor <;> linarith),
    near _ (by rw [abs_lt]; push_cast; constructor <;> linarith),
    far _ (by rw [le_abs]; right; push_cast; linarith), far _ (by rw [le_abs]; right; push_cast; linarith),
    far _ (by rw [le_abs]; right; push_cast; linarith)]
  push_cast
  ring

/-- **C161, size of the defect.**  In double precision it is below the rounding error of a number of order
one, half a unit in the last place (`2^-53`).  In single precision it is more than seventeen times the
rounding error `2^-24`. -/
theorem C161_size : 0 < 1 - 3 * (third false : ℚ) ∧ 1 - 3 * (third false : ℚ) < 1 / 2 ^ 53 ∧
    17 * (1 / 2 ^ 24) < 1 - 3 * (third true : ℚ) := by
  unfold third; norm_num

/-- The literals: the constants are the numbers closest to the decimal fractions of the source among the
multiples of the unit in the last place (`2^-25`, `2^-54`) of numbers between 1/4 and 1/2. -/
theorem C161_literals (m : Int) : (m ≠ 11184799 →
      |(third true : ℚ) - 333333 / 10 ^ 6| < |(m / 2 ^ 25 : ℚ) - 333333 / 10 ^ 6|) ∧
    (m ≠ 6004799503160661 →
      |(third false : ℚ) - 3333333333333333 / 10 ^ 16| <
        |(m / 2 ^ 54 : ℚ) - 3333333333333333 / 10 ^ 16|) := by
  constructor
  · intro h
    have e : |(third true : ℚ) - 333333 / 10 ^ 6| < 1 / 2 ^ 26 := by
      unfold third; rw [abs_lt]; norm_num
    refine lt_of_lt_of_le e ?_
    rcases lt_or_gt_of_ne h with h | h
    · have : (m : ℚ) ≤ 11184798 := by exact_mod_cast (by omega : m ≤ 11184798)
      rw [le_abs]; right; linarith
    · have : (11184800 : ℚ) ≤ m := by exact_mod_cast (by omega : 11184800 ≤ m)
      rw [le_abs]; left; linarith
  · intro h
    have e : |(third false : ℚ) - 3333333333333333 / 10 ^ 16| < 1 / 2 ^ 55 := by
      unfold third; rw [abs_lt]; norm_num
    refine lt_of_lt_of_le e ?_
    rcases lt_or_gt_of_ne h with h | h
    · have : (m : ℚ) ≤ 6004799503160660 := by exact_mod_cast (by omega : m ≤ 6004799503160660)
      rw [le_abs]; right; linarith
    · have : (6004799503160662 : ℚ) ≤ m := by exact_mod_cast (by omega : 6004799503160662 ≤ m)
      rw [le_abs]; left; linarith

/-- **The continuity equation is violated in three dimensions, in either precision**, already for one
particle of order 1. -/
theorem C161_counterexample : ∃ (p : DPrtl ℚ) (n : List Int), Fit 3 p ∧ n.length = 3 ∧
    ∀ single : Bool, ∃ us, depositAllAt (third single) 1 2 1 1 [p] = .ok us ∧
      (∀ u ∈ us, inArray [8, 8, 8] u.idx = true) ∧
      div (total us) n ≠ -(rho 1 2 1 xNew [p] n - rho 1 2 1 xOld [p] n) / 1 := by
  refine ⟨diagonal, [3, 3, 3], Or.inr ⟨rfl, ?_⟩, rfl, ?_⟩
  · intro a ha
    simp only [diagonal, List.mem_cons, List.not_mem_nil, or_false, or_self] at ha
    subst ha
    exact ⟨by norm_num, by norm_num, by norm_num, by norm_num, by
      rw [abs_lt]; constructor <;> norm_num⟩
  · intro single
    cases single
    · exact ⟨_, rfl, by decide +kernel, by decide +kernel⟩
    · exact ⟨_, rfl, by decide +kernel, by decide +kernel⟩

/-! ## Concrete cases -/

/-- A particle in the plane at order 3 and one in space at order 2: the deposit succeeds inside the array and
the current has a divergence. -/
example : (match depositAllAt (third true) 3 3 (2 : ℚ) (1/2) [mover] with
    | .ok us => us.all (fun u => inArray [14, 14] u.idx) && decide (div (total us) [7, 5] ≠ 0)
    | _ => false) = true := by decide +kernel

example : (match depositAllAt (third true) 2 3 (2 : ℚ) (1/2) [diagonal] with
    | .ok us => us.all (fun u => inArray [14, 14, 14] u.idx) && decide (div (total us) [3, 3, 3] ≠ 0)
    | _ => false) = true := by decide +kernel

/-- The particle goes back and forth: a run that meets the hypotheses of `C161_drift_partial`. -/
def backForth (s : Nat) : List (DPrtl ℚ) :=
  if s % 2 = 0 then [diagonal]
  else [{ diagonal with ax := [⟨0, 0, 0, 1/2, 0⟩, ⟨0, 0, 0, 1/2, 0⟩, ⟨0, 0, 0, 1/2, 0⟩] }]

example (s : Nat) (n : List Int) :
    rho 1 2 1 xOld (backForth (s + 1)) n = rho 1 2 1 xNew (backForth s) n := by
  unfold backForth
  rcases Nat.mod_two_eq_zero_or_one s with h | h
  · rw [if_neg (by omega), if_pos h]
    rcases n with _ | ⟨a, _ | ⟨b, _ | ⟨c, _⟩⟩⟩ <;> simp [rho, chargeAt, diagonal, xOld, xNew]
  · rw [if_pos (by omega), if_neg (by omega)]
    rcases n with _ | ⟨a, _ | ⟨b, _ | ⟨c, _⟩⟩⟩ <;> simp [rho, chargeAt, diagonal, xOld, xNew]

end Entity.Deposit
