import Verif.Model.Clock
import Verif.Lemmas.Startup

/-! # Lemmas about the clock -/

namespace Entity.Clock

open Entity Entity.Float Entity.Startup

theorem time_err {F : Fmt} {t0 dt T : ℚ} {n : Nat} (h : Run F t0 dt n T) {k : Nat} (hk : k ≤ n) :
    |time F t0 dt k - (t0 + k * dt)| ≤ 2 * k * (2 ^ (-(F.p : Int)) * T) := by
  have up := two_zpow_pos (-(F.p : Int))
  have T0 : 0 < T := lt_of_lt_of_le (two_zpow_pos _) h.tiny
  induction k with
  | zero => simp [time]
  | succ k ih =>
    have ih := ih (by omega)
    have d0 := h.pos
    have t0p := h.start
    have hT := h.stop
    have hn := h.few
    have kn : ((k : ℚ) + 1) * dt ≤ n * dt :=
      mul_le_mul_of_nonneg_right (by exact_mod_cast hk) d0.le
    have kn' : (k : ℚ) * 2 ^ (-(F.p : Int)) ≤ n * 2 ^ (-(F.p : Int)) :=
      mul_le_mul_of_nonneg_right (by exact_mod_cast (by omega : k ≤ n)) up.le
    have small : (k : ℚ) * 2 ^ (-(F.p : Int)) * T ≤ 1 / 100 * T :=
      mul_le_mul_of_nonneg_right (by linarith) T0.le
    have kd : 0 ≤ (k : ℚ) * dt := by positivity
    have r := round_err_rel F (x := time F t0 dt k + dt) (A := 2 * T) (by
      rw [abs_le] at *
      constructor <;> linarith [ih.1, ih.2]) (by linarith [h.tiny])
    show |F.round (time F t0 dt k + dt) - (t0 + ((k + 1 : ℕ) : ℚ) * dt)| ≤ _
    push_cast
    rw [abs_le] at *
    constructor <;> linarith [ih.1, ih.2, r.1, r.2]

theorem time_step {F : Fmt} {t0 dt T : ℚ} {n : Nat} (h : Run F t0 dt n T) {k : Nat} (hk : k < n) :
    |time F t0 dt (k + 1) - (time F t0 dt k + dt)| ≤ 2 * (2 ^ (-(F.p : Int)) * T) := by
  have up := two_zpow_pos (-(F.p : Int))
  have T0 : 0 < T := lt_of_lt_of_le (two_zpow_pos _) h.tiny
  have ih := time_err h hk.le
  have d0 := h.pos
  have t0p := h.start
  have hT := h.stop
  have hn := h.few
  have kn : ((k : ℚ) + 1) * dt ≤ n * dt :=
    mul_le_mul_of_nonneg_right (by exact_mod_cast hk) d0.le
  have kn' : (k : ℚ) * 2 ^ (-(F.p : Int)) ≤ n * 2 ^ (-(F.p : Int)) :=
    mul_le_mul_of_nonneg_right (by exact_mod_cast hk.le) up.le
  have small : (k : ℚ) * 2 ^ (-(F.p : Int)) * T ≤ 1 / 100 * T :=
    mul_le_mul_of_nonneg_right (by linarith) T0.le
  have kd : 0 ≤ (k : ℚ) * dt := by positivity
  have r := round_err_rel F (x := time F t0 dt k + dt) (A := 2 * T) (by
    rw [abs_le] at *
    constructor <;> linarith [ih.1, ih.2]) (by linarith [h.tiny])
  show |F.round (time F t0 dt k + dt) - (time F t0 dt k + dt)| ≤ _
  linarith

theorem time_nonneg {F : Fmt} {t0 dt T : ℚ} {n : Nat} (h : Run F t0 dt n T) (k : Nat) :
    0 ≤ time F t0 dt k := by
  induction k with
  | zero => exact h.start
  | succ k ih => exact le_round h.wide.ok (rep_zero h.wide.ok) (by have := h.pos; linarith)

theorem finished_nonneg {F : Fmt} {t0 dt T : ℚ} {n : Nat} (h : Run F t0 dt n T) (hdt : F.Rep dt) (k : Nat) :
    0 ≤ finished F t0 dt k := by
  have h1 : dt ≤ time F t0 dt (k + 1) :=
    le_round h.wide.ok hdt (by have := time_nonneg h k; linarith)
  exact le_round h.wide.ok (rep_zero h.wide.ok) (by linarith)

theorem finished_err {F : Fmt} {t0 dt T : ℚ} {n : Nat} (h : Run F t0 dt n T) {k : Nat} (hk : k < n) :
    |finished F t0 dt k - (t0 + k * dt)| ≤ (2 * n + 2) * (2 ^ (-(F.p : Int)) * T) := by
  have up := two_zpow_pos (-(F.p : Int))
  have T0 : 0 < T := lt_of_lt_of_le (two_zpow_pos _) h.tiny
  have uT : 0 < 2 ^ (-(F.p : Int)) * T := by positivity
  have e := time_err h (k := k + 1) hk
  have d0 := h.pos
  have t0p := h.start
  have hT := h.stop
  have hn := h.few
  have kn : ((k : ℚ) + 1) * dt ≤ n * dt :=
    mul_le_mul_of_nonneg_right (by exact_mod_cast hk) d0.le
  have kn' : ((k : ℚ) + 1) * (2 ^ (-(F.p : Int)) * T) ≤ n * (2 ^ (-(F.p : Int)) * T) :=
    mul_le_mul_of_nonneg_right (by exact_mod_cast hk) uT.le
  have small : (n : ℚ) * 2 ^ (-(F.p : Int)) * T ≤ 1 / 100 * T :=
    mul_le_mul_of_nonneg_right hn T0.le
  have kd : 0 ≤ (k : ℚ) * dt := by positivity
  push_cast at e
  have e' : |time F t0 dt (k + 1) - (t0 + (k + 1) * dt)| ≤ 2 * n * (2 ^ (-(F.p : Int)) * T) := by linarith
  have r := round_err_rel F (x := time F t0 dt (k + 1) - dt) (A := 2 * T) (by
    rw [abs_le] at *
    constructor <;> linarith [e'.1, e'.2]) (by linarith [h.tiny])
  unfold finished
  rw [abs_le] at *
  constructor <;> linarith [e'.1, e'.2, r.1, r.2]

/-- Difference of two finished times, as computed. -/
theorem diff_err {F : Fmt} {t0 dt T : ℚ} {n : Nat} (h : Run F t0 dt n T) {i j : Nat} (hij : i ≤ j) (hj : j < n) :
    |F.round (finished F t0 dt j - finished F t0 dt i) - (j - i : ℕ) * dt| ≤
      (4 * n + 6) * (2 ^ (-(F.p : Int)) * T) := by
  have up := two_zpow_pos (-(F.p : Int))
  have us := u_small h.wide
  have T0 : 0 < T := lt_of_lt_of_le (two_zpow_pos _) h.tiny
  have uT : 0 < 2 ^ (-(F.p : Int)) * T := by positivity
  have uT1 : 2 ^ (-(F.p : Int)) * T ≤ 1 / 1000000 * T := mul_le_mul_of_nonneg_right us T0.le
  have ei := finished_err h (k := i) (by omega)
  have ej := finished_err h hj
  have small : (n : ℚ) * 2 ^ (-(F.p : Int)) * T ≤ 1 / 100 * T :=
    mul_le_mul_of_nonneg_right h.few T0.le
  have d0 := h.pos
  have t0p := h.start
  have hT := h.stop
  have c : ((j - i : ℕ) : ℚ) = j - i := by push_cast [hij]; ring
  have g0 : 0 ≤ ((j : ℚ) - i) * dt := by
    have : (i : ℚ) ≤ j := by exact_mod_cast hij
    exact mul_nonneg (by linarith) d0.le
  have g1 : ((j : ℚ) - i) * dt ≤ n * dt := by
    apply mul_le_mul_of_nonneg_right _ d0.le
    have : (j : ℚ) ≤ n := by exact_mod_cast hj.le
    have : (0 : ℚ) ≤ i := by positivity
    linarith
  rw [c]
  have r := round_err_rel F (x := finished F t0 dt j - finished F t0 dt i) (A := 2 * T) (by
    rw [abs_le] at *
    constructor <;> linarith [ei.1, ei.2, ej.1, ej.2]) (by linarith [h.tiny])
  rw [abs_le] at *
  constructor <;> linarith [ei.1, ei.2, ej.1, ej.2, r.1, r.2]

/-- The list of writes after a write at `i`, looking from `k` on: the next element is the first one due. -/
theorem writes_first (F : Fmt) (t0 dt iv last : ℚ) (k n : Nat) (j : Nat) (l : List Nat)
    (h : writes F t0 dt iv last k n = j :: l) :
    k ≤ j ∧ j < k + n ∧ due F iv last (finished F t0 dt j) = true ∧
    (∀ m, k ≤ m → m < j → due F iv last (finished F t0 dt m) = false) ∧
    l = writes F t0 dt iv (finished F t0 dt j) (j + 1) (k + n - (j + 1)) := by
  induction n generalizing k with
  | zero => simp [writes] at h
  | succ n ih =>
    unfold writes at h
    split at h
    · rename_i hd
      injection h with h1 h2
      subst h1
      refine ⟨le_rfl, by omega, hd, fun m a b => by omega, ?_⟩
      rw [← h2]
      congr 1
      omega
    · rename_i hd
      obtain ⟨a, b, c, d, e⟩ := ih (k + 1) h
      refine ⟨by omega, by omega, c, ?_, ?_⟩
      · intro m hm1 hm2
        rcases Nat.lt_or_ge k m with g | g
        · exact d m g hm2
        · have : m = k := by omega
          subst this
          simpa using hd
      · rw [e]; congr 1; omega

/-- Successive writes. -/
theorem writes_chain {F : Fmt} {t0 dt T iv : ℚ} {n : Nat} (h : Run F t0 dt n T) (hdt : F.Rep dt) (hi : 0 < iv)
    (l : List Nat) (last : ℚ) (k m : Nat) (hk : k + m ≤ n) (hl : writes F t0 dt iv last k m = l) :
    List.IsChain (fun i j => i < j ∧ iv - (4 * n + 6) * (2 ^ (-(F.p : Int)) * T) ≤ (j - i : ℕ) * dt ∧
      (j - i : ℕ) * dt < iv + dt + (4 * n + 6) * (2 ^ (-(F.p : Int)) * T)) l := by
  induction l generalizing last k m with
  | nil => exact .nil
  | cons i rest ih =>
    obtain ⟨a, b, _, _, e⟩ := writes_first _ _ _ _ _ _ _ _ _ hl
    have ih := ih (finished F t0 dt i) (i + 1) (k + m - (i + 1)) (by omega) e.symm
    cases rest with
    | nil => exact .singleton _
    | cons j rest =>
      obtain ⟨a2, b2, c2, d2, _⟩ := writes_first _ _ _ _ _ _ _ _ _ e.symm
      refine List.IsChain.cons_cons ⟨by omega, ?_, ?_⟩ ih
      · have f := finished_nonneg h hdt i
        have : iv ≤ F.round (finished F t0 dt j - finished F t0 dt i) := by
          simpa [due, not_lt.2 f] using c2
        have g := abs_le.1 (diff_err h (i := i) (j := j) (by omega) (by omega))
        linarith [g.2]
      · have up := two_zpow_pos (-(F.p : Int))
        have T0 : 0 < T := lt_of_lt_of_le (two_zpow_pos _) h.tiny
        have E0 : 0 ≤ (4 * (n : ℚ) + 6) * (2 ^ (-(F.p : Int)) * T) := by positivity
        rcases Nat.lt_or_ge (i + 1) j with hj | hj
        · have f := finished_nonneg h hdt i
          have d := d2 (j - 1) (by omega) (by omega)
          have : F.round (finished F t0 dt (j - 1) - finished F t0 dt i) < iv := by
            simpa [due, not_lt.2 f] using d
          have g := abs_le.1 (diff_err h (i := i) (j := j - 1) (by omega) (by omega))
          have c : ((j - i : ℕ) : ℚ) = ((j - 1 - i : ℕ) : ℚ) + 1 := by
            have : j - i = (j - 1 - i) + 1 := by omega
            rw [this]; push_cast; ring
          rw [c]
          linarith [g.1]
        · have : j = i + 1 := by omega
          subst this
          have : i + 1 - i = 1 := by omega
          rw [this]
          push_cast
          linarith

end Entity.Clock
