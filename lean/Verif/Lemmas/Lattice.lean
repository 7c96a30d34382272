import Mathlib.Algebra.BigOperators.Ring.Finset
import Mathlib.Algebra.Order.BigOperators.Group.Finset
import Mathlib.Algebra.Group.End
import Mathlib.Tactic.LinearCombination
import Mathlib.Algebra.Order.Field.Basic
import Mathlib.Data.Fintype.BigOperators
import Mathlib.Tactic.Ring
import Mathlib.Tactic.Linarith
import Mathlib.Tactic.Positivity
import Mathlib.Tactic.FieldSimp

/-!
# Differences on a finite set with commuting shifts
-/

namespace Entity.Lattice

variable {K : Type} [Field K] {ι : Type} [Fintype ι]

/-- Sum of products. -/
def ip (f g : ι → K) : K := ∑ x, f x * g x

/-- Forward difference along axis `a`. -/
def fwd (σ : Nat → Equiv.Perm ι) (a : Nat) (f : ι → K) : ι → K := fun x => f (σ a x) - f x

/-- Backward difference along axis `a`. -/
def bwd (σ : Nat → Equiv.Perm ι) (a : Nat) (f : ι → K) : ι → K := fun x => f x - f ((σ a).symm x)

/-- Curl with forward differences. -/
def curlF (σ : Nat → Equiv.Perm ι) (F : Nat → ι → K) (a : Nat) : ι → K := fun x =>
  fwd σ ((a + 1) % 3) (F ((a + 2) % 3)) x - fwd σ ((a + 2) % 3) (F ((a + 1) % 3)) x

/-- Curl with backward differences. -/
def curlB (σ : Nat → Equiv.Perm ι) (F : Nat → ι → K) (a : Nat) : ι → K := fun x =>
  bwd σ ((a + 1) % 3) (F ((a + 2) % 3)) x - bwd σ ((a + 2) % 3) (F ((a + 1) % 3)) x

/-- Sum of products of vector fields. -/
def ip3 (F G : Nat → ι → K) : K := ip (F 0) (G 0) + ip (F 1) (G 1) + ip (F 2) (G 2)

theorem sum_perm (s : Equiv.Perm ι) (f : ι → K) : ∑ x, f (s x) = ∑ x, f x := Equiv.sum_comp s f

theorem ip_fwd (σ : Nat → Equiv.Perm ι) (a : Nat) (f g : ι → K) :
    ip f (fwd σ a g) = - ip (bwd σ a f) g := by
  have e := sum_perm (σ a) (fun x => f ((σ a).symm x) * g x)
  simp only [Equiv.symm_apply_apply] at e
  unfold ip fwd bwd
  simp only [mul_sub, sub_mul, Finset.sum_sub_distrib, e]
  ring

theorem ip_comm (f g : ι → K) : ip f g = ip g f := by
  unfold ip; exact Finset.sum_congr rfl fun x _ => mul_comm _ _

theorem ip_sub_right (f g h : ι → K) : ip f (fun x => g x - h x) = ip f g - ip f h := by
  unfold ip; simp [mul_sub, Finset.sum_sub_distrib]

theorem ip_sub_left (f g h : ι → K) : ip (fun x => g x - h x) f = ip g f - ip h f := by
  unfold ip; simp [sub_mul, Finset.sum_sub_distrib]

theorem ip_add_left (f g h : ι → K) : ip (fun x => g x + h x) f = ip g f + ip h f := by
  unfold ip; simp [add_mul, Finset.sum_add_distrib]

theorem ip_add_right (f g h : ι → K) : ip f (fun x => g x + h x) = ip f g + ip f h := by
  unfold ip; simp [mul_add, Finset.sum_add_distrib]

theorem ip_smul_left (k : K) (f g : ι → K) : ip (fun x => k * f x) g = k * ip f g := by
  unfold ip; simp [Finset.mul_sum, mul_assoc]

theorem ip_smul_right (k : K) (f g : ι → K) : ip f (fun x => k * g x) = k * ip f g := by
  rw [ip_comm, ip_smul_left, ip_comm]

/-- The two curls are adjoint. -/
theorem ip3_curl (σ : Nat → Equiv.Perm ι) (B E : Nat → ι → K) :
    ip3 B (curlF σ E) = ip3 (curlB σ B) E := by
  unfold ip3
  simp only [show ∀ a, curlF σ E a = fun x => fwd σ ((a + 1) % 3) (E ((a + 2) % 3)) x -
      fwd σ ((a + 2) % 3) (E ((a + 1) % 3)) x from fun _ => rfl,
    show ∀ a, curlB σ B a = fun x => bwd σ ((a + 1) % 3) (B ((a + 2) % 3)) x -
      bwd σ ((a + 2) % 3) (B ((a + 1) % 3)) x from fun _ => rfl, ip_sub_right, ip_sub_left]
  norm_num
  have e : ∀ a (f g : ι → K), ip f (fwd σ a g) = - ip (bwd σ a f) g := fun a f g => ip_fwd σ a f g
  simp only [e]
  ring

/-- Energy balance of the leapfrog scheme. -/
theorem balance (σ : Nat → Equiv.Perm ι) (l : K) (E B S E' B' : Nat → ι → K)
    (hB : ∀ a, a < 3 → ∀ x, B' a x = B a x - l * curlF σ E a x)
    (hE : ∀ a, a < 3 → ∀ x, E' a x = E a x + l * curlB σ B' a x + S a x) :
    ip3 E' E' + ip3 B' B' - l * ip3 B' (curlF σ E') =
      ip3 E E + ip3 B B - l * ip3 B (curlF σ E) + ip3 S E + ip3 S E' := by
  have adj := ip3_curl σ B' E'
  have adj2 := ip3_curl σ B' E
  have hB0 : ∀ a, a < 3 → B' a = fun x => B a x - l * curlF σ E a x := fun a ha => funext (hB a ha)
  -- inner products with E'
  have e1 : ∀ a, a < 3 → ∀ f, ip (E' a) f = ip (E a) f + l * ip (curlB σ B' a) f + ip (S a) f := by
    intro a ha f
    rw [show E' a = fun x => (fun x => E a x + l * curlB σ B' a x) x + S a x from funext (hE a ha), ip_add_left,
      ip_add_left, ip_smul_left]
  have b1 : ∀ a, a < 3 → ∀ f, ip (B' a) f = ip (B a) f - l * ip (curlF σ E a) f := by
    intro a ha f
    rw [show B' a = fun x => B a x - l * curlF σ E a x from funext (hB a ha), ip_sub_left, ip_smul_left]
  rw [adj]
  have k1 : ip3 E' E' - l * ip3 (curlB σ B') E' = ip3 E' E + ip3 S E' := by
    unfold ip3
    rw [e1 0 (by omega) (E' 0), e1 1 (by omega) (E' 1), e1 2 (by omega) (E' 2), ip_comm (E 0), ip_comm (E 1),
      ip_comm (E 2)]
    ring
  have k2 : ip3 E' E = ip3 E E + l * ip3 (curlB σ B') E + ip3 S E := by
    unfold ip3
    rw [e1 0 (by omega), e1 1 (by omega), e1 2 (by omega)]
    ring
  have k3 : ip3 B' B' + l * ip3 B' (curlF σ E) = ip3 B' B := by
    unfold ip3
    have : ∀ a, a < 3 → ip (B' a) (B' a) + l * ip (B' a) (curlF σ E a) = ip (B' a) (B a) := by
      intro a ha
      rw [ip_comm (B' a) (curlF σ E a), ip_comm (B' a) (B a)]
      have := b1 a ha (B' a)
      rw [this]; ring
    have h0 := this 0 (by omega)
    have h1 := this 1 (by omega)
    have h2 := this 2 (by omega)
    linear_combination h0 + h1 + h2
  have k4 : ip3 B' B = ip3 B B - l * ip3 B (curlF σ E) := by
    unfold ip3
    rw [b1 0 (by omega), b1 1 (by omega), b1 2 (by omega), ip_comm (curlF σ E 0), ip_comm (curlF σ E 1),
      ip_comm (curlF σ E 2)]
    ring
  rw [← adj2] at k2
  linear_combination k1 + k2 + k3 + k4

/-! ## Bound on the curl -/

section
variable [LinearOrder K] [IsStrictOrderedRing K]

theorem ip_self_nonneg (f : ι → K) : 0 ≤ ip f f := Finset.sum_nonneg fun x _ => mul_self_nonneg _

theorem fwd_bound (σ : Nat → Equiv.Perm ι) (a : Nat) (f : ι → K) : ip (fwd σ a f) (fwd σ a f) ≤ 4 * ip f f := by
  have e := sum_perm (σ a) (fun x => f x * f x)
  have : ∑ x, fwd σ a f x * fwd σ a f x ≤ ∑ x, (2 * (f (σ a x) * f (σ a x)) + 2 * (f x * f x)) := by
    refine Finset.sum_le_sum fun x _ => ?_
    unfold fwd
    nlinarith [mul_self_nonneg (f (σ a x) + f x)]
  unfold ip
  rw [Finset.sum_add_distrib, ← Finset.mul_sum, ← Finset.mul_sum, e] at this
  linarith

theorem fwd_norm (σ : Nat → Equiv.Perm ι) (a : Nat) (f : ι → K) :
    ip (fwd σ a f) (fwd σ a f) = ip (bwd σ a f) (bwd σ a f) := by
  have e := sum_perm (σ a) (fun x => bwd σ a f x * bwd σ a f x)
  unfold ip
  rw [← e]
  refine Finset.sum_congr rfl fun x _ => ?_
  simp [fwd, bwd]

theorem ip_cross (σ : Nat → Equiv.Perm ι) (hc : ∀ a b x, σ a (σ b x) = σ b (σ a x)) (a b : Nat) (f g : ι → K) :
    ip (fwd σ a f) (fwd σ b g) = ip (bwd σ b f) (bwd σ a g) := by
  have hc' : ∀ x, (σ b).symm (σ a x) = σ a ((σ b).symm x) := by
    intro x
    rw [Equiv.symm_apply_eq, hc, Equiv.apply_symm_apply]
  rw [ip_fwd, show bwd σ b (fwd σ a f) = fwd σ a (bwd σ b f) from by
    funext x; simp only [bwd, fwd, hc']; ring, ip_comm, ip_fwd, ip_comm]
  ring

/-- The curl of a vector field is bounded by its differences along the axes. -/
theorem curl_le (σ : Nat → Equiv.Perm ι) (hc : ∀ a b x, σ a (σ b x) = σ b (σ a x)) (E : Nat → ι → K) :
    ip3 (curlF σ E) (curlF σ E) ≤
      ip3 (fun c => fwd σ 0 (E c)) (fun c => fwd σ 0 (E c)) + ip3 (fun c => fwd σ 1 (E c)) (fun c => fwd σ 1 (E c)) +
      ip3 (fun c => fwd σ 2 (E c)) (fun c => fwd σ 2 (E c)) := by
  have sq : ∀ f g : ι → K, ip (fun x => f x - g x) (fun x => f x - g x) = ip f f + ip g g - 2 * ip f g := by
    intro f g
    rw [ip_sub_left, ip_sub_right, ip_sub_right, ip_comm g f]; ring
  have hdiv := ip_self_nonneg (fun x => bwd σ 0 (E 0) x + bwd σ 1 (E 1) x + bwd σ 2 (E 2) x)
  have ex : ip (fun x => bwd σ 0 (E 0) x + bwd σ 1 (E 1) x + bwd σ 2 (E 2) x)
      (fun x => bwd σ 0 (E 0) x + bwd σ 1 (E 1) x + bwd σ 2 (E 2) x) =
      ip (bwd σ 0 (E 0)) (bwd σ 0 (E 0)) + ip (bwd σ 1 (E 1)) (bwd σ 1 (E 1)) + ip (bwd σ 2 (E 2)) (bwd σ 2 (E 2)) +
      2 * (ip (bwd σ 0 (E 0)) (bwd σ 1 (E 1)) + ip (bwd σ 0 (E 0)) (bwd σ 2 (E 2)) +
        ip (bwd σ 1 (E 1)) (bwd σ 2 (E 2))) := by
    rw [show (fun x => bwd σ 0 (E 0) x + bwd σ 1 (E 1) x + bwd σ 2 (E 2) x) =
      fun x => (fun x => bwd σ 0 (E 0) x + bwd σ 1 (E 1) x) x + bwd σ 2 (E 2) x from rfl]
    rw [ip_add_left, ip_add_right, ip_add_right, ip_add_left, ip_add_left, ip_add_right, ip_add_right]
    rw [ip_comm (bwd σ 1 (E 1)) (bwd σ 0 (E 0)), ip_add_left, ip_comm (bwd σ 2 (E 2)) (bwd σ 0 (E 0)),
      ip_comm (bwd σ 2 (E 2)) (bwd σ 1 (E 1))]
    ring
  have c0 : curlF σ E 0 = fun x => fwd σ 1 (E 2) x - fwd σ 2 (E 1) x := rfl
  have c1 : curlF σ E 1 = fun x => fwd σ 2 (E 0) x - fwd σ 0 (E 2) x := rfl
  have c2 : curlF σ E 2 = fun x => fwd σ 0 (E 1) x - fwd σ 1 (E 0) x := rfl
  unfold ip3
  rw [c0, c1, c2, sq, sq, sq, ip_cross σ hc 1 2, ip_cross σ hc 2 0, ip_cross σ hc 0 1, fwd_norm σ 0 (E 0),
    fwd_norm σ 1 (E 1), fwd_norm σ 2 (E 2)]
  rw [ex] at hdiv
  rw [ip_comm (bwd σ 2 (E 2)) (bwd σ 1 (E 1)), ip_comm (bwd σ 1 (E 1)) (bwd σ 0 (E 0))]
  linarith

theorem ip3_self_nonneg (F : Nat → ι → K) : 0 ≤ ip3 F F := by
  unfold ip3
  have := ip_self_nonneg (F 0); have := ip_self_nonneg (F 1); have := ip_self_nonneg (F 2)
  linarith

/-- If the shifts along the axes from `D` on are trivial, the curl is at most `2 √D`. -/
theorem curl_bound (σ : Nat → Equiv.Perm ι) (hc : ∀ a b x, σ a (σ b x) = σ b (σ a x)) {D : Nat}
    (hD : D ∈ [1, 2, 3]) (h1 : ∀ a, D ≤ a → σ a = 1) (E : Nat → ι → K) :
    ip3 (curlF σ E) (curlF σ E) ≤ 4 * (D : K) * ip3 E E := by
  refine (curl_le σ hc E).trans ?_
  have t : ∀ a, ip3 (fun c => fwd σ a (E c)) (fun c => fwd σ a (E c)) ≤ 4 * ip3 E E := by
    intro a
    unfold ip3
    have := fwd_bound σ a (E 0); have := fwd_bound σ a (E 1); have := fwd_bound σ a (E 2)
    linarith
  have z : ∀ a, D ≤ a → ip3 (fun c => fwd σ a (E c)) (fun c => fwd σ a (E c)) = 0 := by
    intro a ha
    have : ∀ c, fwd σ a (E c) = fun _ => (0 : K) := by
      intro c; funext x; simp [fwd, h1 a ha]
    simp [ip3, this, ip]
  have t0 := t 0; have t1 := t 1; have t2 := t 2
  simp only [List.mem_cons, List.not_mem_nil, or_false] at hD
  rcases hD with rfl | rfl | rfl
  · rw [z 1 (by omega), z 2 (by omega)]; push_cast; linarith
  · rw [z 2 (by omega)]; push_cast; linarith
  · push_cast; linarith

theorem ip_cauchy (t : K) (ht : 0 < t) (f g : ι → K) : 2 * |ip f g| ≤ t * ip f f + ip g g / t := by
  have h1 := ip_self_nonneg (fun x => t * f x - g x)
  have h2 := ip_self_nonneg (fun x => t * f x + g x)
  rw [ip_sub_left, ip_sub_right, ip_sub_right, ip_smul_left, ip_smul_left, ip_smul_right, ip_smul_right, ip_comm g f] at h1
  rw [ip_add_left, ip_add_right, ip_add_right, ip_smul_left, ip_smul_left, ip_smul_right, ip_smul_right, ip_comm g f] at h2
  have k1 : 0 ≤ t * ip f f + ip g g / t - 2 * ip f g := by
    have : t * ip f f + ip g g / t - 2 * ip f g = (t * (t * ip f f) - t * ip f g - (t * ip f g - ip g g)) / t := by
      field_simp; ring
    rw [this]; exact div_nonneg h1 ht.le
  have k2 : 0 ≤ t * ip f f + ip g g / t + 2 * ip f g := by
    have : t * ip f f + ip g g / t + 2 * ip f g = (t * (t * ip f f) + t * ip f g + (t * ip f g + ip g g)) / t := by
      field_simp; ring
    rw [this]; exact div_nonneg h2 ht.le
  rcases abs_cases (ip f g) with ⟨h, _⟩ | ⟨h, _⟩ <;> rw [h] <;> linarith

/-- The energy of the leapfrog scheme differs from the ordinary one by a fraction `s`. -/
theorem energy_close (σ : Nat → Equiv.Perm ι) (hc : ∀ a b x, σ a (σ b x) = σ b (σ a x)) {D : Nat}
    (hD : D ∈ [1, 2, 3]) (h1 : ∀ a, D ≤ a → σ a = 1) {l s : K} (hs : 0 < s) (hl : (D : K) * l ^ 2 ≤ s ^ 2)
    (E B : Nat → ι → K) :
    |l * ip3 B (curlF σ E)| ≤ s * (ip3 E E + ip3 B B) := by
  have cb := curl_bound σ hc hD h1 E
  have c3 : 2 * |ip3 B (fun a x => l * curlF σ E a x)| ≤
      2 * s * ip3 B B + ip3 (fun a x => l * curlF σ E a x) (fun a x => l * curlF σ E a x) / (2 * s) := by
    unfold ip3
    have q := fun a => ip_cauchy (2 * s) (by linarith) (B a) (fun x => l * curlF σ E a x)
    have q0 := q 0; have q1 := q 1; have q2 := q 2
    have a1 := abs_add_le (ip (B 0) (fun x => l * curlF σ E 0 x) + ip (B 1) (fun x => l * curlF σ E 1 x))
      (ip (B 2) (fun x => l * curlF σ E 2 x))
    have a2 := abs_add_le (ip (B 0) (fun x => l * curlF σ E 0 x)) (ip (B 1) (fun x => l * curlF σ E 1 x))
    simp only [add_div]
    linarith
  have m1 : ip3 B (fun a x => l * curlF σ E a x) = l * ip3 B (curlF σ E) := by
    unfold ip3; simp only [ip_smul_right]; ring
  have m2 : ip3 (fun a x => l * curlF σ E a x) (fun a x => l * curlF σ E a x) =
      l ^ 2 * ip3 (curlF σ E) (curlF σ E) := by
    unfold ip3; simp only [ip_smul_right, ip_smul_left]; ring
  rw [m1, m2] at c3
  have hE := ip3_self_nonneg E
  have m3 : l ^ 2 * ip3 (curlF σ E) (curlF σ E) / (2 * s) ≤ 2 * s * ip3 E E := by
    rw [div_le_iff₀ (by linarith)]
    have : l ^ 2 * ip3 (curlF σ E) (curlF σ E) ≤ l ^ 2 * (4 * (D : K) * ip3 E E) :=
      mul_le_mul_of_nonneg_left cb (sq_nonneg l)
    have : (D : K) * l ^ 2 * ip3 E E ≤ s ^ 2 * ip3 E E := mul_le_mul_of_nonneg_right hl hE
    linarith
  linarith

end

end Entity.Lattice
