import Verif.Model.Decomp
import Mathlib.Tactic.Linarith
import Mathlib.Tactic.Ring
import Mathlib.Data.Nat.ModEq
import Mathlib.Tactic.NormNum

/-!
# C01, C02: splitting the grid among the domains
-/

namespace Entity.Decomp

open Entity

/-! ## C01 -/

theorem incrFirst_replicate (k n s : Nat) (h : k ≤ n) :
    incrFirst k (List.replicate n s) =
      some (List.replicate k (s + 1) ++ List.replicate (n - k) s) := by
  induction k generalizing n with
  | zero => simp [incrFirst]
  | succ k ih =>
    obtain ⟨m, rfl⟩ : ∃ m, n = m + 1 := ⟨n - 1, by omega⟩
    simp only [List.replicate_succ, incrFirst]
    rw [ih m (by omega)]
    simp

theorem decompose1D_eq (k n : Nat) (hk : 0 < k) :
    decompose1D k n =
      if n < 5 * k then .err
      else .ok (List.replicate (n % k) (n / k + 1) ++ List.replicate (k - n % k) (n / k)) := by
  have hr : n - n / k * k = n % k := by
    have := Nat.div_add_mod n k
    rw [Nat.mul_comm] at this
    omega
  have hlt : n % k < k := Nat.mod_lt _ hk
  have hdm : k * (n / k) + n % k = n := Nat.div_add_mod n k
  unfold decompose1D
  rw [if_neg (by omega)]
  simp only [hr]
  simp only [incrFirst_replicate _ _ _ hlt.le]
  have hsum : (List.replicate (n % k) (n / k + 1) ++ List.replicate (k - n % k) (n / k)).sum = n := by
    simp only [List.sum_append, List.sum_replicate_nat]
    have : (k - n % k) * (n / k) + n % k * (n / k) = k * (n / k) := by
      rw [← Nat.add_mul]; congr 1; omega
    rw [Nat.mul_add]; omega
  rw [if_neg (by simpa using hsum), if_neg (by simp; omega)]
  by_cases h5 : n < 5 * k
  · have hq : n / k < 5 := (Nat.div_lt_iff_lt_mul hk).2 h5
    rw [if_pos h5, if_pos]
    simp only [List.any_append, List.any_replicate, Bool.or_eq_true, decide_eq_true_eq]
    right
    rw [if_neg (by omega)]
    simpa using hq
  · have hq : 5 ≤ n / k := (Nat.le_div_iff_mul_le hk).2 (by omega)
    rw [if_neg h5, if_neg]
    simp only [List.any_append, List.any_replicate, Bool.or_eq_true, decide_eq_true_eq]
    split <;> split <;> simp <;> omega

/-- **C01.** For a positive number `k` of domains, `decompose1D` never reaches undefined
behaviour; it fails exactly when there are fewer than 5 cells per domain; when it returns, it
returns `k` sizes of at least 5 cells that add up to `n` and differ by at most one. -/
theorem C01_decompose1D (k n : Nat) (hk : 0 < k) :
    decompose1D k n ≠ .ub ∧
    (decompose1D k n = .err ↔ n < 5 * k) ∧
    ∀ v, decompose1D k n = .ok v →
      v.length = k ∧ v.sum = n ∧ (∀ x ∈ v, 5 ≤ x) ∧ ∀ x ∈ v, ∀ y ∈ v, x ≤ y + 1 := by
  have hlt : n % k < k := Nat.mod_lt _ hk
  have hdm : k * (n / k) + n % k = n := Nat.div_add_mod n k
  rw [decompose1D_eq k n hk]
  refine ⟨by split <;> simp, by split <;> simp_all, ?_⟩
  intro v hv
  split at hv
  · simp at hv
  rename_i h5
  have hq : 5 ≤ n / k := (Nat.le_div_iff_mul_le hk).2 (by omega)
  simp only [Outcome.ok.injEq] at hv
  subst hv
  refine ⟨by simp; omega, ?_, ?_, ?_⟩
  · simp only [List.sum_append, List.sum_replicate_nat]
    have : (k - n % k) * (n / k) + n % k * (n / k) = k * (n / k) := by
      rw [← Nat.add_mul]; congr 1; omega
    rw [Nat.mul_add]; omega
  · intro x hx
    simp only [List.mem_append, List.mem_replicate] at hx
    omega
  · intro x hx y hy
    simp only [List.mem_append, List.mem_replicate] at hx hy
    omega

/-- 23 cells on 4 domains. -/
example : decompose1D 4 23 = .ok [6, 6, 6, 5] := by decide

/-! ## C02 -/

theorem nextDivisor_ok (ntot n1 r : Nat) (h : nextDivisor ntot n1 = .ok r) :
    ntot % r = 0 ∧ n1 ≤ r := by
  fun_induction nextDivisor ntot n1 with
  | case1 n1 h0 => simp at h; subst h; exact ⟨h0, le_refl _⟩
  | case2 => simp at h
  | case3 n1 _ _ ih => have := ih h; exact ⟨this.1, by omega⟩

theorem nextDivisor_total (ntot n1 : Nat) (hle : n1 ≤ ntot) :
    ∃ r, nextDivisor ntot n1 = .ok r := by
  fun_induction nextDivisor ntot n1 with
  | case1 n1 h0 => exact ⟨_, rfl⟩
  | case2 n1 h0 h1 =>
    have : n1 = ntot := by omega
    subst this; simp at h0
  | case3 n1 _ _ ih => exact ih (by omega)

/-- The 2D helper always returns, and what it returns multiplies to the number of ranks, for
every value of the floating-point guess. -/
theorem divideInProportions2D_spec (guess ntot : Nat) :
    ∃ n1 n2, divideInProportions2D guess ntot = .ok (n1, n2) ∧ n1 * n2 = ntot := by
  unfold divideInProportions2D
  split
  · exact ⟨1, ntot, rfl, by simp⟩
  split
  · exact ⟨ntot, 1, rfl, by simp⟩
  · rename_i h0 h1
    obtain ⟨r, hr⟩ := nextDivisor_total ntot guess (by omega)
    refine ⟨r, ntot / r, by simp [hr], ?_⟩
    exact Nat.mul_div_cancel' (Nat.dvd_of_mod_eq_zero (nextDivisor_ok _ _ _ hr).1)

theorem divideInProportions3D_spec (guess : Nat) (guess2 : Nat → Nat) (ntot : Nat)
    (hn : 0 < ntot) :
    ∃ n1 n2 n3, divideInProportions3D guess guess2 ntot = .ok (n1, n2, n3) ∧
      n1 * n2 * n3 = ntot := by
  unfold divideInProportions3D
  split
  · exact ⟨ntot, 1, 1, rfl, by simp⟩
  · rename_i h1
    obtain ⟨r, hr⟩ := nextDivisor_total ntot (if guess = 0 then 1 else guess) (by split <;> omega)
    obtain ⟨a, b, hab, hmul⟩ := divideInProportions2D_spec (guess2 (ntot / r)) (ntot / r)
    refine ⟨r, a, b, by simp [hr, hab], ?_⟩
    rw [Nat.mul_assoc, hmul]
    exact Nat.mul_div_cancel' (Nat.dvd_of_mod_eq_zero (nextDivisor_ok _ _ _ hr).1)

theorem toNat_pos {d : Int} (h : d > 0) : 0 < d.toNat := by omega

/-- What the 2D branch selects multiplies to the number of ranks, if the product of the two
numbers fits into 32 bits. -/
theorem choose2D_ok (guess : Nat → Nat) (nd : Nat) (d1 d2 : Int) (n1 n2 : Nat)
    (h : choose2D guess nd d1 d2 = .ok (n1, n2)) (hfit : n1 * n2 < 2 ^ 32) : n1 * n2 = nd := by
  unfold choose2D at h
  split at h
  · split at h
    · simp at h
    · rename_i hm
      simp only [Outcome.ok.injEq, Prod.mk.injEq] at h
      obtain ⟨rfl, rfl⟩ := h
      exact Nat.div_mul_cancel (Nat.dvd_of_mod_eq_zero (by omega))
  · rw [Outcome.bind_eq_ok] at h
    obtain ⟨⟨a, b⟩, _, h2⟩ := h
    simp only at h2
    split at h2
    · simp at h2
    · rename_i hm
      simp only [Outcome.ok.injEq, Prod.mk.injEq] at h2
      obtain ⟨rfl, rfl⟩ := h2
      simp only [ne_eq, not_not] at hm
      unfold mulU32 at hm
      rwa [Nat.mod_eq_of_lt hfit] at hm

theorem choose3D_ok (guess : Nat → Nat) (g3 nd : Nat) (d1 d2 d3 : Int) (n1 n2 n3 : Nat)
    (h : choose3D guess g3 nd d1 d2 d3 = .ok (n1, n2, n3)) (hfit : n1 * n2 * n3 < 2 ^ 32)
    (hnd : 0 < nd) : n1 * n2 * n3 = nd := by
  unfold choose3D at h
  rw [Outcome.bind_eq_ok] at h
  obtain ⟨⟨a, b, c⟩, _, h2⟩ := h
  simp only at h2
  split at h2
  · simp at h2
  · rename_i hm
    simp only [Outcome.ok.injEq, Prod.mk.injEq] at h2
    obtain ⟨rfl, rfl, rfl⟩ := h2
    simp only [ne_eq, not_not] at hm
    unfold mulU32 at hm
    rcases Nat.eq_zero_or_pos c with hc | hc
    · subst hc; simp at hm; omega
    · have h12 : a * b < 2 ^ 32 := by
        have : a * b ≤ a * b * c := Nat.le_mul_of_pos_right _ hc
        omega
      rw [Nat.mod_eq_of_lt h12, Nat.mod_eq_of_lt hfit] at hm
      exact hm

/-- Number of domains along each axis as seen from the returned lists of sizes. -/
def counts (v : List (List Nat)) : List Nat := v.map List.length

theorem decompose1D_ok_len {k n : Nat} {v : List Nat} (h : decompose1D k n = .ok v) :
    v.length = k ∧ v.sum = n := by
  rcases Nat.eq_zero_or_pos k with rfl | hk
  · simp [decompose1D] at h
  · have := (C01_decompose1D k n hk).2.2 v h
    exact ⟨this.1, this.2.1⟩

/-- **C02 (partial).** For every positive number of ranks, every grid, every decomposition
request and every value of the floating-point guesses: when `Decompose` returns, the product of
the numbers of domains along the axes is the number of ranks and along each axis the sizes add up
to the number of cells — provided that product fits into 32 bits.  Missing for the full statement:
the products are computed in 32 bits, see `C02_wraparound_counterexample`. -/
theorem C02_decompose_partial (guess : Nat → Nat) (g3 nd : Nat) (hnd : 0 < nd)
    (ncells : List Nat) (dec : List Int) (v : List (List Nat))
    (h : decompose guess g3 nd ncells dec = .ok v) (hfit : (counts v).prod < 2 ^ 32) :
    (counts v).prod = nd ∧ v.map List.sum = ncells := by
  unfold decompose at h
  split at h
  · simp at h
  split at h
  · rw [Outcome.bind_eq_ok] at h
    obtain ⟨a, ha, h2⟩ := h
    simp only [Outcome.pure_eq, Outcome.ok.injEq] at h2; subst h2
    have := decompose1D_ok_len ha
    simp [counts, this]
  · rw [Outcome.bind_eq_ok] at h
    obtain ⟨⟨n1, n2⟩, hc, h⟩ := h
    simp only [Outcome.bind_eq_ok] at h
    obtain ⟨a, ha, b, hb, h⟩ := h
    simp only [Outcome.pure_eq, Outcome.ok.injEq] at h; subst h
    have la := decompose1D_ok_len ha
    have lb := decompose1D_ok_len hb
    simp only [counts, List.map_cons, List.map_nil, List.prod_cons, List.prod_nil, mul_one,
      la.1, lb.1, la.2, lb.2] at hfit ⊢
    exact ⟨choose2D_ok _ _ _ _ _ _ hc hfit, trivial⟩
  · rw [Outcome.bind_eq_ok] at h
    obtain ⟨⟨n1, n2, n3⟩, hc, h⟩ := h
    simp only [Outcome.bind_eq_ok] at h
    obtain ⟨a, ha, b, hb, c, hcc, h⟩ := h
    simp only [Outcome.pure_eq, Outcome.ok.injEq] at h; subst h
    have la := decompose1D_ok_len ha
    have lb := decompose1D_ok_len hb
    have lc := decompose1D_ok_len hcc
    simp only [counts, List.map_cons, List.map_nil, List.prod_cons, List.prod_nil, mul_one,
      la.1, lb.1, lc.1, la.2, lb.2, lc.2] at hfit ⊢
    rw [← mul_assoc] at hfit ⊢
    exact ⟨choose3D_ok _ _ _ _ _ _ _ _ _ hc hfit hnd, trivial⟩
  · simp at h

/-- For fully automatic decompositions the product needs no assumption on its size. -/
theorem C02_decompose_auto (guess : Nat → Nat) (g3 nd : Nat) (hnd : 0 < nd)
    (hnd32 : nd < 2 ^ 32) :
    (∃ n1 n2, choose2D guess nd (-1) (-1) = .ok (n1, n2) ∧ n1 * n2 = nd) ∧
    (∃ n1 n2 n3, choose3D guess g3 nd (-1) (-1) (-1) = .ok (n1, n2, n3) ∧ n1 * n2 * n3 = nd) := by
  constructor
  · obtain ⟨a, b, hab, hm⟩ := divideInProportions2D_spec (guess nd) nd
    refine ⟨a, b, ?_, hm⟩
    unfold choose2D
    simp [hab, mulU32, hm]
    omega
  · obtain ⟨a, b, c, hab, hm⟩ := divideInProportions3D_spec g3 guess nd hnd
    refine ⟨a, b, c, ?_, hm⟩
    unfold choose3D
    have h12 : a * b < 2 ^ 32 := by
      rcases Nat.eq_zero_or_pos c with hc | hc
      · subst hc; simp at hm; omega
      · have : a * b ≤ a * b * c := Nat.le_mul_of_pos_right _ hc
        omega
    simp [hab, mulU32, hm]
    omega

/-- Six ranks on a 40 x 60 grid; the guess is `floor (sqrt (6*40/60)) = 2`. -/
example : decompose (fun _ => 2) 0 6 [40, 60] [-1, -1] = .ok [[20, 20], [20, 20, 20]] := by
  decide +kernel

/-- **C02 fails without the 32-bit condition:** 641 * 6700417 = 2^32 + 1, so on a single rank the
decomposition request `{641, 6700417}` passes the product check and 641 * 6700417 domains are
selected. -/
theorem C02_wraparound_counterexample :
    choose2D (fun _ => 0) 1 641 6700417 = .ok (641, 6700417) ∧ 641 * 6700417 ≠ 1 := by
  decide +kernel

theorem choose2D_request {guess : Nat → Nat} {nd : Nat} {d1 d2 : Int} {n1 n2 : Nat}
    (h : choose2D guess nd d1 d2 = .ok (n1, n2)) :
    (d1 > 0 → n1 = d1.toNat) ∧ (d2 > 0 → n2 = d2.toNat) := by
  unfold choose2D at h
  split at h
  · split at h
    · simp at h
    · simp only [Outcome.ok.injEq, Prod.mk.injEq] at h
      obtain ⟨rfl, rfl⟩ := h
      exact ⟨fun _ => by omega, fun _ => rfl⟩
  · rw [Outcome.bind_eq_ok] at h
    obtain ⟨⟨a, b⟩, h1, h2⟩ := h
    simp only at h2
    split at h2
    · simp at h2
    simp only [Outcome.ok.injEq, Prod.mk.injEq] at h2
    obtain ⟨rfl, rfl⟩ := h2
    split at h1
    · simp only [Outcome.ok.injEq, Prod.mk.injEq] at h1
      obtain ⟨rfl, rfl⟩ := h1
      exact ⟨fun _ => rfl, fun _ => rfl⟩
    · split at h1
      · split at h1
        · simp at h1
        · simp only [Outcome.ok.injEq, Prod.mk.injEq] at h1
          obtain ⟨rfl, rfl⟩ := h1
          exact ⟨fun _ => rfl, fun _ => by omega⟩
      · split at h1
        · exact ⟨fun _ => by omega, fun _ => by omega⟩
        · simp at h1

theorem choose3D_request {guess : Nat → Nat} {g3 nd : Nat} (hnd : 0 < nd) {d1 d2 d3 : Int}
    {n1 n2 n3 : Nat} (h : choose3D guess g3 nd d1 d2 d3 = .ok (n1, n2, n3)) :
    (d1 > 0 → n1 = d1.toNat) ∧ (d2 > 0 → n2 = d2.toNat) ∧ (d3 > 0 → n3 = d3.toNat) := by
  unfold choose3D at h
  rw [Outcome.bind_eq_ok] at h
  obtain ⟨⟨a, b, c⟩, h1, h2⟩ := h
  simp only at h2
  split at h2
  · simp at h2
  rename_i hm
  simp only [Outcome.ok.injEq, Prod.mk.injEq] at h2
  obtain ⟨rfl, rfl, rfl⟩ := h2
  repeat' split at h1
  all_goals try (simp at h1; done)
  all_goals try simp only [Outcome.bind_eq_ok, Outcome.pure_eq, Outcome.ok.injEq, Prod.mk.injEq, Prod.exists] at h1
  · obtain ⟨rfl, rfl, rfl⟩ := h1; exact ⟨fun _ => rfl, fun _ => rfl, fun _ => rfl⟩
  · obtain ⟨_, _, rfl, rfl, rfl⟩ := h1; exact ⟨fun _ => by omega, fun _ => rfl, fun _ => rfl⟩
  · obtain ⟨_, _, rfl, rfl, rfl⟩ := h1; exact ⟨fun _ => rfl, fun _ => by omega, fun _ => rfl⟩
  · obtain ⟨_, _, rfl, rfl, rfl⟩ := h1; exact ⟨fun _ => rfl, fun _ => rfl, fun _ => by omega⟩
  · obtain ⟨_, _, _, rfl, rfl, rfl⟩ := h1; exact ⟨fun _ => by omega, fun _ => by omega, fun _ => rfl⟩
  · obtain ⟨_, _, _, rfl, rfl, rfl⟩ := h1; exact ⟨fun _ => by omega, fun _ => rfl, fun _ => by omega⟩
  · obtain ⟨_, _, _, rfl, rfl, rfl⟩ := h1; exact ⟨fun _ => rfl, fun _ => by omega, fun _ => by omega⟩
  · exact ⟨fun _ => by omega, fun _ => by omega, fun _ => by omega⟩
  · obtain ⟨rfl, rfl, rfl⟩ := h1
    simp [mulU32] at hm; omega

/-- **C02**, in two and three dimensions: every axis for which the user asks for a positive number of
domains gets that number. -/
theorem C02_request (guess : Nat → Nat) (g3 nd : Nat) (hnd : 0 < nd)
    (ncells : List Nat) (dec : List Int) (v : List (List Nat)) (hdim : 1 < dec.length)
    (h : decompose guess g3 nd ncells dec = .ok v) (i : Nat) (d : Int) (hi : dec[i]? = some d)
    (hd : d > 0) : (counts v)[i]? = some d.toNat := by
  unfold decompose at h
  split at h
  · simp at h
  split at h
  · simp at hdim
  · rw [Outcome.bind_eq_ok] at h
    obtain ⟨⟨n1, n2⟩, hc, h⟩ := h
    simp only [Outcome.bind_eq_ok] at h
    obtain ⟨a, ha, b, hb, h⟩ := h
    simp only [Outcome.pure_eq, Outcome.ok.injEq] at h; subst h
    have la := (decompose1D_ok_len ha).1
    have lb := (decompose1D_ok_len hb).1
    have hr := choose2D_request hc
    rcases i with _ | _ | i
    · simp only [List.getElem?_cons_zero, Option.some.injEq] at hi
      subst hi; simp [counts, la, hr.1 hd]
    · simp only [List.getElem?_cons_zero, List.getElem?_cons_succ, Option.some.injEq] at hi
      subst hi; simp [counts, lb, hr.2 hd]
    · simp at hi
  · rw [Outcome.bind_eq_ok] at h
    obtain ⟨⟨n1, n2, n3⟩, hc, h⟩ := h
    simp only [Outcome.bind_eq_ok] at h
    obtain ⟨a, ha, b, hb, c, hcc, h⟩ := h
    simp only [Outcome.pure_eq, Outcome.ok.injEq] at h; subst h
    have la := (decompose1D_ok_len ha).1
    have lb := (decompose1D_ok_len hb).1
    have lc := (decompose1D_ok_len hcc).1
    have hr := choose3D_request hnd hc
    rcases i with _ | _ | _ | i
    · simp only [List.getElem?_cons_zero, Option.some.injEq] at hi
      subst hi; simp [counts, la, hr.1 hd]
    · simp only [List.getElem?_cons_zero, List.getElem?_cons_succ, Option.some.injEq] at hi
      subst hi; simp [counts, lb, hr.2.1 hd]
    · simp only [List.getElem?_cons_zero, List.getElem?_cons_succ, Option.some.injEq] at hi
      subst hi; simp [counts, lc, hr.2.2 hd]
    · simp at hi
  · simp at h

/-- Two of three axes given, twelve ranks. -/
example : decompose (fun _ => 2) 0 12 [40, 60, 30] [2, -1, 3] =
    .ok [[20, 20], [30, 30], [10, 10, 10]] := by decide +kernel

/-- In one dimension the request is ignored: three domains are asked for, two are made. -/
theorem C02_request_1D_counterexample :
    decompose (fun _ => 0) 0 2 [10] [3] = .ok [[5, 5]] := by decide +kernel

end Entity.Decomp
