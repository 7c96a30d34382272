import Verif.Lemmas.Deposit

/-!
# Lemmas about the Esirkepov deposit
-/

namespace Entity.Deposit

open Entity Entity.Push Entity.Shapes Entity.Tags

variable {K : Type} [Field K] [LinearOrder K] [IsStrictOrderedRing K]

/-- What `for_deposit` returns: a window `[m, m + d]` of nodes outside of which both the old and the
new shape vanish, and the shapes in it. -/
structure Window (O : Nat) (xi xf : K) (m : Int) (d : Nat) (iS fS : Nat → K) : Prop where
  hd : d = O ∨ d = O + 1
  hi : ∀ j, j ≤ O + 1 → iS j = bspline O (xi - ((m + (j : Int) : Int) : K))
  hf : ∀ j, j ≤ O + 1 → fS j = bspline O (xf - ((m + (j : Int) : Int) : K))
  oi : ∀ n : Int, n < m ∨ m + d < n → bspline O (xi - (n : K)) = 0
  of : ∀ n : Int, n < m ∨ m + d < n → bspline O (xf - (n : K)) = 0
  si : ∑ j ∈ Finset.range (d + 1), bspline O (xi - ((m + (j : Int) : Int) : K)) = 1
  sf : ∑ j ∈ Finset.range (d + 1), bspline O (xf - ((m + (j : Int) : Int) : K)) = 1
  mi : ∑ j ∈ Finset.range (d + 1), (j : K) * bspline O (xi - ((m + (j : Int) : Int) : K)) = xi - m
  mf : ∑ j ∈ Finset.range (d + 1), (j : K) * bspline O (xf - ((m + (j : Int) : Int) : K)) = xf - m

theorem sum_nodes (O : Nat) (h1 : 1 ≤ O) (x : K) (m : Int)
    (l : ((O : K) - 1) / 2 ≤ x - m) (u : x - m ≤ ((O : K) + 1) / 2) :
    ∑ j ∈ Finset.range (O + 1), bspline O (x - ((m + (j : Int) : Int) : K)) = 1 := by
  rw [← window_sum O h1 (x - m) l u]
  refine Finset.sum_congr rfl fun k _ => ?_
  congr 1; push_cast; ring

theorem mean_nodes (O : Nat) (h1 : 1 ≤ O) (x : K) (m : Int)
    (l : ((O : K) - 1) / 2 ≤ x - m) (u : x - m ≤ ((O : K) + 1) / 2) :
    ∑ j ∈ Finset.range (O + 1), (j : K) * bspline O (x - ((m + (j : Int) : Int) : K)) = x - m := by
  have a := window_mean O h1 (x - m) l u
  have b := window_sum O h1 (x - m) l u
  have e : ∑ j ∈ Finset.range (O + 1), (x - m - (j : K)) * bspline O (x - m - (j : K)) =
      (x - m) * ∑ j ∈ Finset.range (O + 1), bspline O (x - m - (j : K)) -
      ∑ j ∈ Finset.range (O + 1), (j : K) * bspline O (x - ((m + (j : Int) : Int) : K)) := by
    rw [Finset.mul_sum, ← Finset.sum_sub_distrib]
    refine Finset.sum_congr rfl fun k _ => ?_
    rw [show x - ((m + (k : Int) : Int) : K) = x - m - k by push_cast; ring]; ring
  rw [e, b] at a
  linear_combination -a

theorem out_nodes (O : Nat) (h1 : 1 ≤ O) (x : K) (m : Int)
    (l : ((O : K) - 1) / 2 ≤ x - m) (u : x - m ≤ ((O : K) + 1) / 2) (n : Int)
    (h : n < m ∨ m + O < n) : bspline O (x - (n : K)) = 0 := by
  have := window_out O h1 (x - m) l u (n - m) (by omega)
  rw [← this]; congr 1; push_cast; ring

theorem forDeposit_spec (O : Nat) (h1 : 1 ≤ O) (h2 : O ≤ 11) (i i' : Int) (d d' : K)
    (d0 : 0 ≤ d) (d1 : d ≤ 1) (d0' : 0 ≤ d') (d1' : d' ≤ 1)
    (hc : |((i' : K) + d') - ((i : K) + d)| < 1) :
    ∃ m M iS fS, forDeposit O i d i' d' = .ok (m, M, iS, fS) ∧ m ≤ M ∧
      Window O ((i : K) + d) ((i' : K) + d') m (M - m).toNat iS fS ∧
      ((O : K) - 1) / 2 ≤ max ((i : K) + d) ((i' : K) + d') - (M - O : Int) ∧
      min ((i : K) + d) ((i' : K) + d') - (m : K) ≤ ((O : K) + 1) / 2 := by
  obtain ⟨m₁, S₁, e₁, s₁, l₁, u₁⟩ := order_spec false O h1 h2 i d d0 d1
  obtain ⟨m₂, S₂, e₂, s₂, l₂, u₂⟩ := order_spec false O h1 h2 i' d' d0' d1'
  simp only [nodeAt_false] at s₁ l₁ u₁ s₂ l₂ u₂
  obtain ⟨hc1, hc2⟩ := abs_lt.mp hc
  have a1 : m₂ - m₁ < 2 := by
    have : (m₂ : K) - m₁ < 2 := by linarith
    exact_mod_cast this
  have a2 : m₁ - m₂ < 2 := by
    have : (m₁ : K) - m₂ < 2 := by linarith
    exact_mod_cast this
  simp only [forDeposit, e₁, e₂, Outcome.bind_ok]
  have o₁ := out_nodes O h1 _ m₁ l₁ u₁
  have o₂ := out_nodes O h1 _ m₂ l₂ u₂
  have t₁ := sum_nodes O h1 _ m₁ l₁ u₁
  have t₂ := sum_nodes O h1 _ m₂ l₂ u₂
  have v₁ := mean_nodes O h1 _ m₁ l₁ u₁
  have v₂ := mean_nodes O h1 _ m₂ l₂ u₂
  by_cases hA : m₁ < m₂
  · have hm : m₂ = m₁ + 1 := by omega
    rw [if_pos hA]
    refine ⟨_, _, _, _, rfl, by omega, ?_, ?_, ?_⟩
    · rw [show (m₁ + (O : Int) + 1 - m₁).toNat = O + 1 by omega]
      constructor
      · exact Or.inr rfl
      · intro j hj
        by_cases hj' : j = O + 1
        · rw [if_pos hj', o₁ _ (by right; omega)]
        · rw [if_neg hj', s₁ j (by omega)]
      · intro j hj
        by_cases hj' : j = 0
        · rw [if_pos hj', o₂ _ (by left; omega)]
        · rw [if_neg hj', s₂ (j - 1) (by omega), hm,
            show m₁ + 1 + ((j - 1 : Nat) : Int) = m₁ + (j : Int) by omega]
      · intro n hn; exact o₁ n (by omega)
      · intro n hn; exact o₂ n (by omega)
      · rw [Finset.sum_range_succ, t₁, o₁ _ (by right; omega), add_zero]
      · rw [Finset.sum_range_succ', o₂ _ (by left; push_cast; omega), add_zero, ← t₂]
        refine Finset.sum_congr rfl fun k _ => ?_
        rw [show m₁ + ((k + 1 : Nat) : Int) = m₂ + (k : Int) by push_cast; omega]
      · rw [Finset.sum_range_succ, v₁, o₁ _ (by right; omega), mul_zero, add_zero]
      · have e : ∑ k ∈ Finset.range (O + 1), ((k + 1 : Nat) : K) *
            bspline O (((i' : K) + d') - ((m₁ + ((k + 1 : Nat) : Int) : Int) : K)) =
            ∑ k ∈ Finset.range (O + 1), (k : K) * bspline O (((i' : K) + d') - ((m₂ + (k : Int) : Int) : K)) +
            ∑ k ∈ Finset.range (O + 1), bspline O (((i' : K) + d') - ((m₂ + (k : Int) : Int) : K)) := by
          rw [← Finset.sum_add_distrib]
          refine Finset.sum_congr rfl fun k _ => ?_
          rw [show m₁ + ((k + 1 : Nat) : Int) = m₂ + (k : Int) by push_cast; omega]; push_cast; ring
        rw [Finset.sum_range_succ', e, v₂, t₂, hm]; push_cast; ring
    · refine le_trans l₂ (sub_le_sub (le_max_right _ _) ?_)
      rw [show m₁ + (O : Int) + 1 - O = m₂ by omega]
    · exact le_trans (sub_le_sub_right (min_le_left _ _) _) u₁
  · rw [if_neg hA]
    by_cases hB : m₁ > m₂
    · have hm : m₁ = m₂ + 1 := by omega
      rw [if_pos hB]
      refine ⟨_, _, _, _, rfl, by omega, ?_, ?_, ?_⟩
      · rw [show (m₂ + (O : Int) + 1 - m₂).toNat = O + 1 by omega]
        constructor
        · exact Or.inr rfl
        · intro j hj
          by_cases hj' : j = 0
          · rw [if_pos hj', o₁ _ (by left; omega)]
          · rw [if_neg hj', s₁ (j - 1) (by omega), hm,
              show m₂ + 1 + ((j - 1 : Nat) : Int) = m₂ + (j : Int) by omega]
        · intro j hj
          by_cases hj' : j = O + 1
          · rw [if_pos hj', o₂ _ (by right; omega)]
          · rw [if_neg hj', s₂ j (by omega)]
        · intro n hn; exact o₁ n (by omega)
        · intro n hn; exact o₂ n (by omega)
        · rw [Finset.sum_range_succ', o₁ _ (by left; push_cast; omega), add_zero, ← t₁]
          refine Finset.sum_congr rfl fun k _ => ?_
          rw [show m₂ + ((k + 1 : Nat) : Int) = m₁ + (k : Int) by push_cast; omega]
        · rw [Finset.sum_range_succ, t₂, o₂ _ (by right; omega), add_zero]
        · have e : ∑ k ∈ Finset.range (O + 1), ((k + 1 : Nat) : K) *
              bspline O (((i : K) + d) - ((m₂ + ((k + 1 : Nat) : Int) : Int) : K)) =
              ∑ k ∈ Finset.range (O + 1), (k : K) * bspline O (((i : K) + d) - ((m₁ + (k : Int) : Int) : K)) +
              ∑ k ∈ Finset.range (O + 1), bspline O (((i : K) + d) - ((m₁ + (k : Int) : Int) : K)) := by
            rw [← Finset.sum_add_distrib]
            refine Finset.sum_congr rfl fun k _ => ?_
            rw [show m₂ + ((k + 1 : Nat) : Int) = m₁ + (k : Int) by push_cast; omega]; push_cast; ring
          rw [Finset.sum_range_succ', e, v₁, t₁, hm]; push_cast; ring
        · rw [Finset.sum_range_succ, v₂, o₂ _ (by right; omega), mul_zero, add_zero]
      · refine le_trans l₁ (sub_le_sub (le_max_left _ _) ?_)
        rw [show m₂ + (O : Int) + 1 - O = m₁ by omega]
      · exact le_trans (sub_le_sub_right (min_le_right _ _) _) u₂
    · have hm : m₂ = m₁ := by omega
      subst hm
      rw [if_neg hB]
      refine ⟨_, _, _, _, rfl, by omega, ?_, ?_, ?_⟩
      · rw [show (m₂ + (O : Int) - m₂).toNat = O by omega]
        constructor
        · exact Or.inl rfl
        · intro j hj
          by_cases hj' : j = O + 1
          · rw [if_pos hj', o₁ _ (by right; omega)]
          · rw [if_neg hj', s₁ j (by omega)]
        · intro j hj
          by_cases hj' : j = O + 1
          · rw [if_pos hj', o₂ _ (by right; omega)]
          · rw [if_neg hj', s₂ j (by omega)]
        · intro n hn; exact o₁ n (by omega)
        · intro n hn; exact o₂ n (by omega)
        · exact t₁
        · exact t₂
        · exact v₁
        · exact v₂
      · refine le_trans l₁ (sub_le_sub (le_max_left _ _) ?_)
        rw [show m₂ + (O : Int) - O = m₂ by omega]
      · exact le_trans (sub_le_sub_right (min_le_left _ _) _) u₁

/-! ## Running sums -/

theorem runSum_eq (q : K) (w : Nat → K) (i : Nat) :
    runSum q w i = -q * ∑ k ∈ Finset.range (i + 1), w k := by
  induction i with
  | zero => simp [runSum]
  | succ i ih => rw [runSum, ih, Finset.sum_range_succ _ (i + 1)]; ring

/-- The flux written along an axis: inside `[m, m + d)` the running sum, elsewhere nothing. -/
def flux (q : K) (m : Int) (d : Nat) (w : Nat → K) (n : Int) : K :=
  if m ≤ n ∧ n < m + d then runSum q w (n - m).toNat else 0

theorem flux_diff (q : K) (m : Int) (d : Nat) (w : Nat → K) (g : Int → K)
    (hw : ∀ j, j ≤ d → w j = g (m + j)) (hout : ∀ n : Int, n < m ∨ m + d < n → g n = 0)
    (hsum : ∑ j ∈ Finset.range (d + 1), g (m + j) = 0) (n : Int) :
    flux q m d w n - flux q m d w (n - 1) = -q * g n := by
  unfold flux
  rcases lt_or_ge n m with h | h
  · rw [if_neg (by omega), if_neg (by omega), hout n (Or.inl h)]; ring
  obtain ⟨i, rfl⟩ : ∃ i : Nat, n = m + i := ⟨(n - m).toNat, by omega⟩
  rw [show (m + (i : Int) - m).toNat = i by omega]
  have hs : ∑ j ∈ Finset.range (d + 1), w j = 0 := by
    rw [← hsum]
    exact Finset.sum_congr rfl fun k hk => hw k (by simp at hk; omega)
  rcases lt_trichotomy i d with hi | hi | hi
  · rw [if_pos (by omega)]
    rcases Nat.eq_zero_or_pos i with h0 | h0
    · subst h0
      rw [if_neg (by omega), runSum, hw 0 (by omega)]; push_cast; ring
    · rw [if_pos (by omega), show (m + (i : Int) - 1 - m).toNat = i - 1 by omega]
      obtain ⟨k, rfl⟩ : ∃ k, i = k + 1 := ⟨i - 1, by omega⟩
      rw [show k + 1 - 1 = k by omega, runSum, hw (k + 1) (by omega)]; ring
  · subst hi
    rw [if_neg (by omega)]
    rcases Nat.eq_zero_or_pos i with h0 | h0
    · subst h0
      rw [if_neg (by omega)]
      simp at hs
      rw [← hw 0 (by omega), hs]; ring
    · rw [if_pos (by omega), show (m + (i : Int) - 1 - m).toNat = i - 1 by omega, runSum_eq,
        show i - 1 + 1 = i by omega]
      rw [Finset.sum_range_succ, hw i le_rfl] at hs
      linear_combination q * hs
  · rw [if_neg (by omega), if_neg (by omega), hout _ (by right; omega)]; ring

/-! ## Sums over loops of updates -/

theorem sum_range_ite (d : Nat) (m n : Int) (f : Nat → K) :
    ((List.range d).map (fun i : Nat => if m + (i : Int) = n then f i else 0)).sum =
      if m ≤ n ∧ n < m + d then f (n - m).toNat else 0 := by
  induction d with
  | zero => rw [if_neg (by omega)]; simp
  | succ d ih =>
    rw [List.range_succ, List.map_append, List.sum_append, ih]
    simp only [List.map_cons, List.map_nil, List.sum_cons, List.sum_nil, add_zero]
    by_cases h : m + (d : Int) = n
    · rw [if_neg (by omega), if_pos h, if_pos (by push_cast; omega), zero_add]
      congr 1; omega
    · rw [if_neg h, add_zero]
      by_cases h' : m ≤ n ∧ n < m + d
      · rw [if_pos h', if_pos (by push_cast; omega)]
      · rw [if_neg h', if_neg (by push_cast; omega)]

theorem sum_zero_list {α : Type} (l : List α) : (l.map (fun _ => (0 : K))).sum = 0 := by
  induction l with
  | nil => rfl
  | cons a l ih => simp [ih]

theorem total_flatMap {α : Type} (l : List α) (f : α → List (Upd K)) (c : Nat) (n : List Int) :
    total (l.flatMap f) c n = (l.map (fun a => total (f a) c n)).sum := by
  induction l with
  | nil => rfl
  | cons a l ih => rw [List.flatMap_cons, total_append, ih]; simp

theorem total_other (us : List (Upd K)) (c : Nat) (n : List Int) (h : ∀ u ∈ us, u.comp ≠ c) :
    total us c n = 0 := by
  induction us with
  | nil => rfl
  | cons u us ih =>
    rw [total_cons, if_neg (fun h' => h u List.mem_cons_self h'.1),
      ih (fun v hv => h v (List.mem_cons_of_mem _ hv)), zero_add]

theorem total_loop1 (c d : Nat) (m n : Int) (f : Nat → K) :
    total ((List.range d).map (fun i : Nat => (⟨c, [m + i], f i⟩ : Upd K))) c [n] =
      if m ≤ n ∧ n < m + d then f (n - m).toNat else 0 := by
  rw [← sum_range_ite]
  unfold total
  rw [List.map_map]
  congr 1
  apply List.map_congr_left
  intro i _
  simp

theorem total_loop2 (c d₁ d₂ : Nat) (m₁ m₂ n₁ n₂ : Int) (f : Nat → Nat → K) :
    total ((List.range d₁).flatMap (fun i : Nat => (List.range d₂).map (fun j : Nat =>
      (⟨c, [m₁ + i, m₂ + j], f i j⟩ : Upd K)))) c [n₁, n₂] =
      if m₁ ≤ n₁ ∧ n₁ < m₁ + d₁ then
        if m₂ ≤ n₂ ∧ n₂ < m₂ + d₂ then f (n₁ - m₁).toNat (n₂ - m₂).toNat else 0
      else 0 := by
  rw [total_flatMap]
  rw [← sum_range_ite d₁ m₁ n₁ (fun i => if m₂ ≤ n₂ ∧ n₂ < m₂ + d₂ then f i (n₂ - m₂).toNat else 0)]
  congr 1
  apply List.map_congr_left
  intro i _
  rw [← sum_range_ite]
  unfold total
  rw [List.map_map]
  by_cases h : m₁ + (i : Int) = n₁
  · rw [if_pos h]
    congr 1
    apply List.map_congr_left
    intro j _
    simp [h]
  · rw [if_neg h, ← sum_zero_list (K := K) (List.range d₂)]
    congr 1
    apply List.map_congr_left
    intro j _
    simp [h]

theorem total_loop3 (c d₁ d₂ d₃ : Nat) (m₁ m₂ m₃ n₁ n₂ n₃ : Int) (f : Nat → Nat → Nat → K) :
    total ((List.range d₁).flatMap (fun i : Nat => (List.range d₂).flatMap (fun j : Nat =>
      (List.range d₃).map (fun k : Nat =>
        (⟨c, [m₁ + i, m₂ + j, m₃ + k], f i j k⟩ : Upd K))))) c [n₁, n₂, n₃] =
      if m₁ ≤ n₁ ∧ n₁ < m₁ + d₁ then
        if m₂ ≤ n₂ ∧ n₂ < m₂ + d₂ then
          if m₃ ≤ n₃ ∧ n₃ < m₃ + d₃ then f (n₁ - m₁).toNat (n₂ - m₂).toNat (n₃ - m₃).toNat else 0
        else 0
      else 0 := by
  rw [total_flatMap]
  rw [← sum_range_ite d₁ m₁ n₁ (fun i => if m₂ ≤ n₂ ∧ n₂ < m₂ + d₂ then
    if m₃ ≤ n₃ ∧ n₃ < m₃ + d₃ then f i (n₂ - m₂).toNat (n₃ - m₃).toNat else 0 else 0)]
  congr 1
  apply List.map_congr_left
  intro i _
  by_cases h : m₁ + (i : Int) = n₁
  · rw [if_pos h, ← total_loop2 c]
    rw [total_flatMap, total_flatMap]
    congr 1
    apply List.map_congr_left
    intro j _
    unfold total
    rw [List.map_map, List.map_map]
    congr 1
    apply List.map_congr_left
    intro k _
    simp [h]
  · rw [if_neg h]
    unfold total
    rw [← sum_zero_list (K := K) ((List.range d₂).flatMap (fun j : Nat =>
      (List.range d₃).map (fun k : Nat =>
        (⟨c, [m₁ + i, m₂ + j, m₃ + k], f i j k⟩ : Upd K))))]
    congr 1
    apply List.map_congr_left
    intro u hu
    simp only [List.mem_flatMap, List.mem_map] at hu
    obtain ⟨j, _, k, _, rfl⟩ := hu
    simp [h]

theorem mem_comp1 {c d : Nat} {idx : Nat → List Int} {f : Nat → K} {u : Upd K}
    (h : u ∈ (List.range d).map (fun i : Nat => (⟨c, idx i, f i⟩ : Upd K))) : u.comp = c := by
  simp only [List.mem_map] at h; obtain ⟨_, _, rfl⟩ := h; rfl

end Entity.Deposit
