import Verif.Model.Diag
import Verif.Spec.Diag
import Mathlib.Tactic.Linarith
import Mathlib.Tactic.FieldSimp
import Mathlib.Tactic.Ring
import Mathlib.Algebra.Order.BigOperators.Group.List

/-!
# Lemmas about durations, the history of time steps and timers
-/

namespace Entity.Diag
open Spec

section Field
variable {K : Type} [Field K] [LinearOrder K] [IsStrictOrderedRing K] [FloorRing K]

omit [LinearOrder K] [IsStrictOrderedRing K] [FloorRing K] in
theorem units_find (i : Nat) (u : String) (U : K) (h : (units (K := K))[i]? = some (u, U)) :
    (units (K := K)).findIdx? (fun pr => pr.1 == u) = some i := by
  rcases i with _ | _ | _ | _ | _ | i <;> simp [units] at h
  all_goals obtain ⟨rfl, _⟩ := h; simp [units, List.findIdx?_cons]

omit [IsStrictOrderedRing K] [FloorRing K] in
theorem normalize_eq {t : K} {i j : Nat} {u v : String} {U V : K}
    (hi : (units (K := K))[i]? = some (u, U)) (hj : (units (K := K))[j]? = some (v, V))
    (hs : (min (max 0 ((i : Int) + shift t)) 5).toNat = j) :
    normalize t u = .ok (t * (U / V), v) := by
  unfold normalize
  rw [units_find i u U hi]
  simp only
  rw [hs, hi, hj]

theorem toInt_ok {t : K} (h0 : 0 ≤ t) (h : t < 2 ^ 31) :
    ∃ n : Nat, toInt t = .ok (n : Int) ∧ (n : K) ≤ t ∧ t < n + 1 := by
  have hf : 0 ≤ ⌊t⌋ := Int.floor_nonneg.mpr h0
  refine ⟨⌊t⌋.toNat, ?_, ?_, ?_⟩
  · have : ⌊t⌋ < 2 ^ 31 := by
      rw [Int.floor_lt]; push_cast; norm_num at h ⊢; exact h
    rw [toInt, if_pos this, Int.toNat_of_nonneg hf]
  · have := Int.floor_le t
    have e : ((⌊t⌋.toNat : ℤ) : K) = ((⌊t⌋ : ℤ) : K) := by rw [Int.toNat_of_nonneg hf]
    rw [← Int.cast_natCast, e]; exact this
  · have := Int.lt_floor_add_one t
    have e : ((⌊t⌋.toNat : ℤ) : K) = ((⌊t⌋ : ℤ) : K) := by rw [Int.toNat_of_nonneg hf]
    rw [← Int.cast_natCast, e]; exact this

/-- Both calls of `normalize_duration_fmt`, for a duration whose first unit is the one at `i`. -/
theorem toHuman_units {t : K} {i j : Nat} {u v : String} {U V : K} (h0 : 0 ≤ t)
    (hi : (units (K := K))[i]? = some (u, U)) (hj : (units (K := K))[j]? = some (v, V))
    (hs : (min (max 0 ((0 : Int) + shift t)) 5).toNat = i) (hij : j = i - 1)
    (hU : 0 < U) (hV : 0 < V) (hUV : U ≤ 2 ^ 31 * V) (ht : t < 2 ^ 31 * U) :
    ∃ n m : Nat, toHuman t "µs" = .ok (toString n ++ u ++ " " ++ toString m ++ v) ∧
      (n : K) * U + (m : K) * V ≤ t ∧ t < (n : K) * U + ((m : K) + 1) * V ∧
      (n : K) * U ≤ t ∧ t < ((n : K) + 1) * U ∧ (m : K) * V < U := by
  have hmu : (units (K := K))[0]? = some ("µs", 1) := rfl
  have hn1 : normalize t "µs" = .ok (t * (1 / U), u) := normalize_eq hmu hi (by simpa using hs)
  have hq0 : 0 ≤ t * (1 / U) := by positivity
  have hq : t * (1 / U) < 2 ^ 31 := by rw [mul_one_div, div_lt_iff₀ hU]; exact ht
  obtain ⟨n, hnInt, hn, hn'⟩ := toInt_ok hq0 hq
  set r := t * (1 / U) - ((n : Int) : K) with hr
  have hr0 : 0 ≤ r := by rw [hr]; push_cast; linarith
  have hr1 : r < 1 := by rw [hr]; push_cast; linarith
  have hsr : shift r = -1 := by rw [shift, if_pos hr1]
  have hn2 : normalize r u = .ok (r * (U / V), v) :=
    normalize_eq hi hj (by rw [hsr]; have : i < 5 := by
                            rcases i with _ | _ | _ | _ | _ | i <;> simp [units] at hi ⊢
                           omega)
  have hp0 : 0 ≤ r * (U / V) := by positivity
  have hUV' : U / V ≤ 2 ^ 31 := by rw [div_le_iff₀ hV]; exact hUV
  have hUV0 : 0 < U / V := by positivity
  have hp : r * (U / V) < 2 ^ 31 :=
    lt_of_lt_of_le (by nlinarith : r * (U / V) < U / V) hUV'
  obtain ⟨m, hmInt, hm, hm'⟩ := toInt_ok hp0 hp
  refine ⟨n, m, ?_, ?_, ?_, ?_, ?_, ?_⟩
  · rw [toHuman, hn1]
    simp only [Outcome.bind_ok]
    rw [hnInt]
    simp only [Outcome.bind_ok]
    rw [← hr, hn2]
    simp only [Outcome.bind_ok]
    rw [hmInt]
    rfl
  · have e : t = (n : K) * U + r * (U / V) * V := by
      rw [hr]; push_cast; field_simp; ring
    rw [e]
    have := mul_le_mul_of_nonneg_right hm hV.le
    linarith
  · have e : t = (n : K) * U + r * (U / V) * V := by
      rw [hr]; push_cast; field_simp; ring
    rw [e]
    have := mul_lt_mul_of_pos_right hm' hV
    linarith
  · rw [mul_one_div, le_div_iff₀ hU] at hn; exact hn
  · rw [mul_one_div, div_lt_iff₀ hU] at hn'; exact hn'
  · have h1 : (m : K) * V ≤ r * (U / V) * V := mul_le_mul_of_nonneg_right hm hV.le
    have h2 : r * (U / V) * V = r * U := by field_simp
    rw [h2] at h1
    nlinarith

/-- Durations below 2³¹ hours. -/
theorem toHuman_shows {t : K} (h0 : 0 ≤ t) (h : t < 2 ^ 31 * (60 * 60 * 1000000)) :
    ∃ text, toHuman t "µs" = .ok text ∧ Shows t text := by
  have key : ∀ {i j : Nat} {u v : String} {U V : K}, UnitPair u U v V →
      (units (K := K))[i]? = some (u, U) → (units (K := K))[j]? = some (v, V) →
      (min (max 0 ((0 : Int) + shift t)) 5).toNat = i → j = i - 1 → 0 < U → 0 < V →
      U ≤ 2 ^ 31 * V → t < 2 ^ 31 * U → (1 ≤ t → U ≤ t) →
      ∃ text, toHuman t "µs" = .ok text ∧ Shows t text := by
    intro i j u v U V hp hi hj hs hij hU hV hUV ht hge
    obtain ⟨n, m, hh, h1, h2, h3, h4, h5⟩ := toHuman_units h0 hi hj hs hij hU hV hUV ht
    refine ⟨_, hh, u, U, v, V, n, m, hp, rfl, h1, h2, h5, fun h1t => ?_⟩
    have := hge h1t
    by_contra hc
    have : n = 0 := by omega
    subst this
    simp at h4
    linarith
  by_cases c4 : (36 : K) * 10 ^ 8 ≤ t
  · refine key (i := 4) (j := 3) .hours ?_ ?_ ?_ rfl ?_ ?_ ?_ h ?_
    · simp only [units]; norm_num
    · simp only [units]; norm_num
    · have : shift t = 4 := by
        unfold shift
        rw [if_neg (by linarith), if_neg (fun hh => by linarith [hh.2]),
          if_neg (fun hh => by linarith [hh.2]), if_neg (fun hh => by linarith [hh.2]),
          if_pos c4]
      rw [this]; rfl
    · norm_num
    · norm_num
    · norm_num
    · intro _; linarith
  by_cases c3 : (6 : K) * 10 ^ 7 ≤ t
  · push Not at c4
    refine key (i := 3) (j := 2) .minutes ?_ ?_ ?_ rfl ?_ ?_ ?_ (by linarith) ?_
    · simp only [units]; norm_num
    · simp only [units]; norm_num
    · have : shift t = 3 := by
        unfold shift
        rw [if_neg (by linarith), if_neg (fun hh => by linarith [hh.2]),
          if_neg (fun hh => by linarith [hh.2]), if_pos ⟨c3, c4⟩]
      rw [this]; rfl
    · norm_num
    · norm_num
    · norm_num
    · intro _; linarith
  by_cases c2 : (10 : K) ^ 6 ≤ t
  · push Not at c3
    refine key (i := 2) (j := 1) .seconds ?_ ?_ ?_ rfl ?_ ?_ ?_ (by linarith) ?_
    · simp only [units]; norm_num
    · simp only [units]; norm_num
    · have : shift t = 2 := by
        unfold shift
        rw [if_neg (by linarith), if_neg (fun hh => by linarith [hh.2]), if_pos ⟨c2, c3⟩]
      rw [this]; rfl
    · norm_num
    · norm_num
    · norm_num
    · intro _; linarith
  by_cases c1 : (10 : K) ^ 3 ≤ t
  · push Not at c2
    refine key (i := 1) (j := 0) .milliseconds ?_ ?_ ?_ rfl ?_ ?_ ?_ (by linarith) ?_
    · simp only [units]; norm_num
    · simp only [units]; norm_num
    · have : shift t = 1 := by
        unfold shift
        rw [if_neg (by linarith), if_pos ⟨c1, c2⟩]
      rw [this]; rfl
    · norm_num
    · norm_num
    · norm_num
    · intro _; linarith
  · push Not at c1 c2 c3 c4
    refine key (i := 0) (j := 0) .microseconds ?_ ?_ ?_ rfl ?_ ?_ ?_ (by linarith) ?_
    · simp only [units]; norm_num
    · simp only [units]; norm_num
    · by_cases c0 : t < 1
      · have : shift t = -1 := by unfold shift; rw [if_pos c0]
        rw [this]; rfl
      · have : shift t = 0 := by
          unfold shift
          rw [if_neg c0, if_neg (fun hh => by linarith [hh.1]),
            if_neg (fun hh => by linarith [hh.1]), if_neg (fun hh => by linarith [hh.1]),
            if_neg (by linarith)]
        rw [this]; rfl
    · norm_num
    · norm_num
    · norm_num
    · intro h1; exact h1

/-! ## History -/

/-- Durations between successive times. -/
def gaps : Int → List Int → List Int
  | _, [] => []
  | c, t :: ts => (t - c) :: gaps t ts

theorem gaps_append (c : Int) (a b : List Int) :
    gaps c (a ++ b) = gaps c a ++ gaps (a.getLastD c) b := by
  induction a generalizing c with
  | nil => rfl
  | cons t a ih =>
    simp only [List.cons_append, gaps, ih, List.getLastD_cons]

theorem gaps_length (c : Int) (a : List Int) : (gaps c a).length = a.length := by
  induction a generalizing c with
  | nil => rfl
  | cons t a ih => simp [gaps, ih]

theorem gaps_sum (c : Int) (a : List Int) : (gaps c a).sum = a.getLastD c - c := by
  induction a generalizing c with
  | nil => simp [gaps]
  | cons t a ih => simp only [gaps, List.sum_cons, ih, List.getLastD_cons]; omega

theorem gaps_nonneg {c : Int} {a : List Int} (h : (c :: a).Pairwise (· ≤ ·)) :
    ∀ d ∈ gaps c a, 0 ≤ d := by
  induction a generalizing c with
  | nil => intro d hd; simp [gaps] at hd
  | cons t a ih =>
    intro d hd
    simp only [gaps, List.mem_cons] at hd
    rw [List.pairwise_cons] at h
    rcases hd with rfl | hd
    · have := h.1 t (by simp); omega
    · exact ih h.2 d hd

theorem ticks_ok (ts : List Int) (h : History) (hc : 0 < h.capacity)
    (hl : h.durations.length ≤ h.capacity) :
    h.ticks ts = .ok { h with
      durations := (h.durations ++ (gaps h.prevStart ts).map (Int.tdiv · 1000)).drop
        (h.durations.length + ts.length - h.capacity)
      prevStart := ts.getLastD h.prevStart } := by
  induction ts generalizing h with
  | nil =>
    simp only [History.ticks, gaps, List.map_nil, List.append_nil, List.length_nil, List.getLastD_nil]
    rw [show h.durations.length + 0 - h.capacity = 0 by omega, List.drop_zero]
  | cons t ts ih =>
    simp only [History.ticks, History.tick]
    by_cases hf : h.durations.length ≥ h.capacity
    · rw [if_pos hf]
      cases hd : h.durations with
      | nil => rw [hd] at hf; simp at hf; omega
      | cons d ds =>
        simp only [Outcome.bind_ok]
        rw [hd] at hf hl
        simp only [List.length_cons] at hf hl
        rw [ih ⟨h.capacity, ds ++ [(t - h.prevStart).tdiv 1000], h.start, t⟩ hc
          (by simp; omega)]
        simp only [gaps, List.map_cons, List.getLastD_cons, List.length_append, List.length_cons,
          List.length_nil]
        congr 2
        rw [show ds.length + 1 + (ts.length + 1) - h.capacity =
          (ds.length + (0 + 1) + ts.length - h.capacity) + 1 by omega, List.cons_append,
          List.drop_succ_cons]
        simp
    · rw [if_neg hf]
      simp only [Outcome.bind_ok]
      rw [ih ⟨h.capacity, h.durations ++ [(t - h.prevStart).tdiv 1000], h.start, t⟩ hc
        (by simp; omega)]
      simp only [gaps, List.map_cons, List.getLastD_cons, List.length_append, List.length_cons,
        List.length_nil]
      congr 2
      rw [show h.durations.length + (0 + 1) + ts.length - h.capacity =
        h.durations.length + (ts.length + 1) - h.capacity by omega]
      simp

omit [LinearOrder K] [IsStrictOrderedRing K] [FloorRing K] in
theorem foldl_cast (l : List Int) (a : K) :
    l.foldl (fun (a : K) (d : Int) => a + (d : K)) a = a + ((l.sum : Int) : K) := by
  induction l generalizing a with
  | nil => simp
  | cons d l ih => rw [List.foldl_cons, ih, List.sum_cons]; push_cast; ring

theorem tdiv_sum {l : List Int} (h : ∀ d ∈ l, 0 ≤ d) (hne : l ≠ []) :
    1000 * (l.map (Int.tdiv · 1000)).sum ≤ l.sum ∧
      l.sum < 1000 * (l.map (Int.tdiv · 1000)).sum + 1000 * l.length := by
  induction l with
  | nil => exact absurd rfl hne
  | cons d l ih =>
    have hd : 0 ≤ d := h d (by simp)
    have e : Int.tdiv d 1000 = d / 1000 := Int.tdiv_eq_ediv_of_nonneg hd
    simp only [List.map_cons, List.sum_cons, e, List.length_cons]
    push_cast
    by_cases hl : l = []
    · subst hl; simp; omega
    · have := ih (fun d hd => h d (by simp [hd])) hl
      omega

/-! ## The first best element -/

theorem firstBest_spec {α : Type} (lt : α → α → Bool)
    (hirr : ∀ a, lt a a = false) (hasymm : ∀ a b, lt a b = true → lt b a = false)
    (htrans : ∀ a b c, lt a b = false → lt b c = false → lt a c = false)
    (L : List α) (xs : List α) (best i : Nat) (v : α) (hv : L[best]? = some v)
    (hxs : L.drop i = xs) (hpre : ∀ x ∈ L.take i, lt v x = false) :
    ∃ w, L[firstBest lt best v i xs]? = some w ∧ ∀ x ∈ L, lt w x = false := by
  induction xs generalizing best i v with
  | nil =>
    refine ⟨v, hv, fun x hx => hpre x ?_⟩
    rw [List.take_of_length_le (List.drop_eq_nil_iff.1 hxs)]; exact hx
  | cons y ys ih =>
    have hi : i < L.length := by
      by_contra hc
      rw [List.drop_eq_nil_of_le (by omega)] at hxs
      simp at hxs
    have hy : L[i]? = some y := by
      have := congrArg List.head? hxs
      rw [List.head?_drop] at this
      simpa using this
    have hys : L.drop (i + 1) = ys := by
      have := congrArg List.tail hxs
      rw [List.tail_drop] at this
      simpa using this
    have htake : ∀ x ∈ L.take (i + 1), x ∈ L.take i ∨ x = y := by
      intro x hx
      rw [List.take_add_one, hy] at hx
      simpa using hx
    rw [firstBest]
    by_cases hlt : lt v y = true
    · rw [if_pos hlt]
      refine ih _ _ _ hy hys (fun x hx => ?_)
      rcases htake x hx with hx | rfl
      · exact htrans _ _ _ (hasymm _ _ hlt) (hpre x hx)
      · exact hirr _
    · rw [if_neg hlt]
      refine ih _ _ _ hv hys (fun x hx => ?_)
      rcases htake x hx with hx | rfl
      · exact hpre x hx
      · simpa using hlt

theorem maxIdx_spec {α : Type} (lt : α → α → Bool)
    (hirr : ∀ a, lt a a = false) (hasymm : ∀ a b, lt a b = true → lt b a = false)
    (htrans : ∀ a b c, lt a b = false → lt b c = false → lt a c = false)
    (L : List α) (hL : L ≠ []) :
    ∃ w, L[maxIdx lt L]? = some w ∧ ∀ x ∈ L, lt w x = false := by
  cases L with
  | nil => exact absurd rfl hL
  | cons x xs =>
    exact firstBest_spec lt hirr hasymm htrans (x :: xs) xs 0 1 x rfl rfl
      (by intro y hy; simp at hy; subst hy; exact hirr _)

theorem maxIdx_max {α : Type} [LinearOrder α] (L : List α) (hL : L ≠ []) :
    ∃ w, L[maxIdx (fun a b => decide (a < b)) L]? = some w ∧ ∀ x ∈ L, x ≤ w := by
  obtain ⟨w, h, h'⟩ := maxIdx_spec (fun a b : α => decide (a < b)) (by simp)
    (by intro a b h; simp at h ⊢; exact h.le)
    (by intro a b c h1 h2; simp at h1 h2 ⊢; exact h2.trans h1) L hL
  exact ⟨w, h, fun x hx => by simpa using h' x hx⟩

theorem maxIdx_min {α : Type} [LinearOrder α] (L : List α) (hL : L ≠ []) :
    ∃ w, L[maxIdx (fun a b => decide (b < a)) L]? = some w ∧ ∀ x ∈ L, w ≤ x := by
  obtain ⟨w, h, h'⟩ := maxIdx_spec (fun a b : α => decide (b < a)) (by simp)
    (by intro a b h; simp at h ⊢; exact h.le)
    (by intro a b c h1 h2; simp at h1 h2 ⊢; exact h1.trans h2) L hL
  exact ⟨w, h, fun x hx => by simpa using h' x hx⟩

theorem mapM_loop_ok {α β : Type} (f : α → Outcome β) (g : α → β) (l : List α)
    (h : ∀ a ∈ l, f a = .ok (g a)) (acc : List β) :
    List.mapM.loop f l acc = .ok (acc.reverse ++ l.map g) := by
  induction l generalizing acc with
  | nil => simp [List.mapM.loop]
  | cons a l ih =>
    rw [List.mapM.loop, h a (by simp)]
    simp only [Outcome.bind_ok]
    rw [ih (fun a ha => h a (by simp [ha]))]
    simp

theorem mapM_ok {α β : Type} (f : α → Outcome β) (g : α → β) (l : List α)
    (h : ∀ a ∈ l, f a = .ok (g a)) : l.mapM f = .ok (l.map g) := by
  rw [List.mapM, mapM_loop_ok f g l h]; rfl

omit [LinearOrder K] [IsStrictOrderedRing K] [FloorRing K] in
theorem total_eq (names ignore : List String) (r : RankTimes K) :
    total names ignore r = ((names.filter (fun n => !ignore.contains n)).map r.time).sum := by
  have : ∀ (l : List String) (a : K),
      l.foldl (fun a n => if ignore.contains n then a else a + r.time n) a =
        a + ((l.filter (fun n => !ignore.contains n)).map r.time).sum := by
    intro l
    induction l with
    | nil => intro a; simp
    | cons n l ih =>
      intro a
      rw [List.foldl_cons, ih]
      by_cases hn : n ∈ ignore
      · simp [hn]
      · simp [hn, add_assoc]
  rw [total, this, zero_add]

theorem foldl_max_spec (l : List K) (a : K) :
    a ≤ l.foldl max a ∧ (∀ x ∈ l, x ≤ l.foldl max a) ∧
      (l.foldl max a = a ∨ l.foldl max a ∈ l) := by
  induction l generalizing a with
  | nil => simp
  | cons y l ih =>
    obtain ⟨h1, h2, h3⟩ := ih (max a y)
    rw [List.foldl_cons]
    refine ⟨(le_max_left _ _).trans h1, ?_, ?_⟩
    · intro x hx
      rcases List.mem_cons.1 hx with rfl | hx
      · exact (le_max_right _ _).trans h1
      · exact h2 x hx
    · rcases h3 with h3 | h3
      · rcases max_choice a y with hm | hm
        · left; rw [h3, hm]
        · right; rw [h3, hm]; simp
      · right; simp [h3]

theorem timePercent_ok {time tot : K} (h0 : 0 ≤ time) (ht : 0 < tot)
    (h : time * 100 < tot * 2 ^ 16) :
    ∃ p : Nat, timePercent time tot = .ok p ∧ (p : K) * tot ≤ 100 * time ∧
      100 * time < ((p : K) + 1) * tot := by
  set q := time / tot * 100 with hq
  have hq0 : 0 ≤ q := by positivity
  have hqt : q * tot = 100 * time := by rw [hq]; field_simp
  have hf : 0 ≤ ⌊q⌋ := Int.floor_nonneg.mpr hq0
  have e : ((⌊q⌋.toNat : ℕ) : K) = ((⌊q⌋ : ℤ) : K) := by
    rw [← Int.cast_natCast, Int.toNat_of_nonneg hf]
  have hlt : ⌊q⌋ < 2 ^ 16 := by
    rw [Int.floor_lt]
    push_cast
    rw [hq, div_mul_eq_mul_div, div_lt_iff₀ ht]
    norm_num at h ⊢
    linarith
  refine ⟨⌊q⌋.toNat, ?_, ?_, ?_⟩
  · rw [timePercent, if_neg ht.ne', if_pos hlt]
  · rw [e, ← hqt]; exact mul_le_mul_of_nonneg_right (Int.floor_le q) ht.le
  · rw [e, ← hqt]; exact mul_lt_mul_of_pos_right (Int.lt_floor_add_one q) ht

end Field

end Entity.Diag
