import Verif.Model.Deposit
import Verif.Lemmas.Shapes
import Mathlib.Algebra.BigOperators.Group.List.Basic

/-!
# Lemmas about current deposition
-/

namespace Entity.Deposit

open Entity Entity.Push Entity.Shapes Entity.Tags

variable {K : Type} [Field K] [LinearOrder K] [IsStrictOrderedRing K]

/-- What a list of updates adds to one element. -/
def total (us : List (Upd K)) (c : Nat) (n : List Int) : K :=
  (us.map (fun u => if u.comp = c ∧ u.idx = n then u.val else 0)).sum

@[simp] theorem total_nil (c : Nat) (n : List Int) : total ([] : List (Upd K)) c n = 0 := rfl

theorem total_cons (u : Upd K) (us : List (Upd K)) (c : Nat) (n : List Int) :
    total (u :: us) c n = (if u.comp = c ∧ u.idx = n then u.val else 0) + total us c n := by
  simp [total]

theorem total_append (us vs : List (Upd K)) (c : Nat) (n : List Int) :
    total (us ++ vs) c n = total us c n + total vs c n := by
  simp [total]

theorem total_perm {us vs : List (Upd K)} (h : us.Perm vs) (c : Nat) (n : List Int) :
    total us c n = total vs c n := (h.map _).sum_eq

theorem applyUpd_ok {nAll : List Nat} {J J' : Cur K} {u : Upd K}
    (h : applyUpd nAll J u = .ok J') : inArray nAll u.idx = true ∧ ∀ c n,
      J' c n = J c n + if u.comp = c ∧ u.idx = n then u.val else 0 := by
  unfold applyUpd at h
  split_ifs at h with hc
  cases h
  refine ⟨hc, fun c n => ?_⟩
  beta_reduce
  by_cases h : c = u.comp ∧ n = u.idx
  · rw [if_pos h, if_pos ⟨h.1.symm, h.2.symm⟩]
  · rw [if_neg h, if_neg (fun h' => h ⟨h'.1.symm, h'.2.symm⟩), add_zero]

theorem applyAll_ok {nAll : List Nat} {us : List (Upd K)} : ∀ {J J' : Cur K},
    applyAll nAll us J = .ok J' → ∀ c n, J' c n = J c n + total us c n := by
  induction us with
  | nil =>
    intro J J' h c n
    simp only [applyAll, List.foldlM_nil, Outcome.pure_eq, Outcome.ok.injEq] at h
    subst h; simp
  | cons u us ih =>
    intro J J' h c n
    simp only [applyAll, List.foldlM_cons] at h
    obtain ⟨J1, h1, h2⟩ := Outcome.bind_eq_ok.mp h
    rw [ih h2, (applyUpd_ok h1).2, total_cons, add_assoc]

theorem applyAll_defined {nAll : List Nat} {us : List (Upd K)} : ∀ {J : Cur K},
    (∀ u ∈ us, inArray nAll u.idx = true) → ∃ J', applyAll nAll us J = .ok J' := by
  induction us with
  | nil => intro J _; exact ⟨J, rfl⟩
  | cons u us ih =>
    intro J h
    obtain ⟨J', h'⟩ := ih (J := fun c is => if c = u.comp ∧ is = u.idx then J c is + u.val else J c is)
      (fun v hv => h v (List.mem_cons_of_mem _ hv))
    refine ⟨J', ?_⟩
    simp only [applyAll, List.foldlM_cons, applyUpd, if_pos (h u List.mem_cons_self),
      Outcome.bind_ok]
    exact h'

/-! ## Zigzag -/

/-- Indicator of a node. -/
def del (i n : Int) : K := if i = n then 1 else 0

theorem del_shift (i n : Int) : (del i (n - 1) : K) = del (i + 1) n := by
  unfold del
  by_cases h : i = n - 1
  · rw [if_pos h, if_pos (by omega)]
  · rw [if_neg h, if_neg (by omega)]

/-- Linear weights of a point at offset `w` in cell `i`. -/
def lin (i : Int) (w : K) (n : Int) : K := (1 - w) * del i n + w * del (i + 1) n

theorem lin_eq (i n : Int) (w : K) (h0 : 0 ≤ w) (h1 : w ≤ 1) :
    lin i w n = bspline 1 ((i : K) + w - n) := by
  unfold lin del
  rcases lt_trichotomy n i with h | h | h
  · have : (n : K) + 1 ≤ i := by exact_mod_cast h
    rw [if_neg (by omega), if_neg (by omega), bspline_hi 1 _ (by push_cast; linarith)]; ring
  · subst h
    rw [if_pos rfl, if_neg (by omega), bspline1_right (by linarith) (by linarith)]; ring
  · rcases eq_or_lt_of_le (show i + 1 ≤ n by omega) with h' | h'
    · subst h'
      rw [if_neg (by omega), if_pos rfl, bspline1_left (by push_cast; linarith)
        (by push_cast; linarith)]; push_cast; ring
    · have : (i : K) + 2 ≤ n := by exact_mod_cast (by omega : i + 2 ≤ n)
      rw [if_neg (by omega), if_neg (by omega)]
      rcases eq_or_lt_of_le (show (i : K) + w - n ≤ -1 by linarith) with e | e
      · rw [e, bspline1_left (by norm_num) (by norm_num)]; ring
      · rw [bspline_lo 1 _ (by push_cast; linarith)]; ring

/-- The two straight pieces of the zigzag: from the old offset to the relay point in the old cell,
from the relay point to the new offset in the new cell. -/
theorem zzAxis_spec (a : Ax K) (q : K) (h : a.i = a.iPrev ∨ a.i = a.iPrev + 1 ∨ a.i = a.iPrev - 1) :
    ∃ r s : K, zzAxis a q = ((a.dxPrev + r) / 2, (s + a.dx) / 2, (r - a.dxPrev) * q,
      (a.dx - s) * q) ∧ (∀ n, lin a.iPrev r n = lin a.i s n) ∧
      (a.i = a.iPrev → r = (a.dx + a.dxPrev) / 2 ∧ s = r) ∧
      (a.i = a.iPrev + 1 → r = 1 ∧ s = 0) ∧ (a.i = a.iPrev - 1 → r = 0 ∧ s = 1) := by
  rcases h with h | h | h
  · refine ⟨(a.dx + a.dxPrev) / 2, (a.dx + a.dxPrev) / 2, ?_, ?_, fun _ => ⟨rfl, rfl⟩,
      fun h' => by omega, fun h' => by omega⟩
    · simp only [zzAxis, h, if_true, gt_iff_lt, lt_irrefl, if_false]
      refine Prod.ext ?_ (Prod.ext ?_ (Prod.ext ?_ ?_)) <;> dsimp only <;> push_cast <;> ring
    · intro n; rw [h]
  · refine ⟨1, 0, ?_, ?_, fun h' => by omega, fun _ => ⟨rfl, rfl⟩, fun h' => by omega⟩
    · simp only [zzAxis, h]
      rw [if_neg (by omega), if_pos (by omega), if_pos (by omega)]
      refine Prod.ext ?_ (Prod.ext ?_ (Prod.ext ?_ ?_)) <;> dsimp only <;> push_cast <;> ring
    · intro n; rw [h]; simp [lin]
  · refine ⟨0, 1, ?_, ?_, fun h' => by omega, fun h' => by omega, fun _ => ⟨rfl, rfl⟩⟩
    · simp only [zzAxis, h]
      rw [if_neg (by omega), if_neg (by omega), if_neg (by omega)]
      refine Prod.ext ?_ (Prod.ext ?_ (Prod.ext ?_ ?_)) <;> dsimp only <;> push_cast <;> ring
    · intro n; rw [h]; simp [lin]

theorem ite1 (a n : Int) (v : K) : (if [a] = [n] then v else 0) = v * del a n := by
  simp only [del, List.cons.injEq, and_true]; split_ifs <;> simp

theorem ite2 (a b n m : Int) (v : K) :
    (if [a, b] = [n, m] then v else 0) = v * del a n * del b m := by
  simp only [del, List.cons.injEq, and_true]; split_ifs <;> simp_all

theorem ite3 (a b c n m l : Int) (v : K) :
    (if [a, b, c] = [n, m, l] then v else 0) = v * del a n * del b m * del c l := by
  simp only [del, List.cons.injEq, and_true]; split_ifs <;> simp_all

theorem zigzag1_div (NG : Int) (coeff invDt vp2 vp3 : K) (a : Ax K)
    (h : a.i = a.iPrev ∨ a.i = a.iPrev + 1 ∨ a.i = a.iPrev - 1) (n : Int) :
    total (zigzag1 NG coeff invDt vp2 vp3 a) 0 [n] -
      total (zigzag1 NG coeff invDt vp2 vp3 a) 0 [n - 1] =
    -(coeff * invDt) * (lin (a.i + NG) a.dx n - lin (a.iPrev + NG) a.dxPrev n) := by
  obtain ⟨r, s, e, hr, -⟩ := zzAxis_spec a (coeff * invDt) h
  have hr' := hr (n - NG)
  simp only [zigzag1, e, total_cons, total_nil]
  simp only [true_and, ite1, del_shift]
  norm_num
  simp only [lin] at hr' ⊢
  have d : ∀ i : Int, (del i (n - NG) : K) = del (i + NG) n := by
    intro i; unfold del; congr 1; simp only [eq_iff_iff]; omega
  simp only [d] at hr'
  rw [show a.iPrev + 1 + NG = a.iPrev + NG + 1 by ring, show a.i + 1 + NG = a.i + NG + 1 by ring]
    at hr'
  linear_combination (-(coeff * invDt)) * hr'

/-- A displaced node index. -/
theorem lin_shift (NG i n : Int) (w : K) : lin i w (n - NG) = lin (i + NG) w n := by
  have d : ∀ i : Int, (del i (n - NG) : K) = del (i + NG) n := by
    intro i; unfold del; congr 1; simp only [eq_iff_iff]; omega
  simp only [lin, d, show i + 1 + NG = i + NG + 1 by ring]

theorem zigzag2_div (NG : Int) (coeff invDt vp3 : K) (a b : Ax K)
    (ha : a.i = a.iPrev ∨ a.i = a.iPrev + 1 ∨ a.i = a.iPrev - 1)
    (hb : b.i = b.iPrev ∨ b.i = b.iPrev + 1 ∨ b.i = b.iPrev - 1) (n m : Int) :
    (total (zigzag2 NG coeff invDt vp3 a b) 0 [n, m] -
      total (zigzag2 NG coeff invDt vp3 a b) 0 [n - 1, m]) +
    (total (zigzag2 NG coeff invDt vp3 a b) 1 [n, m] -
      total (zigzag2 NG coeff invDt vp3 a b) 1 [n, m - 1]) =
    -(coeff * invDt) * (lin (a.i + NG) a.dx n * lin (b.i + NG) b.dx m -
      lin (a.iPrev + NG) a.dxPrev n * lin (b.iPrev + NG) b.dxPrev m) := by
  obtain ⟨r, s, e, hr, -⟩ := zzAxis_spec a (coeff * invDt) ha
  obtain ⟨r', s', e', hr', -⟩ := zzAxis_spec b (coeff * invDt) hb
  have h1 := hr (n - NG)
  have h2 := hr' (m - NG)
  rw [lin_shift, lin_shift] at h1 h2
  simp only [zigzag2, e, e', total_cons, total_nil]
  simp only [true_and, ite2, del_shift]
  norm_num
  simp only [lin] at h1 h2 ⊢
  linear_combination (-(coeff * invDt)) *
    (((1 - r') * del (b.iPrev + NG) m + r' * del (b.iPrev + NG + 1) m) * h1 +
     ((1 - s) * del (a.i + NG) n + s * del (a.i + NG + 1) n) * h2)

/-- In three dimensions the divergence misses the product of the three displacements of each
straight piece: `4` times smaller than the product itself. -/
theorem zigzag3_div (NG : Int) (coeff invDt : K) (a b c : Ax K) (r s r' s' r'' s'' : K)
    (e : zzAxis a (coeff * invDt) = ((a.dxPrev + r) / 2, (s + a.dx) / 2,
      (r - a.dxPrev) * (coeff * invDt), (a.dx - s) * (coeff * invDt)))
    (hr : ∀ n, lin a.iPrev r n = lin a.i s n)
    (e' : zzAxis b (coeff * invDt) = ((b.dxPrev + r') / 2, (s' + b.dx) / 2,
      (r' - b.dxPrev) * (coeff * invDt), (b.dx - s') * (coeff * invDt)))
    (hr' : ∀ n, lin b.iPrev r' n = lin b.i s' n)
    (e'' : zzAxis c (coeff * invDt) = ((c.dxPrev + r'') / 2, (s'' + c.dx) / 2,
      (r'' - c.dxPrev) * (coeff * invDt), (c.dx - s'') * (coeff * invDt)))
    (hr'' : ∀ n, lin c.iPrev r'' n = lin c.i s'' n) (n m l : Int) :
    (total (zigzag3 NG coeff invDt a b c) 0 [n, m, l] -
      total (zigzag3 NG coeff invDt a b c) 0 [n - 1, m, l]) +
    (total (zigzag3 NG coeff invDt a b c) 1 [n, m, l] -
      total (zigzag3 NG coeff invDt a b c) 1 [n, m - 1, l]) +
    (total (zigzag3 NG coeff invDt a b c) 2 [n, m, l] -
      total (zigzag3 NG coeff invDt a b c) 2 [n, m, l - 1]) =
    -(coeff * invDt) *
      (lin (a.i + NG) a.dx n * lin (b.i + NG) b.dx m * lin (c.i + NG) c.dx l -
      lin (a.iPrev + NG) a.dxPrev n * lin (b.iPrev + NG) b.dxPrev m *
        lin (c.iPrev + NG) c.dxPrev l) +
    coeff * invDt / 4 *
      ((r - a.dxPrev) * (r' - b.dxPrev) * (r'' - c.dxPrev) *
        ((del (a.iPrev + NG + 1) n - del (a.iPrev + NG) n) *
         (del (b.iPrev + NG + 1) m - del (b.iPrev + NG) m) *
         (del (c.iPrev + NG + 1) l - del (c.iPrev + NG) l)) +
       (a.dx - s) * (b.dx - s') * (c.dx - s'') *
        ((del (a.i + NG + 1) n - del (a.i + NG) n) *
         (del (b.i + NG + 1) m - del (b.i + NG) m) *
         (del (c.i + NG + 1) l - del (c.i + NG) l))) := by
  have h1 := hr (n - NG)
  have h2 := hr' (m - NG)
  have h3 := hr'' (l - NG)
  rw [lin_shift, lin_shift] at h1 h2 h3
  simp only [zigzag3, e, e', e'', total_cons, total_nil]
  simp only [true_and, ite3, del_shift]
  norm_num
  simp only [lin] at h1 h2 h3 ⊢
  linear_combination (-(coeff * invDt)) *
    (((1 - r') * del (b.iPrev + NG) m + r' * del (b.iPrev + NG + 1) m) *
      ((1 - r'') * del (c.iPrev + NG) l + r'' * del (c.iPrev + NG + 1) l) * h1 +
     ((1 - s) * del (a.i + NG) n + s * del (a.i + NG + 1) n) *
      ((1 - r'') * del (c.iPrev + NG) l + r'' * del (c.iPrev + NG + 1) l) * h2 +
     ((1 - s) * del (a.i + NG) n + s * del (a.i + NG + 1) n) *
      ((1 - s') * del (b.i + NG) m + s' * del (b.i + NG + 1) m) * h3)

end Entity.Deposit
