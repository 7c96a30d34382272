import Verif.Lemmas.EsirkepovDiv

/-!
# C73: the total deposited current

Summed over the whole array, the deposit of a particle is its charge times its displacement over the
time step along the axes of the grid, and its charge times its velocity along the others.
-/

namespace Entity.Deposit

open Entity Entity.Push Entity.Shapes Entity.Tags

variable {K : Type} [Field K] [LinearOrder K] [IsStrictOrderedRing K]

/-! ## Specification -/

/-- Sum of everything added to component `c`. -/
def compSum (us : List (Upd K)) (c : Nat) : K :=
  (us.map (fun u => if u.comp = c then u.val else 0)).sum

/-- The current of one particle along component `c` (0, 1, 2): charge times velocity, where the
velocity is displacement over time step on the axes of the grid. -/
def current (charge dt : K) (c : Nat) (p : DPrtl K) : K :=
  if p.tag = dead then 0
  else p.weight * charge *
    (match p.ax[c]? with
     | some a => (xNew a - xOld a) / dt
     | none => if c = 1 then p.vp2 else p.vp3)

/-! ## Sums -/

theorem compSum_append (us vs : List (Upd K)) (c : Nat) :
    compSum (us ++ vs) c = compSum us c + compSum vs c := by simp [compSum]

theorem compSum_map (c c' d : Nat) (idx : Nat → List Int) (f : Nat → K) :
    compSum ((List.range d).map (fun i => (⟨c', idx i, f i⟩ : Upd K))) c =
      if c' = c then ∑ i ∈ Finset.range d, f i else 0 := by
  induction d with
  | zero => simp [compSum]
  | succ d ih =>
    rw [List.range_succ, List.map_append, compSum_append, ih, Finset.sum_range_succ]
    by_cases h : c' = c <;> simp [compSum, h]

theorem compSum_flatMap (c d : Nat) (f : Nat → List (Upd K)) :
    compSum ((List.range d).flatMap f) c = ∑ i ∈ Finset.range d, compSum (f i) c := by
  induction d with
  | zero => simp [compSum]
  | succ d ih =>
    rw [List.range_succ, List.flatMap_append, compSum_append, ih, Finset.sum_range_succ]
    simp

theorem runSum_total (q : K) (w : Nat → K) (d : Nat) :
    ∑ i ∈ Finset.range d, runSum q w i = q * (∑ i ∈ Finset.range (d + 1), (i : K) * w i) -
      q * d * ∑ i ∈ Finset.range (d + 1), w i := by
  induction d with
  | zero => simp
  | succ d ih =>
    rw [Finset.sum_range_succ, ih, runSum_eq, Finset.sum_range_succ _ (d + 1),
      Finset.sum_range_succ _ (d + 1)]
    push_cast; ring

variable {O : Nat} {xi xf : K} {m : Int} {d : Nat} {iS fS : Nat → K}

theorem Window.sI (W : Window O xi xf m d iS fS) : ∑ j ∈ Finset.range (d + 1), iS j = 1 := by
  refine Eq.trans (Finset.sum_congr rfl fun j hj => ?_) W.si
  exact W.hi j (by have := Finset.mem_range.mp hj; have := W.hd; omega)

theorem Window.sF (W : Window O xi xf m d iS fS) : ∑ j ∈ Finset.range (d + 1), fS j = 1 := by
  refine Eq.trans (Finset.sum_congr rfl fun j hj => ?_) W.sf
  exact W.hf j (by have := Finset.mem_range.mp hj; have := W.hd; omega)

theorem Window.mI (W : Window O xi xf m d iS fS) :
    ∑ j ∈ Finset.range (d + 1), (j : K) * iS j = xi - m := by
  refine Eq.trans (Finset.sum_congr rfl fun j hj => ?_) W.mi
  rw [W.hi j (by have := Finset.mem_range.mp hj; have := W.hd; omega)]

theorem Window.mF (W : Window O xi xf m d iS fS) :
    ∑ j ∈ Finset.range (d + 1), (j : K) * fS j = xf - m := by
  refine Eq.trans (Finset.sum_congr rfl fun j hj => ?_) W.mf
  rw [W.hf j (by have := Finset.mem_range.mp hj; have := W.hd; omega)]

/-- The sum of the fluxes along an axis is charge times displacement. -/
theorem Window.run (W : Window O xi xf m d iS fS) (q : K) (w : Nat → K) (k : K)
    (hw : ∀ i, w i = (fS i - iS i) * k) :
    ∑ i ∈ Finset.range d, runSum q w i = q * (xf - xi) * k := by
  rw [runSum_total]
  have a : ∑ i ∈ Finset.range (d + 1), w i = 0 := by
    simp only [hw]
    rw [← Finset.sum_mul, Finset.sum_sub_distrib, W.sI, W.sF]; ring
  have b : ∑ i ∈ Finset.range (d + 1), (i : K) * w i = (xf - xi) * k := by
    have : ∀ i : Nat, (i : K) * w i = ((i : K) * fS i - (i : K) * iS i) * k := by
      intro i; rw [hw]; ring
    simp only [this]
    rw [← Finset.sum_mul, Finset.sum_sub_distrib, W.mI, W.mF]; ring
  rw [a, b]; ring

/-- Sum of a bilinear expression in the weights of two axes. -/
theorem sum2 {ι κ : Type} (s : Finset ι) (t : Finset κ) (a b : ι → K) (c e : κ → K) (α β γ δ : K)
    (ha : ∑ i ∈ s, a i = 1) (hb : ∑ i ∈ s, b i = 1) (hc : ∑ j ∈ t, c j = 1)
    (he : ∑ j ∈ t, e j = 1) :
    ∑ i ∈ s, ∑ j ∈ t, (α * (a i * c j) + β * (a i * e j) + γ * (b i * c j) + δ * (b i * e j)) =
      α + β + γ + δ := by
  simp only [Finset.sum_add_distrib, ← Finset.mul_sum, ← Finset.sum_mul, ha, hb, hc, he]
  ring

theorem zz_flux (a : Ax K) (ha : FitAx a) (q : K) :
    (zzAxis a q).2.2.1 + (zzAxis a q).2.2.2 = (xNew a - xOld a) * q := by
  have h := ha.cells
  simp only [zzAxis, xNew, xOld]
  rcases h with h | h | h
  · rw [h]; simp; ring
  · rw [h]; rw [if_pos (by omega), if_neg (by omega), if_pos (by omega)]; push_cast; ring
  · rw [h]; rw [if_neg (by omega), if_neg (by omega), if_neg (by omega)]; push_cast; ring

theorem zigzag_total {charge dt : K} {NG : Int} {c : Nat} (hc : c < 3) {p : DPrtl K}
    (hp : p.tag = dead ∨ ∀ a ∈ p.ax, FitAx a) {us : List (Upd K)}
    (hu : depositOne 0 NG charge dt p = .ok us) : compSum us c = current charge dt c p := by
  unfold depositOne at hu
  by_cases ht : p.tag = dead
  · rw [if_pos ht] at hu
    simp only [Outcome.ok.injEq] at hu; subst hu
    simp [compSum, current, ht]
  rw [if_neg ht] at hu
  have hf := hp.resolve_left ht
  rcases hax : p.ax with _ | ⟨x, _ | ⟨y, _ | ⟨z, _ | ⟨e, r⟩⟩⟩⟩ <;> rw [hax] at hu hf <;>
    simp only [reduceCtorEq, Outcome.ok.injEq] at hu <;> subst hu
  · have hx := zz_flux x (hf x (by simp)) (p.weight * charge * (1 / dt))
    rcases hz : zzAxis x (p.weight * charge * (1 / dt)) with ⟨w1, w2, f1, f2⟩
    rw [hz] at hx
    simp only [zigzag1, hz]
    interval_cases c <;> simp [compSum, current, ht, hax]
    · dsimp only at hx; rw [hx]; ring
    · ring
    · ring
  · have hx := zz_flux x (hf x (by simp)) (p.weight * charge * (1 / dt))
    have hy := zz_flux y (hf y (by simp)) (p.weight * charge * (1 / dt))
    rcases hz : zzAxis x (p.weight * charge * (1 / dt)) with ⟨w1, w2, f1, f2⟩
    rcases hz' : zzAxis y (p.weight * charge * (1 / dt)) with ⟨w1', w2', f1', f2'⟩
    rw [hz] at hx
    rw [hz'] at hy
    dsimp only at hx hy
    simp only [zigzag2, hz, hz']
    interval_cases c <;> simp [compSum, current, ht, hax]
    · linear_combination hx
    · linear_combination hy
    · ring
  · have hx := zz_flux x (hf x (by simp)) (p.weight * charge * (1 / dt))
    have hy := zz_flux y (hf y (by simp)) (p.weight * charge * (1 / dt))
    have hw := zz_flux z (hf z (by simp)) (p.weight * charge * (1 / dt))
    rcases hz : zzAxis x (p.weight * charge * (1 / dt)) with ⟨w1, w2, f1, f2⟩
    rcases hz' : zzAxis y (p.weight * charge * (1 / dt)) with ⟨w1', w2', f1', f2'⟩
    rcases hz'' : zzAxis z (p.weight * charge * (1 / dt)) with ⟨w1'', w2'', f1'', f2''⟩
    rw [hz] at hx
    rw [hz'] at hy
    rw [hz''] at hw
    dsimp only at hx hy hw
    simp only [zigzag3, hz, hz', hz'']
    interval_cases c <;> simp [compSum, current, ht, hax]
    · linear_combination hx
    · linear_combination hy
    · linear_combination hw

theorem esirkepov_total {O : Nat} (h1 : 1 ≤ O) (h2 : O ≤ 11) {charge dt : K} {NG : Int} {c : Nat}
    (hc : c < 3) {p : DPrtl K} (hp : p.tag = dead ∨ ∀ a ∈ p.ax, FitAx a) {us : List (Upd K)}
    (hu : depositOne O NG charge dt p = .ok us) : compSum us c = current charge dt c p := by
  unfold depositOne at hu
  by_cases ht : p.tag = dead
  · rw [if_pos ht] at hu
    simp only [Outcome.ok.injEq] at hu; subst hu
    simp [compSum, current, ht]
  rw [if_neg ht] at hu
  have hf := hp.resolve_left ht
  obtain ⟨O, rfl⟩ : ∃ k, O = k + 1 := ⟨O - 1, by omega⟩
  rcases hax : p.ax with _ | ⟨x, _ | ⟨y, _ | ⟨z, _ | ⟨e, r⟩⟩⟩⟩ <;> rw [hax] at hu hf <;>
    simp only [reduceCtorEq] at hu
  · obtain ⟨m, M, iS, fS, e, hM, W, -⟩ := (hf x (by simp)).window (O + 1) h1 h2
    simp only [esirkepov1, e, Outcome.bind_ok, Outcome.pure_eq, Outcome.ok.injEq] at hu
    rw [show M + NG - (m + NG) = M - m by ring] at hu
    subst hu
    simp only [compSum_append, compSum_map, ← Finset.mul_sum, Finset.sum_add_distrib, W.sI, W.sF]
    rw [W.run _ _ 1 (fun i => by ring)]
    interval_cases c <;> simp [current, ht, hax] <;> ring
  · obtain ⟨m, M, iS, fS, e, hM, W, -⟩ := (hf x (by simp)).window (O + 1) h1 h2
    obtain ⟨m', M', iS', fS', e', hM', W', -⟩ := (hf y (by simp)).window (O + 1) h1 h2
    simp only [esirkepov2, e, e', Outcome.bind_ok, Outcome.pure_eq, Outcome.ok.injEq] at hu
    rw [show M + NG - (m + NG) = M - m by ring, show M' + NG - (m' + NG) = M' - m' by ring] at hu
    subst hu
    rw [compSum_append, compSum_append, compSum_flatMap, compSum_flatMap, compSum_flatMap]
    simp only [compSum_map]
    interval_cases c
    · simp only [if_true, show (1 : Nat) ≠ 0 by decide, show (2 : Nat) ≠ 0 by decide, if_false,
        Finset.sum_const_zero, add_zero]
      rw [Finset.sum_comm]
      have : ∀ j, ∑ i ∈ Finset.range (M - m).toNat, runSum (p.weight * charge * (1 / dt))
          (fun i' => 1/2 * (fS i' - iS i') * (fS' j + iS' j)) i =
          p.weight * charge * (1 / dt) * (xNew x - xOld x) * (1/2 * (fS' j + iS' j)) :=
        fun j => W.run _ _ _ (fun i => by ring)
      simp only [this]
      rw [← Finset.mul_sum, ← Finset.mul_sum, Finset.sum_add_distrib, W'.sI, W'.sF]
      simp [current, ht, hax]; ring
    · simp only [if_true, show (0 : Nat) ≠ 1 by decide, show (2 : Nat) ≠ 1 by decide, if_false,
        Finset.sum_const_zero, add_zero, zero_add]
      have : ∀ i, ∑ j ∈ Finset.range (M' - m').toNat, runSum (p.weight * charge * (1 / dt))
          (fun j' => 1/2 * (fS i + iS i) * (fS' j' - iS' j')) j =
          p.weight * charge * (1 / dt) * (xNew y - xOld y) * (1/2 * (fS i + iS i)) :=
        fun j => W'.run _ _ _ (fun i => by ring)
      simp only [this]
      rw [← Finset.mul_sum, ← Finset.mul_sum, Finset.sum_add_distrib, W.sI, W.sF]
      simp [current, ht, hax]; ring
    · simp only [if_true, show (0 : Nat) ≠ 2 by decide, show (1 : Nat) ≠ 2 by decide, if_false,
        Finset.sum_const_zero, zero_add]
      have : ∑ i ∈ Finset.range ((M - m).toNat + 1), ∑ j ∈ Finset.range ((M' - m').toNat + 1),
          p.weight * charge * p.vp3 * (1/3 * (fS' j * (1/2 * iS i + fS i) +
            iS' j * (1/2 * fS i + iS i))) = p.weight * charge * p.vp3 *
          (1/6 + 1/3 + 1/3 + 1/6) := by
        rw [← sum2 _ _ _ _ _ _ (1/6) (1/3) (1/3) (1/6) W.sI W.sF W'.sF W'.sI]
        simp only [Finset.mul_sum]
        refine Finset.sum_congr rfl fun i _ => Finset.sum_congr rfl fun j _ => ?_
        ring
      rw [this]
      simp [current, ht, hax]; ring
  · obtain ⟨m, M, iS, fS, e, hM, W, -⟩ := (hf x (by simp)).window (O + 1) h1 h2
    obtain ⟨m', M', iS', fS', e', hM', W', -⟩ := (hf y (by simp)).window (O + 1) h1 h2
    obtain ⟨m'', M'', iS'', fS'', e'', hM'', W'', -⟩ := (hf z (by simp)).window (O + 1) h1 h2
    simp only [esirkepov3, e, e', e'', Outcome.bind_ok, Outcome.pure_eq, Outcome.ok.injEq] at hu
    rw [show M + NG - (m + NG) = M - m by ring, show M' + NG - (m' + NG) = M' - m' by ring,
      show M'' + NG - (m'' + NG) = M'' - m'' by ring] at hu
    subst hu
    rw [compSum_append, compSum_append, compSum_flatMap, compSum_flatMap, compSum_flatMap]
    simp only [compSum_flatMap, compSum_map]
    set q := p.weight * charge * (1 / dt) with hq
    interval_cases c
    · simp only [if_true, show (1 : Nat) ≠ 0 by decide, show (2 : Nat) ≠ 0 by decide, if_false,
        Finset.sum_const_zero, add_zero]
      rw [Finset.sum_comm]
      have : ∀ j, ∑ i ∈ Finset.range (M - m).toNat, ∑ k ∈ Finset.range ((M'' - m'').toNat + 1),
          runSum q (fun i' => 1/3 * (fS i' - iS i') * ((iS' j * iS'' k + fS' j * fS'' k) +
            1/2 * (iS'' k * fS' j + iS' j * fS'' k))) i =
          ∑ k ∈ Finset.range ((M'' - m'').toNat + 1), q * (xNew x - xOld x) *
            (1/3 * (iS' j * iS'' k) + 1/6 * (iS' j * fS'' k) + 1/6 * (fS' j * iS'' k) +
              1/3 * (fS' j * fS'' k)) := by
        intro j
        rw [Finset.sum_comm]
        exact Finset.sum_congr rfl fun k _ => W.run _ _ _ (fun i => by ring)
      simp only [this, ← Finset.mul_sum]
      rw [sum2 _ _ _ _ _ _ (1/3) (1/6) (1/6) (1/3) W'.sI W'.sF W''.sI W''.sF]
      simp [current, ht, hax, hq]; ring
    · simp only [if_true, show (0 : Nat) ≠ 1 by decide, show (2 : Nat) ≠ 1 by decide, if_false,
        Finset.sum_const_zero, add_zero, zero_add]
      have : ∀ i, ∑ j ∈ Finset.range (M' - m').toNat, ∑ k ∈ Finset.range ((M'' - m'').toNat + 1),
          runSum q (fun j' => 1/3 * (fS' j' - iS' j') * (iS i * iS'' k + fS i * fS'' k +
            1/2 * (iS'' k * fS i + iS i * fS'' k))) j =
          ∑ k ∈ Finset.range ((M'' - m'').toNat + 1), q * (xNew y - xOld y) *
            (1/3 * (iS i * iS'' k) + 1/6 * (iS i * fS'' k) + 1/6 * (fS i * iS'' k) +
              1/3 * (fS i * fS'' k)) := by
        intro j
        rw [Finset.sum_comm]
        exact Finset.sum_congr rfl fun k _ => W'.run _ _ _ (fun i => by ring)
      simp only [this, ← Finset.mul_sum]
      rw [sum2 _ _ _ _ _ _ (1/3) (1/6) (1/6) (1/3) W.sI W.sF W''.sI W''.sF]
      simp [current, ht, hax, hq]; ring
    · simp only [if_true, show (0 : Nat) ≠ 2 by decide, show (1 : Nat) ≠ 2 by decide, if_false,
        Finset.sum_const_zero, zero_add]
      have : ∀ i j, ∑ k ∈ Finset.range (M'' - m'').toNat,
          runSum q (fun k' => 1/3 * (fS'' k' - iS'' k') * (iS i * iS' j + fS i * fS' j +
            1/2 * (iS i * fS' j + iS' j * fS i))) k =
          q * (xNew z - xOld z) *
            (1/3 * (iS i * iS' j) + 1/6 * (iS i * fS' j) + 1/6 * (fS i * iS' j) +
              1/3 * (fS i * fS' j)) := by
        intro i j
        exact W''.run _ _ _ (fun i => by ring)
      simp only [this, ← Finset.mul_sum]
      rw [sum2 _ _ _ _ _ _ (1/3) (1/6) (1/6) (1/3) W.sI W.sF W'.sI W'.sF]
      simp [current, ht, hax, hq]; ring

/-! ## C73 -/

/-- **C73**: for every order, in one, two and three dimensions, everything added to one component of
the current sums up to the charge of the particles times their displacement over the time step
(axes of the grid) or times their velocity (other axes); dead particles add nothing. -/
theorem C73_total_current (O : Nat) (h2 : O ≤ 11) (NG : Int) (charge dt : K) (c : Nat) (hc : c < 3)
    (ps : List (DPrtl K)) (hp : ∀ p ∈ ps, p.tag = dead ∨ ∀ a ∈ p.ax, FitAx a)
    (us : List (Upd K)) (hu : depositAll O NG charge dt ps = .ok us) :
    compSum us c = (ps.map (current charge dt c)).sum := by
  induction ps generalizing us with
  | nil =>
    simp only [depositAll, Outcome.ok.injEq] at hu
    subst hu; rfl
  | cons p ps ih =>
    simp only [depositAll] at hu
    obtain ⟨vs, h, hu⟩ := Outcome.bind_eq_ok.mp hu
    obtain ⟨ws, h', hu⟩ := Outcome.bind_eq_ok.mp hu
    simp only [Outcome.pure_eq, Outcome.ok.injEq] at hu
    subst hu
    rw [compSum_append, ih (fun q hq => hp q (List.mem_cons_of_mem _ hq)) ws h', List.map_cons,
      List.sum_cons]
    congr 1
    rcases Nat.eq_zero_or_pos O with rfl | hO
    · exact zigzag_total hc (hp p List.mem_cons_self) h
    · exact esirkepov_total hO h2 hc (hp p List.mem_cons_self) h

/-- A two-dimensional particle at order 3: the three sums. -/
example : (match depositAll 3 3 (2 : ℚ) (1/2)
      [⟨[⟨4, 3, 1/4, 3/4, 0⟩, ⟨2, 2, 1/8, 5/8, 0⟩], 3/2, 0, 1/3, alive⟩] with
    | .ok us => decide (compSum us 0 = 3 ∧ compSum us 1 = -3 ∧ compSum us 2 = 1)
    | _ => false) = true := by decide +kernel

end Entity.Deposit
