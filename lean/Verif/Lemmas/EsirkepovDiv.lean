import Verif.Lemmas.Esirkepov

/-!
# The divergence of the Esirkepov deposit
-/

namespace Entity.Deposit

open Entity Entity.Push Entity.Shapes Entity.Tags

variable {K : Type} [Field K] [LinearOrder K] [IsStrictOrderedRing K]

/-- The shape of order `O` of a particle at `x`, at array index `n` (ghost cells included). -/
def shp (O : Nat) (NG : Int) (x : K) (n : Int) : K := bspline O (x - ((n - NG : Int) : K))

theorem Window.iAt {O : Nat} {xi xf : K} {m : Int} {d : Nat} {iS fS : Nat → K}
    (h : Window O xi xf m d iS fS) (NG n : Int) (h0 : m + NG ≤ n) (h1 : n < m + NG + (d + 1 : Nat)) :
    iS (n - (m + NG)).toNat = shp O NG xi n := by
  have := h.hd
  rw [h.hi _ (by omega), shp]
  congr 3; omega

theorem Window.fAt {O : Nat} {xi xf : K} {m : Int} {d : Nat} {iS fS : Nat → K}
    (h : Window O xi xf m d iS fS) (NG n : Int) (h0 : m + NG ≤ n) (h1 : n < m + NG + (d + 1 : Nat)) :
    fS (n - (m + NG)).toNat = shp O NG xf n := by
  have := h.hd
  rw [h.hf _ (by omega), shp]
  congr 3; omega

theorem Window.iOut {O : Nat} {xi xf : K} {m : Int} {d : Nat} {iS fS : Nat → K}
    (h : Window O xi xf m d iS fS) (NG n : Int)
    (h0 : ¬ (m + NG ≤ n ∧ n < m + NG + (d + 1 : Nat))) : shp O NG xi n = 0 :=
  h.oi _ (by push_cast at h0; omega)

theorem Window.fOut {O : Nat} {xi xf : K} {m : Int} {d : Nat} {iS fS : Nat → K}
    (h : Window O xi xf m d iS fS) (NG n : Int)
    (h0 : ¬ (m + NG ≤ n ∧ n < m + NG + (d + 1 : Nat))) : shp O NG xf n = 0 :=
  h.of _ (by push_cast at h0; omega)

/-- The flux along one axis, the weight along the others being the constant `G`. -/
theorem Window.flux_diff {O : Nat} {xi xf : K} {m : Int} {d : Nat} {iS fS : Nat → K}
    (h : Window O xi xf m d iS fS) (q G : K) (NG n : Int) :
    flux q (m + NG) d (fun i => (fS i - iS i) * G) n -
      flux q (m + NG) d (fun i => (fS i - iS i) * G) (n - 1) =
      -q * ((shp O NG xf n - shp O NG xi n) * G) := by
  have hd := h.hd
  refine Deposit.flux_diff q (m + NG) d _ (fun n => (shp O NG xf n - shp O NG xi n) * G) ?_ ?_ ?_ n
  · intro j hj
    have e1 := h.iAt NG (m + NG + j) (by omega) (by push_cast; omega)
    have e2 := h.fAt NG (m + NG + j) (by omega) (by push_cast; omega)
    rw [show (m + NG + (j : Int) - (m + NG)).toNat = j by omega] at e1 e2
    beta_reduce
    rw [e1, e2]
  · intro n hn
    beta_reduce
    rw [h.iOut NG n (by push_cast; omega), h.fOut NG n (by push_cast; omega)]; ring
  · rw [← Finset.sum_mul, Finset.sum_sub_distrib]
    have e1 : ∑ j ∈ Finset.range (d + 1), shp O NG xf (m + NG + j) = 1 := by
      rw [← h.sf]; refine Finset.sum_congr rfl fun k _ => ?_
      unfold shp; congr 3; omega
    have e2 : ∑ j ∈ Finset.range (d + 1), shp O NG xi (m + NG + j) = 1 := by
      rw [← h.si]; refine Finset.sum_congr rfl fun k _ => ?_
      unfold shp; congr 3; omega
    rw [e1, e2]; ring

theorem runSum_zero (q : K) (i : Nat) : runSum q (fun _ => (0 : K)) i = 0 := by
  rw [runSum_eq]; simp

theorem flux_zero (q : K) (m : Int) (d : Nat) (n : Int) : flux q m d (fun _ => (0 : K)) n = 0 := by
  unfold flux; rw [runSum_zero]; simp

theorem total_drop {us vs : List (Upd K)} {c : Nat} {n : List Int} (h : total vs c n = 0) :
    total (us ++ vs) c n = total us c n := by rw [total_append, h, add_zero]

/-- An axis of a particle fit for deposition: offsets in the unit interval, displacement below one
cell. -/
structure FitAx (a : Ax K) : Prop where
  p0 : 0 ≤ a.dxPrev
  p1 : a.dxPrev ≤ 1
  n0 : 0 ≤ a.dx
  n1 : a.dx ≤ 1
  cfl : |((a.i : K) + a.dx) - ((a.iPrev : K) + a.dxPrev)| < 1

theorem FitAx.cells {a : Ax K} (h : FitAx a) :
    a.i = a.iPrev ∨ a.i = a.iPrev + 1 ∨ a.i = a.iPrev - 1 := by
  obtain ⟨h1, h2⟩ := abs_lt.mp h.cfl
  have := h.p0; have := h.p1; have := h.n0; have := h.n1
  have a1 : (a.i : K) - a.iPrev < 2 := by linarith
  have a2 : (a.iPrev : K) - a.i < 2 := by linarith
  have b1 : a.i - a.iPrev < 2 := by exact_mod_cast a1
  have b2 : a.iPrev - a.i < 2 := by exact_mod_cast a2
  omega

/-- The old and the new coordinate along an axis. -/
def xOld (a : Ax K) : K := (a.iPrev : K) + a.dxPrev
def xNew (a : Ax K) : K := (a.i : K) + a.dx

theorem FitAx.window {a : Ax K} (h : FitAx a) (O : Nat) (h1 : 1 ≤ O) (h2 : O ≤ 11) :
    ∃ m M iS fS, forDeposit O a.iPrev a.dxPrev a.i a.dx = .ok (m, M, iS, fS) ∧ m ≤ M ∧
      Window O (xOld a) (xNew a) m (M - m).toNat iS fS ∧
      ((O : K) - 1) / 2 ≤ max (xOld a) (xNew a) - (M - O : Int) ∧
      min (xOld a) (xNew a) - (m : K) ≤ ((O : K) + 1) / 2 :=
  forDeposit_spec O h1 h2 _ _ _ _ h.p0 h.p1 h.n0 h.n1 h.cfl

theorem esirkepov1_div (O : Nat) (h1 : 1 ≤ O) (h2 : O ≤ 11) (NG : Int) (coeff invDt vp2 vp3 : K)
    (a : Ax K) (ha : FitAx a) {us : List (Upd K)}
    (hu : esirkepov1 O NG coeff invDt vp2 vp3 a = .ok us) (n : Int) :
    total us 0 [n] - total us 0 [n - 1] =
      -(coeff * invDt) * (shp O NG (xNew a) n - shp O NG (xOld a) n) := by
  obtain ⟨m, M, iS, fS, e, hM, W, -⟩ := ha.window O h1 h2
  simp only [esirkepov1, e, Outcome.bind_ok, Outcome.pure_eq, Outcome.ok.injEq] at hu
  rw [show M + NG - (m + NG) = M - m by ring] at hu
  set d := (M - m).toNat
  have key : ∀ n, total us 0 [n] = flux (coeff * invDt) (m + NG) d (fun i => (fS i - iS i) * 1) n := by
    intro n
    rw [← hu, total_append, total_append, total_loop1, total_other _ 0 _ ?_, total_other _ 0 _ ?_]
    · simp only [flux, mul_one, add_zero]
    · intro u hu; rw [mem_comp1 hu]; decide
    · intro u hu; rw [mem_comp1 hu]; decide
  rw [key, key, W.flux_diff]; ring

theorem esirkepov2_div (O : Nat) (h1 : 1 ≤ O) (h2 : O ≤ 11) (NG : Int) (coeff invDt vp3 : K)
    (a b : Ax K) (ha : FitAx a) (hb : FitAx b) {us : List (Upd K)}
    (hu : esirkepov2 O NG coeff invDt vp3 a b = .ok us) (n m : Int) :
    (total us 0 [n, m] - total us 0 [n - 1, m]) + (total us 1 [n, m] - total us 1 [n, m - 1]) =
      -(coeff * invDt) * (shp O NG (xNew a) n * shp O NG (xNew b) m -
        shp O NG (xOld a) n * shp O NG (xOld b) m) := by
  obtain ⟨m₁, M₁, iS₁, fS₁, e₁, hM₁, W₁, -⟩ := ha.window O h1 h2
  obtain ⟨m₂, M₂, iS₂, fS₂, e₂, hM₂, W₂, -⟩ := hb.window O h1 h2
  simp only [esirkepov2, e₁, e₂, Outcome.bind_ok, Outcome.pure_eq, Outcome.ok.injEq] at hu
  rw [show M₁ + NG - (m₁ + NG) = M₁ - m₁ by ring, show M₂ + NG - (m₂ + NG) = M₂ - m₂ by ring] at hu
  set d₁ := (M₁ - m₁).toNat
  set d₂ := (M₂ - m₂).toNat
  have mem2 : ∀ {c d d' : Nat} {idx : Nat → Nat → List Int} {f : Nat → Nat → K} {u : Upd K},
      u ∈ (List.range d).flatMap (fun i => (List.range d').map (fun j =>
        (⟨c, idx i j, f i j⟩ : Upd K))) → u.comp = c := by
    intro c d d' idx f u h
    obtain ⟨i, _, h⟩ := List.mem_flatMap.mp h
    exact mem_comp1 h
  have key0 : ∀ n, total us 0 [n, m] = flux (coeff * invDt) (m₁ + NG) d₁
      (fun i => (fS₁ i - iS₁ i) * (1/2 * (shp O NG (xNew b) m + shp O NG (xOld b) m))) n := by
    intro n
    rw [← hu, total_append, total_append, total_loop2, total_other _ 0 _ ?_, total_other _ 0 _ ?_]
    · rw [add_zero, add_zero]
      by_cases hin : m₂ + NG ≤ m ∧ m < m₂ + NG + (d₂ + 1 : Nat)
      · rw [if_pos hin, W₂.iAt NG m hin.1 hin.2, W₂.fAt NG m hin.1 hin.2]
        unfold flux
        split_ifs
        · congr 1; funext i; ring
        · rfl
      · rw [W₂.iOut NG m hin, W₂.fOut NG m hin, if_neg hin]
        simp only [add_zero, mul_zero, flux_zero, ite_self]
    · intro u hu; rw [mem2 hu]; decide
    · intro u hu; rw [mem2 hu]; decide
  have key1 : ∀ m, total us 1 [n, m] = flux (coeff * invDt) (m₂ + NG) d₂
      (fun j => (fS₂ j - iS₂ j) * (1/2 * (shp O NG (xNew a) n + shp O NG (xOld a) n))) m := by
    intro m
    rw [← hu, total_append, total_append, total_other _ 1 _ ?_, total_loop2, total_other _ 1 _ ?_]
    · rw [add_zero, zero_add]
      by_cases hin : m₁ + NG ≤ n ∧ n < m₁ + NG + (d₁ + 1 : Nat)
      · rw [if_pos hin, W₁.iAt NG n hin.1 hin.2, W₁.fAt NG n hin.1 hin.2]
        unfold flux
        split_ifs
        · congr 1; funext i; ring
        · rfl
      · rw [W₁.iOut NG n hin, W₁.fOut NG n hin, if_neg hin]
        simp only [add_zero, mul_zero, flux_zero]
    · intro u hu; rw [mem2 hu]; decide
    · intro u hu; rw [mem2 hu]; decide
  rw [key0, key0, key1, key1, W₁.flux_diff, W₂.flux_diff]; ring

theorem esirkepov3_div (O : Nat) (h1 : 1 ≤ O) (h2 : O ≤ 11) (NG : Int) (coeff invDt : K)
    (a b c : Ax K) (ha : FitAx a) (hb : FitAx b) (hc : FitAx c) {us : List (Upd K)}
    (hu : esirkepov3 O NG coeff invDt a b c = .ok us) (n m l : Int) :
    (total us 0 [n, m, l] - total us 0 [n - 1, m, l]) +
    (total us 1 [n, m, l] - total us 1 [n, m - 1, l]) +
    (total us 2 [n, m, l] - total us 2 [n, m, l - 1]) =
      -(coeff * invDt) *
        (shp O NG (xNew a) n * shp O NG (xNew b) m * shp O NG (xNew c) l -
        shp O NG (xOld a) n * shp O NG (xOld b) m * shp O NG (xOld c) l) := by
  obtain ⟨m₁, M₁, iS₁, fS₁, e₁, hM₁, W₁, -⟩ := ha.window O h1 h2
  obtain ⟨m₂, M₂, iS₂, fS₂, e₂, hM₂, W₂, -⟩ := hb.window O h1 h2
  obtain ⟨m₃, M₃, iS₃, fS₃, e₃, hM₃, W₃, -⟩ := hc.window O h1 h2
  simp only [esirkepov3, e₁, e₂, e₃, Outcome.bind_ok, Outcome.pure_eq, Outcome.ok.injEq] at hu
  rw [show M₁ + NG - (m₁ + NG) = M₁ - m₁ by ring, show M₂ + NG - (m₂ + NG) = M₂ - m₂ by ring,
    show M₃ + NG - (m₃ + NG) = M₃ - m₃ by ring] at hu
  set d₁ := (M₁ - m₁).toNat
  set d₂ := (M₂ - m₂).toNat
  set d₃ := (M₃ - m₃).toNat
  have mem3 : ∀ {c d d' d'' : Nat} {idx : Nat → Nat → Nat → List Int} {f : Nat → Nat → Nat → K}
      {u : Upd K}, u ∈ (List.range d).flatMap (fun i => (List.range d').flatMap (fun j =>
        (List.range d'').map (fun k => (⟨c, idx i j k, f i j k⟩ : Upd K)))) → u.comp = c := by
    intro c d d' d'' idx f u h
    obtain ⟨i, _, h⟩ := List.mem_flatMap.mp h
    obtain ⟨j, _, h⟩ := List.mem_flatMap.mp h
    exact mem_comp1 h
  set A := shp O NG (xNew a) n with hA
  set A' := shp O NG (xOld a) n with hA'
  set B := shp O NG (xNew b) m with hB
  set B' := shp O NG (xOld b) m with hB'
  set C := shp O NG (xNew c) l with hC
  set C' := shp O NG (xOld c) l with hC'
  have key0 : ∀ n, total us 0 [n, m, l] = flux (coeff * invDt) (m₁ + NG) d₁
      (fun i => (fS₁ i - iS₁ i) * (1/3 * ((B' * C' + B * C) + 1/2 * (C' * B + B' * C)))) n := by
    intro n
    rw [← hu, total_append, total_append, total_loop3, total_other _ 0 _ ?_, total_other _ 0 _ ?_]
    · rw [add_zero, add_zero]
      by_cases h2 : m₂ + NG ≤ m ∧ m < m₂ + NG + (d₂ + 1 : Nat)
      · by_cases h3 : m₃ + NG ≤ l ∧ l < m₃ + NG + (d₃ + 1 : Nat)
        · rw [if_pos h2, if_pos h3, W₂.iAt NG m h2.1 h2.2, W₂.fAt NG m h2.1 h2.2,
            W₃.iAt NG l h3.1 h3.2, W₃.fAt NG l h3.1 h3.2]
          unfold flux
          split_ifs
          · congr 1; funext i; ring
          · rfl
        · rw [hC, hC', W₃.iOut NG l h3, W₃.fOut NG l h3, if_neg h3]
          simp only [mul_zero, zero_mul, add_zero, flux_zero, ite_self]
      · rw [hB, hB', W₂.iOut NG m h2, W₂.fOut NG m h2, if_neg h2]
        simp only [mul_zero, zero_mul, add_zero, flux_zero, ite_self]
    · intro u hu; rw [mem3 hu]; decide
    · intro u hu; rw [mem3 hu]; decide
  have key1 : ∀ m, total us 1 [n, m, l] = flux (coeff * invDt) (m₂ + NG) d₂
      (fun i => (fS₂ i - iS₂ i) * (1/3 * ((A' * C' + A * C) + 1/2 * (C' * A + A' * C)))) m := by
    intro m
    rw [← hu, total_append, total_append, total_other _ 1 _ ?_, total_loop3, total_other _ 1 _ ?_]
    · rw [add_zero, zero_add]
      by_cases h2 : m₁ + NG ≤ n ∧ n < m₁ + NG + (d₁ + 1 : Nat)
      · by_cases h3 : m₃ + NG ≤ l ∧ l < m₃ + NG + (d₃ + 1 : Nat)
        · rw [if_pos h2, if_pos h3, W₁.iAt NG n h2.1 h2.2, W₁.fAt NG n h2.1 h2.2,
            W₃.iAt NG l h3.1 h3.2, W₃.fAt NG l h3.1 h3.2]
          unfold flux
          split_ifs
          · congr 1; funext i; ring
          · rfl
        · rw [hC, hC', W₃.iOut NG l h3, W₃.fOut NG l h3, if_neg h3]
          simp only [mul_zero, zero_mul, add_zero, flux_zero, ite_self]
      · rw [hA, hA', W₁.iOut NG n h2, W₁.fOut NG n h2, if_neg h2]
        simp only [mul_zero, zero_mul, add_zero, flux_zero]
    · intro u hu; rw [mem3 hu]; decide
    · intro u hu; rw [mem3 hu]; decide
  have key2 : ∀ l, total us 2 [n, m, l] = flux (coeff * invDt) (m₃ + NG) d₃
      (fun i => (fS₃ i - iS₃ i) * (1/3 * ((A' * B' + A * B) + 1/2 * (A' * B + B' * A)))) l := by
    intro l
    rw [← hu, total_append, total_append, total_other _ 2 _ ?_, total_other _ 2 _ ?_, total_loop3]
    · rw [add_zero, zero_add]
      by_cases h2 : m₁ + NG ≤ n ∧ n < m₁ + NG + (d₁ + 1 : Nat)
      · by_cases h3 : m₂ + NG ≤ m ∧ m < m₂ + NG + (d₂ + 1 : Nat)
        · rw [if_pos h2, if_pos h3, W₁.iAt NG n h2.1 h2.2, W₁.fAt NG n h2.1 h2.2,
            W₂.iAt NG m h3.1 h3.2, W₂.fAt NG m h3.1 h3.2]
          unfold flux
          split_ifs
          · congr 1; funext i; ring
          · rfl
        · rw [hB, hB', W₂.iOut NG m h3, W₂.fOut NG m h3, if_neg h3]
          simp only [mul_zero, zero_mul, add_zero, flux_zero, ite_self]
      · rw [hA, hA', W₁.iOut NG n h2, W₁.fOut NG n h2, if_neg h2]
        simp only [mul_zero, zero_mul, add_zero, flux_zero]
    · intro u hu; rw [mem3 hu]; decide
    · intro u hu; rw [mem3 hu]; decide
  rw [key0, key0, key1, key1, key2, key2, W₁.flux_diff, W₂.flux_diff, W₃.flux_diff]
  simp only [← hA, ← hA', ← hB, ← hB', ← hC, ← hC']
  ring

end Entity.Deposit
