import Verif.Model.Atmosphere
import Mathlib.Analysis.SpecialFunctions.ExpDeriv

/-!
# C125: gravity and target density of the atmosphere
-/

namespace Entity.Atmosphere

open Entity

/-! ## Equilibrium -/

/-- **C125**: between surface and top of the layer the target density is in hydrostatic equilibrium with
the gravity applied to the particles: the pressure gradient `T dn/dx` equals `n` times the force, in
Cartesian coordinates at either end of the grid and in curvilinear coordinates at the inner end. -/
theorem C125_equilibrium (eps : ℝ) (cart plus : Bool) (hcp : cart = true ∨ plus = false)
    (T h nmax xs ds : ℝ) (hT : 0 < T) (hh : 0 < h) (heps : eps < T / h) (hds : 0 < ds)
    (hxs : cart = false → 0 < xs) (x : ℝ)
    (hx : if plus = true then xs - ds < x ∧ x < xs else xs < x ∧ x < xs + ds) :
    ∃ n : ℝ → ℝ, (∀ᶠ y in nhds x, profile Real.exp cart plus nmax h xs ds y = .ok (n y)) ∧
      (0 < nmax → 0 < n x) ∧
      ∃ n', HasDerivAt n n' x ∧ T * n' = n x * gravityAt eps cart (gravity plus T h) xs ds x := by
  have hg : 0 < T / h := div_pos hT hh
  have hg1 : ¬ |T / h| ≤ eps := by rw [abs_of_pos hg]; linarith
  have hg2 : ¬ |-(T / h)| ≤ eps := by rw [abs_neg]; exact hg1
  rcases Bool.eq_false_or_eq_true plus with hp | hp
  · have hc : cart = true := by rcases hcp with h | h; exact h; simp [hp] at h
    subst hp; subst hc
    simp only [if_true] at hx
    refine ⟨fun y => nmax * Real.exp (-(xs - y) / h), ?_, fun hn => by positivity,
      nmax * (Real.exp (-(xs - x) / h) * (1 / h)), ?_, ?_⟩
    · filter_upwards [eventually_gt_nhds hx.1, eventually_lt_nhds hx.2] with y h1 h2
      simp only [profile, if_true]
      rw [if_neg (by push Not; exact ⟨h1.le, h2⟩)]
    · have h1 : HasDerivAt (fun y : ℝ => -(xs - y) / h) (1 / h) x := by
        have := ((hasDerivAt_id x).const_sub xs).neg.div_const h
        simpa using this
      exact (h1.exp).const_mul nmax
    · unfold gravityAt gravity
      simp only [if_true]
      rw [if_pos ⟨hg1, Or.inr (by linarith [hx.2]), Or.inl hds⟩]
      field_simp
  · subst hp
    simp only [Bool.false_eq_true, if_false] at hx
    have hcond : (ds < 0 ∨ x ≤ xs + ds) ∧ (ds > 0 ∨ x ≥ xs + ds) := ⟨Or.inr hx.2.le, Or.inl hds⟩
    rcases Bool.eq_false_or_eq_true cart with hc | hc
    · subst hc
      refine ⟨fun y => nmax * Real.exp (-(y - xs) / h), ?_, fun hn => by positivity,
        nmax * (Real.exp (-(x - xs) / h) * (-1 / h)), ?_, ?_⟩
      · filter_upwards [eventually_gt_nhds hx.1, eventually_lt_nhds hx.2] with y h1 h2
        simp only [profile, Bool.false_eq_true, if_false, if_true]
        rw [if_neg (by push Not; exact ⟨h1.le, h2⟩)]
      · have h1 : HasDerivAt (fun y : ℝ => -(y - xs) / h) (-1 / h) x := by
          have := ((hasDerivAt_id x).sub_const xs).neg.div_const h
          simpa using this
        exact (h1.exp).const_mul nmax
      · unfold gravityAt gravity
        simp only [Bool.false_eq_true, if_false, if_true]
        rw [if_pos ⟨hg2, hcond⟩]
        field_simp
    · subst hc
      have hx0 : x ≠ 0 := (lt_trans (hxs rfl) hx.1).ne'
      refine ⟨fun y => nmax * Real.exp (-(xs / h) * (1 - xs / y)), ?_, fun hn => by positivity,
        nmax * (Real.exp (-(xs / h) * (1 - xs / x)) * (-(xs / h) * (xs / x ^ 2))), ?_, ?_⟩
      · filter_upwards [eventually_gt_nhds hx.1, eventually_lt_nhds hx.2] with y h1 h2
        simp only [profile, Bool.false_eq_true, if_false]
        rw [if_neg (by push Not; exact ⟨h1.le, h2⟩)]
      · have h1 : HasDerivAt (fun y : ℝ => xs / y) (-(xs / x ^ 2)) x := by
          have := (hasDerivAt_inv hx0).const_mul xs
          simpa [div_eq_mul_inv] using this
        have h2 : HasDerivAt (fun y : ℝ => -(xs / h) * (1 - xs / y)) (-(xs / h) * (xs / x ^ 2)) x := by
          have := (h1.const_sub 1).const_mul (-(xs / h))
          simpa using this
        exact (h2.exp).const_mul nmax
      · unfold gravityAt gravity
        simp only [Bool.false_eq_true, if_false]
        rw [if_pos ⟨hg2, hcond⟩]
        field_simp

/-- A case: surface at 1, layer of thickness 1. -/
example : ∃ n : ℝ → ℝ, (∀ᶠ y in nhds (3 / 2 : ℝ), profile Real.exp false false 1 1 1 1 y = .ok (n y)) ∧
    ((0 : ℝ) < 1 → 0 < n (3 / 2)) ∧
      ∃ n', HasDerivAt n n' (3 / 2) ∧
        1 * n' = n (3 / 2) * gravityAt 0 false (gravity false 1 1) 1 1 (3 / 2) :=
  C125_equilibrium 0 false false (Or.inr rfl) 1 1 1 1 1 (by norm_num) (by norm_num) (by norm_num) (by norm_num)
    (fun _ => by norm_num) (3 / 2) (by norm_num)

/-! ## Where -/

variable {K : Type} [Field K] [LinearOrder K] [IsStrictOrderedRing K]

/-- **C125**: particles are only asked for in the layer of thickness `ds` next to the buffer of at least
five cells at the end of the grid: where the target density is not zero, the code coordinate `y` lies
beyond the buffer and the physical distance to the surface is at most `ds`. -/
theorem C125_layer (exp : K → K) (cart plus : Bool) (axis : Nat) (ph : K → K) (hph : StrictMono ph)
    (n filters : Nat) (e : K × K) (he : atmExtent cart axis plus ph n filters = .ok e)
    (nmax height ds y t : K)
    (ht : profile exp cart plus nmax height (surface plus e) ds (ph y) = .ok t) (ht0 : t ≠ 0) :
    (if plus = true then y + max 5 ((filters : K) + 2) < n ∧ surface plus e - ph y ≤ ds
      else max 5 ((filters : K) + 2) ≤ y ∧ ph y - surface plus e ≤ ds) := by
  have hb : (FieldBC.bufferCells filters : K) = max 5 ((filters : K) + 2) := by
    unfold FieldBC.bufferCells
    split_ifs with h
    · rw [max_eq_right]
      · push_cast; rfl
      · have : ((5 : Nat) : K) ≤ ((filters + 2 : Nat) : K) := by exact_mod_cast h.le
        push_cast at this; exact this
    · rw [max_eq_left]
      · norm_num
      · have : ((filters + 2 : Nat) : K) ≤ ((5 : Nat) : K) := by exact_mod_cast not_lt.1 h
        push_cast at this; exact this
  unfold atmExtent at he
  split_ifs at he with h1 h2
  · rw [Outcome.ok.injEq] at he
    subst he
    rcases Bool.eq_false_or_eq_true plus with hp | hp
    · subst hp
      simp only [surface, FieldBC.atmCells, if_true] at ht ⊢
      simp only [true_and, not_lt] at h2
      unfold profile at ht
      simp only [if_true] at ht
      split_ifs at ht with h3 h4
      · exact absurd (Outcome.ok.inj ht).symm ht0
      · push Not at h3
        refine ⟨?_, by linarith [h3.1]⟩
        have := hph.lt_iff_lt.1 h3.2
        rw [Nat.cast_sub h2] at this
        rw [← hb]; linarith
    · subst hp
      simp only [surface, FieldBC.atmCells, Bool.false_eq_true, if_false] at ht ⊢
      unfold profile at ht
      simp only [Bool.false_eq_true, if_false] at ht
      by_cases h3 : ph y < ph (FieldBC.bufferCells filters) ∨ ph y ≥ ph (FieldBC.bufferCells filters) + ds
      · rw [if_pos h3] at ht
        exact absurd (Outcome.ok.inj ht).symm ht0
      · push Not at h3
        exact ⟨by rw [← hb]; exact hph.le_iff_le.1 h3.1, by linarith [h3.2]⟩

/-- A case: eight cells beyond the lower end, five filter passes, so seven cells of buffer. -/
example : profile (fun _ => (1 : ℚ)) true false 2 1 7 3 (17 / 2) = .ok 2 ∧
    atmExtent (K := ℚ) true 0 false id 32 5 = .ok (0, 7) := by
  decide +kernel

/-- **C125**: an atmosphere is accepted at both ends of every axis in Cartesian coordinates, and only at
the inner end of the first axis otherwise; its buffer is then the stretch of `max 5 (filters + 2)` cells
at that end of the grid. -/
theorem C125_accepted (cart plus : Bool) (axis : Nat) (ph : K → K) (n filters : Nat) (hn : filters + 2 ≤ n)
    (h5 : 5 ≤ n) :
    atmExtent cart axis plus ph n filters =
      if cart = true ∨ (axis = 0 ∧ plus = false) then
        .ok (if plus = true then (ph ((n - max 5 (filters + 2) : Nat) : K), ph (n : K))
          else (ph 0, ph ((max 5 (filters + 2) : Nat) : K)))
      else .err := by
  have hb : FieldBC.bufferCells filters = max 5 (filters + 2) := by
    unfold FieldBC.bufferCells; split_ifs <;> omega
  have hlt : ¬ n < max 5 (filters + 2) := by omega
  unfold atmExtent FieldBC.atmCells
  rw [hb]
  cases cart <;> cases plus <;> by_cases h0 : axis = 0 <;> simp [h0, hlt]

/-- Cases: a star in spherical coordinates, and an atmosphere at its outer boundary. -/
example : atmExtent (K := ℚ) false 0 false (fun y => 1 + y / 10) 32 5 = .ok (1, 17 / 10) ∧
    atmExtent (K := ℚ) false 0 true (fun y => 1 + y / 10) 32 5 = .err := by
  decide +kernel

/-- **C125** (part): at the lower end of the grid and for positive `ds` gravity acts on particles no
further than `ds` from the surface, pulls towards the boundary, has strength `T / h`, in curvilinear
coordinates times `(x_surf / x)^2`, and vanishes farther away.

Missing: the upper end of the grid, `C125_upper_counterexample`, and `ds = 0`, `C125_ds_counterexample`. -/
theorem C125_confined_partial (eps : K) (cart : Bool) (T h xs ds x : K) (hT : 0 < T) (hh : 0 < h)
    (heps : eps < T / h) (hds : 0 < ds) :
    gravityAt eps cart (gravity false T h) xs ds x =
      if x - xs ≤ ds then -(T / h) * (if cart = true then 1 else (xs / x) ^ 2) else 0 := by
  have hg : 0 < T / h := div_pos hT hh
  have hg2 : ¬ |-(T / h)| ≤ eps := by rw [abs_neg, abs_of_pos hg]; linarith
  unfold gravityAt gravity
  simp only [Bool.false_eq_true, if_false]
  by_cases hx : x - xs ≤ ds
  · rw [if_pos ⟨hg2, Or.inr (by linarith), Or.inl hds⟩, if_pos hx]
    split_ifs <;> ring
  · rw [if_neg, if_neg hx]
    rintro ⟨_, h1 | h1, _⟩
    · linarith
    · exact hx (by linarith)

/-- **C125** fails at the upper end of the grid: with the positive `ds` that the density profile needs,
gravity acts at full strength on every particle below the surface, however far from it. -/
theorem C125_upper_counterexample (eps T h xs ds x : K) (hT : 0 < T) (hh : 0 < h) (heps : eps < T / h)
    (hds : 0 < ds) (hx : x ≤ xs) : gravityAt eps true (gravity true T h) xs ds x = T / h := by
  have hg : 0 < T / h := div_pos hT hh
  unfold gravityAt gravity
  simp only [if_true]
  rw [if_pos]
  refine ⟨by rw [abs_of_pos hg]; linarith, Or.inr (by linarith), Or.inl hds⟩

/-- **C125** fails for `ds = 0`, the default, documented as "no limit": no particle off the surface feels
any gravity. -/
theorem C125_ds_counterexample (eps : K) (cart : Bool) (g xs x : K) (hx : x ≠ xs) :
    gravityAt eps cart g xs 0 x = 0 := by
  unfold gravityAt
  rw [if_neg]
  rintro ⟨_, h1, h2⟩
  simp only [lt_irrefl, false_or, add_zero, gt_iff_lt] at h1 h2
  exact hx (le_antisymm h1 h2)

end Entity.Atmosphere
