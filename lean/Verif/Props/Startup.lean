import Verif.Lemmas.Startup

/-!
# C163: a simulation that starts on one process starts on many
-/

namespace Entity.Startup

open Entity Entity.Decomp Entity.Float

/-- **C163, exact arithmetic.** Whatever the decomposition, the checks of the subdomains never reject a box
that the metric of the undivided box accepts, and the cell size is the same. -/
theorem C163_exact (eps : ℚ) (he : 0 ≤ eps) (f : Bool) (s : ℚ) (hs : 0 < s) (box : List Axis)
    (dN : List (List Nat)) (g : Metric) (hg : (exact eps f s).minkowski box = .ok g) (hdx : 0 < g.dx)
    (hd : List.Forall₂ (fun (a : Axis) (d : List Nat) => d.sum = a.n ∧ d ≠ [] ∧ ∀ m ∈ d, 0 < m) box dN) :
    (exact eps f s).startup box dN = .ok g := by
  have hbox : box ≠ [] := by
    rintro rfl
    simp [Arith.minkowski] at hg
  have hgm : g.dxMin = g.dx / s := by
    cases box with
    | nil => exact absurd rfl hbox
    | cons a rest =>
      unfold Arith.minkowski at hg
      simp only at hg
      split at hg
      · injection hg with hg; rw [← hg]; rfl
      · cases hg
  refine startup_ok _ box dN g hg ?_ (fun x => x = g.dx) ?_ ?_ ?_
  · intro d hdm
    obtain ⟨i, hi, rfl⟩ := List.getElem_of_mem hdm
    have hl := hd.length_eq
    exact ((List.forall₂_iff_get.1 hd).2 i (by omega) hi).2.1
  · refine hd.imp ?_
    intro a d h o m _ hm
    have m0 : (0 : ℚ) < m := by exact_mod_cast h.2.2 m hm
    show ((exact eps f s).corner g.dx a (o + m) - (exact eps f s).corner g.dx a o) / (m : ℚ) = g.dx
    have e : ∀ i : Nat, (exact eps f s).corner g.dx a i = i * g.dx + a.xmin := by
      intro i; cases f <;> rfl
    rw [e, e]
    push_cast
    field_simp
    ring
  · rintro x y rfl rfl
    simp [Arith.almostEqual]
  · rintro x rfl
    have : g.dx / s ≠ 0 := by positivity
    show (exact eps f s).almostEqual (g.dxMin / (g.dx / s)) 1 = true
    rw [hgm, div_self this]
    simp [Arith.almostEqual]

/-- **C163, extents.** In exact arithmetic the subdomain with `o` cells before it and `m` cells in it extends
over those cells of the box: a subdomain starts where the one before it ends, the first one starts where the
box starts and the last one ends where the box ends. -/
theorem C163_extents (eps : ℚ) (f : Bool) (s : ℚ) (a : Axis) (hn : 0 < a.n) (o m : Nat) :
    let sub := (exact eps f s).subAxis ((exact eps f s).cell a) a o m
    sub.n = m ∧ sub.xmin = a.xmin + o * ((a.xmax - a.xmin) / a.n) ∧
    sub.xmax = a.xmin + (o + m : ℕ) * ((a.xmax - a.xmin) / a.n) ∧
    (o = 0 → sub.xmin = a.xmin) ∧ (o + m = a.n → sub.xmax = a.xmax) := by
  have n0 : (a.n : ℚ) ≠ 0 := by positivity
  have e : ∀ i : Nat, (exact eps f s).corner ((exact eps f s).cell a) a i =
      a.xmin + i * ((a.xmax - a.xmin) / a.n) := by
    intro i
    have : (exact eps f s).corner ((exact eps f s).cell a) a i =
      i * ((a.xmax - a.xmin) / a.n) + a.xmin := by cases f <;> rfl
    rw [this, add_comm]
  refine ⟨rfl, e o, e (o + m), ?_, ?_⟩
  · rintro rfl
    show (exact eps f s).corner _ a 0 = _
    rw [e]; simp
  · intro h
    show (exact eps f s).corner _ a (o + m) = _
    rw [e, h]
    field_simp
    ring

/-- **C163, floating-point numbers.** Let a box be accepted undivided.  If no subdomain is narrower than a
20th of the box along any axis and the ends of the box are no farther from the origin of coordinates than 20
widths of a subdomain, the divided box is accepted too, with the same cell size: all roundings together stay
below the tolerance of 100 `epsilon`, with or without fused operations.  (The cell size must not be
denormal-small, and the numbers of cells must be exact numbers.)
Missing: finer decompositions, rejected for some boxes (`C163_counterexample_many`,
`C163_counterexample_far`); metrics other than the Cartesian one. -/
theorem C163_float_partial {F : Fmt} (hF : Wide F) (f : Bool) {s : ℚ} (h1 : 1 ≤ s) (h2 : s ≤ 2)
    (box : List Axis) (dN : List (List Nat)) (g : Metric)
    (hg : (Startup.float F f s).minkowski box = .ok g) (hdx : 2 ^ (F.emin + 2 * F.p) ≤ g.dx)
    (hd : List.Forall₂ (fun (a : Axis) (d : List Nat) => d.sum = a.n ∧ d ≠ [] ∧ a.n ≤ 2 ^ F.p ∧ ∀ m ∈ d, 0 < m ∧ a.n ≤ 20 * m ∧
      |a.xmin| ≤ 20 * (m * g.dx) ∧ |a.xmin + a.n * g.dx| ≤ 20 * (m * g.dx)) box dN) :
    (Startup.float F f s).startup box dN = .ok g := by
  have hbox : box ≠ [] := by
    rintro rfl
    simp [Arith.minkowski] at hg
  have hgm : g.dxMin = F.round (g.dx / s) := by
    cases box with
    | nil => exact absurd rfl hbox
    | cons a rest =>
      unfold Arith.minkowski at hg
      simp only at hg
      split at hg
      · injection hg with hg; rw [← hg]; rfl
      · cases hg
  have up := two_zpow_pos (-(F.p : Int))
  have d0 : 0 < g.dx := lt_of_lt_of_le (two_zpow_pos _) hdx
  have ud0 : 0 < 2 ^ (-(F.p : Int)) * g.dx := by positivity
  refine startup_ok _ box dN g hg ?_ (fun x => |x - g.dx| ≤ 86 * (2 ^ (-(F.p : Int)) * g.dx)) ?_ ?_ ?_
  · intro d hdm
    obtain ⟨i, hi, rfl⟩ := List.getElem_of_mem hdm
    have hl := hd.length_eq
    exact ((List.forall₂_iff_get.1 hd).2 i (by omega) hi).2.1
  · refine hd.imp ?_
    intro a d h o m hom hm
    obtain ⟨e, _, hn, h⟩ := h
    obtain ⟨m0, k1, k2, k3⟩ := h m hm
    exact cell_err hF f s hdx m0 (by omega) hn k1 k2 k3
  · intro x y hx hy
    exact almost_of_near hF f s hdx (by linarith) (by linarith)
  · intro x hx
    have q := quot_near hF hdx hx h1 h2
    rw [hgm]
    refine almost_of_near hF f s (dx := 1) ?_ ?_ ?_
    · have := zpow_mono (a := F.emin + 2 * F.p) (b := 0) (by have := hF.emin; omega)
      simpa using this
    · rw [mul_one]; exact q
    · rw [sub_self, abs_zero]; positivity

/-- The hypotheses of `C163_float_partial` for a plane box of 40 × 60 cells on 3 × 4 processes, in
`float`. -/
example : (Startup.float b32 false (3 / 2)).startup [⟨-2, 2, 40⟩, ⟨0, 6, 60⟩] [[14, 13, 13], [15, 15, 15, 15]] =
    .ok ⟨b32.round (1 / 10), b32.round (b32.round (1 / 10) / (3 / 2))⟩ := by
  have hr : (1 : ℚ) / 11 ≤ b32.round (1 / 10) ∧ b32.round (1 / 10) ≤ 1 / 9 := by decide +kernel
  refine C163_float_partial wide_b32 false (by norm_num) (by norm_num) _ _ _ (by decide +kernel) ?_ ?_
  · exact le_trans (by norm_num [b32]) hr.1
  · refine .cons ⟨rfl, by simp, by decide, ?_⟩ (.cons ⟨rfl, by simp, by decide, ?_⟩ .nil)
    · intro m hm
      have h13 : (13 : ℚ) ≤ m ∧ 0 < m ∧ 40 ≤ 20 * m := by
        simp only [List.mem_cons, List.not_mem_nil, or_false] at hm
        rcases hm with rfl | rfl | rfl <;> norm_num
      obtain ⟨a, b, c⟩ := h13
      refine ⟨b, c, ?_, ?_⟩
      · have := hr.1
        norm_num
        nlinarith
      · have h1 := hr.1
        have h2 := hr.2
        rw [abs_le]
        constructor <;> push_cast <;> nlinarith
    · intro m hm
      have h13 : (15 : ℚ) ≤ m ∧ 0 < m ∧ 60 ≤ 20 * m := by
        simp only [List.mem_cons, List.not_mem_nil, or_false] at hm
        rcases hm with rfl | rfl | rfl | rfl <;> norm_num
      obtain ⟨a, b, c⟩ := h13
      refine ⟨b, c, ?_, ?_⟩
      · have := hr.1
        norm_num
        nlinarith
      · have h1 := hr.1
        have h2 := hr.2
        rw [abs_le]
        constructor <;> push_cast <;> nlinarith

/-- Example: the same box with the number of the program for the square root of two. -/
example : let A := Startup.float b32 false (b32.round (1414213562 / 1000000000))
    let box : List Axis := [⟨-2, 2, 40⟩, ⟨0, 6, 60⟩]
    A.startup box [[14, 13, 13], [15, 15, 15, 15]] = A.minkowski box ∧ A.minkowski box ≠ .err ∧
      A.minkowski box ≠ .ub := by
  decide +kernel

/-- **C163 fails for many subdomains:** 572 cells on the interval [0, 5], in `double`.  One process starts;
143 processes with four cells each end with "dx_min is not the same across all domains". -/
theorem C163_counterexample_many :
    let A := Startup.float b64 false 1
    (A.startup [⟨0, 5, 572⟩] [[572]] ≠ .err ∧ A.startup [⟨0, 5, 572⟩] [[572]] ≠ .ub) ∧
    A.startup [⟨0, 5, 572⟩] [List.replicate 143 4] = .err := by
  decide +kernel

/-- **C163 fails far from the origin:** 300 cells on the interval [1000, 1001], in `float`: one or two
processes start, three do not. -/
theorem C163_counterexample_far :
    let A := Startup.float b32 false 1
    (A.startup [⟨1000, 1001, 300⟩] [[300]] ≠ .err ∧
      A.startup [⟨1000, 1001, 300⟩] [[300]] ≠ .ub) ∧
    (A.startup [⟨1000, 1001, 300⟩] [[150, 150]] ≠ .err ∧
      A.startup [⟨1000, 1001, 300⟩] [[150, 150]] ≠ .ub) ∧
    A.startup [⟨1000, 1001, 300⟩] [[100, 100, 100]] = .err := by
  decide +kernel

end Entity.Startup
