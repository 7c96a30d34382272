import Verif.Model.Startup
import Verif.Lemmas.Tensor
import Verif.Lemmas.Float
import Verif.Spec.Clock

/-! # Lemmas about the start-up check of cell sizes -/

namespace Entity.Startup

open Entity Entity.Decomp

theorem minDx_fold (l : List ℚ) (y : ℚ) : ∃ m, (m = y ∨ m ∈ l) ∧
    l.foldl minStep (some y) = some m := by
  induction l generalizing y with
  | nil => exact ⟨y, Or.inl rfl, rfl⟩
  | cons x xs ih =>
    obtain ⟨m, h, e⟩ := ih (min y x)
    refine ⟨m, ?_, by simpa [minStep] using e⟩
    rcases h with h | h
    · rcases min_choice y x with c | c
      · left; rw [h, c]
      · right; rw [h, c]; simp
    · right; simp [h]

theorem minDx_mem {l : List ℚ} (h : l ≠ []) : ∃ m ∈ l, minDx l = some m := by
  cases l with
  | nil => exact absurd rfl h
  | cons x xs =>
    obtain ⟨m, h, e⟩ := minDx_fold xs x
    exact ⟨m, by simpa using h, by simpa [minDx, minStep] using e⟩

/-- The metric of a subdomain all of whose cell sizes are good. -/
theorem minkowski_ok (A : Arith) (l : List Axis) (hl : l ≠ []) (Q : ℚ → Prop)
    (h : ∀ a ∈ l, Q (A.cell a)) (hQ : ∀ x y, Q x → Q y → A.almostEqual x y = true) :
    ∃ x, Q x ∧ A.minkowski l = .ok ⟨x, A.rnd (x / A.sqrtD)⟩ := by
  cases l with
  | nil => exact absurd rfl hl
  | cons a rest =>
    refine ⟨A.cell a, h a (by simp), ?_⟩
    have : rest.all (fun b => A.almostEqual (A.cell b) (A.cell a)) = true := by
      rw [List.all_eq_true]
      intro b hb
      exact hQ _ _ (h b (by simp [hb])) (h a (by simp))
    simp only [Arith.minkowski, this, if_true]

theorem subMetrics_ok (A : Arith) (dx : ℚ) (box : List Axis) (R : Metric → Prop) (doms : List Subdomain)
    (h : ∀ s ∈ doms, ∃ m, R m ∧ A.minkowski (A.subAxes dx box s) = .ok m) :
    ∃ ms, A.subMetrics dx box doms = .ok ms ∧ ms.length = doms.length ∧ ∀ m ∈ ms, R m := by
  induction doms with
  | nil => exact ⟨[], rfl, rfl, by simp⟩
  | cons s rest ih =>
    obtain ⟨m, hm, e⟩ := h s (by simp)
    obtain ⟨ms, e2, l2, h2⟩ := ih (fun s hs => h s (by simp [hs]))
    refine ⟨m :: ms, by simp [Arith.subMetrics, e, e2], by simp [l2], ?_⟩
    intro x hx
    rcases List.mem_cons.1 hx with rfl | hx
    · exact hm
    · exact h2 x hx

theorem axisRecs_bound (d : List Nat) (o k : Nat) (r : AxisRec) (h : r ∈ axisRecs o k d) :
    o ≤ r.off ∧ r.off + r.n ≤ o + d.sum ∧ r.n ∈ d := by
  induction d generalizing o k with
  | nil => simp [axisRecs] at h
  | cons x xs ih =>
    simp only [axisRecs, List.mem_cons] at h
    rcases h with rfl | h
    · simp
    · obtain ⟨a, b, c⟩ := ih _ _ h
      simp only [List.sum_cons, List.mem_cons]
      exact ⟨by omega, by omega, Or.inr c⟩

/-- Cell sizes of a subdomain, axis by axis. -/
theorem subAxes_all (A : Arith) (dx : ℚ) (Q : ℚ → Prop) (box : List Axis) (dN : List (List Nat))
    (r : List AxisRec) (i : Nat)
    (h : List.Forall₂ (fun a d => ∀ o m, o + m ≤ d.sum → m ∈ d → Q (A.cell (A.subAxis dx a o m))) box dN)
    (hr : List.Forall₂ (· ∈ ·) r (dN.map (axisRecs 0 0))) :
    ∀ b ∈ A.subAxes dx box (mkSub i r), Q (A.cell b) := by
  unfold Arith.subAxes mkSub
  simp only
  induction h generalizing r with
  | nil => intro b hb; simp at hb
  | cons h1 h2 ih =>
    cases hr with
    | cons g1 g2 =>
      intro b hb
      simp only [List.map_cons, List.zip_cons_cons, List.mem_cons] at hb
      rcases hb with rfl | hb
      · obtain ⟨a, b, c⟩ := axisRecs_bound _ _ _ _ g1
        exact h1 _ _ (by simpa using b) c
      · exact ih _ g2 b hb

theorem startup_ok (A : Arith) (box : List Axis) (dN : List (List Nat)) (g : Metric)
    (hg : A.minkowski box = .ok g) (hne : ∀ d ∈ dN, d ≠ []) (Q : ℚ → Prop)
    (h : List.Forall₂ (fun a d => ∀ o m, o + m ≤ d.sum → m ∈ d → Q (A.cell (A.subAxis g.dx a o m))) box dN)
    (hQ : ∀ x y, Q x → Q y → A.almostEqual x y = true)
    (hQ2 : ∀ x, Q x → A.almostEqual (A.rnd (g.dxMin / A.rnd (x / A.sqrtD))) 1 = true) :
    A.startup box dN = .ok g := by
  have hbox : box ≠ [] := by
    rintro rfl
    simp [Arith.minkowski] at hg
  unfold Arith.startup
  rw [hg, createDomains_eq dN hne]
  simp only
  obtain ⟨ms, e, hl, hm⟩ := subMetrics_ok A g.dx box
    (fun m => ∃ x, Q x ∧ m = ⟨x, A.rnd (x / A.sqrtD)⟩) ((recTable dN).mapIdx mkSub) (by
      intro s hs
      rw [List.mem_mapIdx] at hs
      obtain ⟨i, hi, rfl⟩ := hs
      have hr : (recTable dN)[i] ∈ recTable dN := List.getElem_mem hi
      have hr := (mem_tp _ _).1 hr
      obtain ⟨x, hx, ex⟩ := minkowski_ok A (A.subAxes g.dx box (mkSub i (recTable dN)[i])) (by
        have l1 := hr.length_eq
        have l2 := h.length_eq
        have : box.length ≠ 0 := by simpa using hbox
        intro hc
        have := congrArg List.length hc
        simp [Arith.subAxes, mkSub] at this
        rcases this with h | h
        · exact hbox h
        · rw [h] at l1
          simp at l1
          omega) Q (subAxes_all A g.dx Q box dN _ i h hr) hQ
      exact ⟨_, ⟨x, hx, rfl⟩, ex⟩)
  rw [e]
  simp only
  have hpos : ms ≠ [] := by
    intro hc
    rw [hc] at hl
    have := hl.symm
    rw [List.length_mapIdx, recTable_length] at this
    simp only [List.length_nil, List.prod_eq_zero_iff, List.mem_map] at this
    obtain ⟨d, hd, h0⟩ := this
    exact hne d hd (List.length_eq_zero_iff.1 h0)
  obtain ⟨m, hmm, em⟩ := minDx_mem (l := ms.map (·.dxMin)) (by simpa using hpos)
  rw [List.mem_map] at hmm
  obtain ⟨x, hx, rfl⟩ := hmm
  obtain ⟨y, hy, rfl⟩ := hm x hx
  have : A.compatible g ms = true := by
    unfold Arith.compatible
    rw [em]
    exact hQ2 y hy
  rw [this]
  simp

/-! ## Rounding errors -/

open Entity.Float

theorem round_err_rel (F : Fmt) {x A : ℚ} (hx : |x| ≤ A) (hA : 2 ^ (F.emin + F.p) ≤ A) :
    |F.round x - x| ≤ 2 ^ (-(F.p : Int)) * A := by
  have up := two_zpow_pos (-(F.p : Int))
  have A0 : 0 ≤ A := le_trans (abs_nonneg x) hx
  by_cases h0 : x = 0
  · rw [h0, round_zero, sub_zero, abs_zero]; positivity
  have h := round_err F x
  rcases max_choice (Int.log 2 |x| + 1 - F.p) F.emin with c | c
  · have e : F.quantum x = Int.log 2 |x| + 1 - F.p := c
    rw [e, show Int.log 2 |x| + 1 - (F.p : Int) = Int.log 2 |x| + (1 + -(F.p : Int)) by ring,
      zpow_add₀ (by norm_num), zpow_add₀ (by norm_num), zpow_one] at h
    have l : (2 : ℚ) ^ Int.log 2 |x| ≤ |x| := by
      have := Int.zpow_log_le_self (b := 2) (r := |x|) (by norm_num) (abs_pos.2 h0)
      exact_mod_cast this
    have : (2 : ℚ) ^ Int.log 2 |x| * 2 ^ (-(F.p : Int)) ≤ A * 2 ^ (-(F.p : Int)) :=
      mul_le_mul_of_nonneg_right (l.trans hx) up.le
    linarith
  · have e : F.quantum x = F.emin := c
    rw [e] at h
    have : (2 : ℚ) ^ F.emin = 2 ^ (-(F.p : Int)) * 2 ^ (F.emin + F.p) := by
      rw [← zpow_add₀ (by norm_num)]; congr 1; ring
    have h2 : 2 ^ (-(F.p : Int)) * 2 ^ (F.emin + F.p) ≤ 2 ^ (-(F.p : Int)) * A :=
      mul_le_mul_of_nonneg_left hA up.le
    have := two_zpow_pos F.emin
    linarith

theorem wide_b32 : Wide b32 := ⟨b32_ok, by decide, by decide⟩
theorem wide_b64 : Wide b64 := ⟨b64_ok, by decide, by decide⟩

theorem u_small {F : Fmt} (hF : Wide F) : (2 : ℚ) ^ (-(F.p : Int)) ≤ 1 / 1000000 := by
  have := hF.p
  have h : (2 : ℚ) ^ (-(F.p : Int)) ≤ 2 ^ (-20 : Int) := zpow_mono (by omega)
  exact h.trans (by norm_num)

theorem round_nat {F : Fmt} (hF : Wide F) {n : Nat} (h : n ≤ 2 ^ F.p) : F.round (n : ℚ) = n := by
  have := round_rep hF.ok (rep_int hF.ok (n := (n : Int)) (by
    rw [abs_of_nonneg (by omega)]; exact_mod_cast h))
  simpa using this

theorem eps_eq {F : Fmt} (hF : Wide F) (f : Bool) (s : ℚ) :
    (Startup.float F f s).eps100 = 200 * 2 ^ (-(F.p : Int)) := by
  have h1 := hF.p
  have h2 := hF.emin
  show F.round (F.round (2 ^ (1 - (F.p : Int))) * 100) = _
  rw [round_rep hF.ok (rep_pow (by omega)), round_rep hF.ok]
  · rw [show (1 : Int) - F.p = 1 + -(F.p : Int) by ring, zpow_add₀ (by norm_num), zpow_one]; ring
  · refine ⟨100, 1 - F.p, by omega, ?_, by push_cast; ring⟩
    have : (2 : Int) ^ 24 ≤ 2 ^ F.p := pow_le_pow_right₀ (by norm_num) h1
    have h3 : (100 : Int) ≤ 2 ^ 24 := by norm_num
    rw [abs_of_nonneg (by norm_num)]
    omega

/-- A corner is placed up to `41 u` of the width of the subdomain. -/
theorem corner_err {F : Fmt} (hF : Wide F) (f : Bool) (s : ℚ) {dx : ℚ} (hdx : 0 < dx) {a : Axis} {i n : Nat}
    {W : ℚ} (hi : i ≤ n) (hn : n ≤ 2 ^ F.p) (h1 : n * dx ≤ 20 * W) (h2 : |a.xmin| ≤ 20 * W)
    (h3 : |a.xmin + n * dx| ≤ 20 * W) (hW : 2 ^ (F.emin + F.p) ≤ W) :
    |(Startup.float F f s).corner dx a i - (i * dx + a.xmin)| ≤ 41 * (2 ^ (-(F.p : Int)) * W) := by
  have up := two_zpow_pos (-(F.p : Int))
  have us := u_small hF
  have W0 : 0 < W := lt_of_lt_of_le (two_zpow_pos _) hW
  have hid : (i : ℚ) * dx ≤ n * dx := mul_le_mul_of_nonneg_right (by exact_mod_cast hi) hdx.le
  have hi0 : 0 ≤ (i : ℚ) * dx := by positivity
  have hm : |(i : ℚ) * dx| ≤ 20 * W := by rw [abs_of_nonneg hi0]; linarith
  have hs : |(i : ℚ) * dx + a.xmin| ≤ 20 * W := by
    rw [abs_le] at *
    constructor <;> linarith [h2.1, h3.2]
  have huW : 0 < 2 ^ (-(F.p : Int)) * W := by positivity
  have hA : (2 : ℚ) ^ (F.emin + F.p) ≤ 20 * W := by linarith
  unfold Arith.corner Arith.mulAdd
  show |(if f = true then F.round (F.round i * dx + a.xmin) else
    F.round (F.round (F.round i * dx) + a.xmin)) - _| ≤ _
  rw [round_nat hF (hi.trans hn)]
  cases f with
  | true =>
    have := round_err_rel F hs hA
    simp only [if_true]
    linarith
  | false =>
    have e1 := round_err_rel F hm hA
    have e2 : |F.round (i * dx) + a.xmin| ≤ 21 * W := by
      have : 2 ^ (-(F.p : Int)) * (20 * W) ≤ 1 / 1000000 * (20 * W) :=
        mul_le_mul_of_nonneg_right us (by linarith)
      rw [abs_le] at *
      constructor <;> linarith [e1.1, e1.2, hs.1, hs.2]
    have e3 := round_err_rel F e2 (by linarith)
    simp only [Bool.false_eq_true, if_false]
    rw [abs_le] at *
    constructor <;> linarith [e1.1, e1.2, e3.1, e3.2]

/-- The cell size of a subdomain is the one of the box up to `85 u`. -/
theorem cell_err {F : Fmt} (hF : Wide F) (f : Bool) (s : ℚ) {dx : ℚ} (hdx : 2 ^ (F.emin + 2 * F.p) ≤ dx)
    {a : Axis} {o m n : Nat} (hm : 0 < m) (hi : o + m ≤ n) (hn : n ≤ 2 ^ F.p) (h1 : n ≤ 20 * m)
    (h2 : |a.xmin| ≤ 20 * (m * dx)) (h3 : |a.xmin + n * dx| ≤ 20 * (m * dx)) :
    |(Startup.float F f s).cell ((Startup.float F f s).subAxis dx a o m) - dx| ≤
      86 * (2 ^ (-(F.p : Int)) * dx) := by
  have up := two_zpow_pos (-(F.p : Int))
  have us := u_small hF
  have d0 : 0 < dx := lt_of_lt_of_le (two_zpow_pos _) hdx
  have hE : (2 : ℚ) ^ (F.emin + F.p) ≤ dx := le_trans (zpow_mono (by omega)) hdx
  have hm1 : (1 : ℚ) ≤ m := by exact_mod_cast hm
  have m0 : (0 : ℚ) < m := by linarith
  have hw : dx ≤ m * dx := by nlinarith
  have hW : (2 : ℚ) ^ (F.emin + F.p) ≤ m * dx := hE.trans hw
  have h1' : (n : ℚ) * dx ≤ 20 * (m * dx) := by
    have : (n : ℚ) ≤ 20 * m := by exact_mod_cast h1
    nlinarith
  have lo := corner_err hF f s d0 (a := a) (i := o) (n := n) (by omega) hn h1' h2 h3 hW
  have hi' := corner_err hF f s d0 (a := a) (i := o + m) (n := n) hi hn h1' h2 h3 hW
  have hmP : m ≤ 2 ^ F.p := by omega
  unfold Arith.cell Arith.subAxis
  simp only
  generalize (Startup.float F f s).corner dx a o = L at lo
  generalize (Startup.float F f s).corner dx a (o + m) = H at hi'
  show |F.round (F.round (H - L) / F.round m) - dx| ≤ _
  rw [round_nat hF hmP]
  have r1 := fun (x A : ℚ) (h : |x| ≤ A) (hA : (2 : ℚ) ^ (F.emin + F.p) ≤ A) => round_err_rel F h hA
  generalize (2 : ℚ) ^ (-(F.p : Int)) = u at *
  push_cast at hi'
  have e1 : |H - L - m * dx| ≤ 82 * (u * (m * dx)) := by
    rw [abs_le] at *
    constructor <;> linarith [lo.1, lo.2, hi'.1, hi'.2]
  have uw : u * (m * dx) ≤ 1 / 1000000 * (m * dx) := mul_le_mul_of_nonneg_right us (by positivity)
  have ud : u * dx ≤ 1 / 1000000 * dx := mul_le_mul_of_nonneg_right us d0.le
  have w0 : 0 < (m : ℚ) * dx := by positivity
  have uw0 : 0 < u * ((m : ℚ) * dx) := by positivity
  have ud0 : 0 < u * dx := by positivity
  have e2 := r1 (H - L) (101 / 100 * (m * dx)) (by
    rw [abs_le] at *
    constructor <;> linarith [e1.1, e1.2]) (by linarith)
  have e3 : |F.round (H - L) - m * dx| ≤ 84 * (u * (m * dx)) := by
    rw [abs_le] at *
    constructor <;> linarith [e1.1, e1.2, e2.1, e2.2]
  have e4 : |F.round (H - L) / m - dx| ≤ 84 * (u * dx) := by
    rw [show F.round (H - L) / m - dx = (F.round (H - L) - m * dx) / m by field_simp, abs_div,
      abs_of_pos m0, div_le_iff₀ m0]
    linarith
  have e5 := r1 (F.round (H - L) / m) (101 / 100 * dx) (by
    rw [abs_le] at *
    constructor <;> linarith [e4.1, e4.2]) (by linarith)
  rw [abs_le] at *
  constructor <;> linarith [e4.1, e4.2, e5.1, e5.2]

/-- Numbers within `92 u` of a third one pass the check. -/
theorem almost_of_near {F : Fmt} (hF : Wide F) (f : Bool) (s : ℚ) {dx x y : ℚ}
    (hdx : 2 ^ (F.emin + 2 * F.p) ≤ dx) (hx : |x - dx| ≤ 92 * (2 ^ (-(F.p : Int)) * dx))
    (hy : |y - dx| ≤ 92 * (2 ^ (-(F.p : Int)) * dx)) :
    (Startup.float F f s).almostEqual x y = true := by
  have up := two_zpow_pos (-(F.p : Int))
  have us := u_small hF
  have d0 : 0 < dx := lt_of_lt_of_le (two_zpow_pos _) hdx
  have hE2 : (2 : ℚ) ^ (F.emin + F.p) ≤ 2 ^ (-(F.p : Int)) * dx := by
    have : (2 : ℚ) ^ (F.emin + F.p) = 2 ^ (-(F.p : Int)) * 2 ^ (F.emin + 2 * F.p) := by
      rw [← zpow_add₀ (by norm_num)]; congr 1; ring
    rw [this]
    exact mul_le_mul_of_nonneg_left hdx up.le
  unfold Arith.almostEqual
  rw [eps_eq hF]
  rw [Bool.or_eq_true]
  right
  rw [decide_eq_true_eq]
  show |F.round (x - y)| ≤ F.round (min |x| |y| * (200 * 2 ^ (-(F.p : Int))))
  have r1 := fun (x A : ℚ) (h : |x| ≤ A) (hA : (2 : ℚ) ^ (F.emin + F.p) ≤ A) => round_err_rel F h hA
  generalize (2 : ℚ) ^ (-(F.p : Int)) = u at *
  have ud : u * dx ≤ 1 / 1000000 * dx := mul_le_mul_of_nonneg_right us d0.le
  have ud0 : 0 < u * dx := by positivity
  have uud : u * (u * dx) ≤ 1 / 1000000 * (u * dx) := mul_le_mul_of_nonneg_right us ud0.le
  have x1 : 999 / 1000 * dx ≤ |x| := by
    rw [abs_le] at hx
    have := le_abs_self x
    linarith [hx.1]
  have y1 : 999 / 1000 * dx ≤ |y| := by
    rw [abs_le] at hy
    have := le_abs_self y
    linarith [hy.1]
  have x2 : |x| ≤ 1001 / 1000 * dx := by
    rw [abs_le] at hx ⊢
    constructor <;> linarith [hx.1, hx.2]
  have m1 : 999 / 1000 * dx ≤ min |x| |y| := le_min x1 y1
  have m2 : min |x| |y| ≤ 1001 / 1000 * dx := (min_le_left _ _).trans x2
  generalize min |x| |y| = M at *
  have a1 : |x - y| ≤ 184 * (u * dx) := by
    rw [abs_le] at *
    constructor <;> linarith [hx.1, hx.2, hy.1, hy.2]
  have a2 := r1 _ _ a1 (by linarith)
  have b0 : 999 / 1000 * dx * u ≤ M * u := mul_le_mul_of_nonneg_right m1 up.le
  have b1 : M * u ≤ 1001 / 1000 * dx * u := mul_le_mul_of_nonneg_right m2 up.le
  have b2 : |M * (200 * u)| ≤ 201 * (u * dx) := by
    rw [abs_le]
    constructor <;> linarith
  have b3 := r1 _ _ b2 (by linarith)
  have c1 : |F.round (x - y)| ≤ 185 * (u * dx) := by
    rw [abs_le] at *
    constructor <;> linarith [a1.1, a1.2, a2.1, a2.2]
  rw [abs_le] at b3
  linarith [b3.1]

/-- The quotient of the smallest cell sizes passes the check. -/
theorem quot_near {F : Fmt} (hF : Wide F) {dx x s : ℚ}
    (hdx : 2 ^ (F.emin + 2 * F.p) ≤ dx) (hx : |x - dx| ≤ 86 * (2 ^ (-(F.p : Int)) * dx))
    (h1 : 1 ≤ s) (h2 : s ≤ 2) :
    |F.round (F.round (dx / s) / F.round (x / s)) - 1| ≤ 92 * 2 ^ (-(F.p : Int)) := by
  have up := two_zpow_pos (-(F.p : Int))
  have us := u_small hF
  have d0 : 0 < dx := lt_of_lt_of_le (two_zpow_pos _) hdx
  have hE : (2 : ℚ) ^ (F.emin + F.p) * 4 ≤ dx := by
    have := hF.p
    refine le_trans ?_ (le_trans (zpow_mono (a := F.emin + F.p + 2) (by omega)) hdx)
    rw [zpow_add₀ (by norm_num) _ 2]
    norm_num
  have hE1 : (2 : ℚ) ^ (F.emin + F.p) ≤ 1 := by
    have := zpow_mono (a := F.emin + F.p) (b := 0) (by have := hF.emin; omega)
    simpa using this
  have r1 := fun (x A : ℚ) (h : |x| ≤ A) (hA : (2 : ℚ) ^ (F.emin + F.p) ≤ A) => round_err_rel F h hA
  generalize (2 : ℚ) ^ (-(F.p : Int)) = u at *
  have s0 : 0 < s := by linarith
  obtain ⟨D, hD⟩ : ∃ D, D = dx / s := ⟨_, rfl⟩
  have D0 : 0 < D := by rw [hD]; positivity
  have hEd : (2 : ℚ) ^ (F.emin + F.p) ≤ D := by
    rw [hD, le_div_iff₀ s0]
    have := two_zpow_pos (F.emin + F.p)
    nlinarith
  have hX : |x / s - D| ≤ 86 * (u * D) := by
    rw [hD, show x / s - dx / s = (x - dx) / s by ring, abs_div, abs_of_pos s0, div_le_iff₀ s0]
    have : 86 * (u * (dx / s)) * s = 86 * (u * dx) := by field_simp
    rw [this]; exact hx
  have uD : u * D ≤ 1 / 1000000 * D := mul_le_mul_of_nonneg_right us D0.le
  have uD0 : 0 < u * D := by positivity
  rw [← hD]
  have a1 := r1 D D (by rw [abs_of_pos D0]) hEd
  have a2 := r1 (x / s) (1001 / 1000 * D) (by
    rw [abs_le] at *
    constructor <;> linarith [hX.1, hX.2]) (by linarith)
  generalize F.round D = N at *
  generalize F.round (x / s) = M at *
  rw [abs_le] at a1 a2 hX
  have M0 : 999 / 1000 * D ≤ M := by linarith [hX.1, a2.1]
  have Mp : 0 < M := by linarith
  have uM : u * (999 / 1000 * D) ≤ u * M := mul_le_mul_of_nonneg_left M0 up.le
  have q : |N / M - 1| ≤ 90 * u := by
    rw [show N / M - 1 = (N - M) / M by field_simp, abs_div, abs_of_pos Mp, div_le_iff₀ Mp, abs_le]
    constructor <;> linarith [hX.1, hX.2, a1.1, a1.2, a2.1, a2.2]
  have a3 := r1 (N / M) (1001 / 1000) (by
    rw [abs_le] at *
    constructor <;> linarith [q.1, q.2]) (by linarith)
  rw [abs_le] at *
  constructor <;> linarith [q.1, q.2, a3.1, a3.2]

end Entity.Startup
