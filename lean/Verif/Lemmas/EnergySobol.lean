import Verif.Lemmas.EnergyJuttner

/-!
# The relativistic branch: radii that are accepted, and their directions
-/

namespace Entity.EnergyDist

open Entity.Push MeasureTheory Set Real
open scoped ENNReal

/-- Numbers that are taken. -/
def big (ε : ℝ) : Set ℝ := {x | Maxwell.almostZero ε x = false}

theorem mem_big {ε x : ℝ} : x ∈ big ε ↔ ε < |x| := by simp [big, Maxwell.almostZero]

theorem measurableSet_big (ε : ℝ) : MeasurableSet (big ε) := by
  have : big ε = {x | ε < |x|} := by ext x; exact mem_big
  rw [this]; exact measurableSet_lt measurable_const (by fun_prop)

/-- The product of three numbers. -/
noncomputable def tri : Measure ℝ := ((U01.prod U01).prod U01).map fun p => p.1.1 * p.1.2 * p.2

instance : IsFiniteMeasure tri := by unfold tri; infer_instance

theorem tri_int (G : ℝ → ℝ≥0∞) (hG : Measurable G) : ∫⁻ x, G x ∂tri =
    ∫⁻ s in Ioi 0, ENNReal.ofReal (s ^ 2 / 2) * (ENNReal.ofReal (exp (-s)) * G (exp (-s))) := by
  unfold tri
  have h1 : Measurable fun p : (ℝ × ℝ) × ℝ => G (p.1.1 * p.1.2 * p.2) := hG.comp (by fun_prop)
  rw [lintegral_map hG (by fun_prop), lintegral_prod _ h1.aemeasurable,
    lintegral_prod _ h1.lintegral_prod_right'.aemeasurable, ← gamma_int G hG]

theorem samp_product3 : Samp (fun ω => some (product3 ω)) tri :=
  (((samp_draw.pair samp_draw).pair samp_draw).map (φ := fun p : (ℝ × ℝ) × ℝ => p.1.1 * p.1.2 * p.2)
    (by fun_prop)).congr fun _ => rfl

theorem U01_big {ε : ℝ} (h1 : ε < 1) : U01 (big ε) ≠ 0 := by
  rw [U01, Measure.restrict_apply (measurableSet_big ε)]
  have : Ioo (max ε 0) 1 ⊆ big ε ∩ Ico 0 1 := fun x hx => by
    have h0 : 0 < x := lt_of_le_of_lt (le_max_right _ _) hx.1
    exact ⟨mem_big.2 (by rw [abs_of_pos h0]; exact lt_of_le_of_lt (le_max_left _ _) hx.1), h0.le, hx.2⟩
  refine ne_of_gt (lt_of_lt_of_le ?_ (measure_mono this))
  rw [Real.volume_Ioo]
  simp [h1]

theorem tri_big {ε : ℝ} (h1 : ε < 1) : tri (big ε) ≠ 0 := by
  have hm := measurableSet_big ε
  rw [← lintegral_indicator_one hm, tri_int _ (measurable_one.indicator hm)]
  intro h
  rw [lintegral_eq_zero_iff] at h
  · have h2 := (ae_restrict_iff' measurableSet_Ioi).1 h
    have h3 : volume (Ioo 0 (-log (max ε (1 / 2)))) = 0 := by
      refine measure_mono_null (fun s hs => ?_) h2
      have hs0 : 0 < s := hs.1
      have hmx : 0 < max ε (1 / 2) := lt_of_lt_of_le (by norm_num) (le_max_right _ _)
      have hs1 : max ε (1 / 2) < exp (-s) := by
        rw [← exp_log hmx]; exact exp_lt_exp.2 (by have := hs.2; linarith)
      have hb : exp (-s) ∈ big ε := mem_big.2 (by
        rw [abs_of_pos (exp_pos _)]; exact lt_of_le_of_lt (le_max_left _ _) hs1)
      simp only [mem_compl_iff, mem_setOf_eq, mem_Ioi, Pi.zero_apply, indicator_of_mem hb, Pi.one_apply, mul_one,
        mul_eq_zero, ENNReal.ofReal_eq_zero, not_le]
      push Not
      exact ⟨hs0, by positivity, exp_pos _, one_ne_zero⟩
    rw [Real.volume_Ioo] at h3
    have : log (max ε (1 / 2)) < 0 := log_neg (lt_of_lt_of_le (by norm_num) (le_max_right _ _))
      (max_lt h1 (by norm_num))
    simp at h3
    linarith
  · have : Measurable fun s : ℝ => exp (-s) := by fun_prop
    exact Measurable.mul (by fun_prop) (Measurable.mul (by fun_prop) ((measurable_one.indicator hm).comp this))

theorem samp_nonzero {ε : ℝ} {d : Stream → ℝ × Stream} {ν : Measure ℝ} (h : Samp (fun ω => some (d ω)) ν)
    (hp : ν (big ε) ≠ 0) : Samp (nonzero ε d) (ν.restrict (big ε)) :=
  (h.reject (Maxwell.almostZero ε) (measurableSet_big ε) hp).congr fun _ => rfl

/-- One attempt. -/
theorem samp_body {ε T : ℝ} (h1 : ε < 1) :
    Samp (fun ω => sobolBody ε T ((0, 0), ω)) (((tri.restrict (big ε)).prod (U01.restrict (big ε))).map
      fun p => (-T * log p.1, -T * log (p.1 * p.2))) :=
  (((samp_nonzero samp_product3 (tri_big h1)).pair (samp_nonzero samp_draw (U01_big h1))).map
    (φ := fun p : ℝ × ℝ => (-T * log p.1, -T * log (p.1 * p.2))) (by fun_prop)).congr fun ω => by
      simp only [sobolBody]
      cases h : nonzero ε product3 ω with
      | none => rfl
      | some a =>
        show (Option.bind (nonzero ε draw a.2) _) = _
        cases h : nonzero ε draw a.2 with
        | none => simp [h]
        | some b => simp [h]

/-- The condition of acceptance. -/
noncomputable def again (p : ℝ × ℝ) : Bool := decide (p.2 ^ 2 ≤ p.1 ^ 2 + 1)

def accepted : Set (ℝ × ℝ) := {p | again p = false}

theorem mem_accepted {p : ℝ × ℝ} : p ∈ accepted ↔ p.1 ^ 2 + 1 < p.2 ^ 2 := by simp [accepted, again]

theorem measurableSet_accepted : MeasurableSet accepted := by
  have : accepted = {p | p.1 ^ 2 + 1 < p.2 ^ 2} := by ext p; exact mem_accepted
  rw [this]; exact measurableSet_lt (by fun_prop) (by fun_prop)

/-- Weight of a radius. -/
noncomputable def wgt (ε T u : ℝ) : ℝ≥0∞ :=
  if ε < exp (-(u / T)) then ENNReal.ofReal (exp (-(√(1 + u ^ 2) / T)) - ε * exp (-(u / T))) else 0

theorem measurable_wgt (ε T : ℝ) : Measurable (wgt ε T) := by
  unfold wgt
  exact Measurable.ite (measurableSet_lt measurable_const (by fun_prop)) (by fun_prop) measurable_const

/-- How often a radius is accepted. -/
theorem accept_int {ε T s : ℝ} (hε : 0 ≤ ε) (hT : 0 < T) (hs : 0 < s) :
    (U01.restrict (big ε)) {y | (-T * log (exp (-s)), -T * log (exp (-s) * y)) ∈ accepted} =
      ENNReal.ofReal (exp (s - √(1 + (T * s) ^ 2) / T) - ε) := by
  set m := exp (s - √(1 + (T * s) ^ 2) / T) with hm
  have hroot : T * s < √(1 + (T * s) ^ 2) := by
    refine lt_sqrt_of_sq_lt ?_
    linarith
  have hm1 : m < 1 := by
    rw [hm, exp_lt_one_iff, sub_neg, lt_div_iff₀ hT]
    linarith
  have hset : MeasurableSet {y : ℝ | (-T * log (exp (-s)), -T * log (exp (-s) * y)) ∈ accepted} :=
    measurableSet_accepted.preimage (by fun_prop)
  have hset' := hset
  have key : ∀ y ∈ Ioo (0 : ℝ) 1, (y ∈ {y : ℝ | (-T * log (exp (-s)), -T * log (exp (-s) * y)) ∈ accepted} ∩ big ε ↔
      y ∈ Ioo ε m) := by
    intro y hy
    have hy0 : 0 < y := hy.1
    have hly : log y < 0 := log_neg hy.1 hy.2
    have hpos : 0 < T * s - T * log y := by nlinarith
    rw [mem_inter_iff, mem_setOf_eq, mem_accepted, mem_big, abs_of_pos hy0, log_exp,
      log_mul (exp_pos _).ne' hy0.ne', log_exp]
    have e1 : (-T * -s) ^ 2 + 1 = √(1 + (T * s) ^ 2) ^ 2 := by rw [sq_sqrt (by positivity)]; ring
    have e2 : (-T * (-s + log y)) ^ 2 = (T * s - T * log y) ^ 2 := by ring
    rw [e1, e2, sq_lt_sq₀ (sqrt_nonneg _) hpos.le, mem_Ioo, and_comm, and_congr_right_iff]
    intro _
    rw [hm, ← log_lt_iff_lt_exp hy0]
    have e3 : s - √(1 + (T * s) ^ 2) / T = (T * s - √(1 + (T * s) ^ 2)) / T := by field_simp
    rw [e3, lt_div_iff₀ hT]
    constructor <;> intro h <;> linarith
  rw [Measure.restrict_apply hset, U01, ← restrict_Ioo_eq_restrict_Ico,
    Measure.restrict_apply (hset.inter (measurableSet_big ε)), ← Real.volume_Ioo]
  congr 1
  ext y
  rw [mem_inter_iff]
  constructor
  · exact fun h => (key y h.2).1 h.1
  · intro h
    have hy : y ∈ Ioo (0 : ℝ) 1 := ⟨lt_of_le_of_lt hε h.1, h.2.trans hm1⟩
    exact ⟨(key y hy).2 h, hy⟩

/-- The weighted integral over accepted radii. -/
theorem sobol_int {ε T : ℝ} (hε : 0 ≤ ε) (hT : 0 < T) (G : ℝ → ℝ≥0∞) (hG : Measurable G) :
    ∫⁻ p in accepted, G p.1 ∂(((tri.restrict (big ε)).prod (U01.restrict (big ε))).map
      fun p => (-T * log p.1, -T * log (p.1 * p.2))) =
    ENNReal.ofReal (1 / (2 * T ^ 3)) * ∫⁻ u in Ioi 0, ENNReal.ofReal (u ^ 2) * wgt ε T u * G u := by
  have hφ : Measurable fun p : ℝ × ℝ => (-T * log p.1, -T * log (p.1 * p.2)) := by fun_prop
  have hGi : Measurable fun p : ℝ × ℝ => accepted.indicator (fun p => G p.1) p :=
    (hG.comp measurable_fst).indicator measurableSet_accepted
  have h1 : ∀ x y : ℝ, accepted.indicator (fun p => G p.1) (-T * log x, -T * log (x * y)) =
      ({y | (-T * log x, -T * log (x * y)) ∈ accepted}).indicator (fun _ => G (-T * log x)) y := by
    intro x y
    by_cases h : (-T * log x, -T * log (x * y)) ∈ accepted
    · rw [indicator_of_mem h, indicator_of_mem (by exact h)]
    · rw [indicator_of_notMem h, indicator_of_notMem (by exact h)]
  have hset : ∀ x : ℝ, MeasurableSet {y : ℝ | (-T * log x, -T * log (x * y)) ∈ accepted} :=
    fun x => measurableSet_accepted.preimage (by fun_prop)
  have hmeas : Measurable fun x : ℝ => ∫⁻ y, accepted.indicator (fun p => G p.1) (-T * log x, -T * log (x * y))
      ∂(U01.restrict (big ε)) := (hGi.comp hφ).lintegral_prod_right'
  rw [← lintegral_indicator measurableSet_accepted, lintegral_map hGi hφ,
    lintegral_prod (fun p : ℝ × ℝ => accepted.indicator (fun p => G p.1) (-T * log p.1, -T * log (p.1 * p.2)))
      (hGi.comp hφ).aemeasurable, ← lintegral_indicator (measurableSet_big ε),
    tri_int _ (hmeas.indicator (measurableSet_big ε))]
  -- change of variables
  have himg : (fun s : ℝ => T * s) '' Ioi 0 = Ioi 0 := by
    ext u
    simp only [mem_image, mem_Ioi]
    constructor
    · rintro ⟨s, hs, rfl⟩; positivity
    · exact fun h => ⟨u / T, by positivity, by field_simp⟩
  have hmw : Measurable fun u : ℝ => ENNReal.ofReal (u ^ 2) * wgt ε T u * G u :=
    ((by fun_prop : Measurable fun u : ℝ => ENNReal.ofReal (u ^ 2)).mul (measurable_wgt ε T)).mul hG
  rw [← lintegral_const_mul _ hmw]
  conv_rhs => rw [← himg]
  rw [lintegral_image_eq_lintegral_abs_deriv_mul (f' := fun _ => T) measurableSet_Ioi
    (fun s _ => by simpa using ((hasDerivAt_id s).const_mul T).hasDerivWithinAt)
    (fun a _ b _ h => by simpa [hT.ne'] using h)]
  refine setLIntegral_congr_fun measurableSet_Ioi fun s hs => ?_
  have hs : 0 < s := hs
  rw [wgt]
  have e0 : T * s / T = s := by field_simp
  rw [e0]
  by_cases hb : ε < exp (-s)
  · have hbm : exp (-s) ∈ big ε := mem_big.2 (by rwa [abs_of_pos (exp_pos _)])
    rw [indicator_of_mem hbm, if_pos hb]
    simp only [h1]
    rw [lintegral_indicator (hset _), lintegral_const, Measure.restrict_apply_univ, accept_int hε hT hs, log_exp]
    have e1 : -T * -s = T * s := by ring
    have e2 : exp (-(√(1 + (T * s) ^ 2) / T)) - ε * exp (-s) =
        exp (-s) * (exp (s - √(1 + (T * s) ^ 2) / T) - ε) := by
      rw [mul_sub, ← exp_add]; ring_nf
    rw [e1, e2, abs_of_pos hT, ENNReal.ofReal_mul (exp_pos _).le]
    have e3 : ENNReal.ofReal (s ^ 2 / 2) = ENNReal.ofReal T * (ENNReal.ofReal (1 / (2 * T ^ 3)) *
        ENNReal.ofReal ((T * s) ^ 2)) := by
      rw [← ENNReal.ofReal_mul (by positivity), ← ENNReal.ofReal_mul hT.le]
      congr 1; field_simp
    rw [e3]
    ring
  · have hbm : exp (-s) ∉ big ε := fun h => hb (by rw [mem_big, abs_of_pos (exp_pos _)] at h; exact h)
    rw [indicator_of_notMem hbm, if_neg hb]
    simp

theorem wgt_pos {ε T : ℝ} (h : ε < exp (-(1 / T))) (hε : 0 ≤ ε) (hT : 0 < T) :
    ∃ δ > 0, ∀ u ∈ Ioo 0 δ, wgt ε T u ≠ 0 := by
  have hc : ContinuousAt (fun u : ℝ => exp (-(√(1 + u ^ 2) / T))) 0 := by fun_prop
  have h0 : ε < (fun u : ℝ => exp (-(√(1 + u ^ 2) / T))) 0 := by simpa using h
  obtain ⟨δ, hδ, hball⟩ := Metric.eventually_nhds_iff.1 (hc.eventually (lt_mem_nhds h0))
  refine ⟨δ, hδ, fun u hu => ?_⟩
  have h1 : ε < exp (-(√(1 + u ^ 2) / T)) := hball (by rw [dist_zero_right, norm_eq_abs, abs_of_pos hu.1]; exact hu.2)
  have h2 : exp (-(√(1 + u ^ 2) / T)) ≤ exp (-(u / T)) := by
    rw [exp_le_exp, neg_le_neg_iff]
    refine div_le_div_of_nonneg_right (le_sqrt_of_sq_le (by linarith)) hT.le
  have h3 : ε * exp (-(u / T)) ≤ ε := by
    refine mul_le_of_le_one_right hε ?_
    rw [exp_le_one_iff, neg_nonpos]
    exact div_nonneg hu.1.le hT.le
  rw [wgt, if_pos (lt_of_lt_of_le h1 h2)]
  rw [Ne, ENNReal.ofReal_eq_zero, not_le]
  linarith

/-- Something is accepted. -/
theorem accepted_pos {ε T : ℝ} (h : ε < exp (-(1 / T))) (hε : 0 ≤ ε) (hT : 0 < T) :
    (((tri.restrict (big ε)).prod (U01.restrict (big ε))).map
      fun p => (-T * log p.1, -T * log (p.1 * p.2))) accepted ≠ 0 := by
  have h1 := sobol_int hε hT (fun _ => 1) measurable_const
  rw [lintegral_const, one_mul, Measure.restrict_apply_univ] at h1
  rw [h1]
  refine mul_ne_zero (by simp; positivity) fun h2 => ?_
  have hm : Measurable fun u : ℝ => ENNReal.ofReal (u ^ 2) * wgt ε T u * 1 :=
    ((by fun_prop : Measurable fun u : ℝ => ENNReal.ofReal (u ^ 2)).mul (measurable_wgt ε T)).mul_const _
  rw [lintegral_eq_zero_iff hm] at h2
  obtain ⟨δ, hδ, hw⟩ := wgt_pos h hε hT
  have h3 : volume (Ioo 0 δ) = 0 := by
    refine measure_mono_null (fun u hu => ?_) ((ae_restrict_iff' measurableSet_Ioi).1 h2)
    have := hw u hu
    have hu0 : 0 < u := hu.1
    simp only [mem_compl_iff, mem_setOf_eq, mem_Ioi, Pi.zero_apply, mul_one, mul_eq_zero, this, or_false,
      ENNReal.ofReal_eq_zero, not_le]
    push Not
    exact ⟨hu0, by positivity⟩
  rw [Real.volume_Ioo] at h3
  simp at h3
  linarith

/-- A number that is not used. -/
theorem Samp.after {α : Type} [MeasurableSpace α] {f : Stream → Option (α × Stream)} {ν : Measure α} (h : Samp f ν) :
    Samp (fun ω => f (draw ω).2) ν := by
  have := h.finite
  have h1 := (samp_draw.pair h).map measurable_snd
  rw [← Measure.snd, Measure.snd_prod] at h1
  refine h1.congr fun ω => ?_
  show f (draw ω).2 = ((f (draw ω).2).bind _).bind _
  cases f (draw ω).2 <;> rfl

/-- A radius with a direction. -/
theorem samp_direction {f : Stream → Option (ℝ × Stream)} {ν : Measure ℝ} (h : Samp f ν) {k : ℝ≥0∞}
    (k0 : k ≠ 0) (k1 : k ≠ ∞) {w : ℝ → ℝ≥0∞} (hw : Measurable w)
    (hν : ∀ G, Measurable G → ∫⁻ u, G u ∂ν = k * ∫⁻ u in Ioi 0, ENNReal.ofReal (u ^ 2) * w u * G u) :
    Samp (fun ω => (f ω).bind fun r =>
      let x1 := draw r.2
      let x2 := draw x1.2
      some (dirT r.1 x1.1 x2.1, x2.2)) (volume.withDensity fun v => w (len v)) := by
  have := h.finite
  have hd : Measurable fun p : (ℝ × ℝ) × ℝ => dirT p.1.1 p.1.2 p.2 := by unfold dirT; fun_prop
  have h1 := ((h.pair samp_draw).pair samp_draw).map hd
  refine (h1.congr fun ω => ?_).scale (k := k * (ENNReal.ofReal (4 * π))⁻¹)
    (mul_ne_zero k0 (ENNReal.inv_ne_zero.2 ENNReal.ofReal_ne_top))
    (ENNReal.mul_ne_top k1 (ENNReal.inv_ne_top.2 (by simp [pi_pos]))) ?_
  · cases f ω <;> rfl
  · refine Measure.ext_of_lintegral _ fun F hF => ?_
    have hFd : Measurable fun p : (ℝ × ℝ) × ℝ => F (dirT p.1.1 p.1.2 p.2) := hF.comp hd
    rw [lintegral_map hF hd, lintegral_prod _ hFd.aemeasurable,
      lintegral_prod _ hFd.lintegral_prod_right'.aemeasurable,
      hν _ hFd.lintegral_prod_right'.lintegral_prod_right', dir_int w hw F hF, lintegral_smul_measure,
      lintegral_withDensity_eq_lintegral_mul volume (f := fun v => w (len v)) (hw.comp measurable_len) hF, smul_eq_mul, mul_assoc]
    rfl

/-- The relativistic branch. -/
theorem samp_sobol {ε T : ℝ} (hε : 0 ≤ ε) (hT : 1 / 2 ≤ T) (h : ε < exp (-(1 / T))) :
    Samp (fun ω => (juttnerSinge ε T ω).bind fun r => some ((r.1.x, r.1.y, r.1.z), r.2))
      (volume.withDensity fun v => wgt ε T (len v)) := by
  have hT0 : 0 < T := by linarith
  have h1 : ε < 1 := h.trans (by rw [exp_lt_one_iff]; have : 0 < 1 / T := by positivity
                                 linarith)
  have hr := samp_direction (((samp_body (ε := ε) (T := T) h1).reject again measurableSet_accepted
    (accepted_pos h hε hT0)).map (φ := Prod.fst) measurable_fst)
    (k := ENNReal.ofReal (1 / (2 * T ^ 3))) (by simp; positivity) ENNReal.ofReal_ne_top (measurable_wgt ε T)
    (fun G hG => by
      rw [lintegral_map hG measurable_fst]
      exact sobol_int hε hT0 G hG)
  refine hr.after.congr fun ω => ?_
  have hlt : ¬ T < 1 / 2 := not_lt.2 hT
  have hc : sobolCond ((1, (draw ω).1), (draw ω).2) = true := by
    have h0 : (0 : ℝ) ≤ (draw ω).1 := (ω 0).2.1
    have h2 : (draw ω).1 < 1 := (ω 0).2.2
    simp only [sobolCond, decide_eq_true_eq]
    nlinarith
  simp only [juttnerSinge, hlt, if_false]
  rw [whileM_eq, if_pos hc]
  have hb : sobolBody ε T ((1, (draw ω).1), (draw ω).2) = sobolBody ε T ((0, 0), (draw ω).2) := rfl
  rw [hb]
  have hw : whileM sobolCond (sobolBody ε T) =
      whileM (fun s : (ℝ × ℝ) × Stream => again s.1) (fun s => sobolBody ε T ((0, 0), s.2)) := rfl
  rw [hw]
  cases (sobolBody ε T ((0, 0), (draw ω).2)).bind
      (whileM (fun s : (ℝ × ℝ) × Stream => again s.1) (fun s => sobolBody ε T ((0, 0), s.2))) with
  | none => rfl
  | some a => rfl

end Entity.EnergyDist
