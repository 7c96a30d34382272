import Verif.Lemmas.EnergyNormal
import Verif.Lemmas.EnergyBoost
import Verif.Lemmas.EnergyRotate
import Mathlib.Analysis.Complex.ExponentialBounds

/-!
# Thermal distributions with and without drift
-/

namespace Entity.EnergyDist

open Entity.Push MeasureTheory Set Real
open scoped ENNReal

theorem gammaOf_eq_lor (v : ℝ × ℝ × ℝ) : gammaOf v = lor v := by
  unfold gammaOf lor gam; congr 1; ring

/-- Results as triples. -/
def tup (f : Stream → Option (V3 ℝ × Stream)) (ω : Stream) : Option ((ℝ × ℝ × ℝ) × Stream) :=
  (f ω).bind fun r => some ((r.1.x, r.1.y, r.1.z), r.2)

theorem wgt_len (ε T : ℝ) (v : ℝ × ℝ × ℝ) : wgt ε T (len v) = ENNReal.ofReal (juttner ε T (gammaOf v)) := by
  have h : len v ^ 2 = v.1 ^ 2 + (v.2.1 ^ 2 + v.2.2 ^ 2) := sq_sqrt (by positivity)
  have hg : √(1 + len v ^ 2) = gammaOf v := by rw [h]; unfold gammaOf; congr 1; ring
  have hl : √(gammaOf v ^ 2 - 1) = len v := by
    rw [gammaOf, sq_sqrt (by positivity)]; unfold len; congr 1; ring
  unfold wgt juttner
  rw [hg, hl]
  split <;> simp

theorem samp_hot {ε T : ℝ} (hε : 0 ≤ ε) (h1 : ε ≤ 1 / 10) (hT : 1 / 2 ≤ T) :
    Samp (tup (isotropic ε T)) (volume.withDensity fun v => ENNReal.ofReal (juttner ε T (gammaOf v))) := by
  have hT0 : 0 < T := by linarith
  have h : ε < exp (-(1 / T)) := by
    have h2 : exp (-2) ≤ exp (-(1 / T)) := by
      rw [exp_le_exp, neg_le_neg_iff, div_le_iff₀ hT0]; linarith
    have h3 : (1 : ℝ) / 10 < exp (-2) := by
      rw [exp_neg, ← one_div]
      refine one_div_lt_one_div_of_lt (exp_pos _) ?_
      have := exp_one_lt_d9
      have e : exp 2 = exp 1 * exp 1 := by rw [← exp_add]; norm_num
      rw [e]
      nlinarith [exp_pos 1]
    linarith
  have hs := samp_sobol hε hT h
  simp only [wgt_len] at hs
  refine hs.congr fun ω => ?_
  have : Maxwell.almostZero ε T = false := by
    simp only [Maxwell.almostZero, decide_eq_false_iff_not, not_le, abs_of_pos hT0]; linarith
  simp [tup, isotropic, this]

theorem samp_cold {T : ℝ} (hT : 0 < T) (h2 : T < 1 / 2) :
    Samp (tup (isotropic 0 T)) (volume.withDensity fun v => ENNReal.ofReal
      ((fun g => exp (-((g ^ 2 - 1) / (2 * T)))) (gammaOf v))) := by
  have hs := samp_gauss hT h2
  have e : ∀ v : ℝ × ℝ × ℝ, v.1 ^ 2 + (v.2.1 ^ 2 + v.2.2 ^ 2) = gammaOf v ^ 2 - 1 := fun v => by
    rw [gammaOf, sq_sqrt (by positivity)]; ring
  simp only [e] at hs
  refine hs.congr fun ω => ?_
  have : Maxwell.almostZero 0 T = false := by
    simp only [Maxwell.almostZero, decide_eq_false_iff_not, not_le, abs_of_pos hT]; exact hT
  simp [tup, isotropic, this]

theorem measurable_juttner (ε T : ℝ) : Measurable (juttner ε T) := by
  unfold juttner
  exact Measurable.ite (measurableSet_lt measurable_const (by fun_prop)) (by fun_prop) measurable_const

/-- A linear map that keeps lengths. -/
theorem samp_isometry {f : Stream → Option ((ℝ × ℝ × ℝ) × Stream)} {D : ℝ × ℝ × ℝ → ℝ≥0∞} (hD : Measurable D)
    {R : ℝ × ℝ × ℝ → ℝ × ℝ × ℝ} (hlin : IsLinearMap ℝ R) (hiso : ∀ v, nsq (R v) = nsq v)
    {E : ℝ × ℝ × ℝ → ℝ≥0∞} (hE : Measurable E) (hDE : ∀ v, E (R v) = D v)
    (h : Samp f (volume.withDensity D)) :
    Samp (fun ω => (f ω).bind fun r => some (R r.1, r.2)) (volume.withDensity E) := by
  obtain ⟨hvol, hR⟩ := isometry_int hlin hiso
  refine (h.map hR).scale one_ne_zero ENNReal.one_ne_top ?_
  rw [one_smul]
  refine Measure.ext_of_lintegral _ fun F hF => ?_
  have hFR : Measurable fun v => F (R v) := hF.comp hR
  rw [lintegral_map hF hR, lintegral_withDensity_eq_lintegral_mul _ hD hFR,
    lintegral_withDensity_eq_lintegral_mul _ hE hF]
  conv_rhs => rw [← hvol]
  rw [lintegral_map (hE.mul hF) hR]
  exact lintegral_congr fun v => by simp only [Pi.mul_apply, hDE, Function.comp]

/-- Flipping and boosting along the first axis. -/
theorem samp_boost {f : Stream → Option ((ℝ × ℝ × ℝ) × Stream)} (U : ℝ) {j : ℝ → ℝ≥0∞} (hj : Measurable j)
    (h : Samp f (volume.withDensity fun v => j (gammaOf v))) :
    Samp (fun ω => (f ω).bind fun r => let ξ := draw r.2; some (boostT U ξ.1 r.1, ξ.2))
      (volume.withDensity fun v => j (√(1 + U ^ 2) * gammaOf v - U * v.1)) := by
  have := h.finite
  simp only [gammaOf_eq_lor] at h ⊢
  have hm := measurable_boostT U
  have hG : 0 < √(1 + U ^ 2) := sqrt_pos.2 (by positivity)
  refine (((h.pair samp_draw).map hm).congr fun ω => ?_).scale (k := (ENNReal.ofReal √(1 + U ^ 2))⁻¹)
    (ENNReal.inv_ne_zero.2 ENNReal.ofReal_ne_top) (ENNReal.inv_ne_top.2 (by
      rw [Ne, ENNReal.ofReal_eq_zero, not_le]; exact hG)) ?_
  · cases f ω <;> rfl
  · have hD : Measurable fun v : ℝ × ℝ × ℝ => j (lor v) := hj.comp measurable_lor
    have hE : Measurable fun v : ℝ × ℝ × ℝ => j (√(1 + U ^ 2) * lor v - U * v.1) :=
      hj.comp ((measurable_const.mul measurable_lor).sub (measurable_const.mul measurable_fst))
    refine Measure.ext_of_lintegral _ fun F hF => ?_
    have hFm : Measurable fun p : (ℝ × ℝ × ℝ) × ℝ => F (boostT U p.2 p.1) := hF.comp hm
    rw [lintegral_map hF hm, lintegral_prod _ hFm.aemeasurable,
      lintegral_withDensity_eq_lintegral_mul _ hD hFm.lintegral_prod_right', lintegral_smul_measure,
      lintegral_withDensity_eq_lintegral_mul _ hE hF, smul_eq_mul]
    exact boost_int U j hj F hF

theorem boost_tup (U ξ : ℝ) (v : V3 ℝ) :
    ((Maxwell.boost U (U / √(1 + U ^ 2)) ξ v).x, (Maxwell.boost U (U / √(1 + U ^ 2)) ξ v).y,
      (Maxwell.boost U (U / √(1 + U ^ 2)) ξ v).z) = boostT U ξ (v.x, v.y, v.z) := by
  have hg : √(1 + v.normSq) = gam (v.y ^ 2 + v.z ^ 2) v.x := by
    unfold gam; congr 1; simp only [V3.normSq, V3.dot]; ring
  simp only [Maxwell.boost, Maxwell.flip, boostT, hg]
  split <;> rfl

theorem gammaOf_iso {R : ℝ × ℝ × ℝ → ℝ × ℝ × ℝ} (h : ∀ v, nsq (R v) = nsq v) (v : ℝ × ℝ × ℝ) :
    gammaOf (R v) = gammaOf v := by
  have h := h v
  unfold nsq at h
  unfold gammaOf
  congr 2
  linarith

theorem measurable_gammaOf : Measurable gammaOf := by unfold gammaOf; fun_prop

theorem measurable_gammaIn (d : ℝ × ℝ × ℝ) : Measurable (gammaIn d) := by
  unfold gammaIn
  exact (measurable_const.mul measurable_gammaOf).sub (by fun_prop)

/-- The sampler with a drift. -/
theorem samp_drift {ε T : ℝ} (hε : 0 ≤ ε) {j : ℝ → ℝ≥0∞} (hj : Measurable j)
    (h : Samp (tup (isotropic ε T)) (volume.withDensity fun v => j (gammaOf v))) (d : V3 ℝ)
    (hx : d.x = 0 ∨ ε < |d.x|) (hy : d.y = 0 ∨ ε < |d.y|) (hz : d.z = 0 ∨ ε < |d.z|) :
    Samp (tup (maxwellian ε T d)) (volume.withDensity fun v => j (gammaIn (d.x, d.y, d.z) v)) := by
  by_cases hd : d.x ≠ 0 ∨ d.y ≠ 0 ∨ d.z ≠ 0
  · obtain ⟨hdir, h4, h3, hlin, hiso, hdot⟩ := mk_drift ε hε d hx hy hz hd
    set D := Maxwell.mk ε d with hD
    set U := √(d.x ^ 2 + d.y ^ 2 + d.z ^ 2) with hU
    have hU2 : √(1 + U ^ 2) = gammaOf (d.x, d.y, d.z) := by
      rw [hU, sq_sqrt (by positivity)]; rfl
    refine (samp_isometry ?_ hlin hiso (hj.comp (measurable_gammaIn _)) ?_ (samp_boost U hj h)).congr fun ω => ?_
    · exact hj.comp ((measurable_const.mul measurable_gammaOf).sub (measurable_const.mul measurable_fst))
    · intro v
      simp only [Function.comp, gammaIn, gammaOf_iso hiso, ← hU2, hdot]
    · simp only [tup, maxwellian, ← hD]
      cases isotropic ε T ω with
      | none => rfl
      | some a =>
        simp only [Option.bind_some, Option.bind_eq_bind]
        rw [if_pos hdir]
        simp only [Option.pure_def, Option.bind_some, Maxwell.sample, if_pos hdir, h4, h3, ← boost_tup]
        rfl
  · push Not at hd
    obtain ⟨h1, h2, h3⟩ := hd
    have hdir : (Maxwell.mk ε d).dir = 0 := by
      simp [Maxwell.mk, V3.normSq, V3.dot, h1, h2, h3, Maxwell.almostZero, hε]
    have e : ∀ v, gammaIn (d.x, d.y, d.z) v = gammaOf v := fun v => by
      simp [gammaIn, gammaOf, h1, h2, h3]
    simp only [e]
    refine h.congr fun ω => ?_
    simp only [tup, maxwellian, hdir, ne_eq, not_true_eq_false, if_false]
    cases isotropic ε T ω <;> rfl

/-- Exchange of the first axis and axis `k`. -/
def swp (k : Nat) (v : ℝ × ℝ × ℝ) : ℝ × ℝ × ℝ :=
  if k = 0 then v else if k = 1 then (v.2.1, v.1, v.2.2) else (v.2.2, v.2.1, v.1)

theorem swp_lin (k : Nat) : IsLinearMap ℝ (swp k) := by
  unfold swp
  refine ⟨fun a b => ?_, fun c a => ?_⟩ <;> split_ifs <;> rfl

theorem swp_iso (k : Nat) (v : ℝ × ℝ × ℝ) : nsq (swp k v) = nsq v := by
  unfold swp nsq
  split_ifs <;> ring

/-- Unit vector of axis `k`, times `c`. -/
def axis (k : Nat) (c : ℝ) : ℝ × ℝ × ℝ := if k = 0 then (c, 0, 0) else if k = 1 then (0, c, 0) else (0, 0, c)

/-- The sampler with a drift along an axis. -/
theorem samp_axis {ε T : ℝ} (hε : 0 ≤ ε) {j : ℝ → ℝ≥0∞} (hj : Measurable j)
    (h : Samp (tup (isotropic ε T)) (volume.withDensity fun v => j (gammaOf v))) (U : ℝ) (k : Nat) (fl : Bool)
    (hU : U = 0 ∨ ε < |U|) :
    Samp (tup (sampleFromMaxwellian ε T U k fl))
      (volume.withDensity fun v => j (gammaIn (axis k (if fl then -U else U)) v)) := by
  have hjm : Measurable fun v => j (gammaOf v) := hj.comp measurable_gammaOf
  rcases hU with rfl | hU
  · have e : ∀ v, gammaIn (axis k (if fl then -0 else 0)) v = gammaOf v := fun v => by
      have : axis k (if fl then (-0 : ℝ) else 0) = (0, 0, 0) := by
        cases fl <;> simp [axis]
      rw [this]
      simp [gammaIn, gammaOf]
    simp only [e]
    refine h.congr fun ω => ?_
    have : Maxwell.almostZero ε 0 = true := by simp [Maxwell.almostZero, hε]
    simp only [tup, sampleFromMaxwellian, this, if_true]
    cases isotropic ε T ω <;> rfl
  · have hz : Maxwell.almostZero ε U = false := by simpa [Maxwell.almostZero] using hU
    have h1 := samp_boost U hj (samp_isometry hjm (swp_lin k) (swp_iso k) hjm
      (fun v => by rw [gammaOf_iso (swp_iso k)]) h)
    set R : ℝ × ℝ × ℝ → ℝ × ℝ × ℝ := fun v => if fl then -(swp k v) else swp k v with hR
    have hlin : IsLinearMap ℝ R := by
      cases fl
      · simpa [hR] using swp_lin k
      · have := swp_lin k
        refine ⟨fun a b => ?_, fun c a => ?_⟩
        · simp only [hR, if_true, this.map_add, neg_add]
        · simp only [hR, if_true, this.map_smul, smul_neg]
    have hiso : ∀ v, nsq (R v) = nsq v := fun v => by
      rw [← swp_iso k v]
      cases fl <;> simp [hR, nsq]
    have haxis : gammaOf (axis k (if fl then -U else U)) = √(1 + U ^ 2) := by
      unfold axis gammaOf
      split_ifs <;> simp
    refine (samp_isometry ?_ hlin hiso (hj.comp (measurable_gammaIn _)) ?_ h1).congr fun ω => ?_
    · exact hj.comp ((measurable_const.mul measurable_gammaOf).sub (measurable_const.mul measurable_fst))
    · intro v
      simp only [Function.comp, gammaIn, gammaOf_iso hiso, haxis]
      congr 2
      unfold axis
      cases fl <;> simp only [hR, swp] <;> split_ifs <;> simp
    · simp only [tup, sampleFromMaxwellian, hz]
      cases isotropic ε T ω with
      | none => rfl
      | some a =>
        simp only [Option.bind_some, Option.bind_eq_bind, Option.pure_def, Bool.false_eq_true, if_false]
        congr 2
        simp only [Maxwell.sampleFromMaxwellian, hz, Bool.false_eq_true, if_false]
        have hg : ∀ k, gam ((swp k (a.1.x, a.1.y, a.1.z)).2.1 ^ 2 + (swp k (a.1.x, a.1.y, a.1.z)).2.2 ^ 2)
            (swp k (a.1.x, a.1.y, a.1.z)).1 = √(1 + a.1.normSq) := by
          intro k
          unfold gam swp
          congr 2
          simp only [V3.normSq, V3.dot]
          split_ifs <;> ring
        simp only [boostT, hg, hR]
        have hc : (swp k (a.1.x, a.1.y, a.1.z)).1 = Maxwell.comp k a.1 := by
          unfold swp Maxwell.comp; split_ifs <;> rfl
        rw [hc]
        by_cases hk0 : k = 0
        · subst hk0
          cases fl <;> simp [swp, Maxwell.setComp, Maxwell.comp] <;> split_ifs <;> simp
        by_cases hk1 : k = 1
        · subst hk1
          cases fl <;> simp [swp, Maxwell.setComp, Maxwell.comp] <;> split_ifs <;> simp
        · cases fl <;> simp [swp, Maxwell.setComp, Maxwell.comp, hk0, hk1] <;> split_ifs <;> simp

/-- A sampler has one density. -/
theorem density_unique {f : Stream → Option (V3 ℝ × Stream)} {h h' : ℝ × ℝ × ℝ → ℝ} (H : HasDensity f h)
    (H' : HasDensity f h') (c : Continuous h) (c' : Continuous h') (p : ∀ v, 0 ≤ h v) (p' : ∀ v, 0 ≤ h' v) :
    ∃ k, ∀ v, h v = k * h' v := by
  set I := ∫⁻ v, ENNReal.ofReal (h v) with hI
  set I' := ∫⁻ v, ENNReal.ofReal (h' v) with hI'
  have hm : Measurable fun v => ENNReal.ofReal (h v) := ENNReal.measurable_ofReal.comp c.measurable
  have hm' : Measurable fun v => ENNReal.ofReal (h' v) := ENNReal.measurable_ofReal.comp c'.measurable
  have h1 : (volume.withDensity fun v => I⁻¹ * ENNReal.ofReal (h v)) =
      volume.withDensity fun v => I'⁻¹ * ENNReal.ofReal (h' v) := by
    ext A hA
    rw [withDensity_apply _ hA, withDensity_apply _ hA, lintegral_const_mul _ hm, lintegral_const_mul _ hm',
      ← ENNReal.div_eq_inv_mul, ← ENNReal.div_eq_inv_mul, ← H.2.2 A hA, ← H'.2.2 A hA]
  have h2 := (withDensity_eq_iff (hm.const_mul _).aemeasurable (hm'.const_mul _).aemeasurable (by
    rw [lintegral_const_mul _ hm, ← hI, ENNReal.inv_mul_cancel H.1 H.2.1]; exact ENNReal.one_ne_top)).1 h1
  have h3 : (fun v => I.toReal⁻¹ * h v) =ᵐ[volume] fun v => I'.toReal⁻¹ * h' v := by
    filter_upwards [h2] with v hv
    have := congrArg ENNReal.toReal hv
    simpa [ENNReal.toReal_mul, ENNReal.toReal_inv, ENNReal.toReal_ofReal (p v), ENNReal.toReal_ofReal (p' v)] using this
  have h4 := (Continuous.ae_eq_iff_eq volume (continuous_const.mul c) (continuous_const.mul c')).1 h3
  refine ⟨I.toReal * I'.toReal⁻¹, fun v => ?_⟩
  have h5 : I.toReal⁻¹ * h v = I'.toReal⁻¹ * h' v := congrFun h4 v
  have h6 : I.toReal ≠ 0 := fun h0 => by
    rcases (ENNReal.toReal_eq_zero_iff _).1 h0 with h | h
    · exact H.1 h
    · exact H.2.1 h
  rw [mul_assoc, ← h5, mul_inv_cancel_left₀ h6]

end Entity.EnergyDist
