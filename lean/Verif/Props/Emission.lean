import Verif.Model.Emission
import Verif.Props.Momentum
import Mathlib.Tactic.LinearCombination
import Mathlib.Tactic.FieldSimp
import Mathlib.Tactic.Positivity
import Mathlib.Tactic.NormNum

/-!
# C93: emission conserves momentum; C94: its mean is the continuous drag
-/

namespace Entity.Emission

open Entity Entity.Push Entity.Push.V3 Entity.Inject

theorem normSq_nonneg (a : V3 ℝ) : 0 ≤ a.normSq := by
  unfold normSq; positivity

theorem eq_zero_of_normSq {a : V3 ℝ} (h : a.normSq = 0) : a = ⟨0, 0, 0⟩ := by
  obtain ⟨x, y, z⟩ := a
  simp only [normSq] at h
  have hx : x = 0 := by nlinarith [sq_nonneg x, sq_nonneg y, sq_nonneg z]
  have hy : y = 0 := by nlinarith [sq_nonneg x, sq_nonneg y, sq_nonneg z]
  have hz : z = 0 := by nlinarith [sq_nonneg x, sq_nonneg y, sq_nonneg z]
  rw [hx, hy, hz]

theorem normSq_smul (c : ℝ) (a : V3 ℝ) : (a.smul c).normSq = c ^ 2 * a.normSq := by
  simp only [smul, normSq]; ring

/-! ## C93 -/

/-- Specification: a particle of mass `m` and weight `wq` whose momentum per mass was `u` and now is `u'`,
and a photon of weight `w.weight` with momentum `w.u`, have together the momentum the particle had. -/
def MomentumConserved (m wq : ℝ) (u u' : V3 ℝ) (w : New ℝ) : Prop :=
  u'.smul (wq * m) + w.u.smul w.weight = u.smul (wq * m)

/-- Specification: the photon starts where the particle is. -/
def SamePlace (q : Parent) (w : New ℝ) : Prop := w.xi = q.xi ∧ w.dxi = q.dxi ∧ w.phi = q.phi

/-- Any recoil of the form used by both policies. -/
theorem process_spec (P : Policy) (hm : 0 < P.mass) (hw : 0 < P.photonWeight) (d : V3 ℝ) (E : ℝ) (hE : 0 < E)
    (hd : 0 < d.normSq) (resp : Response) (h1 : resp.energy = E)
    (h2 : resp.du = d.smul (-P.photonWeight * E / (√d.normSq * P.mass))) (q : Parent) (w : New ℝ)
    (h : (processEmission P resp q).2 = some w) :
    SamePlace q w ∧ w.weight = P.photonWeight * q.weight ∧ w.u = d.smul (E / √d.normSq) ∧
    w.u.normSq = E ^ 2 ∧
    (resp.drag = true → MomentumConserved P.mass q.weight q.u (processEmission P resp q).1 w) ∧
    (resp.drag = false → (processEmission P resp q).1 = q.u) := by
  have hs : 0 < √d.normSq := Real.sqrt_pos.2 hd
  have hss : √d.normSq ^ 2 = d.normSq := Real.sq_sqrt hd.le
  have hmag : √resp.du.normSq = P.photonWeight * E / P.mass := by
    rw [h2, normSq_smul]
    have : (-P.photonWeight * E / (√d.normSq * P.mass)) ^ 2 * d.normSq = (P.photonWeight * E / P.mass) ^ 2 := by
      rw [div_pow, mul_pow (√d.normSq), hss]
      field_simp
    rw [this, Real.sqrt_sq (by positivity)]
  have hem : resp.emit = true := by
    by_contra hne
    simp [processEmission, hne] at h
  have hu' : (processEmission P resp q).1 = if resp.drag then q.u + resp.du else q.u := by
    simp [processEmission, hem]
  have hwv : w = { xi := q.xi, dxi := q.dxi, u := (resp.du.smul (-1 / √resp.du.normSq)).smul resp.energy,
                     weight := P.photonWeight * q.weight, phi := q.phi } := by
    simp only [processEmission, hem, if_true, Option.some.injEq] at h
    exact h.symm
  have hwu : w.u = d.smul (E / √d.normSq) := by
    rw [hwv]
    simp only
    rw [hmag, h1, h2]
    ext <;> simp only [smul] <;> field_simp
  refine ⟨by rw [hwv]; exact ⟨rfl, rfl, rfl⟩, by rw [hwv], hwu, ?_, ?_, ?_⟩
  · rw [hwu, normSq_smul, div_pow, hss]
    field_simp
  · intro hdr
    rw [MomentumConserved, hu', hdr, if_pos rfl, hwu, show w.weight = P.photonWeight * q.weight by rw [hwv], h2]
    ext <;> simp [smul] <;> field_simp <;> ring
  · intro hdr
    rw [hu', hdr]; rfl

/-- **C93**, inverse Compton: for any particle, random number and parameters, a photon that is emitted
starts at the place of the particle, has the declared energy along the velocity of the particle and the
declared weight; and with the drag enabled, momentum is conserved. -/
theorem C93_compton (P : Policy) (hm : 0 < P.mass) (hw : 0 < P.photonWeight) (hE : 0 < P.energy) (r : ℝ)
    (hr : 0 ≤ r) (u : V3 ℝ) (q : Parent) (w : New ℝ)
    (h : (processEmission P (compton P r u) q).2 = some w) :
    SamePlace q w ∧ w.weight = P.photonWeight * q.weight ∧
    (∃ c, 0 < c ∧ w.u = u.smul c) ∧ w.u.normSq = ((1 + u.normSq) * P.energy) ^ 2 ∧
    (P.drag = true → MomentumConserved P.mass q.weight q.u (processEmission P (compton P r u) q).1 w) ∧
    (P.drag = false → (processEmission P (compton P r u) q).1 = q.u) := by
  have hn := normSq_nonneg u
  have hshould : r < P.probability * √(u.normSq / (1 + u.normSq)) ∧
      (compton P r u).drag = P.drag := by
    by_contra hcon
    have hem : (compton P r u).emit = true := by
      by_contra hne
      simp [processEmission, hne] at h
    simp only [compton, Bool.and_eq_true, decide_eq_true_eq] at hem
    apply hcon
    refine ⟨hem.1.1, ?_⟩
    simp [compton, hem.1.1]
    intro _
    have := hem.1.2
    simpa using this
  have hpos : 0 < u.normSq := by
    rcases hn.lt_or_eq with h' | h'
    · exact h'
    · have := hshould.1
      rw [← h', zero_div, Real.sqrt_zero, mul_zero] at this
      exact absurd hr (not_le.2 this)
  have hEE : 0 < (1 + u.normSq) * P.energy := by positivity
  obtain ⟨a1, a2, a3, a4, a5, a6⟩ := process_spec P hm hw u _ hEE hpos (compton P r u) rfl rfl q w h
  refine ⟨a1, a2, ⟨_, ?_, a3⟩, a4, fun hd => a5 (by rw [hshould.2]; exact hd),
    fun hd => a6 (by rw [hshould.2]; exact hd)⟩
  exact div_pos hEE (Real.sqrt_pos.2 hpos)

/-- The emission probability vanishes together with the direction of the recoil. -/
theorem probability_zero (P : Policy) (u e b : V3 ℝ) (h : (dir u e b).normSq = 0) :
    syncProbability P u e b = 0 := by
  have hd := eq_zero_of_normSq h
  have hg : 0 < 1 + u.normSq := by have := normSq_nonneg u; linarith
  have hgs : √(1 + u.normSq) ^ 2 = 1 + u.normSq := Real.sq_sqrt hg.le
  have hgp : 0 < √(1 + u.normSq) := Real.sqrt_pos.2 hg
  have hk : kappa u e b = u.smul (√(1 + u.normSq) * chiSq u e b) := by
    have hx := congrArg V3.x hd
    have hy := congrArg V3.y hd
    have hz := congrArg V3.z hd
    simp only [dir, sub_x, sub_y, sub_z] at hx hy hz
    ext <;> linarith
  unfold syncProbability
  rw [hk]
  rcases (normSq_nonneg u).lt_or_eq with h' | h'
  · have hs : 0 < √u.normSq := Real.sqrt_pos.2 h'
    have hss : √u.normSq ^ 2 = u.normSq := Real.sq_sqrt h'.le
    have hdot : (u.smul (√(1 + u.normSq) * chiSq u e b)).dot u = √(1 + u.normSq) * chiSq u e b * √u.normSq ^ 2 := by
      rw [hss]; simp only [smul, dot, normSq]; ring
    rw [hdot]
    clear hk hd
    set g := √(1 + u.normSq) with hgdef
    have : -(g * chiSq u e b * √u.normSq ^ 2) / ((1 + u.normSq) * √u.normSq) +
        √u.normSq / g * chiSq u e b = 0 := by
      rw [← hgs]
      field_simp
      ring
    rw [this, mul_zero]
  · have hu := eq_zero_of_normSq h'.symm
    rw [← h']
    simp

/-- **C93**, synchrotron: for any particle, fields, random number and parameters, a photon that is emitted
starts at the place of the particle, has the declared energy and weight; and with the drag enabled,
momentum is conserved. -/
theorem C93_synchrotron (P : Policy) (hm : 0 < P.mass) (hw : 0 < P.photonWeight) (hE : 0 < P.energy) (r : ℝ)
    (hr : 0 ≤ r) (u e b : V3 ℝ) (q : Parent) (w : New ℝ)
    (h : (processEmission P (synchrotron P r u e b) q).2 = some w) :
    SamePlace q w ∧ w.weight = P.photonWeight * q.weight ∧
    w.u.normSq = ((1 + u.normSq) * P.energy) ^ 2 ∧
    (P.drag = true → MomentumConserved P.mass q.weight q.u (processEmission P (synchrotron P r u e b) q).1 w) ∧
    (P.drag = false → (processEmission P (synchrotron P r u e b) q).1 = q.u) := by
  have hn := normSq_nonneg u
  have hshould : r < syncProbability P u e b ∧ (synchrotron P r u e b).drag = P.drag := by
    have hem : (synchrotron P r u e b).emit = true := by
      by_contra hne
      simp [processEmission, hne] at h
    simp only [synchrotron, Bool.and_eq_true, decide_eq_true_eq] at hem
    refine ⟨hem.1.1, ?_⟩
    simp [synchrotron, hem.1.1]
    intro _
    have := hem.1.2
    simpa using this
  have hpos : 0 < (dir u e b).normSq := by
    rcases (normSq_nonneg (dir u e b)).lt_or_eq with h' | h'
    · exact h'
    · have := hshould.1
      rw [probability_zero P u e b h'.symm] at this
      exact absurd hr (not_le.2 this)
  have hEE : 0 < (1 + u.normSq) * P.energy := by positivity
  obtain ⟨a1, a2, _, a4, a5, a6⟩ := process_spec P hm hw (dir u e b) _ hEE hpos (synchrotron P r u e b) rfl rfl q w h
  exact ⟨a1, a2, a4, fun hd => a5 (by rw [hshould.2]; exact hd), fun hd => a6 (by rw [hshould.2]; exact hd)⟩

/-! ## C94 -/

theorem compton_mean (i : Input) (mass charge : ℝ) (hm : 0 < mass) (hw : 0 < i.photonWeight)
    (hq : i.gammaQed ≠ 0) (u : V3 ℝ)
    (hlow : (1 + u.normSq) * (mass * (1 / i.gammaQed ^ 2)) < mass * (√(1 + u.normSq) - 1) * (1 / 5)) :
    let P := mkPolicy i mass charge true
    ∃ p, (∀ r, (compton P r u).drag = true ↔ r < p) ∧
      ∀ r, (compton P r u).du.smul p =
        ((comptonDrag (dragCoeff i mass) ⟨0, 0, 0⟩ u).1).smul (|charge| * mass) := by
  intro P
  refine ⟨P.probability * √(u.normSq / (1 + u.normSq)), fun r => ?_, fun r => ?_⟩
  · have h2 : (1 + u.normSq) * P.energy < P.mass * (√(1 + u.normSq) - 1) * (1 / 5) := hlow
    simp only [compton, Bool.and_eq_true, decide_eq_true_eq, h2, and_true]
    exact ⟨fun h => h.2, fun h => ⟨rfl, h⟩⟩
  · have hg : 0 < 1 + u.normSq := by have := normSq_nonneg u; linarith
    have hgs : √(1 + u.normSq) ^ 2 = 1 + u.normSq := Real.sq_sqrt hg.le
    have hgp : 0 < √(1 + u.normSq) := Real.sqrt_pos.2 hg
    simp only [compton, comptonDrag, P, mkPolicy, dragCoeff]
    rw [Real.sqrt_div (normSq_nonneg u), abs_div, abs_of_pos hm]
    rcases (normSq_nonneg u).lt_or_eq with h' | h'
    · have hs : 0 < √u.normSq := Real.sqrt_pos.2 h'
      clear hlow
      set g := √(1 + u.normSq) with hgdef
      rw [← hgs]
      ext <;> simp only [smul, sub_x, sub_y, sub_z] <;> field_simp <;> ring
    · have hu := eq_zero_of_normSq h'.symm
      rw [hu]
      ext <;> simp [smul]

/-- **C94**, inverse Compton: the recoil happens exactly if the random number is below a threshold `p`, and
`p` times the recoil is the drag applied by the pusher without emission, for the same parameters, if
charge times mass of the species is one.  Also required: the photon energy is below the limit of the
code (a fifth of the kinetic energy).  What is missing: other charges and masses, where the two differ
(`C94_counterexample`). -/
theorem C94_compton_partial (i : Input) (mass charge : ℝ) (hm : 0 < mass) (hqm : |charge| * mass = 1)
    (hw : 0 < i.photonWeight) (hq : i.gammaQed ≠ 0) (u : V3 ℝ)
    (hlow : (1 + u.normSq) * (mass * (1 / i.gammaQed ^ 2)) < mass * (√(1 + u.normSq) - 1) * (1 / 5)) :
    ∃ p, (∀ r, (compton (mkPolicy i mass charge true) r u).drag = true ↔ r < p) ∧
      ∀ r, (compton (mkPolicy i mass charge true) r u).du.smul p =
        (comptonDrag (dragCoeff i mass) ⟨0, 0, 0⟩ u).1 := by
  obtain ⟨p, h1, h2⟩ := compton_mean i mass charge hm hw hq u hlow
  refine ⟨p, h1, fun r => ?_⟩
  rw [h2 r, hqm]
  ext <;> simp [smul]

theorem syncDrag_dir (c : ℝ) (u e b : V3 ℝ) :
    (synchrotronDrag c e b ⟨0, 0, 0⟩ u).1 = (dir u e b).smul (-c) := by
  have hg : 0 < 1 + u.normSq := by have := normSq_nonneg u; linarith
  have hgs : √(1 + u.normSq) ^ 2 = 1 + u.normSq := Real.sq_sqrt hg.le
  have hgp : 0 < √(1 + u.normSq) := Real.sqrt_pos.2 hg
  have hc : ∀ a : ℝ, (u.smul a).cross b = (u.cross b).smul a := by
    intro a; ext <;> simp only [cross, smul] <;> ring
  have hdt : ∀ a : ℝ, (u.smul a).dot e = a * u.dot e := by
    intro a; simp only [dot, smul]; ring
  simp only [synchrotronDrag, dir, kappa, chiSq, hc, hdt]
  generalize (e + (u.cross b).smul (1 / √(1 + u.normSq))) = ebb
  have e1 : 1 / √(1 + u.normSq) * u.dot e = u.dot e / √(1 + u.normSq) := by ring
  rw [e1]
  generalize u.dot e / √(1 + u.normSq) = de
  ext <;> simp only [smul, sub_x, sub_y, sub_z, add_x, add_y, add_z] <;> field_simp <;> ring

/-- **C94**, synchrotron: the recoil happens exactly if the random number is below a threshold `p`, and `p`
times the recoil is parallel to the drag `D` applied by the pusher without emission, reduced by the
cosine of the angle between `-D` and the velocity, times charge times mass.  So the two agree for a
species with charge times mass one and a drag opposite to the velocity. -/
theorem C94_synchrotron_partial (i : Input) (mass charge : ℝ) (hm : 0 < mass) (hw : 0 < i.photonWeight)
    (hq : i.gammaQed ≠ 0) (hdt : 0 < i.dt * i.omegaB0) (hrad : i.gammaRad ≠ 0) (u e b : V3 ℝ)
    (hlow : (1 + u.normSq) * (mass * (1 / i.gammaQed ^ 2)) < mass * (√(1 + u.normSq) - 1) * (1 / 5)) :
    let D := (synchrotronDrag (dragCoeff i mass) e b ⟨0, 0, 0⟩ u).1
    ∃ p, (∀ r, (synchrotron (mkPolicy i mass charge true) r u e b).drag = true ↔ r < p) ∧
      ∀ r, (synchrotron (mkPolicy i mass charge true) r u e b).du.smul p =
        D.smul (|charge| * mass * (-(D.dot u) / (√D.normSq * √u.normSq))) := by
  intro D
  refine ⟨syncProbability (mkPolicy i mass charge true) u e b, fun r => ?_, fun r => ?_⟩
  · have h2 : (1 + u.normSq) * (mkPolicy i mass charge true).energy <
        (mkPolicy i mass charge true).mass * (√(1 + u.normSq) - 1) * (1 / 5) := hlow
    simp only [synchrotron, Bool.and_eq_true, decide_eq_true_eq, h2, and_true]
    exact ⟨fun h => h.2, fun h => ⟨rfl, h⟩⟩
  · have hc : 0 < dragCoeff i mass := by
      unfold dragCoeff
      have : 0 < (i.gammaRad * mass) ^ 2 := by positivity
      apply div_pos _ this
      linarith
    have hD : D = (dir u e b).smul (-dragCoeff i mass) := syncDrag_dir _ u e b
    have hg : 0 < 1 + u.normSq := by have := normSq_nonneg u; linarith
    have hgs : √(1 + u.normSq) ^ 2 = 1 + u.normSq := Real.sq_sqrt hg.le
    have hgp : 0 < √(1 + u.normSq) := Real.sqrt_pos.2 hg
    have hu : 0 < u.normSq := by
      rcases (normSq_nonneg u).lt_or_eq with h' | h'
      · exact h'
      · rw [← h'] at hlow
        have : 0 < (1 + 0) * (mass * (1 / i.gammaQed ^ 2)) := by positivity
        simp only [add_zero, Real.sqrt_one, sub_self, mul_zero, zero_mul] at hlow
        simp only [add_zero] at this
        linarith
    have hus : 0 < √u.normSq := Real.sqrt_pos.2 hu
    have huss : √u.normSq ^ 2 = u.normSq := Real.sq_sqrt hu.le
    rcases (normSq_nonneg (dir u e b)).lt_or_eq with hd | hd
    · have hds : 0 < √(dir u e b).normSq := Real.sqrt_pos.2 hd
      have hDn : √D.normSq = dragCoeff i mass * √(dir u e b).normSq := by
        rw [hD, normSq_smul, neg_sq, Real.sqrt_mul (sq_nonneg _), Real.sqrt_sq hc.le]
      have hDu : -(D.dot u) = dragCoeff i mass * (dir u e b).dot u := by
        rw [hD]; simp only [smul, dot]; ring
      -- the probability in terms of the direction
      have hp : syncProbability (mkPolicy i mass charge true) u e b =
          (mkPolicy i mass charge true).probability * ((dir u e b).dot u / ((1 + u.normSq) * √u.normSq)) := by
        unfold syncProbability
        congr 1
        have : (dir u e b).dot u = √(1 + u.normSq) * chiSq u e b * √u.normSq ^ 2 - (kappa u e b).dot u := by
          rw [huss]; simp only [dir, dot, smul, normSq, sub_x, sub_y, sub_z]; ring
        rw [this]
        clear hlow this
        set g := √(1 + u.normSq) with hgdef
        rw [← hgs]
        field_simp
        ring
      rw [hDn, hDu, hp, hD]
      simp only [synchrotron, mkPolicy, abs_div, abs_of_pos hm]
      have hcd : dragCoeff i mass ≠ 0 := hc.ne'
      have hdef : dragCoeff i mass = 1 / 10 * i.dt * i.omegaB0 / (i.gammaRad * mass) ^ 2 := rfl
      have hcancel : dragCoeff i mass * (dir u e b).dot u / (dragCoeff i mass * √(dir u e b).normSq * √u.normSq) =
          (dir u e b).dot u / (√(dir u e b).normSq * √u.normSq) := by
        field_simp
      rw [hcancel, hdef]
      ext <;> simp only [smul] <;> field_simp
    · have hz := eq_zero_of_normSq hd.symm
      rw [hD, show (synchrotron (mkPolicy i mass charge true) r u e b).du = (dir u e b).smul
        (-(mkPolicy i mass charge true).photonWeight * ((1 + u.normSq) * (mkPolicy i mass charge true).energy) /
          (√(dir u e b).normSq * (mkPolicy i mass charge true).mass)) from rfl, hz]
      ext <;> simp [smul]

/-- Parameters of the cases. -/
noncomputable def exInput : Input := ⟨1, 1, 10, 10, 1, 0⟩

/-- A particle with Lorentz factor 2. -/
theorem exLow (mass : ℝ) (hm : 0 < mass) : (1 + (⟨√3, 0, 0⟩ : V3 ℝ).normSq) * (mass * (1 / exInput.gammaQed ^ 2)) <
    mass * (√(1 + (⟨√3, 0, 0⟩ : V3 ℝ).normSq) - 1) * (1 / 5) := by
  have h3 : √3 ^ 2 = (3 : ℝ) := Real.sq_sqrt (by norm_num)
  have h : (⟨√3, 0, 0⟩ : V3 ℝ).normSq = 3 := by simp [normSq, h3]
  have h4 : √(1 + 3 : ℝ) = 2 := by rw [show (1 + 3 : ℝ) = 2 ^ 2 by norm_num]; simp
  rw [h, h4]
  simp only [exInput]
  linarith

/-- The hypotheses of `C94_compton_partial` hold for a particle of unit mass and charge. -/
example : ∃ p, (∀ r, (compton (mkPolicy exInput 1 1 true) r ⟨√3, 0, 0⟩).drag = true ↔ r < p) ∧
    ∀ r, (compton (mkPolicy exInput 1 1 true) r ⟨√3, 0, 0⟩).du.smul p =
      (comptonDrag (dragCoeff exInput 1) ⟨0, 0, 0⟩ ⟨√3, 0, 0⟩).1 :=
  C94_compton_partial exInput 1 1 one_pos (by norm_num) (by simp [exInput]) (by simp [exInput]) _ (exLow 1 one_pos)

/-- A photon is emitted in this case (`C93_compton`, with random number zero). -/
example : ∃ w, (processEmission (mkPolicy exInput 1 1 true) (compton (mkPolicy exInput 1 1 true) 0 ⟨√3, 0, 0⟩)
    ⟨fun _ => 3, fun _ => 1 / 2, ⟨√3, 0, 0⟩, 1, 0⟩).2 = some w := by
  have h3 : √3 ^ 2 = (3 : ℝ) := Real.sq_sqrt (by norm_num)
  have h : (⟨√3, 0, 0⟩ : V3 ℝ).normSq = 3 := by simp [normSq, h3]
  have hlow := exLow 1 one_pos
  have he : (compton (mkPolicy exInput 1 1 true) 0 ⟨√3, 0, 0⟩).emit = true := by
    simp only [compton, Bool.and_eq_true, decide_eq_true_eq]
    refine ⟨⟨?_, hlow⟩, ?_⟩
    · rw [h]
      apply mul_pos
      · simp only [mkPolicy, exInput]; norm_num
      · apply Real.sqrt_pos.2; norm_num
    · rw [h]; simp only [mkPolicy, exInput]; norm_num
  simp only [processEmission, he, if_true]
  exact ⟨_, rfl⟩

/-- **C94**, violated for a species of mass 2 and charge 1: its mean recoil is twice the continuous drag. -/
theorem C94_counterexample :
    ∃ p, (∀ r, (compton (mkPolicy exInput 2 1 true) r ⟨√3, 0, 0⟩).drag = true ↔ r < p) ∧
      (comptonDrag (dragCoeff exInput 2) ⟨0, 0, 0⟩ ⟨√3, 0, 0⟩).1 ≠ ⟨0, 0, 0⟩ ∧
      ∀ r, (compton (mkPolicy exInput 2 1 true) r ⟨√3, 0, 0⟩).du.smul p =
        ((comptonDrag (dragCoeff exInput 2) ⟨0, 0, 0⟩ ⟨√3, 0, 0⟩).1).smul 2 := by
  obtain ⟨p, h1, h2⟩ := compton_mean exInput 2 1 two_pos (by simp [exInput]) (by simp [exInput]) ⟨√3, 0, 0⟩
    (exLow 2 two_pos)
  refine ⟨p, h1, ?_, fun r => by rw [h2 r]; norm_num⟩
  intro h
  have hx := congrArg V3.x h
  have h3 : √3 ^ 2 = (3 : ℝ) := Real.sq_sqrt (by norm_num)
  have hn : (⟨√3, 0, 0⟩ : V3 ℝ).normSq = 3 := by simp [normSq, h3]
  have h4 : √(1 + 3 : ℝ) = 2 := by rw [show (1 + 3 : ℝ) = 2 ^ 2 by norm_num]; simp
  simp only [comptonDrag, smul, sub_x, hn, h4, dragCoeff, exInput] at hx
  have : 0 < √(3 : ℝ) := Real.sqrt_pos.2 (by norm_num)
  nlinarith

end Entity.Emission
