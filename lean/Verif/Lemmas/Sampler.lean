import Verif.Spec.EnergyDist
import Mathlib.MeasureTheory.Measure.Prod
import Mathlib.MeasureTheory.Constructions.Pi
import Mathlib.Analysis.SpecificLimits.Basic

/-!
# Samplers and their distribution
-/

namespace Entity.EnergyDist

open Entity.Push MeasureTheory Set
open scoped ENNReal

/-! ## Loops -/

/-- The loop with at most `n` tests of the condition. -/
def fuel {σ : Type} (c : σ → Bool) (body : σ → Option σ) : Nat → σ → Option σ
  | 0, _ => none
  | n + 1, s => if c s then (body s).bind (fuel c body n) else some s

theorem whileM_eq {σ : Type} (c : σ → Bool) (body : σ → Option σ) (s : σ) :
    whileM c body s = if c s then (body s).bind (whileM c body) else some s := by
  rw [whileM]; rfl

theorem fuel_whileM {σ : Type} {c : σ → Bool} {body : σ → Option σ} : ∀ {n : Nat} {s t : σ},
    fuel c body n s = some t → whileM c body s = some t
  | 0, _, _, h => by simp [fuel] at h
  | n + 1, s, t, h => by
    rw [whileM_eq]
    unfold fuel at h
    split at h
    · rw [if_pos ‹_›]
      cases hb : body s with
      | none => simp [hb] at h
      | some s' => rw [hb] at h; exact fuel_whileM h
    · rw [if_neg ‹_›]; exact h

theorem whileM_fuel {σ : Type} {c : σ → Bool} {body : σ → Option σ} {s t : σ}
    (h : whileM c body s = some t) : ∃ n, fuel c body n s = some t := by
  refine whileM.partial_correctness c body (motive := fun s t => ∃ n, fuel c body n s = some t) ?_ s t h
  intro f ih s t h
  split at h
  · rename_i hc
    cases hb : body s with
    | none => rw [hb] at h; simp at h
    | some s' =>
      rw [hb] at h
      obtain ⟨n, hn⟩ := ih s' t h
      exact ⟨n + 1, by simp [fuel, hc, hb, hn]⟩
  · rename_i hc
    exact ⟨1, by simp [fuel, hc] at h ⊢; exact h⟩

theorem fuel_mono {σ : Type} {c : σ → Bool} {body : σ → Option σ} : ∀ {n m : Nat} {s t : σ}, n ≤ m →
    fuel c body n s = some t → fuel c body m s = some t
  | 0, _, _, _, _, h => by simp [fuel] at h
  | n + 1, 0, _, _, h, _ => by omega
  | n + 1, m + 1, s, t, hm, h => by
    unfold fuel at h ⊢
    split at h
    · rw [if_pos ‹_›]
      cases hb : body s with
      | none => simp [hb] at h
      | some s' => rw [hb] at h; exact fuel_mono (by omega) h
    · rw [if_neg ‹_›]; exact h

/-! ## Expectations -/

/-- What a test function gives for the outcome of a sampler; nothing if it does not end. -/
def ev {α : Type} (F : α → ℝ≥0∞) : Option α → ℝ≥0∞
  | none => 0
  | some a => F a

theorem ev_bind {α β : Type} (F : β → ℝ≥0∞) (o : Option α) (g : α → Option β) :
    ev F (o.bind g) = ev (fun a => ev F (g a)) o := by cases o <;> rfl

theorem ev_whileM {σ : Type} (c : σ → Bool) (body : σ → Option σ) (F : σ → ℝ≥0∞) (s : σ) :
    ev F (whileM c body s) = ⨆ n, ev F (fuel c body n s) := by
  cases h : whileM c body s with
  | none =>
    symm
    rw [ENNReal.iSup_eq_zero.2]; rfl
    intro n
    cases hn : fuel c body n s with
    | none => rfl
    | some t => rw [fuel_whileM hn] at h; simp at h
  | some t =>
    obtain ⟨n, hn⟩ := whileM_fuel h
    apply le_antisymm
    · refine le_iSup_of_le n ?_
      rw [hn]
    · refine iSup_le fun m => ?_
      cases hm : fuel c body m s with
      | none => exact zero_le
      | some t' =>
        have := fuel_whileM hm
        rw [h] at this
        rw [Option.some.inj this]

theorem ev_fuel_mono {σ : Type} (c : σ → Bool) (body : σ → Option σ) (F : σ → ℝ≥0∞) (s : σ) :
    Monotone fun n => ev F (fuel c body n s) := by
  intro n m h
  cases hn : fuel c body n s with
  | none => simp only [hn]; exact zero_le
  | some t => simp only [hn, fuel_mono h hn]; rfl

/-! ## The generator -/

/-- One number in [0, 1). -/
noncomputable def unif : Measure (Ico (0 : ℝ) 1) := (volume : Measure ℝ).comap Subtype.val

instance : IsProbabilityMeasure unif := ⟨by
  unfold unif
  rw [Measure.comap_apply _ Subtype.val_injective (fun s hs => measurableSet_Ico.subtype_image hs) _ .univ]
  rw [image_univ, Subtype.range_coe]
  simp⟩

instance : IsProbabilityMeasure P := by
  have : ∀ _ : Nat, IsProbabilityMeasure ((volume : Measure ℝ).comap (Subtype.val : Ico (0 : ℝ) 1 → ℝ)) :=
    fun _ => inferInstanceAs (IsProbabilityMeasure unif)
  unfold P
  infer_instance

/-- Adding a number in front. -/
def scons (p : Ico (0 : ℝ) 1 × Stream) : Stream
  | 0 => p.1
  | n + 1 => p.2 n

theorem measurable_scons : Measurable scons := by
  refine measurable_pi_iff.2 fun n => ?_
  cases n with
  | zero => exact measurable_fst
  | succ n => exact (measurable_pi_apply n).comp measurable_snd

theorem P_scons : (unif.prod P).map scons = P := by
  have : ∀ _ : Nat, IsProbabilityMeasure unif := fun _ => inferInstance
  refine Measure.eq_infinitePi (μ := fun _ : Nat => unif) fun s t ht => ?_
  rw [Measure.map_apply measurable_scons (.pi s.countable_toSet fun i _ => ht i)]
  classical
  let s' : Finset Nat := (s.erase 0).image Nat.pred
  have hs' : ∀ n, n ∈ s' ↔ n + 1 ∈ s := by
    intro n
    simp only [s', Finset.mem_image, Finset.mem_erase]
    constructor
    · rintro ⟨m, ⟨h1, h2⟩, rfl⟩
      cases m with
      | zero => exact absurd rfl h1
      | succ m => exact h2
    · intro h
      exact ⟨n + 1, ⟨by omega, h⟩, rfl⟩
  have hset : scons ⁻¹' Set.pi s t = (if 0 ∈ s then t 0 else univ) ×ˢ Set.pi (s' : Set Nat) (fun n => t (n + 1)) := by
    ext ⟨x, ω⟩
    simp only [mem_preimage, Set.mem_pi, mem_prod, Finset.mem_coe]
    constructor
    · intro h
      refine ⟨?_, fun n hn => h (n + 1) ((hs' n).1 hn)⟩
      split_ifs with h0
      · exact h 0 h0
      · trivial
    · rintro ⟨h1, h2⟩ n hn
      cases n with
      | zero => rw [if_pos hn] at h1; exact h1
      | succ n => exact h2 n ((hs' n).2 hn)
  rw [hset, Measure.prod_prod]
  have hP : P (Set.pi (s' : Set Nat) (fun n => t (n + 1))) = ∏ n ∈ s', unif (t (n + 1)) :=
    Measure.infinitePi_pi (μ := fun _ : Nat => unif) fun n _ => ht (n + 1)
  rw [hP]
  have hprod : ∏ n ∈ s', unif (t (n + 1)) = ∏ n ∈ s.erase 0, unif (t n) := by
    refine Finset.prod_bij (fun n _ => n + 1) (fun n hn => Finset.mem_erase.2 ⟨by omega, (hs' n).1 hn⟩)
      (fun a _ b _ h => by omega) (fun n hn => ?_) (fun n _ => rfl)
    rw [Finset.mem_erase] at hn
    cases n with
    | zero => exact absurd rfl hn.1
    | succ n => exact ⟨n, (hs' n).2 hn.2, rfl⟩
  rw [hprod]
  split_ifs with h0
  · exact Finset.mul_prod_erase s (fun n => unif (t n)) h0
  · rw [measure_univ, one_mul, Finset.erase_eq_of_notMem h0]

/-- The first number of the generator is uniform, and independent of the rest. -/
theorem lintegral_P (F : Stream → ℝ≥0∞) (hF : Measurable F) :
    ∫⁻ ω, F ω ∂P = ∫⁻ x, ∫⁻ ω, F (scons (x, ω)) ∂P ∂unif := by
  conv_lhs => rw [← P_scons]
  rw [lintegral_map hF measurable_scons, lintegral_prod (fun a => F (scons a)) (hF.comp measurable_scons).aemeasurable]

/-! ## Laws -/

/-- The sampler ends with probability one, its results have law `μ` and the unread numbers are
independent of them. -/
structure Law {α : Type} [MeasurableSpace α] (f : Stream → Option (α × Stream)) (μ : Measure α) : Prop where
  meas : ∀ {γ : Type} [MeasurableSpace γ] (F : γ × α × Stream → ℝ≥0∞), Measurable F →
    Measurable fun p : γ × Stream => ev (fun r => F (p.1, r)) (f p.2)
  int : ∀ (F : α × Stream → ℝ≥0∞), Measurable F → ∫⁻ ω, ev F (f ω) ∂P = ∫⁻ a, ∫⁻ ω, F (a, ω) ∂P ∂μ

/-- The uniform distribution on [0, 1). -/
noncomputable def U01 : Measure ℝ := volume.restrict (Ico 0 1)

instance : IsProbabilityMeasure U01 := ⟨by simp [U01]⟩

theorem lintegral_unif (f : ℝ → ℝ≥0∞) : ∫⁻ x, f x ∂unif = ∫⁻ x, f x ∂U01 :=
  lintegral_subtype_comap measurableSet_Ico f

theorem measurable_draw : Measurable draw :=
  Measurable.prodMk (measurable_subtype_coe.comp (measurable_pi_apply 0))
    (measurable_pi_iff.2 fun n => measurable_pi_apply (n + 1))

theorem law_draw : Law (fun ω => some (draw ω)) U01 where
  meas F hF := hF.comp (measurable_fst.prodMk (measurable_draw.comp measurable_snd))
  int F hF := by
    simp only [ev]
    rw [lintegral_P (fun ω => F (draw ω)) (hF.comp measurable_draw), ← lintegral_unif]
    rfl

theorem Law.congr {α : Type} [MeasurableSpace α] {f g : Stream → Option (α × Stream)} {μ : Measure α}
    (h : Law f μ) (e : ∀ ω, g ω = f ω) : Law g μ := by
  have : g = f := funext e
  rw [this]; exact h

theorem Law.map {α β : Type} [MeasurableSpace α] [MeasurableSpace β] {f : Stream → Option (α × Stream)}
    {μ : Measure α} (h : Law f μ) {φ : α → β} (hφ : Measurable φ) :
    Law (fun ω => (f ω).bind fun r => some (φ r.1, r.2)) (μ.map φ) where
  meas F hF := by
    simp only [ev_bind]
    exact h.meas (fun p => F (p.1, φ p.2.1, p.2.2)) (hF.comp (measurable_fst.prodMk
      ((hφ.comp (measurable_fst.comp measurable_snd)).prodMk (measurable_snd.comp measurable_snd))))
  int F hF := by
    simp only [ev_bind]
    rw [lintegral_map hF.lintegral_prod_right' hφ]
    exact h.int (fun r => F (φ r.1, r.2)) (hF.comp ((hφ.comp measurable_fst).prodMk measurable_snd))

theorem Law.pair {α β : Type} [MeasurableSpace α] [MeasurableSpace β] {f : Stream → Option (α × Stream)}
    {g : Stream → Option (β × Stream)} {μ : Measure α} {ν : Measure β} [SFinite ν]
    (h : Law f μ) (k : Law g ν) :
    Law (fun ω => (f ω).bind fun r => (g r.2).bind fun s => some ((r.1, s.1), s.2)) (μ.prod ν) where
  meas {γ} _ F hF := by
    simp only [ev_bind]
    have h1 := k.meas (γ := γ × α) (fun p => F (p.1.1, (p.1.2, p.2.1), p.2.2)) (hF.comp (by fun_prop))
    have h2 := h.meas (γ := γ) (fun p => ev (fun s : β × Stream => F (p.1, (p.2.1, s.1), s.2)) (g p.2.2))
      (h1.comp (f := fun p : γ × α × Stream => ((p.1, p.2.1), p.2.2)) (by fun_prop))
    exact h2
  int F hF := by
    simp only [ev_bind]
    have h1 := k.meas (γ := α) (fun p => F ((p.1, p.2.1), p.2.2)) (hF.comp (by fun_prop))
    have h2 := h.int (fun p => ev (fun s => F ((p.1, s.1), s.2)) (g p.2)) h1
    refine h2.trans ?_
    rw [lintegral_prod _ hF.lintegral_prod_right'.aemeasurable]
    refine lintegral_congr fun a => ?_
    exact k.int (fun s => F ((a, s.1), s.2)) (hF.comp (by fun_prop))

/-- A distribution conditioned on a set. -/
noncomputable def given {α : Type} [MeasurableSpace α] (μ : Measure α) (S : Set α) : Measure α :=
  (μ S)⁻¹ • μ.restrict S

/-- Repeating until accepted gives the distribution conditioned on acceptance. -/
theorem Law.reject {α : Type} [MeasurableSpace α] {f : Stream → Option (α × Stream)} {μ : Measure α}
    [IsProbabilityMeasure μ] (h : Law f μ) (c : α → Bool) (hc : MeasurableSet {a | c a = false})
    (hp : μ {a | c a = false} ≠ 0) :
    Law (fun ω => (f ω).bind (whileM (fun s => c s.1) (fun s => f s.2))) (given μ {a | c a = false}) := by
  set S := {a | c a = false} with hS
  have hfuel : ∀ (n : Nat) {γ : Type} [MeasurableSpace γ] (F : γ × α × Stream → ℝ≥0∞), Measurable F →
      Measurable fun p : γ × α × Stream => ev (fun r => F (p.1, r)) (fuel (fun s => c s.1) (fun s => f s.2) n p.2) := by
    intro n
    induction n with
    | zero => intro γ _ F hF; exact measurable_const
    | succ n ih =>
      intro γ _ F hF
      have e : (fun p : γ × α × Stream => ev (fun r => F (p.1, r))
          (fuel (fun s => c s.1) (fun s => f s.2) (n + 1) p.2)) = fun p : γ × α × Stream =>
          if p ∈ {p : γ × α × Stream | c p.2.1 = false} then F p else
            ev (fun r => ev (fun r => F (p.1, r)) (fuel (fun s => c s.1) (fun s => f s.2) n r)) (f p.2.2) := by
        funext p
        simp only [fuel, mem_setOf_eq]
        cases hcp : c p.2.1 with
        | false => simp [ev]
        | true => simp [ev_bind]
      rw [e]
      refine Measurable.ite ?_ hF ?_
      · exact hc.preimage (f := fun p : γ × α × Stream => p.2.1) (by fun_prop)
      · have := h.meas (γ := γ) _ (ih F hF)
        exact this.comp (f := fun p : γ × α × Stream => (p.1, p.2.2)) (by fun_prop)
  constructor
  · intro γ _ F hF
    simp only [ev_bind, ev_whileM]
    have := h.meas (γ := γ) (fun p => ⨆ n, ev (fun r => F (p.1, r)) (fuel (fun s => c s.1) (fun s => f s.2) n p.2))
      (Measurable.iSup fun n => hfuel n F hF)
    exact this
  · intro F hF
    have hF' : ∀ n, Measurable fun r : α × Stream => ev F (fuel (fun s => c s.1) (fun s => f s.2) n r) := by
      intro n
      have := hfuel n (γ := Unit) (fun p => F p.2) (hF.comp measurable_snd)
      exact this.comp (f := fun r : α × Stream => ((), r)) (by fun_prop)
    set I := ∫⁻ a in S, ∫⁻ ω, F (a, ω) ∂P ∂μ with hI
    set q := μ Sᶜ with hq
    let W : Nat → ℝ≥0∞ := fun n => ∫⁻ ω, ev (fun r => ev F (fuel (fun s => c s.1) (fun s => f s.2) n r)) (f ω) ∂P
    have hstep : ∀ n, W (n + 1) = q * W n + I := by
      intro n
      simp only [W]
      rw [h.int _ (hF' (n + 1)), ← lintegral_add_compl _ hc, add_comm]
      congr 1
      · have : ∀ a ∈ Sᶜ, (∫⁻ ω, ev F (fuel (fun s => c s.1) (fun s => f s.2) (n + 1) (a, ω)) ∂P) = W n := by
          intro a ha
          have ha : c a = true := by simpa [hS] using ha
          simp only [fuel, ha, if_true, ev_bind, W]
        rw [setLIntegral_congr_fun hc.compl this, setLIntegral_const, mul_comm]
      · refine setLIntegral_congr_fun hc fun a ha => ?_
        have ha : c a = false := ha
        simp only [fuel, ha, ev, Bool.false_eq_true, if_false]
    have hW : ∀ n, W n = (∑ i ∈ Finset.range n, q ^ i) * I := by
      intro n
      induction n with
      | zero =>
        have : ∀ o : Option (α × Stream), ev (fun _ => (0 : ℝ≥0∞)) o = 0 := fun o => by cases o <;> rfl
        simp only [W, fuel]
        change ∫⁻ ω, ev (fun _ => (0 : ℝ≥0∞)) (f ω) ∂P = _
        simp [this]
      | succ n ih =>
        rw [hstep, ih, Finset.sum_range_succ', Finset.sum_congr rfl (fun i _ => pow_succ' q i), ← Finset.mul_sum]
        ring
    simp only [ev_bind, ev_whileM]
    have hmono : ∀ ω, ev (fun r => ⨆ n, ev F (fuel (fun s => c s.1) (fun s => f s.2) n r)) (f ω) =
        ⨆ n, ev (fun r => ev F (fuel (fun s => c s.1) (fun s => f s.2) n r)) (f ω) := by
      intro ω
      cases f ω <;> simp [ev]
    simp only [hmono]
    rw [lintegral_iSup]
    · change ⨆ n, W n = _
      simp only [hW]
      rw [← ENNReal.iSup_mul, ← ENNReal.tsum_eq_iSup_nat, ENNReal.tsum_geometric]
      have : (1 : ℝ≥0∞) - q = μ S := by
        rw [hq, prob_compl_eq_one_sub hc]
        exact ENNReal.sub_sub_cancel ENNReal.one_ne_top prob_le_one
      rw [this, given, lintegral_smul_measure]
      rfl
    · intro n
      have := h.meas (γ := Unit) (fun p => ev F (fuel (fun s => c s.1) (fun s => f s.2) n p.2)) ((hF' n).comp measurable_snd)
      exact this.comp (f := fun ω : Stream => ((), ω)) (by fun_prop)
    · intro n m hnm ω
      cases hfω : f ω with
      | none => simp [hfω, ev]
      | some r => simp only [hfω, ev]; exact ev_fuel_mono _ _ F r hnm

theorem given_prob {α : Type} [MeasurableSpace α] {μ : Measure α} [IsProbabilityMeasure μ] {S : Set α}
    (h : μ S ≠ 0) : IsProbabilityMeasure (given μ S) := ⟨by
  simp [given, ENNReal.inv_mul_cancel h (measure_ne_top μ S)]⟩

/-- Probabilities of the results. -/
theorem Law.prob {f : Stream → Option (V3 ℝ × Stream)} {μ : Measure (ℝ × ℝ × ℝ)}
    (h : Law (fun ω => (f ω).bind fun r => some ((r.1.x, r.1.y, r.1.z), r.2)) μ) {A : Set (ℝ × ℝ × ℝ)}
    (hA : MeasurableSet A) : EnergyDist.prob f A = μ A := by
  have hF : Measurable fun r : (ℝ × ℝ × ℝ) × Stream => A.indicator (fun _ => (1 : ℝ≥0∞)) r.1 :=
    (measurable_const.indicator hA).comp measurable_fst
  have hm := h.meas (γ := Unit) (fun p => A.indicator (fun _ => (1 : ℝ≥0∞)) p.2.1) (hF.comp measurable_snd)
  have hm' := hm.comp (f := fun ω : Stream => ((), ω)) (by fun_prop)
  have hi := h.int _ hF
  have e : ∀ ω, ev (fun r : (ℝ × ℝ × ℝ) × Stream => A.indicator (fun _ => (1 : ℝ≥0∞)) r.1)
      ((f ω).bind fun r => some ((r.1.x, r.1.y, r.1.z), r.2)) =
      {ω | ∃ v ω', f ω = some (v, ω') ∧ (v.x, v.y, v.z) ∈ A}.indicator (fun _ => 1) ω := by
    intro ω
    cases hf : f ω with
    | none => simp [ev, hf]
    | some r =>
      obtain ⟨v, ω'⟩ := r
      by_cases hv : (v.x, v.y, v.z) ∈ A <;> simp [ev, hf, hv, indicator]
  have hS : MeasurableSet {ω | ∃ v ω', f ω = some (v, ω') ∧ (v.x, v.y, v.z) ∈ A} := by
    have : {ω | ∃ v ω', f ω = some (v, ω') ∧ (v.x, v.y, v.z) ∈ A} =
        ((fun p : Unit × Stream => ev (fun r : (ℝ × ℝ × ℝ) × Stream => A.indicator (fun _ => (1 : ℝ≥0∞)) r.1)
      ((f p.2).bind fun r => some ((r.1.x, r.1.y, r.1.z), r.2))) ∘ fun ω : Stream => ((), ω)) ⁻¹' {1} := by
      ext ω
      simp only [mem_preimage, Function.comp, e, mem_singleton_iff]
      by_cases hω : ω ∈ {ω | ∃ v ω', f ω = some (v, ω') ∧ (v.x, v.y, v.z) ∈ A}
      · simp only [indicator_of_mem hω, hω]
      · simp only [indicator_of_notMem hω, hω]; simp
    rw [this]
    exact hm' (measurableSet_singleton 1)
  simp only [e] at hi
  unfold EnergyDist.prob
  rw [lintegral_indicator_const hS, one_mul] at hi
  rw [hi]
  simp [lintegral_indicator_const hA]

end Entity.EnergyDist

namespace Entity.EnergyDist

open Entity.Push MeasureTheory Set
open scoped ENNReal

/-- The sampler ends with probability one and its results have a law proportional to `ν`. -/
def Samp {α : Type} [MeasurableSpace α] (f : Stream → Option (α × Stream)) (ν : Measure α) : Prop :=
  ∃ μ, Law f μ ∧ IsProbabilityMeasure μ ∧ ∃ c : ℝ≥0∞, c ≠ 0 ∧ c ≠ ∞ ∧ μ = c • ν

variable {α β : Type} [MeasurableSpace α] [MeasurableSpace β]

theorem Samp.congr {f g : Stream → Option (α × Stream)} {ν : Measure α}
    (h : Samp f ν) (e : ∀ ω, g ω = f ω) : Samp g ν := by
  have : g = f := funext e
  rw [this]; exact h

theorem Samp.scale {f : Stream → Option (α × Stream)} {ν ν' : Measure α} (h : Samp f ν) {k : ℝ≥0∞}
    (h0 : k ≠ 0) (h1 : k ≠ ∞) (e : ν = k • ν') : Samp f ν' := by
  obtain ⟨μ, hl, hp, c, c0, c1, hc⟩ := h
  exact ⟨μ, hl, hp, c * k, mul_ne_zero c0 h0, ENNReal.mul_ne_top c1 h1, by rw [hc, e, smul_smul]⟩

theorem samp_draw : Samp (fun ω => some (draw ω)) U01 :=
  ⟨U01, law_draw, inferInstance, 1, one_ne_zero, ENNReal.one_ne_top, by simp⟩

theorem Samp.map {f : Stream → Option (α × Stream)} {ν : Measure α} (h : Samp f ν) {φ : α → β}
    (hφ : Measurable φ) : Samp (fun ω => (f ω).bind fun r => some (φ r.1, r.2)) (ν.map φ) := by
  obtain ⟨μ, hl, hp, c, c0, c1, rfl⟩ := h
  exact ⟨_, hl.map hφ, Measure.isProbabilityMeasure_map hφ.aemeasurable, c, c0, c1, Measure.map_smul ..⟩

/-- The constant is finite, so the measure is. -/
theorem Samp.finite {f : Stream → Option (α × Stream)} {ν : Measure α} (h : Samp f ν) : IsFiniteMeasure ν := by
  obtain ⟨μ, hl, hp, c, c0, c1, rfl⟩ := h
  have := hp.measure_univ
  refine ⟨?_⟩
  rw [Measure.smul_apply, smul_eq_mul] at this
  rw [lt_top_iff_ne_top]
  intro h
  rw [h, ENNReal.mul_top c0] at this
  simp at this

theorem Samp.pos {f : Stream → Option (α × Stream)} {ν : Measure α} (h : Samp f ν) : ν univ ≠ 0 := by
  obtain ⟨μ, hl, hp, c, c0, c1, rfl⟩ := h
  have := hp.measure_univ
  rw [Measure.smul_apply, smul_eq_mul] at this
  intro h
  rw [h] at this
  simp at this

theorem Samp.pair {f : Stream → Option (α × Stream)} {g : Stream → Option (β × Stream)} {ν : Measure α}
    {ν' : Measure β} (h : Samp f ν) (k : Samp g ν') :
    Samp (fun ω => (f ω).bind fun r => (g r.2).bind fun s => some ((r.1, s.1), s.2)) (ν.prod ν') := by
  have := h.finite
  have := k.finite
  obtain ⟨μ, hl, hp, c, c0, c1, rfl⟩ := h
  obtain ⟨μ', hl', hp', c', c0', c1', rfl⟩ := k
  refine ⟨_, hl.pair hl', inferInstance, c * c', mul_ne_zero c0 c0', ENNReal.mul_ne_top c1 c1', ?_⟩
  rw [Measure.prod_smul_left, Measure.prod_smul_right, smul_smul]

theorem Samp.reject {f : Stream → Option (α × Stream)} {ν : Measure α} (h : Samp f ν) (c : α → Bool)
    (hc : MeasurableSet {a | c a = false}) (hp : ν {a | c a = false} ≠ 0) :
    Samp (fun ω => (f ω).bind (whileM (fun s => c s.1) (fun s => f s.2))) (ν.restrict {a | c a = false}) := by
  have := h.finite
  obtain ⟨μ, hl, hp', k, k0, k1, rfl⟩ := h
  have h0 : (k • ν) {a | c a = false} ≠ 0 := by
    rw [Measure.smul_apply, smul_eq_mul]
    exact mul_ne_zero k0 hp
  have h1 : (k • ν) {a | c a = false} ≠ ∞ := measure_ne_top _ _
  refine ⟨_, hl.reject c hc h0, given_prob h0, ((k • ν) {a | c a = false})⁻¹ * k,
    mul_ne_zero (ENNReal.inv_ne_zero.2 h1) k0, ENNReal.mul_ne_top (ENNReal.inv_ne_top.2 h0) k1, ?_⟩
  rw [given, Measure.restrict_smul, smul_smul]

theorem Samp.density {f : Stream → Option (V3 ℝ × Stream)} {h : ℝ × ℝ × ℝ → ℝ}
    (hs : Samp (fun ω => (f ω).bind fun r => some ((r.1.x, r.1.y, r.1.z), r.2))
      (volume.withDensity fun v => ENNReal.ofReal (h v))) : HasDensity f h := by
  have h1 := hs.pos
  have h2 := hs.finite.measure_univ_lt_top.ne
  rw [withDensity_apply _ .univ, Measure.restrict_univ] at h1 h2
  refine ⟨h1, h2, fun A hA => ?_⟩
  obtain ⟨μ, hl, hp, c, c0, c1, hc⟩ := hs
  rw [hl.prob hA]
  have hu := hp.measure_univ
  rw [hc, Measure.smul_apply, withDensity_apply _ .univ, Measure.restrict_univ, smul_eq_mul] at hu
  rw [hc, Measure.smul_apply, withDensity_apply _ hA, smul_eq_mul, ENNReal.eq_inv_of_mul_eq_one_left hu,
    ENNReal.div_eq_inv_mul]

end Entity.EnergyDist
