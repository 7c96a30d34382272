import Verif.Lemmas.FullGauss
import Verif.Props.FullSafe

/-!
# C136: Gauss's law in complete simulations
-/

namespace Entity.Full

open Entity Entity.Topology Entity.Kernel Entity.FieldSolver Entity.Push Entity.Prtl Entity.Ranks
open Entity.Deposit Entity.Interp Entity.Tags Entity.Decomp Entity.Gauss Entity.Dir Entity.Filter

variable {m : Meta} {dN : List (List Nat)}
variable {K : Type} [Field K] [LinearOrder K] [IsStrictOrderedRing K] [FloorRing K] [Inhabited K]

/-! ## Lemmas -/

theorem gauss_run (h : Built m dN) (hp : AllPeriodic m) (hD : dN.length ∈ [1, 2, 3])
    {P : StepPrm K} (hng : 2 ≤ P.ng) (hw : Wide dN P.ng) (hO : P.O ≤ 11) (h3 : P.O = 0 → dN.length ≤ 2)
    (hdt : P.dt ≠ 0) {sps : List (SpPrm K)} (hk : ∀ s ∈ sps, s.kind.D = dN.length)
    (hsl : ∀ s ∈ sps, s.frozen = false → Slow P s) {x0 : List K} {n : Nat} {A A' : State K}
    {g : GMem K} (hg : ShowsActive m (dN.map List.sum) P.ng selEB A.M g) (ht : AllTame m sps A.prtl)
    (hoff : ∀ s sp, sps[s]? = some sp → ∀ v ∈ held m dN sp.kind (A.prtl s), OffsetOk v)
    (hr : Run m dN.length P sps x0 n A A') :
    (∀ s sp, sps[s]? = some sp → ∀ v ∈ held m dN sp.kind (A'.prtl s), OffsetOk v) ∧
    AllTame m sps A'.prtl ∧
    ∃ g' : GMem K, Shows m (dN.map List.sum) P.ng selEB A'.M g' ∧
      ∀ p : List Int, p.length = dN.length →
        divDown dN.length (electric (g'.unroll (dN.map List.sum)) p) =
          divDown dN.length (electric (g.unroll (dN.map List.sum)) p) + P.q0 / (P.B0 * P.V0) *
          ((W dN.length)^[P.nf] (density (degree P.O) (dN.map List.sum) (chargesOf m dN sps A'.prtl)) p -
           (W dN.length)^[P.nf] (density (degree P.O) (dN.map List.sum) (chargesOf m dN sps A.prtl)) p) := by
  have l1 : 1 ≤ dN.length := by simp at hD; omega
  have l3 : dN.length ≤ 3 := by simp at hD; omega
  induction hr with
  | start hc =>
    exact ⟨hoff, ht, g, shows_of_comm h hp l1 l3 hw hc (fun _ _ h => h) hg, fun p _ => by simp⟩
  | @step n A X Y hr hs ih =>
    obtain ⟨o1, t1, g1, s1, e1⟩ := ih hg ht hoff
    obtain ⟨g2, s2, e2⟩ := gauss_step h hp hD hng hw hO h3 hk hsl s1 t1 o1 hs
    have hB : Holds m dN P sps X ⟨g1, fun s =>
        match sps[s]? with | some sp => held m dN sp.kind (X.prtl s) | none => []⟩ :=
      ⟨s1, fun s sp e => by simp [e], t1⟩
    have hH := full_step h hp hD hng hw hk hB hs
    refine ⟨fun s sp e v hv => ?_, hH.tame, g2, s2, fun p hpl => ?_⟩
    · have := (hH.prtl s sp e).mem_iff.1 hv
      simp only [boxStep, e] at this
      obtain ⟨w, hw', rfl⟩ := List.mem_map.1 this
      exact box_offsets (hsl sp (List.mem_of_getElem? e)) _ _ _ _ (o1 s sp e w hw')
    · rw [e2 p hpl, e1 p hpl]
      have : (fun p => -(density (degree P.O) (dN.map List.sum) (chargesOf m dN sps Y.prtl) p -
            density (degree P.O) (dN.map List.sum) (chargesOf m dN sps X.prtl) p) / P.dt) =
          fun p => (-1 / P.dt) * density (degree P.O) (dN.map List.sum) (chargesOf m dN sps Y.prtl) p +
            (1 / P.dt) * density (degree P.O) (dN.map List.sum) (chargesOf m dN sps X.prtl) p := by
        funext p; ring
      rw [this, W_lin]
      simp only [StepPrm.coeff]
      field_simp
      ring

/-! ## C136 -/

/-- **C136.** In a complete simulation in a periodic Cartesian box, on any number of ranks, for any
number of steps, schedules and initial conditions, Gauss's law is preserved: in every active cell of
every rank the divergence of the electric field minus `q0 / (B0 V0)` times the density of all the
charges (of all live particles of all species on all ranks, frozen ones included, passed through the
same filter passes as the current) is after `n` steps what it was at the beginning.  `I0` is the state
after the exchange at the beginning, `Q0`, `Q` are the densities on the grid, `Q0'`, `Q'` the filtered
ones.

Unlike C35 nothing is assumed about how the particles move: that they start a step where they ended
the last one, wherever they have been sent, and that they never move by more than a cell, is proved.

Partial: exact arithmetic; the zigzag deposit in three dimensions is excluded, since it violates the
continuity equation (C29). -/
theorem C136_gauss_forever_partial (h : Built m dN) (hp : AllPeriodic m) (hD : dN.length ∈ [1, 2, 3])
    {P : StepPrm K} (hng : 2 ≤ P.ng) (hw : Wide dN P.ng) (hO : P.O ≤ 11) (h3 : P.O = 0 → dN.length ≤ 2)
    (hdt : P.dt ≠ 0) {sps : List (SpPrm K)} (hk : ∀ s ∈ sps, s.kind.D = dN.length)
    (hsl : ∀ s ∈ sps, s.frozen = false → Slow P s) {x0 : List K} {n : Nat} {I I0 F : State K}
    (ht : AllTame m sps I.prtl)
    (hoff : ∀ s sp, sps[s]? = some sp → ∀ v ∈ held m dN sp.kind (I.prtl s), OffsetOk v)
    (hr0 : Run m dN.length P sps x0 0 I I0) (hr : Run m dN.length P sps x0 n I F)
    {Q0 Q0' Q Q' : MMem K}
    (hQ0 : Gauss.Holds m (dN.map List.sum) P.ng (degree P.O) (chargesOf m dN sps I.prtl) Q0)
    (hQ0' : FilterPasses m P.ng P.nf Q0 Q0')
    (hQ : Gauss.Holds m (dN.map List.sum) P.ng (degree P.O) (chargesOf m dN sps F.prtl) Q)
    (hQ' : FilterPasses m P.ng P.nf Q Q') {r : Nat} {i : List Int} (hi : Active m P.ng r i) :
    divDown dN.length (electric (F.M r) i) - P.q0 / (P.B0 * P.V0) * Q' r ⟨1, 0, i⟩ =
      divDown dN.length (electric (I0.M r) i) - P.q0 / (P.B0 * P.V0) * Q0' r ⟨1, 0, i⟩ := by
  obtain ⟨g, hg⟩ := exists_global h P.ng I.M
  obtain ⟨-, -, g0, s0, e0⟩ := gauss_run h hp hD hng hw hO h3 hdt hk hsl (fun a c _ => hg a c rfl) ht
    hoff hr0
  obtain ⟨-, -, g1, s1, e1⟩ := gauss_run h hp hD hng hw hO h3 hdt hk hsl (fun a c _ => hg a c rfl) ht
    hoff hr
  obtain ⟨p, hip⟩ := globalPos_isSome (dN.map List.sum) (active_inArray hi)
  obtain ⟨hpl, _⟩ := globalPos_wrapped h (active_lt hi) (active_length h (active_inArray hi)) hip
  have hE : ∀ c, c < 3 → selEB 0 c = true := fun c hc => by simp [selEB, selE, hc]
  rw [holds_passes h hp hD (by omega) hw hQ0 hQ0' hi hip, holds_passes h hp hD (by omega) hw hQ hQ' hi hip]
  have d0 := divDown_shows h hD (by omega) s0 hE hi hip
  have d1 := divDown_shows h hD (by omega) s1 hE hi hip
  have e0' := e0 p hpl
  have e1' := e1 p hpl
  have hI : I0.prtl = I.prtl := by cases hr0; rfl
  unfold electric at e0' e1' ⊢
  rw [hI, sub_self, mul_zero, add_zero] at e0'
  rw [d0, d1, e1', e0']
  ring

/-- Without filter passes: the density itself, at the cell `p` of the box. -/
theorem C136_gauss_unfiltered_partial (h : Built m dN) (hp : AllPeriodic m)
    (hD : dN.length ∈ [1, 2, 3]) {P : StepPrm K} (hng : 2 ≤ P.ng) (hw : Wide dN P.ng) (hO : P.O ≤ 11)
    (h3 : P.O = 0 → dN.length ≤ 2) (hnf : P.nf = 0) (hdt : P.dt ≠ 0) {sps : List (SpPrm K)}
    (hk : ∀ s ∈ sps, s.kind.D = dN.length) (hsl : ∀ s ∈ sps, s.frozen = false → Slow P s) {x0 : List K}
    {n : Nat} {I I0 F : State K} (ht : AllTame m sps I.prtl)
    (hoff : ∀ s sp, sps[s]? = some sp → ∀ v ∈ held m dN sp.kind (I.prtl s), OffsetOk v)
    (hr0 : Run m dN.length P sps x0 0 I I0) (hr : Run m dN.length P sps x0 n I F)
    {r : Nat} {i p : List Int} (hi : Active m P.ng r i)
    (hip : globalPos m (dN.map List.sum) P.ng r i = some p) :
    divDown dN.length (electric (F.M r) i) - P.q0 / (P.B0 * P.V0) *
        density (degree P.O) (dN.map List.sum) (chargesOf m dN sps F.prtl) p =
      divDown dN.length (electric (I0.M r) i) - P.q0 / (P.B0 * P.V0) *
        density (degree P.O) (dN.map List.sum) (chargesOf m dN sps I.prtl) p := by
  have hQ : ∀ cs : List (Charge K), Gauss.Holds m (dN.map List.sum) P.ng (degree P.O) cs
      (fun r l => density (degree P.O) (dN.map List.sum) cs
        ((globalPos m (dN.map List.sum) P.ng r l.idx).getD [])) :=
    fun cs r i p _ hip c _ => by simp [hip]
  have z : ∀ Q : MMem K, FilterPasses m P.ng P.nf Q Q := fun Q => by rw [hnf]; exact .zero Q
  have := C136_gauss_forever_partial h hp hD hng hw hO h3 hdt hk hsl ht hoff hr0 hr (hQ _) (z _)
    (hQ _) (z _) hi
  simpa [hip] using this

/-- The hypotheses are met: the electron of `full_example` crosses from one rank to the other, with two
filter passes. -/
example : ∃ (I I0 : State ℝ), ∀ n, ∃ (F : State ℝ) (Q0 Q0' Q Q' : MMem ℝ),
    Run perMeta 2 fullPrm [fullSp] [0, 0] 0 I I0 ∧ Run perMeta 2 fullPrm [fullSp] [0, 0] n I F ∧
    Gauss.Holds perMeta [11, 7] 2 (degree 1) (chargesOf perMeta [[5, 6], [7]] [fullSp] I.prtl) Q0 ∧
    FilterPasses perMeta 2 2 Q0 Q0' ∧
    Gauss.Holds perMeta [11, 7] 2 (degree 1) (chargesOf perMeta [[5, 6], [7]] [fullSp] F.prtl) Q ∧
    FilterPasses perMeta 2 2 Q Q' ∧ chargesOf perMeta [[5, 6], [7]] [fullSp] I.prtl ≠ [] ∧
    divDown 2 (electric (F.M 1) [2, 2]) - 1 / (1 * 1) * Q' 1 ⟨1, 0, [2, 2]⟩ =
      divDown 2 (electric (I0.M 1) [2, 2]) - 1 / (1 * 1) * Q0' 1 ⟨1, 0, [2, 2]⟩ := by
  obtain ⟨I, _, _, ht, _, _, hne, hsl, hF, hrun⟩ := full_example fun _ => 0
  obtain ⟨I0, _, hr0, _⟩ := hrun 0
  refine ⟨I, I0, fun n => ?_⟩
  obtain ⟨F, _, hr, _⟩ := hrun n
  have hp : AllPeriodic perMeta := ⟨rfl, by decide⟩
  have hw : Wide [[5, 6], [7]] 2 := by unfold Wide; decide
  let Q : List (Charge ℝ) → MMem ℝ := fun cs r l => density (degree 1) [11, 7] cs
    ((globalPos perMeta [11, 7] 2 r l.idx).getD [])
  have hQ : ∀ cs, Gauss.Holds perMeta [11, 7] 2 (degree 1) cs (Q cs) :=
    fun cs r i p _ hip c _ => by simp [Q, hip]
  obtain ⟨Q0', h0⟩ := exists_passes perMeta_built hp (by decide) hw 2
    (Q (chargesOf perMeta [[5, 6], [7]] [fullSp] I.prtl))
  obtain ⟨Q', h1⟩ := exists_passes perMeta_built hp (by decide) hw 2
    (Q (chargesOf perMeta [[5, 6], [7]] [fullSp] F.prtl))
  refine ⟨F, _, Q0', _, Q', hr0, hr, hQ _, h0, hQ _, h1, ?_, ?_⟩
  · simpa [chargesOf] using hne
  · exact C136_gauss_forever_partial (P := fullPrm) perMeta_built hp (by decide) (by decide) hw
      (by decide) (by decide) (by norm_num [fullPrm]) (by simp [fullSp]) (by simpa using fun _ => hsl)
      ht hF.offsets hr0 hr (hQ _) h0 (hQ _) h1
      ⟨⟨1, [1, 0], [5, 0], [6, 7]⟩, by decide +kernel, .cons (by decide) (.cons (by decide) .nil)⟩

end Entity.Full
