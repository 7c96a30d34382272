import Verif.Lemmas.Faraday
import Verif.Lemmas.FieldOps
import Mathlib.Algebra.Field.Rat

/-!
# C34: divergence of the magnetic field
-/

namespace Entity.FieldSolver

open Entity Entity.Topology Entity.Kernel Entity.Ranks Entity.Filter

variable {K : Type} [Field K] {m : Meta} {dN : List (List Nat)}

/-! ## Lemmas -/

/-- A list of offsets of the divergences. -/
theorem divExt_congr {D : Nat} (hD : D ∈ [1, 2, 3]) (c : Coeffs K) {F G : Nat → List Int → K}
    (h : ∀ a, a < D → ∀ o : List Int, o.length = D → (∀ x ∈ o, (-2 : Int) ≤ x ∧ x ≤ 2) → F a o = G a o) :
    divExt D c F = divExt D c G := by
  simp only [List.mem_cons, List.not_mem_nil, or_false] at hD
  rcases hD with rfl | rfl | rfl
  · rw [divExt1, divExt1]
    repeat rw [h 0 (by decide) _ (by decide) (by decide)]
  · rw [divExt2, divExt2]
    repeat rw [h 0 (by decide) _ (by decide) (by decide)]
    repeat rw [h 1 (by decide) _ (by decide) (by decide)]
  · rw [divExt3, divExt3]
    repeat rw [h 0 (by decide) _ (by decide) (by decide)]
    repeat rw [h 1 (by decide) _ (by decide) (by decide)]
    repeat rw [h 2 (by decide) _ (by decide) (by decide)]

/-! ## C34: divergence of the magnetic field -/

/-- The magnetic field is evolved by any number of Faraday updates (whole, half or other fractions of
a step), each followed by the exchange of `B`; in between anything may happen that leaves `B` alone
and ends with the exchange of `E`. -/
inductive Evolves (m : Meta) (D ng : Nat) (dx : K) (c : Coeffs K) : MMem K → MMem K → Prop
  | start {M M0 : MMem K} : CommAll m ng selEB M M0 → Evolves m D ng dx c M0 M0
  | faraday {M0 M M1 M2 : MMem K} (dT : K) : Evolves m D ng dx c M0 M →
      LaunchAll m ng (fun _ t => atCell (faraday D dT dx c) t) M M1 → CommAll m ng selB M1 M2 →
      Evolves m D ng dx c M0 M2
  | other {M0 M M1 M2 : MMem K} : Evolves m D ng dx c M0 M →
      (∀ r k i, selB 0 k = true → M1 r ⟨0, k, i⟩ = M r ⟨0, k, i⟩) → CommAll m ng selE M1 M2 →
      Evolves m D ng dx c M0 M2

/-- What the invariant of the evolution is. -/
theorem evolves_inv (h : Built m dN) (hp : AllPeriodic m) (hD : dN.length ∈ [1, 2, 3]) {ng : Nat}
    (hng : 2 ≤ ng) (hw : Wide dN ng) {dx : K} {c : Coeffs K} {M0 M : MMem K}
    (he : Evolves m dN.length ng dx c M0 M) :
    ∃ g0 g : GMem K, Shows m (dN.map List.sum) ng selEB M0 g0 ∧
      Shows m (dN.map List.sum) ng selEB M g ∧
      ∀ p : List Int, p.length = dN.length →
        divExt dN.length c (magnetic (g.unroll (dN.map List.sum)) p) =
          divExt dN.length c (magnetic (g0.unroll (dN.map List.sum)) p) := by
  have h1 : 1 ≤ dN.length := by simp at hD; omega
  have h3 : dN.length ≤ 3 := by simp at hD; omega
  haveI : Inhabited K := ⟨0⟩
  induction he with
  | start hc =>
    rename_i M M0
    obtain ⟨g, hg⟩ := exists_global h ng M
    have := shows_of_comm h hp h1 h3 hw hc (fun _ _ h => h) (fun a k hs => hg a k rfl)
    exact ⟨g, g, this, this, fun _ _ => rfl⟩
  | faraday dT _ hl hc ih =>
    obtain ⟨g0, g, s0, s1, hinv⟩ := ih
    refine ⟨g0, _, s0, kernel_comm_shows h hp hD hw (faraday_own hD dT dx c)
      (faraday_reach hD hng dT dx c) (faraday_sel hD dT dx c) s1 hl hc, fun p hpl => ?_⟩
    rw [← hinv p hpl, ← faraday_div c hD dT dx (g.unroll (dN.map List.sum)) hpl]
    congr 1
    funext a o
    unfold magnetic
    rw [unroll_globalStep]
    simp
  | other _ hb hc ih =>
    rename_i M0 M M1 M2 _
    obtain ⟨g0, g, s0, s1, hinv⟩ := ih
    obtain ⟨g1, hg1⟩ := exists_global h ng M1
    have hE : Shows m (dN.map List.sum) ng selE M2 g1 :=
      shows_of_comm h hp h1 h3 hw hc (fun _ _ h => h) (fun a k hs => hg1 a k rfl)
    have hB : Shows m (dN.map List.sum) ng selB M2 g := by
      intro a k hs r i p hi hip
      have hE' : selE a k = false := by
        simp only [selB, Bool.and_eq_true, decide_eq_true_eq, beq_iff_eq] at hs
        simp only [selE, Bool.and_eq_false_iff, decide_eq_false_iff_not]
        right; omega
      have ha : a = 0 := by
        simp only [selB, Bool.and_eq_true, decide_eq_true_eq, beq_iff_eq] at hs
        exact hs.1.1
      subst ha
      rw [(hc 0 k).2 hE' r i, hb r k i hs]
      exact s1 0 k (by simp [selEB, hs]) r i p hi hip
    refine ⟨g0, _, s0, shows_join hE hB, fun p hpl => ?_⟩
    rw [← hinv p hpl]
    congr 1
    funext a o
    simp only [magnetic, GMem.unroll, selE]
    simp

theorem divExt_shows (h : Built m dN) (hD : dN.length ∈ [1, 2, 3]) {ng : Nat} (hng : 2 ≤ ng)
    (c : Coeffs K) {M : MMem K} {g : GMem K} (hg : Shows m (dN.map List.sum) ng selEB M g)
    {r : Nat} {i p : List Int} (hi : Active m ng r i)
    (hp : globalPos m (dN.map List.sum) ng r i = some p) :
    divExt dN.length c (magnetic (M r) i) =
      divExt dN.length c (magnetic (g.unroll (dN.map List.sum)) p) := by
  refine divExt_congr hD c fun a ha o ho hb => ?_
  refine Shows.around h hg hi hp ho (fun x hx => ?_) ?_
  · have := hb x hx; omega
  · have : a < 3 := by simp at hD; omega
    simp only [selEB, selB, selE, Bool.or_eq_true, Bool.and_eq_true, decide_eq_true_eq, beq_iff_eq]
    exact .inr ⟨⟨trivial, by omega⟩, by omega⟩

/-- **C34 (extended stencil).** On a periodic box with any decomposition, any number of Faraday
updates with any coefficients of the extended stencil leaves the divergence of `B`, taken with the
same extended differences, as it was at the beginning in every active cell of every rank. -/
theorem C34_divergence_extended (h : Built m dN) (hp : AllPeriodic m) (hD : dN.length ∈ [1, 2, 3])
    {ng : Nat} (hng : 2 ≤ ng) (hw : Wide dN ng) {dx : K} {c : Coeffs K} {M0 M : MMem K}
    (he : Evolves m dN.length ng dx c M0 M) {r : Nat} {i : List Int} (hi : Active m ng r i) :
    divExt dN.length c (magnetic (M r) i) = divExt dN.length c (magnetic (M0 r) i) := by
  obtain ⟨g0, g, s0, s1, hinv⟩ := evolves_inv h hp hD hng hw he
  obtain ⟨p, hip⟩ := globalPos_isSome (dN.map List.sum) (active_inArray hi)
  have hpl := (globalPos_wrapped h (active_lt hi) (active_length h (active_inArray hi)) hip).1
  rw [divExt_shows h hD hng c s0 hi hip, divExt_shows h hD hng c s1 hi hip, hinv p hpl]

theorem divExt_yee {D : Nat} (hD : D ∈ [1, 2, 3]) (F : Nat → List Int → K) :
    divExt D Coeffs.yee F = divUp D F := by
  simp only [List.mem_cons, List.not_mem_nil, or_false] at hD
  rcases hD with rfl | rfl | rfl
  · rw [divExt1]; simp [Coeffs.yee, divUp, off, List.range_succ]
  · rw [divExt2]; simp [Coeffs.yee, divUp, off, List.range_succ]
  · rw [divExt3]; simp [Coeffs.yee, divUp, off, List.range_succ]

/-- **C34 (standard stencil).** With the standard solver the ordinary divergence of `B` is
unchanged. -/
theorem C34_divergence_standard (h : Built m dN) (hp : AllPeriodic m) (hD : dN.length ∈ [1, 2, 3])
    {ng : Nat} (hng : 2 ≤ ng) (hw : Wide dN ng) {dx : K} {M0 M : MMem K}
    (he : Evolves m dN.length ng dx Coeffs.yee M0 M) {r : Nat} {i : List Int} (hi : Active m ng r i) :
    divUp dN.length (magnetic (M r) i) = divUp dN.length (magnetic (M0 r) i) := by
  rw [← divExt_yee hD, ← divExt_yee hD]
  exact C34_divergence_extended h hp hD hng hw he hi

/-! ## The ordinary divergence with an extended stencil -/

/-- Extended stencil in x only. -/
def skew : Coeffs ℚ := { (Coeffs.yee : Coeffs ℚ) with betaxy := 1/8 }

/-- An electric field along x3 in one cell only, no magnetic field. -/
def spot : Mem ℚ := fun l => if l = ⟨0, 2, [4, 4]⟩ then 1 else 0

/-- **The ordinary divergence is not conserved by an anisotropic extended stencil**: one Faraday
update makes a divergence out of nothing in cell (3, 3). -/
theorem C34_ordinary_divergence_counterexample : ∃ m' : Mem ℚ,
    Launch (box [(2, 6), (2, 6)]) (atCell (faraday 2 1 1 skew)) spot m' ∧
    divUp 2 (magnetic spot [3, 3]) = 0 ∧ divUp 2 (magnetic m' [3, 3]) ≠ 0 := by
  refine ⟨result (box [(2, 6), (2, 6)]) (atCell (faraday 2 1 1 skew)) spot, ?_, ?_, ?_⟩
  · refine (launch_iff (wr := selB) (local_atCell (D := 2) fun t ht => ?_)).2 rfl
    rw [mem_box] at ht
    exact ⟨ht.length_eq.symm, faraday_own (by decide) 1 1 skew⟩
  · decide +kernel
  · decide +kernel

/-! ## The hypotheses can be met -/

/-- From any initial fields on a periodic 2 × 1 decomposition two Faraday updates can be made, so
that C34 applies. -/
example (M : MMem ℚ) : ∃ M0 M', Evolves perMeta 2 2 (1/2) skew M0 M' ∧
    ∃ M1 M2, LaunchAll perMeta 2 (fun _ t => atCell (faraday 2 (1/4) (1/2) skew) t) M1 M2 ∧
      CommAll perMeta 2 selB M2 M' ∧ Active perMeta 2 1 [3, 8] := by
  have hp : AllPeriodic perMeta := ⟨rfl, by decide⟩
  have hw : Wide [[5, 6], [7]] 2 := by unfold Wide; decide
  obtain ⟨M0, h0⟩ := exists_comm perMeta_built hp (by decide) hw selEB M
  obtain ⟨M1, h1⟩ := exists_launchAll perMeta 2
    (fun _ t => atCell (faraday 2 (1/8) (1/2) skew) t) M0
  obtain ⟨M2, h2⟩ := exists_comm perMeta_built hp (by decide) hw selB M1
  obtain ⟨M3, h3⟩ := exists_launchAll perMeta 2
    (fun _ t => atCell (faraday 2 (1/4) (1/2) skew) t) M2
  obtain ⟨M4, h4⟩ := exists_comm perMeta_built hp (by decide) hw selB M3
  refine ⟨M0, M4, .faraday (1/4) (.faraday (1/8) (.start h0) h1 h2) h3 h4, M2, M3, h3, h4, ?_⟩
  exact ⟨⟨1, [1, 0], [5, 0], [6, 7]⟩, by decide +kernel, by
    refine .cons ?_ (.cons ?_ .nil) <;> decide⟩

end Entity.FieldSolver
