import Verif.Lemmas.FullMirror
import Verif.Props.FullRotate

/-!
# C159: a periodic simulation and its mirror image
-/

namespace Entity.Full

open Entity Entity.Topology Entity.Kernel Entity.FieldSolver Entity.Push Entity.Prtl Entity.Ranks
open Entity.Deposit Entity.Interp Entity.Tags Entity.Decomp Entity.Gauss Entity.Dir Entity.Filter

variable {K : Type} [Field K] [LinearOrder K] [IsStrictOrderedRing K] [FloorRing K] [Inhabited K]

theorem swapC_swapC {c : Nat} (hc : c < 6) : swapC (swapC c) = c ∧ swapC c < 6 := by
  interval_cases c <;> decide

/-- **C159.** The mirror image of a simulation is a simulation.  Let two simulations of a periodic box
in two or three dimensions be divided in any two ways among any numbers of ranks; let the second one be
the mirror image of the first one, the first two axes exchanged: box, lower corner, coefficients of the
field solver, cells, offsets, momenta, electric field, and the magnetic field with the opposite sign,
as a mirror image of an axial vector has; in three dimensions without current filtering.  Then after any
number of complete steps, under all schedules, the second one still is the mirror image of the first.
In particular nothing in the two-dimensional formulas prefers one of the two axes, all signs of cross
products and curls agree with one handedness, and with C158 all six permutations of three axes are
symmetries.

Partial: exact arithmetic; in three dimensions no current filtering (with it the claim is false,
`C159_filter_counterexample`). -/
theorem C159_mirror_partial {m m' : Meta} {dN dN' : List (List Nat)} (h : Built m dN)
    (h' : Built m' dN') (hN : dN'.map List.sum = swap (dN.map List.sum)) (hp : AllPeriodic m)
    (hp' : AllPeriodic m') (hD : dN.length = 2 ∨ dN.length = 3) {P : StepPrm K}
    (hnf : P.nf = 0 ∨ dN.length = 2) (hng : 2 ≤ P.ng)
    (hw : Wide dN P.ng) (hw' : Wide dN' P.ng) {sps : List (SpPrm K)}
    (hk : ∀ s ∈ sps, s.kind.D = dN.length) (hu : ∀ s ∈ sps, Mirrored dN.length s) {x0 : List K}
    (hx : x0.length = dN.length) {n : Nat} {I I' F F' : State K}
    (hf : SwapEB m m' (dN.map List.sum) P.ng I.M I'.M)
    (hq : ∀ s sp, sps[s]? = some sp → (held m' dN' sp.kind (I'.prtl s)).Perm
      ((held m dN sp.kind (I.prtl s)).map swapView))
    (ht : AllTame m sps I.prtl) (ht' : AllTame m' sps I'.prtl)
    (hr : Run m dN.length P sps x0 n I F)
    (hr' : Run m' dN.length { P with c := swapCoeffs P.c } sps (swap x0) n I' F') :
    SwapEB m m' (dN.map List.sum) P.ng F.M F'.M ∧
    ∀ s sp, sps[s]? = some sp → (held m' dN' sp.kind (F'.prtl s)).Perm
      ((held m dN sp.kind (F.prtl s)).map swapView) := by
  have hNl : (dN.map List.sum).length = dN.length := by simp
  have hDD : dN'.length = dN.length := by
    have := congrArg List.length hN
    rw [swap_length] at this
    simpa using this
  have hsel : ∀ a c, selEB a c = true → a = 0 ∧ c < 6 := by
    intro a c hs
    simp only [selEB, selE, selB, Bool.or_eq_true, Bool.and_eq_true, beq_iff_eq, decide_eq_true_eq]
      at hs
    omega
  obtain ⟨g, hg⟩ := exists_global h P.ng I.M
  let g' : GMem K := fun a c p => sgn a c * g a (swapC c) (swap p)
  have hgg : SwapG dN.length g g' := fun a c _ p _ => rfl
  have hg' : ShowsActive m' (dN'.map List.sum) P.ng selEB I'.M g' := by
    intro a c hs r i p hi hip
    obtain ⟨rfl, hc⟩ := hsel a c hs
    have hil := active_length h' (active_inArray hi)
    obtain ⟨hpl, hpw⟩ := globalPos_wrapped h' (active_lt hi) hil hip
    rw [hDD] at hpl
    have hqw : wrap (dN.map List.sum) (swap p) = swap p := by
      have := swap_wrap (N := dN.map List.sum) (p := swap p) (by rw [swap_length, hpl, hNl])
      rw [swap_swap, ← hN, hpw] at this
      have e := congrArg swap this
      rw [swap_swap] at e
      exact e.symm
    obtain ⟨q, j, hj, hjp⟩ := cover h hw (p := swap p) (by rw [swap_length, hpl]) hqw
    rw [hf q j r i _ hj hi hjp (by rw [swap_swap, ← hN]; exact hip) c hc,
      hg 0 (swapC c) (by interval_cases c <;> rfl) q j _ hj hjp]
    rfl
  let B : Box K := ⟨g, fun s =>
    match sps[s]? with | some sp => held m dN sp.kind (I.prtl s) | none => []⟩
  let B' : Box K := ⟨g', fun s =>
    match sps[s]? with | some sp => held m' dN' sp.kind (I'.prtl s) | none => []⟩
  have hB : SwapBox (dN.map List.sum) sps B B' := by
    refine ⟨by rw [hNl]; exact hgg, fun i s e v hv => ?_, fun i s e => ?_⟩
    · simp only [B, e] at hv
      exact ⟨held_sized (hk s (List.mem_of_getElem? e)) (by omega) hv, held_u hv⟩
    · simp only [B, B', e]
      exact hq i s e
  have hmem : dN.length ∈ [1, 2, 3] := by simp; omega
  obtain ⟨s1, q1, -⟩ := C133_box_refinement_partial h hp hmem hng hw hk (B := B)
    (fun a c _ => hg a c rfl) (fun s sp e => by simp [B, e]) ht hr
  rw [← hDD] at hr'
  obtain ⟨s2, q2, -⟩ := C133_box_refinement_partial (P := { P with c := swapCoeffs P.c }) h' hp'
    (by rw [hDD]; exact hmem) hng hw' (fun s hs => by rw [hDD]; exact hk s hs) (B := B')
    hg' (fun s sp e => by simp [B', e]) ht' hr'
  rw [hN] at s2 q2
  have hR := boxRun_swap (P := P) (N := dN.map List.sum) (by rw [hNl]; exact hD)
    (by rw [hNl]; exact hnf) (by rw [hNl]; exact hu) (x0 := x0) (by rw [hNl]; exact hx) n hB
  refine ⟨fun r i r' i' p hi hi' hip hip' c hc => ?_, fun s sp e => ?_⟩
  · have hs : selEB 0 c = true := by interval_cases c <;> rfl
    have hs' : selEB 0 (swapC c) = true := by interval_cases c <;> rfl
    obtain ⟨hpl, -⟩ := globalPos_wrapped h (active_lt hi) (active_length h (active_inArray hi)) hip
    rw [s1.active 0 _ hs' r i p hi hip, s2.active 0 c hs r' i' _ hi' hip',
      hR.fields 0 c (.inl ⟨rfl, hc⟩) (swap p) (by rw [swap_length, hpl, hNl]), swap_swap]
    rfl
  · exact (q2 s sp e).trans ((hR.prtl s sp e).trans ((q1 s sp e).symm.map _))

/-! ## Forces with a mirror image -/

section
variable (a b u : V3 ℝ) (k : ℝ)
theorem swapV_add : swapV a + swapV b = swapV (a + b) := rfl
theorem swapV_sub : swapV a - swapV b = swapV (a - b) := rfl
theorem swapV_smul : (swapV a).smul k = swapV (a.smul k) := rfl
theorem swapV_dot : (swapV a).dot (swapV b) = a.dot b := by simp only [swapV, V3.dot]; ring
theorem swapV_normSq : (swapV a).normSq = a.normSq := by simp only [swapV, V3.normSq]; ring
theorem swapA_normSq : (swapA a).normSq = a.normSq := by simp only [swapA, V3.normSq]; ring
theorem swapA_smul : (swapA a).smul k = swapA (a.smul k) := by
  simp only [swapA, V3.smul, V3.mk.injEq]
  exact ⟨by ring, by ring, by ring⟩
theorem swap_cross : (swapV a).cross (swapA b) = swapV (a.cross b) := by
  simp only [swapA, swapV, V3.cross, V3.mk.injEq]
  exact ⟨by ring, by ring, by ring⟩
end

/-- Boris has a mirror image … -/
theorem C159_boris (c : ℝ) (e b u : V3 ℝ) :
    boris c (swapV e) (swapA b) (swapV u) = swapV (boris c e b u) := by
  simp only [boris, swapV_smul, swapA_smul, swapV_add, swapV_normSq, swapA_normSq, swap_cross]

/-- … and so has radiative drag. -/
theorem C159_drag (c : ℝ) (e b u up : V3 ℝ) :
    synchrotronDrag c (swapV e) (swapA b) (swapV u) (swapV up) =
      ((swapV (synchrotronDrag c e b u up).1), swapV (synchrotronDrag c e b u up).2) ∧
    comptonDrag c (swapV u) (swapV up) =
      ((swapV (comptonDrag c u up).1), swapV (comptonDrag c u up).2) := by
  constructor
  · simp only [synchrotronDrag, swapV_smul, swapV_add, swapV_sub, swapV_normSq, swap_cross, swapV_dot]
  · simp only [comptonDrag, swapV_smul, swapV_sub, swapV_normSq]

/-! ## With filtering in three dimensions the axes differ -/

/-- **C159**, with current filtering in three dimensions: the claim is false, for the same reason as
C158. -/
theorem C159_filter_counterexample : ∃ g g' : GMem ℚ, SwapG 3 g g' ∧
    stepG [7, 7, 7] g' 1 2 [3, 2, 4] = 0 ∧ stepG [7, 7, 7] g 1 2 [2, 3, 4] = 1 / 32 :=
  ⟨fun a c p => if a = 1 ∧ c = 2 ∧ p = [3, 3, 3] then 1 else 0,
   fun a c p => if a = 1 ∧ swapC c = 2 ∧ swap p = [3, 3, 3] then 1 else 0,
   fun a c h p _ => by
     rcases h with ⟨rfl, -⟩ | ⟨rfl, -⟩ <;> simp [sgn], by decide +kernel, by decide +kernel⟩

/-! ## An example in two dimensions, with filtering -/

/-- The 11 × 7 box with the axes exchanged, 7 × 11, on two ranks. -/
def mirrorMeta : Meta where
  counts := [1, 2]
  doms := (createDomains 2 [[7], [4, 7]]).getD []
  bcs := [(.PERIODIC, .PERIODIC), (.PERIODIC, .PERIODIC)]

/-- Electrons, Boris. -/
noncomputable def mirrorSp : SpPrm ℝ where
  kind := ⟨2, false, 0, 0⟩
  charge := -1
  frozen := false
  kick _ _ e b u := boris (-1/40) e b u
  dtE u := 1/20 / Real.sqrt (1 + u.x ^ 2 + u.y ^ 2 + u.z ^ 2)
  invE u := 1 / Real.sqrt (1 + u.x ^ 2 + u.y ^ 2 + u.z ^ 2)

theorem mirrorSp_mirrored : Mirrored 2 mirrorSp where
  kick _ _ e b u _ := C159_boris _ e b u
  dtE u := by
    simp only [mirrorSp, swapV]
    congr 2
    ring
  invE u := by
    simp only [mirrorSp, swapV]
    congr 2
    ring

/-- An electron in the last cell of the first rank … -/
noncomputable def mirrorOne : Prtl ℝ :=
  ⟨4, 4, 3, 3, 0, 0, 3/4, 3/4, 1/2, 1/2, 0, 0, 3, 1, 2, 1, 0, [], [], 1⟩

/-- … and its mirror image, in the first cell of the second rank. -/
noncomputable def mirrorOne' : Prtl ℝ :=
  ⟨3, 3, 0, 0, 0, 0, 1/2, 1/2, 3/4, 3/4, 0, 0, 1, 3, 2, 1, 0, [], [], 1⟩

theorem mirrorStore_tame {m : Meta} {r : Nat} {q : Prtl ℝ} {n : Nat} (hn : n ≤ 1) (hq : q.tag = 1)
    (hp : q.pld_r = [] ∧ q.pld_i = [])
    (hs : n = 1 → ∀ a < 2, 0 ≤ (mirrorSp.kind.view q).cell.getD a 0 ∧
      (mirrorSp.kind.view q).cell.getD a 0 < (sizes m r).getD a 0) :
    Tame m mirrorSp.kind r (solidStore q n) := by
  have hu : ∀ q' ∈ (solidStore q n).used, q' = q ∧ n = 1 := by
    intro q' hq'
    simp only [Store.used, solidStore] at hq'
    refine ⟨(List.mem_replicate.1 (List.mem_of_mem_take hq')).2, ?_⟩
    by_contra hne
    have : n = 0 := by omega
    subst this
    simp at hq'
  refine ⟨by simp [solidStore, Store.maxnpart]; omega, ?_, ?_, ?_⟩
  · intro q' hq'
    rw [(hu q' hq').1]
    exact .inr hq
  · intro q' hq' a ha
    obtain ⟨e1, e2⟩ := hu q' (List.mem_filter.1 hq').1
    subst e1
    exact hs e2 a ha
  · intro q' hq'
    rw [(List.mem_replicate.1 hq').2]
    exact ⟨by rw [hp.1]; rfl, by rw [hp.2]; rfl⟩

/-- First-order shapes, two filter passes, a stencil that differs between the axes. -/
noncomputable def mirrorPrm : StepPrm ℝ :=
  ⟨1, 2, 2, 1/20, 1/10, 1, 1, 1, 1, 4, ⟨1/50, 1/60, 1/70, 1/80, 0, 0, 0, 0, 0⟩, true, true⟩

/-- The hypotheses are met: any fields, an electron and its mirror image on different divisions of the
box, two filter passes; both simulations can be run for any number of steps. -/
theorem mirror_example (f : Nat → Option (List Int) → ℝ) : ∃ I I' : State ℝ,
    SwapEB perMeta mirrorMeta [11, 7] 2 I.M I'.M ∧
    AllTame perMeta [mirrorSp] I.prtl ∧ AllTame mirrorMeta [mirrorSp] I'.prtl ∧
    (held mirrorMeta [[7], [4, 7]] mirrorSp.kind (I'.prtl 0)).Perm
      ((held perMeta [[5, 6], [7]] mirrorSp.kind (I.prtl 0)).map swapView) ∧
    held perMeta [[5, 6], [7]] mirrorSp.kind (I.prtl 0) ≠ [] ∧
    ∀ n, ∃ F F', Run perMeta 2 mirrorPrm [mirrorSp] [1, 2] n I F ∧
      Run mirrorMeta 2 { mirrorPrm with c := swapCoeffs mirrorPrm.c } [mirrorSp] [2, 1] n I' F' := by
  have hb1 : Built mirrorMeta [[7], [4, 7]] := ⟨by decide, rfl, by decide +kernel⟩
  have hp : AllPeriodic perMeta := ⟨rfl, by decide⟩
  have hp1 : AllPeriodic mirrorMeta := ⟨rfl, by decide⟩
  have hw : Wide [[5, 6], [7]] 2 := by unfold Wide; decide
  have hw1 : Wide [[7], [4, 7]] 2 := by unfold Wide; decide
  have hd : perMeta.doms.length = 2 := by decide +kernel
  have hd1 : mirrorMeta.doms.length = 2 := by decide +kernel
  have s0 : sizes perMeta 0 = [5, 7] := by decide +kernel
  have s1 : sizes perMeta 1 = [6, 7] := by decide +kernel
  have s2 : sizes mirrorMeta 0 = [7, 4] := by decide +kernel
  have s3 : sizes mirrorMeta 1 = [7, 7] := by decide +kernel
  have hslow : Slow mirrorPrm mirrorSp := C135_courant (by norm_num [mirrorPrm])
    (by norm_num [mirrorPrm]) (by norm_num [mirrorPrm]) fun u => rfl
  have hslow' : Slow { mirrorPrm with c := swapCoeffs mirrorPrm.c } mirrorSp :=
    C135_courant (by norm_num [mirrorPrm]) (by norm_num [mirrorPrm]) (by norm_num [mirrorPrm])
      fun u => rfl
  let I : State ℝ := ⟨fun r l => f l.comp (globalPos perMeta [11, 7] 2 r l.idx),
    fun _ r => if r = 0 then solidStore mirrorOne 1 else solidStore mirrorOne 0⟩
  let I' : State ℝ := ⟨fun r l => swapSign l.comp * f (swapC l.comp)
      ((globalPos mirrorMeta [7, 11] 2 r l.idx).map swap),
    fun _ r => if r = 1 then solidStore mirrorOne' 1 else solidStore mirrorOne' 0⟩
  have hkind : ∀ s sp, [mirrorSp][s]? = some sp → s = 0 ∧ sp = mirrorSp := by
    intro s sp e
    obtain ⟨a, b⟩ := List.getElem?_eq_some_iff.1 e
    simp at a
    subst a
    exact ⟨rfl, b.symm⟩
  have v1 : (mirrorSp.kind.view mirrorOne).cell = [4, 3] ∧
      (mirrorSp.kind.view mirrorOne).cellPrev = [4, 3] := ⟨rfl, rfl⟩
  have v2 : (mirrorSp.kind.view mirrorOne').cell = [3, 0] ∧
      (mirrorSp.kind.view mirrorOne').cellPrev = [3, 0] := ⟨rfl, rfl⟩
  have t1 : AllTame perMeta [mirrorSp] I.prtl := by
    intro s sp e r hr
    obtain ⟨rfl, rfl⟩ := hkind s sp e
    rw [hd] at hr
    interval_cases r
    · exact mirrorStore_tame le_rfl rfl ⟨rfl, rfl⟩ fun _ => by rw [v1.1, s0]; decide
    · exact mirrorStore_tame (Nat.zero_le _) rfl ⟨rfl, rfl⟩ fun h => by cases h
  have t2 : AllTame mirrorMeta [mirrorSp] I'.prtl := by
    intro s sp e r hr
    obtain ⟨rfl, rfl⟩ := hkind s sp e
    rw [hd1] at hr
    interval_cases r
    · exact mirrorStore_tame (Nat.zero_le _) rfl ⟨rfl, rfl⟩ fun h => by cases h
    · exact mirrorStore_tame le_rfl rfl ⟨rfl, rfl⟩ fun _ => by rw [v2.1, s3]; decide
  have l1 : held perMeta [[5, 6], [7]] mirrorSp.kind (I.prtl 0) =
      [gview perMeta [[5, 6], [7]] 0 mirrorSp.kind mirrorOne] := by
    unfold held
    rw [hd]
    simp [List.range_succ, I, (solidStore_live (q := mirrorOne) rfl).1,
      (solidStore_live (q := mirrorOne) rfl).2]
  have l2 : held mirrorMeta [[7], [4, 7]] mirrorSp.kind (I'.prtl 0) =
      [gview mirrorMeta [[7], [4, 7]] 1 mirrorSp.kind mirrorOne'] := by
    unfold held
    rw [hd1]
    simp [List.range_succ, I', (solidStore_live (q := mirrorOne') rfl).1,
      (solidStore_live (q := mirrorOne') rfl).2]
  have hsame : [gview mirrorMeta [[7], [4, 7]] 1 mirrorSp.kind mirrorOne'] =
      [gview perMeta [[5, 6], [7]] 0 mirrorSp.kind mirrorOne].map swapView := by
    have e1 : globalCells mirrorMeta [[7], [4, 7]] 1 [3, 0] = [3, 4] := by decide +kernel
    have e2 : globalCells perMeta [[5, 6], [7]] 0 [4, 3] = [4, 3] := by decide +kernel
    simp only [List.map_cons, List.map_nil, swapView, gview]
    rw [v1.1, v1.2, v2.1, v2.2, e1, e2]
    rfl
  have f1 : Fits perMeta [[5, 6], [7]] [mirrorSp] (fun _ => 1) (fun _ => 1) I := by
    refine ⟨fun s sp e => ?_, fun s sp e => ?_⟩ <;> obtain ⟨rfl, rfl⟩ := hkind s sp e
    · rw [l1]
      intro v hv
      rw [List.mem_singleton.1 hv]
      intro x hx
      have : x ∈ [(3 / 4 : ℝ), 1 / 2] := hx
      simp only [List.mem_cons, List.not_mem_nil, or_false] at this
      rcases this with rfl | rfl <;> norm_num
    · refine ⟨by rw [l1]; simp, le_rfl, fun r _ => ?_, fun r _ => ?_⟩
      · by_cases h0 : r = 0 <;> simp [I, h0, solidStore]
      · by_cases h0 : r = 0 <;> simp [I, h0, solidStore, Store.maxnpart]
  have f2 : Fits mirrorMeta [[7], [4, 7]] [mirrorSp] (fun _ => 1) (fun _ => 1) I' := by
    refine ⟨fun s sp e => ?_, fun s sp e => ?_⟩ <;> obtain ⟨rfl, rfl⟩ := hkind s sp e
    · rw [l2]
      intro v hv
      rw [List.mem_singleton.1 hv]
      intro x hx
      have : x ∈ [(1 / 2 : ℝ), 3 / 4] := hx
      simp only [List.mem_cons, List.not_mem_nil, or_false] at this
      rcases this with rfl | rfl <;> norm_num
    · refine ⟨by rw [l2]; simp, le_rfl, fun r _ => ?_, fun r _ => ?_⟩
      · by_cases h0 : r = 1 <;> simp [I', h0, solidStore]
      · by_cases h0 : r = 1 <;> simp [I', h0, solidStore, Store.maxnpart]
  have r1 := (C135_no_step_fails_partial (P := mirrorPrm) (sps := [mirrorSp]) perMeta_built hp
    (by decide) (by decide) (by decide) (by decide) hw (by
      intro r hr x hx
      rw [hd] at hr
      interval_cases r
      · rw [s0] at hx; revert x; decide
      · rw [s1] at hx; revert x; decide) (by simp [mirrorSp]) (by simpa using fun _ => hslow) t1 f1
      [1, 2]).2
  have r2 := (C135_no_step_fails_partial (P := { mirrorPrm with c := swapCoeffs mirrorPrm.c })
    (sps := [mirrorSp]) hb1 hp1 (by decide) (by decide) (by decide) (by decide) hw1 (by
      intro r hr x hx
      rw [hd1] at hr
      interval_cases r
      · rw [s2] at hx; revert x; decide
      · rw [s3] at hx; revert x; decide) (by simp [mirrorSp]) (by simpa using fun _ => hslow') t2 f2
      [2, 1]).2
  refine ⟨I, I', ?_, t1, t2, by rw [l1, l2, hsame], by rw [l1]; simp, fun n => ?_⟩
  · intro r i r' i' p hi _ hip hip' c _
    show swapSign c * f (swapC c) ((globalPos mirrorMeta [7, 11] 2 r' i').map swap) =
      swapSign c * f (swapC c) (globalPos perMeta [11, 7] 2 r i)
    have : globalPos mirrorMeta [7, 11] 2 r' i' = some (swap p) := hip'
    rw [this, hip, Option.map_some, swap_swap]
  · obtain ⟨F, hF⟩ := r1 n
    obtain ⟨F', hF'⟩ := r2 n
    exact ⟨F, F', hF, hF'⟩

end Entity.Full
