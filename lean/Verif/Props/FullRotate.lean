import Verif.Lemmas.FullRotate
import Verif.Props.FullTranslate

/-!
# C158: a three-dimensional periodic simulation does not depend on the names of the axes
-/

namespace Entity.Full

open Entity Entity.Topology Entity.Kernel Entity.FieldSolver Entity.Push Entity.Prtl Entity.Ranks
open Entity.Deposit Entity.Interp Entity.Tags Entity.Decomp Entity.Gauss Entity.Dir Entity.Filter

variable {K : Type} [Field K] [LinearOrder K] [IsStrictOrderedRing K] [FloorRing K] [Inhabited K]

theorem rot3 {α : Type} {l : List α} (h : l.length = 3) :
    (rot l).length = 3 ∧ rot (rot (rot l)) = l := by
  obtain ⟨a, b, c, rfl⟩ := List.length_eq_three.1 h
  exact ⟨rfl, rfl⟩

theorem held_u {m : Meta} {dN : List (List Nat)} {k : Kind} {st : Nat → Store K} {v : View K}
    (hv : v ∈ held m dN k st) : v.u.length = 3 := by
  unfold held at hv
  obtain ⟨r, -, hv⟩ := List.mem_flatMap.1 hv
  obtain ⟨q, -, rfl⟩ := List.mem_map.1 hv
  rfl

/-- **C158.** A simulation in three dimensions does not prefer an axis.  Let two simulations of a
periodic box be divided in any two ways among any numbers of ranks, without current filtering; let the
second one be the first one with the axes renamed cyclically (what was the second axis is now the
first, and so on): box, lower corner, coefficients of the field solver, cells, offsets, momenta and
components of the fields; forces do not depend on the names of the axes.  Then after any number of
complete steps, under all schedules, the second one still is the first one with the axes renamed.  A
component, an axis or a stagger mixed up in any of the thirty or so formulas of interpolation, push,
deposit and field solver would break this.

Partial: exact arithmetic; no current filtering (with it the claim is false,
`C158_filter_counterexample`). -/
theorem C158_axes_partial {m m' : Meta} {dN dN' : List (List Nat)} (h : Built m dN)
    (h' : Built m' dN') (hN : dN'.map List.sum = rot (dN.map List.sum)) (hp : AllPeriodic m)
    (hp' : AllPeriodic m') (hD : dN.length = 3) {P : StepPrm K} (hnf : P.nf = 0) (hng : 2 ≤ P.ng)
    (hw : Wide dN P.ng) (hw' : Wide dN' P.ng) {sps : List (SpPrm K)}
    (hk : ∀ s ∈ sps, s.kind.D = 3) (hu : ∀ s ∈ sps, Isotropic s) {x0 : List K}
    (hx : x0.length = 3) {n : Nat} {I I' F F' : State K}
    (hf : RotEB m m' (dN.map List.sum) P.ng I.M I'.M)
    (hq : ∀ s sp, sps[s]? = some sp → (held m' dN' sp.kind (I'.prtl s)).Perm
      ((held m dN sp.kind (I.prtl s)).map rotView))
    (ht : AllTame m sps I.prtl) (ht' : AllTame m' sps I'.prtl)
    (hr : Run m 3 P sps x0 n I F)
    (hr' : Run m' 3 { P with c := rotCoeffs P.c } sps (rot x0) n I' F') :
    RotEB m m' (dN.map List.sum) P.ng F.M F'.M ∧
    ∀ s sp, sps[s]? = some sp → (held m' dN' sp.kind (F'.prtl s)).Perm
      ((held m dN sp.kind (F.prtl s)).map rotView) := by
  have hNl : (dN.map List.sum).length = 3 := by simpa using hD
  have hD' : dN'.length = 3 := by
    have := congrArg List.length hN
    rw [(rot3 hNl).1] at this
    simpa using this
  have hsel : ∀ a c, selEB a c = true → a = 0 ∧ c < 6 := by
    intro a c hs
    simp only [selEB, selE, selB, Bool.or_eq_true, Bool.and_eq_true, beq_iff_eq, decide_eq_true_eq]
      at hs
    omega
  obtain ⟨g, hg⟩ := exists_global h P.ng I.M
  let g' : GMem K := fun a c p => g a (rotC c) (rot (rot p))
  have hgg : RotG g g' := fun a c _ x y z => rfl
  have hg' : ShowsActive m' (dN'.map List.sum) P.ng selEB I'.M g' := by
    intro a c hs r i p hi hip
    obtain ⟨rfl, hc⟩ := hsel a c hs
    have hil := active_length h' (active_inArray hi)
    obtain ⟨hpl, hpw⟩ := globalPos_wrapped h' (active_lt hi) hil hip
    rw [hD'] at hpl
    have hql : (rot (rot p)).length = 3 := (rot3 (rot3 hpl).1).1
    have hqw : wrap (dN.map List.sum) (rot (rot p)) = rot (rot p) := by
      have := rot_wrap hNl hql
      rw [(rot3 hpl).2, ← hN, hpw] at this
      have e := congrArg (fun l => rot (rot l)) this
      exact (e.trans (rot3 (by simp [wrap, hql, hD])).2).symm
    obtain ⟨q, j, hj, hjp⟩ := cover h hw (p := rot (rot p)) (by rw [hql, hD]) hqw
    rw [hf q j r i _ hj hi hjp (by rw [(rot3 hpl).2, ← hN]; exact hip) c hc]
    exact hg 0 (rotC c) (by interval_cases c <;> rfl) q j _ hj hjp
  let B : Box K := ⟨g, fun s =>
    match sps[s]? with | some sp => held m dN sp.kind (I.prtl s) | none => []⟩
  let B' : Box K := ⟨g', fun s =>
    match sps[s]? with | some sp => held m' dN' sp.kind (I'.prtl s) | none => []⟩
  have hB : RotBox (dN.map List.sum) sps B B' := by
    refine ⟨hgg, fun i s e v hv => ?_, fun i s e => ?_⟩
    · simp only [B, e] at hv
      exact ⟨held_sized ((hk s (List.mem_of_getElem? e)).trans hD.symm) (by omega) hv, held_u hv⟩
    · simp only [B, B', e]
      exact hq i s e
  rw [← hD] at hr
  rw [← hD'] at hr'
  obtain ⟨s1, q1, -⟩ := C133_box_refinement_partial h hp (by simp [hD]) hng hw
    (fun s hs => (hk s hs).trans hD.symm) (B := B)
    (fun a c _ => hg a c rfl) (fun s sp e => by simp [B, e]) ht hr
  obtain ⟨s2, q2, -⟩ := C133_box_refinement_partial (P := { P with c := rotCoeffs P.c }) h' hp'
    (by simp [hD']) hng hw' (fun s hs => (hk s hs).trans hD'.symm) (B := B')
    hg' (fun s sp e => by simp [B', e]) ht' hr'
  rw [hN] at s2 q2
  have hR := boxRun_rot (P := P) hnf hu hx hNl n hB
  refine ⟨fun r i r' i' p hi hi' hip hip' c hc => ?_, fun s sp e => ?_⟩
  · have hs : selEB 0 c = true := by interval_cases c <;> rfl
    have hs' : selEB 0 (rotC c) = true := by interval_cases c <;> rfl
    obtain ⟨hpl, -⟩ := globalPos_wrapped h (active_lt hi) (active_length h (active_inArray hi)) hip
    rw [hD] at hpl
    rw [s1.active 0 _ hs' r i p hi hip, s2.active 0 c hs r' i' _ hi' hip']
    obtain ⟨x, y, z, rfl⟩ := List.length_eq_three.1 hpl
    exact hR.fields 0 c (.inl ⟨rfl, hc⟩) y z x
  · exact (q2 s sp e).trans ((hR.prtl s sp e).trans ((q1 s sp e).symm.map _))

/-! ## Forces that do not depend on the names of the axes -/

section
variable (a b u : V3 ℝ) (k : ℝ)
theorem rotV_add : rotV a + rotV b = rotV (a + b) := rfl
theorem rotV_sub : rotV a - rotV b = rotV (a - b) := rfl
theorem rotV_smul : (rotV a).smul k = rotV (a.smul k) := rfl
theorem rotV_cross : (rotV a).cross (rotV b) = rotV (a.cross b) := rfl
theorem rotV_dot : (rotV a).dot (rotV b) = a.dot b := by simp only [rotV, V3.dot]; ring
theorem rotV_normSq : (rotV a).normSq = a.normSq := by simp only [rotV, V3.normSq]; ring
end

/-- The forces of the code are of this kind: Boris (the external force left out) … -/
theorem C158_boris (c : ℝ) (e b u : V3 ℝ) :
    boris c (rotV e) (rotV b) (rotV u) = rotV (boris c e b u) := by
  simp only [boris, rotV_smul, rotV_add, rotV_normSq, rotV_cross]

/-- … Vay … -/
theorem C158_vay (c : ℝ) (e b u : V3 ℝ) :
    vay c (rotV e) (rotV b) (rotV u) = rotV (vay c e b u) := by
  simp only [vay, rotV_smul, rotV_add, rotV_normSq, rotV_cross, rotV_dot]
  have e1 : ∀ v : V3 ℝ, (rotV v).x ^ 2 + (rotV v).y ^ 2 + (rotV v).z ^ 2 = v.x ^ 2 + v.y ^ 2 + v.z ^ 2 := by
    intro v; simp only [rotV]; ring
  have e2 : ∀ (v : V3 ℝ) (g : ℝ), 1 + ((rotV v).x * g) ^ 2 + ((rotV v).y * g) ^ 2 + ((rotV v).z * g) ^ 2 =
      1 + (v.x * g) ^ 2 + (v.y * g) ^ 2 + (v.z * g) ^ 2 := by
    intro v g; simp only [rotV]; ring
  simp only [e1, e2]
  rfl

/-- … guiding centre … -/
theorem C158_gca (c : ℝ) (e b u : V3 ℝ) :
    gca c (rotV e) (rotV b) (rotV u) = rotV (gca c e b u) := by
  simp only [gca, rotV_smul, rotV_add, rotV_normSq, rotV_cross, rotV_dot]

/-- … and radiative drag. -/
theorem C158_drag (c : ℝ) (e b u up : V3 ℝ) :
    synchrotronDrag c (rotV e) (rotV b) (rotV u) (rotV up) =
      ((rotV (synchrotronDrag c e b u up).1), rotV (synchrotronDrag c e b u up).2) ∧
    comptonDrag c (rotV u) (rotV up) =
      ((rotV (comptonDrag c u up).1), rotV (comptonDrag c u up).2) := by
  constructor
  · simp only [synchrotronDrag, rotV_smul, rotV_add, rotV_sub, rotV_normSq, rotV_cross, rotV_dot]
  · simp only [comptonDrag, rotV_smul, rotV_sub, rotV_normSq]

/-! ## With filtering the axes differ -/

/-- **C158**, with current filtering: the claim is false.  The filter of the code in three dimensions
leaves out two diagonal neighbours in the plane of the second and third axis (and counts two others
twice), so that one pass over a current in a single cell gives different results along different axes:
nothing in the second, 1/32 in the first of two cells that differ by the names of the axes. -/
theorem C158_filter_counterexample : ∃ g g' : GMem ℚ, RotG g g' ∧
    stepG [7, 7, 7] g' 1 0 [3, 2, 4] = 0 ∧ stepG [7, 7, 7] g 1 1 [4, 3, 2] = 1 / 32 :=
  ⟨fun a c p => if a = 1 ∧ c = 1 ∧ p = [3, 3, 3] then 1 else 0,
   fun a c p => if a = 1 ∧ rotC c = 1 ∧ rot (rot p) = [3, 3, 3] then 1 else 0,
   fun _ _ _ _ _ _ => rfl, by decide +kernel, by decide +kernel⟩

/-! ## An example -/

/-- An 11 × 7 × 8 box on two ranks. -/
def solidMeta : Meta where
  counts := [2, 1, 1]
  doms := (createDomains 2 [[5, 6], [7], [8]]).getD []
  bcs := [(.PERIODIC, .PERIODIC), (.PERIODIC, .PERIODIC), (.PERIODIC, .PERIODIC)]

/-- The box with the axes renamed, 7 × 8 × 11, on one rank. -/
def solidMeta' : Meta where
  counts := [1, 1, 1]
  doms := (createDomains 1 [[7], [8], [11]]).getD []
  bcs := [(.PERIODIC, .PERIODIC), (.PERIODIC, .PERIODIC), (.PERIODIC, .PERIODIC)]

/-- First-order shapes, no filter, a stencil that differs between the axes. -/
noncomputable def solidPrm : StepPrm ℝ :=
  ⟨1, 2, 0, 1/20, 1/10, 1, 1, 1, 1, 4, ⟨1/50, 1/60, 1/70, 1/80, 0, 1/90, 0, 0, 0⟩, true, true⟩

/-- Electrons, Boris. -/
noncomputable def solidSp : SpPrm ℝ where
  kind := ⟨3, false, 0, 0⟩
  charge := -1
  frozen := false
  kick _ _ e b u := boris (-1/40) e b u
  dtE u := 1/20 / Real.sqrt (1 + u.x ^ 2 + u.y ^ 2 + u.z ^ 2)
  invE u := 1 / Real.sqrt (1 + u.x ^ 2 + u.y ^ 2 + u.z ^ 2)

theorem solidSp_isotropic : Isotropic solidSp where
  kick _ _ e b u _ := C158_boris _ e b u
  dtE u := by
    simp only [solidSp, rotV]
    congr 2
    ring

/-- An electron in the last cell of the first rank, along the first axis … -/
noncomputable def solidOne : Prtl ℝ :=
  ⟨4, 4, 3, 3, 2, 2, 3/4, 3/4, 1/2, 1/2, 1/4, 1/4, 3, 1, 0, 1, 0, [], [], 1⟩

/-- … and the same with the axes renamed. -/
noncomputable def solidOne' : Prtl ℝ :=
  ⟨3, 3, 2, 2, 4, 4, 1/2, 1/2, 1/4, 1/4, 3/4, 3/4, 1, 0, 3, 1, 0, [], [], 1⟩

/-- Arrays of four entries of which the first one or none is in use. -/
noncomputable def solidStore (q : Prtl ℝ) (n : Nat) : Store ℝ := ⟨List.replicate 4 q, n⟩

theorem solidStore_tame {m : Meta} {r : Nat} {q : Prtl ℝ} {n : Nat} (hn : n ≤ 1) (hq : q.tag = 1)
    (hp : q.pld_r = [] ∧ q.pld_i = [])
    (hs : n = 1 → ∀ a < 3, 0 ≤ (solidSp.kind.view q).cell.getD a 0 ∧
      (solidSp.kind.view q).cell.getD a 0 < (sizes m r).getD a 0) :
    Tame m solidSp.kind r (solidStore q n) := by
  have hu : ∀ q' ∈ (solidStore q n).used, q' = q ∧ n = 1 := by
    intro q' hq'
    simp only [Store.used, solidStore] at hq'
    refine ⟨(List.mem_replicate.1 (List.mem_of_mem_take hq')).2, ?_⟩
    by_contra hne
    have : n = 0 := by omega
    subst this
    simp at hq'
  refine ⟨by simp [solidStore, Store.maxnpart]; omega, ?_, ?_, ?_⟩
  · intro q' hq'
    rw [(hu q' hq').1]
    exact .inr hq
  · intro q' hq' a ha
    obtain ⟨e1, e2⟩ := hu q' (List.mem_filter.1 hq').1
    subst e1
    exact hs e2 a ha
  · intro q' hq'
    rw [(List.mem_replicate.1 hq').2]
    exact ⟨by rw [hp.1]; rfl, by rw [hp.2]; rfl⟩

theorem solidStore_live {q : Prtl ℝ} (hq : q.tag = 1) :
    (solidStore q 1).live = [q] ∧ (solidStore q 0).live = [] := by
  constructor <;> simp [Store.live, Store.used, solidStore, hq, List.replicate]

/-- The hypotheses are met: any fields, an electron that crosses from one rank to the next, a box with
three different sides and a stencil with different coefficients along the axes; both simulations can be
run for any number of steps. -/
theorem axes_example (f : Nat → Option (List Int) → ℝ) : ∃ I I' : State ℝ,
    RotEB solidMeta solidMeta' [11, 7, 8] 2 I.M I'.M ∧
    AllTame solidMeta [solidSp] I.prtl ∧ AllTame solidMeta' [solidSp] I'.prtl ∧
    (held solidMeta' [[7], [8], [11]] solidSp.kind (I'.prtl 0)).Perm
      ((held solidMeta [[5, 6], [7], [8]] solidSp.kind (I.prtl 0)).map rotView) ∧
    held solidMeta [[5, 6], [7], [8]] solidSp.kind (I.prtl 0) ≠ [] ∧
    ∀ n, ∃ F F', Run solidMeta 3 solidPrm [solidSp] [1, 2, 3] n I F ∧
      Run solidMeta' 3 { solidPrm with c := rotCoeffs solidPrm.c } [solidSp] [2, 3, 1] n I' F' := by
  have hb : Built solidMeta [[5, 6], [7], [8]] := ⟨by decide, rfl, by decide +kernel⟩
  have hb1 : Built solidMeta' [[7], [8], [11]] := ⟨by decide, rfl, by decide +kernel⟩
  have hp : AllPeriodic solidMeta := ⟨rfl, by decide⟩
  have hp1 : AllPeriodic solidMeta' := ⟨rfl, by decide⟩
  have hw : Wide [[5, 6], [7], [8]] 2 := by unfold Wide; decide
  have hw1 : Wide [[7], [8], [11]] 2 := by unfold Wide; decide
  have hd : solidMeta.doms.length = 2 := by decide +kernel
  have hd1 : solidMeta'.doms.length = 1 := by decide +kernel
  have s0 : sizes solidMeta 0 = [5, 7, 8] := by decide +kernel
  have s1 : sizes solidMeta 1 = [6, 7, 8] := by decide +kernel
  have s2 : sizes solidMeta' 0 = [7, 8, 11] := by decide +kernel
  have hslow : Slow solidPrm solidSp := C135_courant (by norm_num [solidPrm])
    (by norm_num [solidPrm]) (by norm_num [solidPrm]) fun u => rfl
  have hslow' : Slow { solidPrm with c := rotCoeffs solidPrm.c } solidSp :=
    C135_courant (by norm_num [solidPrm]) (by norm_num [solidPrm]) (by norm_num [solidPrm]) fun u => rfl
  let I : State ℝ := ⟨fun r l => f l.comp (globalPos solidMeta [11, 7, 8] 2 r l.idx),
    fun _ r => if r = 0 then solidStore solidOne 1 else solidStore solidOne 0⟩
  let I' : State ℝ := ⟨fun r l => f (rotC l.comp)
      ((globalPos solidMeta' [7, 8, 11] 2 r l.idx).map fun p => rot (rot p)),
    fun _ _ => solidStore solidOne' 1⟩
  have hkind : ∀ s sp, [solidSp][s]? = some sp → s = 0 ∧ sp = solidSp := by
    intro s sp e
    obtain ⟨a, b⟩ := List.getElem?_eq_some_iff.1 e
    simp at a
    subst a
    exact ⟨rfl, b.symm⟩
  have v1 : (solidSp.kind.view solidOne).cell = [4, 3, 2] ∧
      (solidSp.kind.view solidOne).cellPrev = [4, 3, 2] := ⟨rfl, rfl⟩
  have v2 : (solidSp.kind.view solidOne').cell = [3, 2, 4] ∧
      (solidSp.kind.view solidOne').cellPrev = [3, 2, 4] := ⟨rfl, rfl⟩
  have t1 : AllTame solidMeta [solidSp] I.prtl := by
    intro s sp e r hr
    obtain ⟨rfl, rfl⟩ := hkind s sp e
    rw [hd] at hr
    interval_cases r
    · exact solidStore_tame le_rfl rfl ⟨rfl, rfl⟩ fun _ => by rw [v1.1, s0]; decide
    · exact solidStore_tame (Nat.zero_le _) rfl ⟨rfl, rfl⟩ fun h => by cases h
  have t2 : AllTame solidMeta' [solidSp] I'.prtl := by
    intro s sp e r hr
    obtain ⟨rfl, rfl⟩ := hkind s sp e
    rw [hd1] at hr
    interval_cases r
    exact solidStore_tame le_rfl rfl ⟨rfl, rfl⟩ fun _ => by rw [v2.1, s2]; decide
  have l1 : held solidMeta [[5, 6], [7], [8]] solidSp.kind (I.prtl 0) =
      [gview solidMeta [[5, 6], [7], [8]] 0 solidSp.kind solidOne] := by
    unfold held
    rw [hd]
    simp [List.range_succ, I, (solidStore_live (q := solidOne) rfl).1,
      (solidStore_live (q := solidOne) rfl).2]
  have l2 : held solidMeta' [[7], [8], [11]] solidSp.kind (I'.prtl 0) =
      [gview solidMeta' [[7], [8], [11]] 0 solidSp.kind solidOne'] := by
    unfold held
    rw [hd1]
    simp [List.range_succ, I', (solidStore_live (q := solidOne') rfl).1]
  have hsame : [gview solidMeta' [[7], [8], [11]] 0 solidSp.kind solidOne'] =
      [gview solidMeta [[5, 6], [7], [8]] 0 solidSp.kind solidOne].map rotView := by
    have e1 : globalCells solidMeta' [[7], [8], [11]] 0 [3, 2, 4] = [3, 2, 4] := by decide +kernel
    have e2 : globalCells solidMeta [[5, 6], [7], [8]] 0 [4, 3, 2] = [4, 3, 2] := by decide +kernel
    simp only [List.map_cons, List.map_nil, rotView, gview]
    rw [v1.1, v1.2, v2.1, v2.2, e1, e2]
    rfl
  have f1 : Fits solidMeta [[5, 6], [7], [8]] [solidSp] (fun _ => 1) (fun _ => 1) I := by
    refine ⟨fun s sp e => ?_, fun s sp e => ?_⟩ <;> obtain ⟨rfl, rfl⟩ := hkind s sp e
    · rw [l1]
      intro v hv
      rw [List.mem_singleton.1 hv]
      intro x hx
      have : x ∈ [(3 / 4 : ℝ), 1 / 2, 1 / 4] := hx
      simp only [List.mem_cons, List.not_mem_nil, or_false] at this
      rcases this with rfl | rfl | rfl <;> norm_num
    · refine ⟨by rw [l1]; simp, le_rfl, fun r _ => ?_, fun r _ => ?_⟩
      · by_cases h0 : r = 0 <;> simp [I, h0, solidStore]
      · by_cases h0 : r = 0 <;> simp [I, h0, solidStore, Store.maxnpart]
  have f2 : Fits solidMeta' [[7], [8], [11]] [solidSp] (fun _ => 1) (fun _ => 1) I' := by
    refine ⟨fun s sp e => ?_, fun s sp e => ?_⟩ <;> obtain ⟨rfl, rfl⟩ := hkind s sp e
    · rw [l2]
      intro v hv
      rw [List.mem_singleton.1 hv]
      intro x hx
      have : x ∈ [(1 / 2 : ℝ), 1 / 4, 3 / 4] := hx
      simp only [List.mem_cons, List.not_mem_nil, or_false] at this
      rcases this with rfl | rfl | rfl <;> norm_num
    · refine ⟨by rw [l2]; simp, le_rfl, fun r _ => ?_, fun r _ => ?_⟩
      · simp [I', solidStore]
      · simp [I', solidStore, Store.maxnpart]
  have r1 := (C135_no_step_fails_partial (P := solidPrm) (sps := [solidSp]) hb hp (by decide)
    (by decide) (by decide) (by decide) hw (by
      intro r hr x hx
      rw [hd] at hr
      interval_cases r
      · rw [s0] at hx; revert x; decide
      · rw [s1] at hx; revert x; decide) (by simp [solidSp]) (by simpa using fun _ => hslow) t1 f1
      [1, 2, 3]).2
  have r2 := (C135_no_step_fails_partial (P := { solidPrm with c := rotCoeffs solidPrm.c })
    (sps := [solidSp]) hb1 hp1 (by decide) (by decide) (by decide) (by decide) hw1 (by
      intro r hr x hx
      rw [hd1] at hr
      interval_cases r
      rw [s2] at hx; revert x; decide) (by simp [solidSp]) (by simpa using fun _ => hslow') t2 f2
      [2, 3, 1]).2
  refine ⟨I, I', ?_, t1, t2, by rw [l1, l2, hsame], by rw [l1]; simp, fun n => ?_⟩
  · intro r i r' i' p hi _ hip hip' c _
    have hpl := (globalPos_wrapped hb (active_lt hi) (active_length hb (active_inArray hi)) hip).1
    show f (rotC c) ((globalPos solidMeta' [7, 8, 11] 2 r' i').map fun p => rot (rot p)) =
      f (rotC c) (globalPos solidMeta [11, 7, 8] 2 r i)
    have : globalPos solidMeta' [7, 8, 11] 2 r' i' = some (rot p) := hip'
    rw [this, hip, Option.map_some, (rot3 hpl).2]
  · obtain ⟨F, hF⟩ := r1 n
    obtain ⟨F', hF'⟩ := r2 n
    exact ⟨F, F', hF, hF'⟩

end Entity.Full
