import Verif.Lemmas.FullUnits
import Verif.Props.FullMirror

/-!
# C160: units of charge, field and weight; opposite charges
-/

namespace Entity.Full

open Entity Entity.Topology Entity.Kernel Entity.FieldSolver Entity.Push Entity.Prtl Entity.Ranks
open Entity.Deposit Entity.Interp Entity.Tags Entity.Decomp Entity.Gauss Entity.Dir Entity.Filter

variable {K : Type} [Field K] [LinearOrder K] [IsStrictOrderedRing K] [FloorRing K] [Inhabited K]

/-- **C160.** Units.  Let two simulations of the same periodic box be divided in any two ways among
ranks.  In the second one let all fields be `l` times, all charges `μ` times, all weights `ν` times
those of the first, let its particles respond to the larger fields as those of the first do to the
original ones, and let its fiducial values satisfy `q0' / (B0' V0') μ ν = l q0 / (B0 V0)`; the fiducial
number of particles per cell may be any.  Then after any number of complete steps, under all schedules,
the fields of the second one are `l` times those of the first, and its particles, apart from their
weights, are those of the first: the same positions and momenta.  So particles per cell,
units of charge and units of fields have no effect; and for `l = μ = -1` (`C160_conjugation_partial`)
exchanging positive and negative charges changes only the signs of the fields.

Partial: exact arithmetic. -/
theorem C160_units_partial {m m' : Meta} {dN dN' : List (List Nat)} (h : Built m dN)
    (h' : Built m' dN') (hN : dN.map List.sum = dN'.map List.sum) (hp : AllPeriodic m)
    (hp' : AllPeriodic m') (hD : dN.length ∈ [1, 2, 3]) {P : StepPrm K} (hng : 2 ≤ P.ng)
    (hw : Wide dN P.ng) (hw' : Wide dN' P.ng) {sps sps' : List (SpPrm K)}
    (hk : ∀ s ∈ sps, s.kind.D = dN.length) {l μ ν q0 B0 V0 ppc0 : K}
    (hs : List.Forall₂ (Rescaled l μ) sps sps')
    (hc : q0 / (B0 * V0) * (μ * ν) = l * (P.q0 / (P.B0 * P.V0))) {x0 : List K} {n : Nat}
    {I I' F F' : State K} (hf : ScaledEB m m' (dN.map List.sum) P.ng l I.M I'.M)
    (hq : ∀ s sp, sps[s]? = some sp → (held m' dN' sp.kind (I'.prtl s)).Perm
      ((held m dN sp.kind (I.prtl s)).map (weighView ν)))
    (ht : AllTame m sps I.prtl) (ht' : AllTame m' sps' I'.prtl)
    (hr : Run m dN.length P sps x0 n I F)
    (hr' : Run m' dN.length { P with q0 := q0, B0 := B0, V0 := V0, ppc0 := ppc0 } sps' x0 n I' F') :
    ScaledEB m m' (dN.map List.sum) P.ng l F.M F'.M ∧
    ∀ s sp, sps[s]? = some sp → (held m' dN' sp.kind (F'.prtl s)).Perm
      ((held m dN sp.kind (F.prtl s)).map (weighView ν)) := by
  have hDD : dN'.length = dN.length := by
    have := congrArg List.length hN
    simpa using this.symm
  have hsel : ∀ a c, selEB a c = true → a = 0 ∧ c < 6 := by
    intro a c hs
    simp only [selEB, selE, selB, Bool.or_eq_true, Bool.and_eq_true, beq_iff_eq, decide_eq_true_eq]
      at hs
    omega
  -- the species of the second simulation
  have hsp : ∀ (s : Nat) (sp : SpPrm K), sps[s]? = some sp → ∃ sp' : SpPrm K, sps'[s]? = some sp' ∧ sp'.kind = sp.kind := by
    intro s sp e
    obtain ⟨a, b, e1, e2, hab⟩ | ⟨e1, -⟩ := forall₂_getElem? hs s
    · rw [e] at e1
      cases e1
      exact ⟨b, e2, hab.kind⟩
    · rw [e] at e1
      cases e1
  have hk' : ∀ s ∈ sps', s.kind.D = dN'.length := by
    intro s hs'
    obtain ⟨i, e⟩ := List.mem_iff_getElem?.1 hs'
    obtain ⟨a, b, e1, e2, hab⟩ | ⟨-, e2⟩ := forall₂_getElem? hs i
    · rw [e] at e2
      cases e2
      rw [hab.kind, hDD]
      exact hk a (List.mem_of_getElem? e1)
    · rw [e] at e2
      cases e2
  obtain ⟨g, hg⟩ := exists_global h P.ng I.M
  let g' : GMem K := fun a c p => l * g a c p
  have hg' : ShowsActive m' (dN'.map List.sum) P.ng selEB I'.M g' := by
    intro a c hs r i p hi hip
    obtain ⟨rfl, hc⟩ := hsel a c hs
    have hil := active_length h' (active_inArray hi)
    obtain ⟨hpl, hpw⟩ := globalPos_wrapped h' (active_lt hi) hil hip
    obtain ⟨q, j, hj, hjp⟩ := cover h hw (p := p) (by omega) (by rw [hN]; exact hpw)
    rw [hf q j r i p hj hi hjp (by rw [hN]; exact hip) c hc, hg 0 c rfl q j p hj hjp]
  let B : Box K := ⟨g, fun s =>
    match sps[s]? with | some sp => held m dN sp.kind (I.prtl s) | none => []⟩
  let B' : Box K := ⟨g', fun s =>
    match sps'[s]? with | some sp => held m' dN' sp.kind (I'.prtl s) | none => []⟩
  have hB : ScaleBox (dN.map List.sum).length l ν sps B B' := by
    refine ⟨fun c _ p _ => rfl, fun i s e => ?_⟩
    obtain ⟨s', e', ek⟩ := hsp i s e
    simp only [B, B', e, e', ek]
    exact hq i s e
  obtain ⟨s1, q1, -⟩ := C133_box_refinement_partial h hp hD hng hw hk (B := B)
    (fun a c _ => hg a c rfl) (fun s sp e => by simp [B, e]) ht hr
  rw [← hDD] at hr'
  obtain ⟨s2, q2, -⟩ := C133_box_refinement_partial
    (P := { P with q0 := q0, B0 := B0, V0 := V0, ppc0 := ppc0 }) h' hp' (by rw [hDD]; exact hD) hng hw'
    hk' (B := B') hg' (fun s sp e => by simp [B', e]) ht' hr'
  rw [← hN] at s2 q2
  have hR := boxRun_scaled (P := P) (ppc0 := ppc0) (N := dN.map List.sum) (by simpa using hD) hs hc x0 n hB
  refine ⟨fun r i r' i' p hi hi' hip hip' c hc => ?_, fun s sp e => ?_⟩
  · have hs : selEB 0 c = true := by interval_cases c <;> rfl
    obtain ⟨hpl, -⟩ := globalPos_wrapped h (active_lt hi) (active_length h (active_inArray hi)) hip
    rw [s1.active 0 c hs r i p hi hip, s2.active 0 c hs r' i' _ hi' hip']
    exact hR.fields c hc p (by simpa using hpl)
  · obtain ⟨sp', e', ek⟩ := hsp s sp e
    have := q2 s sp' e'
    rw [ek] at this
    exact this.trans ((hR.prtl s sp e).trans ((q1 s sp e).symm.map _))

/-- Opposite charge, same mass: fields act with the opposite sign. -/
def opposite (s : SpPrm K) : SpPrm K :=
  { s with charge := -1 * s.charge, kick := fun t x E B u => s.kick t x (E.smul (-1)) (B.smul (-1)) u }

omit [LinearOrder K] [IsStrictOrderedRing K] [FloorRing K] [Inhabited K] in
theorem smul_neg_neg (E : V3 K) : (E.smul (-1)).smul (-1) = E := by
  cases E
  simp [V3.smul]

omit [LinearOrder K] [IsStrictOrderedRing K] [FloorRing K] [Inhabited K] in
theorem opposite_rescaled (s : SpPrm K) : Rescaled (-1) (-1) s (opposite s) :=
  ⟨rfl, rfl, rfl, fun t x E B u => by simp only [opposite, smul_neg_neg], rfl, rfl⟩

/-- **C160**, charge conjugation: exchanging positive and negative charges, and the signs of the initial
fields, leaves all particles the same at all times and the fields opposite. -/
theorem C160_conjugation_partial {m m' : Meta} {dN dN' : List (List Nat)} (h : Built m dN)
    (h' : Built m' dN') (hN : dN.map List.sum = dN'.map List.sum) (hp : AllPeriodic m)
    (hp' : AllPeriodic m') (hD : dN.length ∈ [1, 2, 3]) {P : StepPrm K} (hng : 2 ≤ P.ng)
    (hw : Wide dN P.ng) (hw' : Wide dN' P.ng) {sps : List (SpPrm K)}
    (hk : ∀ s ∈ sps, s.kind.D = dN.length) {x0 : List K} {n : Nat}
    {I I' F F' : State K} (hf : ScaledEB m m' (dN.map List.sum) P.ng (-1) I.M I'.M)
    (hq : ∀ s sp, sps[s]? = some sp → (held m' dN' sp.kind (I'.prtl s)).Perm
      (held m dN sp.kind (I.prtl s)))
    (ht : AllTame m sps I.prtl) (ht' : AllTame m' (sps.map opposite) I'.prtl)
    (hr : Run m dN.length P sps x0 n I F)
    (hr' : Run m' dN.length P (sps.map opposite) x0 n I' F') :
    ScaledEB m m' (dN.map List.sum) P.ng (-1) F.M F'.M ∧
    ∀ s sp, sps[s]? = some sp → (held m' dN' sp.kind (F'.prtl s)).Perm
      (held m dN sp.kind (F.prtl s)) := by
  have one : ∀ L : List (View K), L.map (weighView 1) = L := by
    intro L
    conv_rhs => rw [← List.map_id L]
    apply List.map_congr_left
    intro v _
    simp [weighView]
  have key := C160_units_partial (l := -1) (μ := -1) (ν := 1) (q0 := P.q0) (B0 := P.B0) (V0 := P.V0)
    (ppc0 := P.ppc0) h h' hN hp hp' hD hng hw hw' hk
    (sps' := sps.map opposite) (by
      rw [List.forall₂_map_right_iff]
      exact List.forall₂_same.2 fun s _ => opposite_rescaled s)
    (by ring) (n := n) hf (by simpa only [one] using hq) ht ht' hr hr'
  simpa only [one] using key

/-! ## Forces that respond in this way -/

/-- Boris: `l` times the fields act on a particle with the `l`-th part of the charge-to-mass ratio as
before … -/
theorem C160_boris {l : ℝ} (hl : l ≠ 0) (c : ℝ) (e b u : V3 ℝ) :
    boris (c / l) (e.smul l) (b.smul l) u = boris c e b u := by
  have hs : ∀ (v : V3 ℝ) k, (v.smul l).smul (c / l * k) = v.smul (c * k) := by
    intro v k
    simp only [V3.smul, V3.mk.injEq]
    refine ⟨?_, ?_, ?_⟩ <;> field_simp
  have h1 : ∀ v : V3 ℝ, (v.smul l).smul (c / l) = v.smul c := by
    intro v
    simpa using hs v 1
  simp only [boris, h1, hs]

/-- … and Vay. -/
theorem C160_vay {l : ℝ} (hl : l ≠ 0) (c : ℝ) (e b u : V3 ℝ) :
    vay (c / l) (e.smul l) (b.smul l) u = vay c e b u := by
  have h1 : ∀ v : V3 ℝ, (v.smul l).smul (c / l) = v.smul c := by
    intro v
    simp only [V3.smul, V3.mk.injEq]
    refine ⟨?_, ?_, ?_⟩ <;> field_simp
  simp only [vay, h1]

/-! ## An example: double charge in double fields, three times the weight, and a third of `q0` -/

/-- Electrons with twice the charge, in units in which fields are twice as large. -/
noncomputable def unitSp : SpPrm ℝ :=
  { mirrorSp with charge := 2 * -1, kick := fun _ _ e b u => boris (-1 / 40 / 2) e b u }

theorem unitSp_rescaled : Rescaled 2 2 mirrorSp unitSp :=
  ⟨rfl, rfl, rfl, fun _ _ E B u => C160_boris two_ne_zero _ E B u, rfl, rfl⟩

/-- An electron of weight `w` in the last cell of the first rank. -/
noncomputable def unitOne (w : ℝ) : Prtl ℝ := { mirrorOne with weight := w }

/-- The second set of fiducial values. -/
noncomputable def unitPrm : StepPrm ℝ :=
  { mirrorPrm with q0 := 1 / 3, B0 := mirrorPrm.B0, V0 := mirrorPrm.V0, ppc0 := 12 }

/-- A state with any fields and such an electron can be run for any number of steps. -/
theorem unit_run (P : StepPrm ℝ) (hP : P = mirrorPrm ∨ P = unitPrm) (sp : SpPrm ℝ)
    (hsp : sp = mirrorSp ∨ sp = unitSp) (w : ℝ) (M : MMem ℝ) :
    let I : State ℝ := ⟨M, fun _ r => if r = 0 then solidStore (unitOne w) 1 else solidStore (unitOne w) 0⟩
    AllTame perMeta [sp] I.prtl ∧ held perMeta [[5, 6], [7]] mirrorSp.kind (I.prtl 0) =
      [gview perMeta [[5, 6], [7]] 0 mirrorSp.kind (unitOne w)] ∧
    ∀ n, ∃ F, Run perMeta 2 P [sp] [1, 2] n I F := by
  intro I
  have hd : perMeta.doms.length = 2 := by decide +kernel
  have s0 : sizes perMeta 0 = [5, 7] := by decide +kernel
  have s1 : sizes perMeta 1 = [6, 7] := by decide +kernel
  have hk : sp.kind = mirrorSp.kind := by rcases hsp with rfl | rfl <;> rfl
  have hdt : sp.dtE = mirrorSp.dtE := by rcases hsp with rfl | rfl <;> rfl
  have e : P.dt = 1 / 20 ∧ P.dx = 1 / 10 ∧ P.O = 1 ∧ P.ng = 2 := by
    rcases hP with rfl | rfl <;> exact ⟨rfl, rfl, rfl, rfl⟩
  have hslow : Slow P sp := C135_courant (by rw [e.2.1]; norm_num) (by rw [e.1]; norm_num)
    (by rw [e.1, e.2.1]; norm_num) fun u => by rw [hdt, e.1]; rfl
  have hkind : ∀ s q, [sp][s]? = some q → s = 0 ∧ q = sp := by
    intro s q e
    obtain ⟨a, b⟩ := List.getElem?_eq_some_iff.1 e
    simp at a
    subst a
    exact ⟨rfl, b.symm⟩
  have v1 : (mirrorSp.kind.view (unitOne w)).cell = [4, 3] := rfl
  have t1 : AllTame perMeta [sp] I.prtl := by
    intro s q e r hr
    obtain ⟨rfl, rfl⟩ := hkind s q e
    rw [hd] at hr
    rw [hk]
    interval_cases r
    · exact mirrorStore_tame le_rfl rfl ⟨rfl, rfl⟩ fun _ => by rw [v1, s0]; decide
    · exact mirrorStore_tame (Nat.zero_le _) rfl ⟨rfl, rfl⟩ fun h => by cases h
  have l1 : held perMeta [[5, 6], [7]] mirrorSp.kind (I.prtl 0) =
      [gview perMeta [[5, 6], [7]] 0 mirrorSp.kind (unitOne w)] := by
    unfold held
    rw [hd]
    simp [List.range_succ, I, (solidStore_live (q := unitOne w) rfl).1,
      (solidStore_live (q := unitOne w) rfl).2]
  have f1 : Fits perMeta [[5, 6], [7]] [sp] (fun _ => 1) (fun _ => 1) I := by
    refine ⟨fun s q e => ?_, fun s q e => ?_⟩ <;> obtain ⟨rfl, rfl⟩ := hkind s q e <;> rw [hk]
    · rw [l1]
      intro v hv
      rw [List.mem_singleton.1 hv]
      intro x hx
      have : x ∈ [(3 / 4 : ℝ), 1 / 2] := hx
      simp only [List.mem_cons, List.not_mem_nil, or_false] at this
      rcases this with rfl | rfl <;> norm_num
    · refine ⟨by rw [l1]; simp, le_rfl, fun r _ => ?_, fun r _ => ?_⟩
      · by_cases h0 : r = 0 <;> simp [I, h0, solidStore]
      · by_cases h0 : r = 0 <;> simp [I, h0, solidStore, Store.maxnpart]
  exact ⟨t1, l1, (C135_no_step_fails_partial (P := P) (sps := [sp]) perMeta_built ⟨rfl, by decide⟩
    (by decide) (by rw [e.2.2.1, e.2.2.2]; decide) (by rw [e.2.2.1]; decide) (by rw [e.2.2.1]; decide)
    (by rw [e.2.2.2]; unfold Wide; decide) (by
      intro r hr x hx
      rw [hd] at hr
      interval_cases r
      · rw [s0] at hx; revert x; decide
      · rw [s1] at hx; revert x; decide) (by simp [hk, mirrorSp]) (by simpa using fun _ => hslow) t1 f1
      [1, 2]).2⟩

/-- The hypotheses are met. -/
theorem units_example (f : Nat → Option (List Int) → ℝ) : ∃ I I' : State ℝ,
    (I.M = fun r x => f x.comp (globalPos perMeta [11, 7] 2 r x.idx)) ∧
    ScaledEB perMeta perMeta [11, 7] 2 2 I.M I'.M ∧
    AllTame perMeta [mirrorSp] I.prtl ∧ AllTame perMeta [unitSp] I'.prtl ∧
    List.Forall₂ (Rescaled 2 2) [mirrorSp] [unitSp] ∧
    unitPrm.q0 / (unitPrm.B0 * unitPrm.V0) * (2 * 3) = 2 * (mirrorPrm.q0 / (mirrorPrm.B0 * mirrorPrm.V0)) ∧
    (held perMeta [[5, 6], [7]] mirrorSp.kind (I'.prtl 0)).Perm
      ((held perMeta [[5, 6], [7]] mirrorSp.kind (I.prtl 0)).map (weighView 3)) ∧
    ∀ n, ∃ F F', Run perMeta 2 mirrorPrm [mirrorSp] [1, 2] n I F ∧
      Run perMeta 2 unitPrm [unitSp] [1, 2] n I' F' := by
  obtain ⟨a1, b1, c1⟩ := unit_run mirrorPrm (.inl rfl) mirrorSp (.inl rfl) 1
    (fun r x => f x.comp (globalPos perMeta [11, 7] 2 r x.idx))
  obtain ⟨a2, b2, c2⟩ := unit_run unitPrm (.inr rfl) unitSp (.inr rfl) 3
    (fun r x => 2 * f x.comp (globalPos perMeta [11, 7] 2 r x.idx))
  refine ⟨_, _, rfl, ?_, a1, a2, .cons unitSp_rescaled .nil, by norm_num [unitPrm, mirrorPrm], ?_,
    fun n => ?_⟩
  · intro r i r' i' p hi hi' hip hip' c _
    show 2 * f c (globalPos perMeta [11, 7] 2 r' i') = 2 * f c (globalPos perMeta [11, 7] 2 r i)
    rw [hip, hip']
  · rw [b1, b2]
    refine .of_eq ?_
    simp [gview, weighView, unitOne, Kind.view]
  · obtain ⟨F, hF⟩ := c1 n
    obtain ⟨F', hF'⟩ := c2 n
    exact ⟨F, F', hF, hF'⟩

end Entity.Full
