import Verif.Lemmas.FullSafe
import Verif.Spec.FullGauss

/-!
# The charges before and after a step
-/

namespace Entity.Full

open Entity Entity.Topology Entity.Kernel Entity.FieldSolver Entity.Push Entity.Prtl Entity.Ranks
open Entity.Deposit Entity.Interp Entity.Tags Entity.Decomp Entity.Gauss Entity.Dir Entity.Filter

variable {m : Meta} {dN : List (List Nat)}
variable {K : Type} [Field K] [LinearOrder K] [IsStrictOrderedRing K] [FloorRing K] [Inhabited K]

/-- The charge at the position before the push. -/
def chargePrev (charge : K) (v : View K) : Charge K :=
  ⟨v.weight * charge, List.zipWith (fun (i : Int) x => (i : K) + x) v.cellPrev v.dxPrev⟩

omit [FloorRing K] [Inhabited K] in
/-- Cells may be taken modulo the box. -/
theorem density_mod (deg : Nat) {N : List Nat} {w : K} {c : List Int} {x : List K}
    (hc : c.length = N.length) (p : List Int) :
    density deg N [⟨w, List.zipWith (fun (i : Int) x => (i : K) + x) (wrap N c) x⟩] p =
      density deg N [⟨w, List.zipWith (fun (i : Int) x => (i : K) + x) c x⟩] p := by
  apply density_same
  refine ⟨_, .refl _, .cons ⟨rfl, List.zipWith (fun (n : Nat) (i : Int) => i / n) N c, by simp [hc], ?_⟩
    .nil⟩
  apply List.ext_getElem
  · simp [wrap, hc]
  · intro a h1 h2
    simp only [List.getElem_zipWith, wrap]
    have := Int.emod_add_mul_ediv (c[a]'(by simp at h1; omega)) (N[a]'(by simp at h1; omega))
    have e : (c[a]'(by simp at h1; omega)) = c[a]'(by simp at h1; omega) % (N[a]'(by simp at h1; omega) : Int)
        + (c[a]'(by simp at h1; omega) / (N[a]'(by simp at h1; omega) : Int)) * (N[a]'(by simp at h1; omega) : Int) := by
      rw [mul_comm]; exact this.symm
    have e' := congrArg (fun z : Int => (z : K)) e
    simp only [Int.cast_add] at e'
    rw [e']
    ring


/-! ## The charges the deposit sees -/

/-- What is deposited: frozen species without their particles. -/
def carriers (P : StepPrm K) (sps : List (SpPrm K)) (st : Nat → Nat → Store K) (r : Nat) :
    List (Sp K) :=
  sps.mapIdx fun s sp =>
    ⟨sp.charge, sp.frozen, if sp.frozen then [] else (st s r).used.map (toD P sp)⟩

omit [LinearOrder K] [IsStrictOrderedRing K] [FloorRing K] [Inhabited K] in
theorem filter_mapIdx_congr {α β : Type} {f g : Nat → α → β} {p : β → Bool} (l : List α)
    (h : ∀ i x, x ∈ l → (p (f i x) = false ∧ p (g i x) = false) ∨ f i x = g i x) :
    (l.mapIdx f).filter p = (l.mapIdx g).filter p := by
  induction l generalizing f g with
  | nil => rfl
  | cons a l ih =>
    rw [List.mapIdx_cons, List.mapIdx_cons]
    have := ih (f := fun i => f (i + 1)) (g := fun i => g (i + 1)) fun i x hx => h (i + 1) x (by simp [hx])
    rcases h 0 a (by simp) with ⟨h1, h2⟩ | h1
    · rw [List.filter_cons_of_neg (by simp [h1]), List.filter_cons_of_neg (by simp [h2]), this]
    · rw [h1]
      by_cases hb : p (g 0 a) = true
      · rw [List.filter_cons_of_pos hb, List.filter_cons_of_pos hb, this]
      · rw [List.filter_cons_of_neg hb, List.filter_cons_of_neg hb, this]

theorem carriers_phase {P : StepPrm K} {sps : List (SpPrm K)} {st : Nat → Nat → Store K} {M M' : MMem K}
    (hd : DepositPhase m P (depositors P sps st) M M') : DepositPhase m P (carriers P sps st) M M' := by
  obtain ⟨M1, M2, M3, h1, h2, h3, h4⟩ := hd
  refine ⟨M1, M2, M3, fun r hr => ?_, h2, h3, h4⟩
  obtain ⟨uss, vs, J, a, b, c, d⟩ := h1 r hr
  refine ⟨uss, vs, J, ?_, b, c, d⟩
  rw [← a]
  unfold carriers depositors
  congr 1
  apply filter_mapIdx_congr
  intro i x _
  cases hf : x.frozen
  · right; rfl
  · left; simp [deposits]

/-- Density of one charge. -/
noncomputable def den (P : StepPrm K) (dN : List (List Nat)) (c : Charge K) (p : List Int) : K :=
  density (degree P.O) (dN.map List.sum) [c] p

omit [FloorRing K] [Inhabited K] in
theorem density_den (P : StepPrm K) (cs : List (Charge K)) (p : List Int) :
    density (degree P.O) (dN.map List.sum) cs p = (cs.map fun c => den P dN c p).sum := by
  simp [den, density]

theorem den_new (h : Built m dN) (hD : dN.length ∈ [1, 2, 3]) (P : StepPrm K) {s : SpPrm K}
    (hk : s.kind.D = dN.length) {r : Nat} (hr : r < m.doms.length) (q : Prtl K) (p : List Int) :
    den P dN ⟨(toD P s q).weight * s.charge, List.zipWith (fun a (o : Nat) => xNew a + (o : K))
      (toD P s q).ax (((m.doms[r]?).map (·.offsetNcells)).getD [])⟩ p =
      den P dN (chargeOf s.charge (gview m dN r s.kind q)) p ∧
    den P dN ⟨(toD P s q).weight * s.charge, List.zipWith (fun a (o : Nat) => xOld a + (o : K))
      (toD P s q).ax (((m.doms[r]?).map (·.offsetNcells)).getD [])⟩ p =
      den P dN (chargePrev s.charge (gview m dN r s.kind q)) p := by
  have hD' : s.kind.D ∈ [1, 2, 3] := hk ▸ hD
  obtain ⟨v1, v2, v3, v4⟩ := view_axes hD' q
  have hl := (axes_length hD' q).trans hk
  have ho := offI_length h hr
  have hoff : ((m.doms[r]?).map (·.offsetNcells)).getD [] = offs m r := by
    unfold offs; rfl
  have hol := offs_length h hr
  unfold den chargeOf chargePrev
  have hw : (gview m dN r s.kind q).weight = (toD P s q).weight := rfl
  have c1 : (gview m dN r s.kind q).cell = wrap (dN.map List.sum)
      (List.zipWith (· + ·) ((axes s.kind.D q).map (·.i)) (offI m r)) := by
    show globalCells m dN r (s.kind.view q).cell = _
    rw [v1, globalCells_eq h hr (by simp [hl])]
  have c2 : (gview m dN r s.kind q).cellPrev = wrap (dN.map List.sum)
      (List.zipWith (· + ·) ((axes s.kind.D q).map (·.iPrev)) (offI m r)) := by
    show globalCells m dN r (s.kind.view q).cellPrev = _
    rw [v2, globalCells_eq h hr (by simp [hl])]
  have d1 : (gview m dN r s.kind q).dx = (axes s.kind.D q).map (·.dx) := v3
  have d2 : (gview m dN r s.kind q).dxPrev = (axes s.kind.D q).map (·.dxPrev) := v4
  rw [hw, c1, c2, d1, d2, hoff]
  constructor
  · rw [density_mod _ (by simp [hl, ho])]
    congr 3
    apply List.ext_getElem
    · simp [toD, hl, ho, hol]
    · intro a h1 h2
      simp [toD, offI, xNew]; ring
  · rw [density_mod _ (by simp [hl, ho])]
    congr 3
    apply List.ext_getElem
    · simp [toD, hl, ho, hol]
    · intro a h1 h2
      simp [toD, offI, xOld]; ring

/-- Where a pushed particle comes from. -/
theorem den_prev {P : StepPrm K} {s : SpPrm K} (hf : s.frozen = false) {x0 : List K} {t : Nat}
    {g : GMem K} {v : View K} (hc : v.cell.length = dN.length) (hx : v.dx.length = dN.length)
    (p : List Int) :
    den P dN (chargePrev s.charge (boxPush P s x0 t (dN.map List.sum) g v)) p =
      den P dN (chargeOf s.charge v) p := by
  unfold den chargePrev chargeOf boxPush
  rw [if_neg (by simp [hf])]
  simp only
  rw [density_mod _ (by simp [boxMoved, axesOf, hc])]
  congr 3
  apply List.ext_getElem
  · simp [boxMoved, axesOf, hc, hx]
  · intro a h1 h2
    have ha : a < dN.length := by simp [hc, hx] at h2; exact h2
    simp [boxMoved, axesOf, pushAxis, hc, hx, ha]

/-- The density of the deposited charges, species by species. -/
theorem density_carriers (P : StepPrm K) (sps : List (SpPrm K)) (st : Nat → Nat → Store K)
    (pos : Ax K → K) (p : List Int) :
    density (degree P.O) (dN.map List.sum) (charges m pos (carriers P sps st)) p =
      (sps.zipIdx.map fun (x : SpPrm K × Nat) => if x.1.frozen then 0 else
        ((List.range m.doms.length).map fun (r : Nat) => ((moving (st x.2 r)).map fun q =>
          den P dN ⟨(toD P x.1 q).weight * x.1.charge, List.zipWith (fun a (o : Nat) => pos a + (o : K))
            (toD P x.1 q).ax (((m.doms[r]?).map (·.offsetNcells)).getD [])⟩ p).sum).sum).sum := by
  have e : ∀ x : SpPrm K × Nat, (if x.1.frozen then (0 : K) else
        ((List.range m.doms.length).map fun (r : Nat) => ((moving (st x.2 r)).map fun q =>
          den P dN ⟨(toD P x.1 q).weight * x.1.charge, List.zipWith (fun a (o : Nat) => pos a + (o : K))
            (toD P x.1 q).ax (((m.doms[r]?).map (·.offsetNcells)).getD [])⟩ p).sum).sum) =
      ((List.range m.doms.length).map fun (r : Nat) => if x.1.frozen then (0 : K) else
        ((moving (st x.2 r)).map fun q =>
          den P dN ⟨(toD P x.1 q).weight * x.1.charge, List.zipWith (fun a (o : Nat) => pos a + (o : K))
            (toD P x.1 q).ax (((m.doms[r]?).map (·.offsetNcells)).getD [])⟩ p).sum).sum := by
    intro x
    cases x.1.frozen <;> simp
  simp only [e]
  rw [sum_swap]
  unfold charges
  rw [density_flatMap]
  congr 1
  apply List.map_congr_left
  intro r _
  rw [density_flatMap]
  unfold carriers
  rw [List.mapIdx_eq_zipIdx_map, List.map_map]
  congr 1
  apply List.map_congr_left
  intro x _
  simp only [Function.comp_apply]
  cases hf : x.1.frozen
  · simp only [Bool.false_eq_true, if_false]
    rw [density_den, List.map_map, moving, List.filter_map, List.map_map]
    rfl
  · simp [density]

theorem held_sum (k : Kind) (f : Nat → Store K) (F : View K → K) :
    ((held m dN k f).map F).sum = ((List.range m.doms.length).map fun (r : Nat) =>
      (((f r).live.map (gview m dN r k)).map F).sum).sum := by
  unfold held
  rw [List.map_flatMap, sum_flat]

theorem density_chargesOf (P : StepPrm K) (sps : List (SpPrm K)) (st : Nat → Nat → Store K)
    (p : List Int) :
    density (degree P.O) (dN.map List.sum) (chargesOf m dN sps st) p =
      (sps.zipIdx.map fun (x : SpPrm K × Nat) => ((held m dN x.1.kind (st x.2)).map fun v =>
        den P dN (chargeOf x.1.charge v) p).sum).sum := by
  unfold chargesOf
  rw [density_flatMap]
  congr 1
  apply List.map_congr_left
  intro x _
  rw [density_den, List.map_map]
  rfl

/-- The change of the density of all charges is that of the deposited ones. -/
theorem density_change (h : Built m dN) (hp : AllPeriodic m) (hD : dN.length ∈ [1, 2, 3])
    {P : StepPrm K} (hw : Wide dN P.ng) {sps : List (SpPrm K)} (hk : ∀ s ∈ sps, s.kind.D = dN.length)
    {x0 : List K} {t : Nat} {M : MMem K} {g : GMem K}
    (hg : Shows m (dN.map List.sum) P.ng selEB M g) {st st1 st2 st3 : Nat → Nat → Store K}
    (ht : AllTame m sps st) (h1 : PushAll m P sps x0 t M st st1) (h2 : ExchangeAll m sps st1 st2)
    (h3 : TidyAll m sps st2 st3) (p : List Int) :
    density (degree P.O) (dN.map List.sum) (charges m xNew (carriers P sps st1)) p -
      density (degree P.O) (dN.map List.sum) (charges m xOld (carriers P sps st1)) p =
    density (degree P.O) (dN.map List.sum) (chargesOf m dN sps st3) p -
      density (degree P.O) (dN.map List.sum) (chargesOf m dN sps st) p := by
  rw [density_carriers, density_carriers, density_chargesOf, density_chargesOf, sum_map_sub,
    sum_map_sub]
  congr 1
  apply List.map_congr_left
  rintro ⟨sp, s⟩ hx
  have e : sps[s]? = some sp := by
    have := List.mk_mem_zipIdx_iff_getElem?.1 hx
    exact this
  have hm := List.mem_of_getElem? e
  obtain ⟨S, l, c1, c2, c3⟩ := h2 s sp e
  obtain ⟨-, hperm⟩ := prtl_step h hp hD hw (hk sp hm) hg (ht s sp e) (h1 s sp e) c1 c2 c3 (h3 s sp e)
  simp only
  rw [(hperm.map _).sum_eq, List.map_map]
  cases hf : sp.frozen
  · simp only [Bool.false_eq_true, if_false]
    have hD' : sp.kind.D ∈ [1, 2, 3] := hk sp hm ▸ hD
    have hpush : ∀ r, r < m.doms.length → (moving (st1 s r)).map (gview m dN r sp.kind) =
        (((st s r).live).map (gview m dN r sp.kind)).map (boxPush P sp x0 t (dN.map List.sum) g) := by
      intro r hr
      obtain ⟨σ, hσ, e'⟩ := h1 s sp e r hr
      exact (push_rank h hp hD (hk sp hm) hr hg hσ (ht s sp e r hr) e').2.1
    rw [held_sum, held_sum]
    congr 1
    · congr 1
      apply List.map_congr_left
      intro r hr
      have hr := List.mem_range.1 hr
      have : ((moving (st1 s r)).map fun q => den P dN (chargeOf sp.charge (gview m dN r sp.kind q)) p) =
          ((moving (st1 s r)).map (gview m dN r sp.kind)).map fun v => den P dN (chargeOf sp.charge v) p := by
        rw [List.map_map]; rfl
      rw [List.map_congr_left fun q _ => (den_new h hD P (hk sp hm) hr q p).1, this, hpush r hr,
        List.map_map]
    · congr 1
      apply List.map_congr_left
      intro r hr
      have hr := List.mem_range.1 hr
      have : ((moving (st1 s r)).map fun q => den P dN (chargePrev sp.charge (gview m dN r sp.kind q)) p) =
          ((moving (st1 s r)).map (gview m dN r sp.kind)).map fun v => den P dN (chargePrev sp.charge v) p := by
        rw [List.map_map]; rfl
      rw [List.map_congr_left fun q _ => (den_new h hD P (hk sp hm) hr q p).2, this, hpush r hr,
        List.map_map]
      congr 1
      apply List.map_congr_left
      intro v hv
      obtain ⟨q, -, rfl⟩ := List.mem_map.1 hv
      refine den_prev hf ?_ ?_ p
      · show (globalCells m dN r _).length = _
        simp [globalCells]
      · show (sp.kind.view q).dx.length = _
        rw [(view_axes hD' q).2.2.1, List.length_map, axes_length hD', hk sp hm]
  · have : (fun v => den P dN (chargeOf sp.charge v) p) ∘ boxPush P sp x0 t (dN.map List.sum) g =
        fun v => den P dN (chargeOf sp.charge v) p := by
      funext v
      simp [boxPush, hf]
    rw [this]
    simp

/-- One step. -/
theorem gauss_step (h : Built m dN) (hp : AllPeriodic m) (hD : dN.length ∈ [1, 2, 3])
    {P : StepPrm K} (hng : 2 ≤ P.ng) (hw : Wide dN P.ng) (hO : P.O ≤ 11) (h3 : P.O = 0 → dN.length ≤ 2)
    {sps : List (SpPrm K)} (hk : ∀ s ∈ sps, s.kind.D = dN.length)
    (hsl : ∀ s ∈ sps, s.frozen = false → Slow P s) {x0 : List K} {t : Nat} {A A' : State K}
    {g : GMem K} (hg : Shows m (dN.map List.sum) P.ng selEB A.M g) (ht : AllTame m sps A.prtl)
    (hoff : ∀ s sp, sps[s]? = some sp → ∀ v ∈ held m dN sp.kind (A.prtl s), OffsetOk v)
    (hs : FullStep m dN.length P sps x0 t A A') :
    ∃ g' : GMem K, Shows m (dN.map List.sum) P.ng selEB A'.M g' ∧
      ∀ p : List Int, p.length = dN.length →
        divDown dN.length (electric (g'.unroll (dN.map List.sum)) p) =
          divDown dN.length (electric (g.unroll (dN.map List.sum)) p) + P.coeff *
          (W dN.length)^[P.nf] (fun p =>
            -(density (degree P.O) (dN.map List.sum) (chargesOf m dN sps A'.prtl) p -
            density (degree P.O) (dN.map List.sum) (chargesOf m dN sps A.prtl) p) / P.dt) p := by
  obtain ⟨M1, M2, M3, st1, st2, s1, s2, s3, s4, s5, s6, s7⟩ := hs
  have hstep : Step m dN.length { P with fieldsolver := true, deposit := true } (carriers P sps st1)
      A.M A'.M := ⟨M1, M2, s1, carriers_phase s3, M3, s5, s6⟩
  have hfit : ∀ r, r < m.doms.length → ∀ s ∈ carriers P sps st1 r, ∀ p ∈ s.ps,
      FitStep P.O dN.length p := by
    intro r hr x hx q' hq'
    obtain ⟨i, hi, rfl⟩ := List.mem_mapIdx.1 hx
    have e : sps[i]? = some sps[i] := List.getElem?_eq_getElem hi
    have hm := List.mem_of_getElem? e
    cases hf : sps[i].frozen
    · simp only [hf, Bool.false_eq_true, if_false, List.mem_map] at hq'
      obtain ⟨q, hq, rfl⟩ := hq'
      obtain ⟨σ, hσ, e'⟩ := s2 i _ e r hr
      have := used_within (O := 1) h hp hD (Or.inr rfl) (hk _ hm) hf (hsl _ hm hf) hr (ht i _ e r hr)
        (held_mem (Q := OffsetOk) (hoff i _ e) hr) hσ e' q hq
      refine ⟨?_, fun h0 => ?_⟩
      · rcases this with e0 | e0
        · exact Or.inl e0
        · refine Or.inr ⟨(axes_length (hk _ hm ▸ hD) q).trans (hk _ hm), fun a ha => ?_⟩
          obtain ⟨j, hj, rfl⟩ := List.getElem_of_mem ha
          have hl := e0.length_eq
          exact ((List.forall₂_iff_get.1 e0).2 j (by simp [toD] at hj; omega) hj).fit
      · have := h3 h0
        simp at hD
        omega
    · simp [hf] at hq'
  obtain ⟨g', hg', hdiv⟩ := step_shows (P := { P with fieldsolver := true, deposit := true }) h hp hD hng hw hO
    rfl rfl hfit hg hstep
  refine ⟨g', hg', fun p hpl => ?_⟩
  obtain ⟨M1', hl1, hc1⟩ := s1
  have g1 := kernel_comm_shows h hp hD hw (faraday_own hD _ _ _) (faraday_reach hD hng _ _ _)
    (faraday_sel hD _ _ _) hg hl1 hc1
  have key := hdiv p hpl
  rw [key]
  congr 2
  refine congrFun (congrArg _ (funext fun p => ?_)) p
  simp only
  rw [density_change h hp hD hw hk g1 ht s2 s4 s7 p]

end Entity.Full
