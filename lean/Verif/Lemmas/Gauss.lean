import Verif.Spec.Gauss
import Verif.Lemmas.Fold
import Verif.Props.Deposit
import Verif.Props.Filter
import Verif.Lemmas.Prtl

/-!
# Charge density on the box and on the ranks; the current after synchronisation
-/

namespace Entity.Gauss

open Entity Entity.Topology Entity.Shapes Entity.Push Entity.Tags Entity.Deposit Entity.Ranks
open Entity.FieldSolver Entity.Kernel Entity.Decomp

variable {K : Type} [Field K] [LinearOrder K] [IsStrictOrderedRing K]
variable {m : Meta} {dN : List (List Nat)}

/-- Cell offset of the subdomain of rank `r`. -/
def offs (m : Meta) (r : Nat) : List Nat := ((m.doms[r]?).map (·.offsetNcells)).getD []

/-- Global position of array index 0. -/
def origin (m : Meta) (ng r : Nat) : List Int := (offs m r).map (fun (o : Nat) => (o : Int) - ng)

theorem offs_length (h : Built m dN) {r : Nat} (hr : r < m.doms.length) :
    (offs m r).length = dN.length := by
  obtain ⟨R, hR⟩ := h.getRec_lt hr
  simp [offs, hR.dom, mkSub, hR.len]

theorem globalPos_origin (h : Built m dN) (ng : Nat) {r : Nat} (hr : r < m.doms.length) {i : List Int}
    (hi : i.length = dN.length) : globalPos m (dN.map List.sum) ng r i =
      some (wrap (dN.map List.sum) (List.zipWith (· + ·) i (origin m ng r))) := by
  obtain ⟨R, hR⟩ := h.getRec_lt hr
  have hl := hR.len
  unfold globalPos origin offs wrap
  rw [hR.dom]
  simp only [Option.map_some, Option.getD_some, Option.some.injEq, mkSub]
  apply List.ext_getElem
  · simp [hi, hl]
  · intro a h1 h2
    simp only [List.getElem_zipWith, List.getElem_zip, List.getElem_map]
    congr 1; ring

theorem pos_sums (h : Built m dN) {ng : Nat} (hw : Wide dN ng) : ∀ n ∈ dN.map List.sum, 0 < n := by
  intro n hn
  obtain ⟨l, hl, rfl⟩ := List.mem_map.1 hn
  obtain ⟨x, hx⟩ := List.exists_mem_of_ne_nil l (h.ne l hl)
  have := (hw l hl x hx).1
  have := List.single_le_sum (fun _ _ => Nat.zero_le _) x hx
  omega

/-! ## Splines -/

theorem spline_support (deg : Nat) (X : K) (NG : Int) :
    (Function.support fun k : Int => bspline deg (X - ((k - NG : Int) : K))).Finite := by
  by_cases hne : ∃ k0 : Int, bspline deg (X - ((k0 - NG : Int) : K)) ≠ 0
  · obtain ⟨k0, h0⟩ := hne
    have b : ∀ x : K, bspline deg x ≠ 0 → -(((deg : K) + 1) / 2) ≤ x ∧ x < ((deg : K) + 1) / 2 := by
      intro x hx
      constructor
      · by_contra hc; exact hx (bspline_lo deg x (not_le.1 hc))
      · by_contra hc; exact hx (bspline_hi deg x (not_lt.1 hc))
    refine (Set.finite_Icc (k0 - (deg + 1)) (k0 + (deg + 1))).subset ?_
    intro k hk
    have h1 := b _ h0
    have h2 := b _ hk
    push_cast at h1 h2
    constructor
    · have : (k0 : K) - ((deg : K) + 1) ≤ k := by linarith [h1.1, h2.2]
      exact_mod_cast this
    · have : (k : K) ≤ (k0 : K) + ((deg : K) + 1) := by linarith [h1.2, h2.1]
      exact_mod_cast this
  · push Not at hne
    convert Set.finite_empty
    ext k
    have := hne k
    simp only [Function.mem_support, this, ne_eq, not_true_eq_false, Set.mem_empty_iff_false]

theorem weightOn_shift (deg N : Nat) (X : K) (p k : Int) :
    weightOn deg N (X + ((k * N : Int) : K)) p = weightOn deg N X p := by
  unfold weightOn
  rw [← finsum_comp_equiv (Equiv.addRight k)]
  apply finsum_congr
  intro j
  congr 1
  simp only [Equiv.coe_addRight]
  push_cast
  ring

theorem weightOn_periodic (deg N : Nat) (X : K) (p : Int) :
    weightOn deg N X (p % N) = weightOn deg N X p := by
  unfold weightOn
  rw [← finsum_comp_equiv (Equiv.addRight (p / (N : Int)))]
  apply finsum_congr
  intro j
  simp only [Equiv.coe_addRight]
  rw [show p % (N : Int) + (j + p / N) * N = p + j * N by
    have := Int.mul_ediv_add_emod p N; linarith [mul_comm (N : Int) (p / N)]]

/-! ## Densities -/

theorem density_append (deg : Nat) (N : List Nat) (a b : List (Charge K)) (p : List Int) :
    density deg N (a ++ b) p = density deg N a p + density deg N b p := by simp [density]

theorem density_flatMap {β : Type} (deg : Nat) (N : List Nat) (f : β → List (Charge K)) (l : List β)
    (p : List Int) : density deg N (l.flatMap f) p = (l.map fun b => density deg N (f b) p).sum := by
  induction l with
  | nil => rfl
  | cons b l ih => rw [List.flatMap_cons, density_append, ih]; simp

theorem density_wrap (deg : Nat) (N : List Nat) (cs : List (Charge K)) (p : List Int) :
    density deg N cs (wrap N p) = density deg N cs p := by
  unfold density
  congr 1
  apply List.map_congr_left
  intro c _
  congr 2
  apply List.ext_getElem
  · simp [wrap]; omega
  · intro i h1 h2
    simp only [wrap, List.getElem_zipWith, weightOn_periodic]

theorem density_same {N : List Nat} (deg : Nat) {a b : List (Charge K)}
    (h : SameAll N a b) (p : List Int) : density deg N a p = density deg N b p := by
  obtain ⟨c, h1, h2⟩ := h
  unfold density
  rw [(h1.map _).sum_eq]
  congr 1
  clear h1
  induction h2 with
  | nil => rfl
  | cons hs _ ih =>
    rename_i u v _ _ _
    obtain ⟨hq, k, hk, hx⟩ := hs
    simp only [List.map_cons, ih]
    congr 1
    rw [hq, hx]
    congr 3
    apply List.ext_getElem
    · simp; omega
    · intro i h1 h2
      simp only [List.getElem_zipWith]
      funext y
      rw [weightOn_shift]

theorem charge_fin0 (deg : Nat) (NG : Int) (charge : K) (pos : Ax K → K) {D : Nat} {p : DPrtl K}
    (hp : p.tag = dead ∨ p.ax.length = D) :
    Fin0 D (fun n => chargeAt deg NG charge pos n p) := by
  unfold chargeAt
  split
  · exact fin0_zero D
  · have hl := hp.resolve_left ‹_›
    apply fin0_mul
    have := fin0_prod (fs := p.ax.map fun a (k : Int) => bspline deg (pos a - ((k - NG : Int) : K)))
      (fun f hf => by
        obtain ⟨a, _, rfl⟩ := List.mem_map.1 hf
        exact spline_support deg (pos a) NG)
    rw [List.length_map, hl] at this
    have e : (prodFn (p.ax.map fun a (k : Int) => bspline deg (pos a - ((k - NG : Int) : K)))) =
        fun n => (List.zipWith (fun a k => bspline deg (pos a - ((k - NG : Int) : K))) p.ax n).prod := by
      funext n
      simp only [prodFn, List.zipWith_map_left]
    rwa [e] at this

/-- The charge of a particle, summed over all array indices that stand for a node of the box. -/
theorem fold_charge (h : Built m dN) {ng : Nat} (hw : Wide dN ng) {r : Nat} (hr : r < m.doms.length)
    (deg : Nat) (charge : K) (pos : Ax K → K) {p : DPrtl K} (ht : p.tag ≠ dead)
    (hl : p.ax.length = dN.length) {y : List Int} (hyl : y.length = dN.length)
    (hy : wrap (dN.map List.sum) y = y) :
    fold (dN.map List.sum) (origin m ng r) (fun n => chargeAt deg ng charge pos n p) y =
      p.weight * charge * (List.zipWith (fun f y => f y) (List.zipWith (weightOn deg) (dN.map List.sum)
        (List.zipWith (fun a (o : Nat) => pos a + (o : K)) p.ax (offs m r))) y).prod := by
  simp only [chargeAt, if_neg ht]
  rw [fold_mul]
  congr 1
  have e : (fun n : List Int => (List.zipWith (fun a k => bspline deg (pos a - ((k - (ng : Int) : Int) : K)))
      p.ax n).prod) =
      prodFn (p.ax.map fun a (k : Int) => bspline deg (pos a - ((k - (ng : Int) : Int) : K))) := by
    funext n
    simp only [prodFn, List.zipWith_map_left]
  have ho := offs_length h hr
  rw [e, fold_prod (pos_sums h hw) (fun f hf => by
        obtain ⟨a, _, rfl⟩ := List.mem_map.1 hf
        exact spline_support deg (pos a) ng) (by simp [hl]) (by simp [origin, ho])
        (by simp [hyl]) hy]
  congr 1
  apply List.ext_getElem
  · simp [hl, ho, hyl, origin]
  · intro i h1 h2
    simp only [List.getElem_zipWith, List.getElem_map, origin, sumOver, weightOn]
    apply finsum_congr
    intro k
    congr 1
    push_cast
    ring

/-- Charge density of the moving particles of a rank, on the array of the rank. -/
def rankRho (deg : Nat) (NG : Int) (pos : Ax K → K) (sps : List (Sp K)) (n : List Int) : K :=
  (sps.map fun s => if s.frozen then 0 else rho deg NG s.charge pos s.ps n).sum

theorem rho_fin0 (deg : Nat) (NG : Int) (charge : K) (pos : Ax K → K) {D : Nat} {ps : List (DPrtl K)}
    (hp : ∀ p ∈ ps, Fit D p) : Fin0 D (rho deg NG charge pos ps) := by
  unfold rho
  exact fin0_list ps fun p h => charge_fin0 deg NG charge pos ((hp p h).imp id (·.1))

theorem rankRho_fin0 (deg : Nat) (NG : Int) (pos : Ax K → K) {D : Nat} {sps : List (Sp K)}
    (hp : ∀ s ∈ sps, ∀ p ∈ s.ps, Fit D p) : Fin0 D (rankRho deg NG pos sps) := by
  unfold rankRho
  refine fin0_list sps fun s h => ?_
  by_cases hf : s.frozen
  · simpa [hf] using fin0_zero D
  · simpa [hf] using rho_fin0 deg NG s.charge pos (hp s h)

theorem fold_rho (h : Built m dN) {ng : Nat} (hw : Wide dN ng) {r : Nat} (hr : r < m.doms.length)
    (deg : Nat) (charge : K) (pos : Ax K → K) {ps : List (DPrtl K)}
    (hp : ∀ p ∈ ps, Fit dN.length p) {y : List Int} (hyl : y.length = dN.length)
    (hy : wrap (dN.map List.sum) y = y) :
    fold (dN.map List.sum) (origin m ng r) (rho deg ng charge pos ps) y =
      density deg (dN.map List.sum) ((ps.filter (fun p => p.tag ≠ dead)).map fun p =>
        ⟨p.weight * charge, List.zipWith (fun a (o : Nat) => pos a + (o : K)) p.ax (offs m r)⟩) y := by
  have hlen : (dN.map List.sum).length = dN.length := by simp
  induction ps with
  | nil =>
    have : rho deg ng charge pos [] = fun _ => (0 : K) := by funext n; rfl
    rw [this, fold_zero]; rfl
  | cons p ps ih =>
    have ih := ih fun q hq => hp q (by simp [hq])
    have e : rho deg ng charge pos (p :: ps) =
        fun n => chargeAt deg ng charge pos n p + rho deg ng charge pos ps n := by
      funext n; simp [rho]
    rw [e, fold_add (by
        rw [hlen]; exact charge_fin0 deg ng charge pos ((hp p (by simp)).imp id (·.1)))
      (by rw [hlen]; exact rho_fin0 deg ng charge pos fun q hq => hp q (by simp [hq])), ih]
    by_cases ht : p.tag = dead
    · rw [List.filter_cons_of_neg (by simp [ht])]
      have : (fun n => chargeAt deg ng charge pos n p) = fun _ => 0 := by
        funext n; simp [chargeAt, ht]
      rw [this, fold_zero, zero_add]
    · rw [List.filter_cons_of_pos (by simp [ht]), fold_charge h hw hr deg charge pos ht
        (((hp p (by simp)).resolve_left ht).1) hyl hy]
      simp [density]

/-- The density on the box is the sum over the ranks of the densities on their arrays. -/
theorem density_ranks (h : Built m dN) {ng : Nat} (hw : Wide dN ng) (deg : Nat) (pos : Ax K → K)
    {sps : Nat → List (Sp K)} (hp : ∀ r, r < m.doms.length → ∀ s ∈ sps r, ∀ p ∈ s.ps, Fit dN.length p)
    {y : List Int} (hyl : y.length = dN.length) (hy : wrap (dN.map List.sum) y = y) :
    density deg (dN.map List.sum) (charges m pos sps) y =
      ((List.range m.doms.length).map fun r =>
        fold (dN.map List.sum) (origin m ng r) (rankRho deg ng pos (sps r)) y).sum := by
  have hlen : (dN.map List.sum).length = dN.length := by simp
  unfold charges
  rw [density_flatMap]
  congr 1
  apply List.map_congr_left
  intro r hr
  have hr := List.mem_range.1 hr
  rw [density_flatMap]
  unfold rankRho
  rw [fold_list (sps r) (fun s hs => ?_)]
  · congr 1
    apply List.map_congr_left
    intro s hs
    by_cases hf : s.frozen
    · simpa [hf, density] using (fold_zero _ _ _).symm
    · simp only [hf, Bool.false_eq_true, if_false]
      rw [fold_rho h hw hr deg s.charge pos (hp r hr s hs) hyl hy]
      rfl
  · rw [hlen]
    by_cases hf : s.frozen
    · simpa [hf] using fin0_zero _
    · simpa [hf] using rho_fin0 deg ng s.charge pos (hp r hr s hs)

/-! ## Deposit on one rank -/

theorem inArray_of (h : Built m dN) {ng r : Nat} (hr : r < m.doms.length) {i : List Int}
    (hi : Deposit.inArray ((sizes m r).map (· + 2 * ng)) i = true) : InArray m ng r i := by
  obtain ⟨R, hR⟩ := h.getRec_lt hr
  have key : ∀ (ns : List Nat) (i : List Int), Deposit.inArray (ns.map (· + 2 * ng)) i = true →
      List.Forall₂ (fun (n : Nat) (x : Int) => 0 ≤ x ∧ x < n + 2 * ng) ns i := by
    intro ns
    induction ns with
    | nil =>
      intro i hi
      cases i with
      | nil => exact .nil
      | cons x i => simp [Deposit.inArray] at hi
    | cons n ns ih =>
      intro i hi
      cases i with
      | nil => simp [Deposit.inArray] at hi
      | cons x i =>
        simp only [List.map_cons, Deposit.inArray, Bool.and_eq_true, decide_eq_true_eq] at hi
        refine .cons ⟨hi.1.1, ?_⟩ (ih i hi.2)
        have := hi.1.2
        push_cast at this
        exact this
  have := key _ _ hi
  rw [hR.sizes] at this
  exact ⟨_, hR.dom, this⟩

theorem applyAll_in {nAll : List Nat} {us : List (Upd K)} {J J' : Cur K}
    (h : applyAll nAll us J = .ok J') {u : Upd K} (hu : u ∈ us) : Deposit.inArray nAll u.idx = true := by
  induction us generalizing J with
  | nil => simp at hu
  | cons v us ih =>
    simp only [applyAll, List.foldlM_cons] at h
    obtain ⟨J1, h1, h2⟩ := Outcome.bind_eq_ok.mp h
    rcases List.mem_cons.mp hu with rfl | hu
    · exact (applyUpd_ok h1).1
    · exact ih h2 hu

theorem total_ne {us : List (Upd K)} {c : Nat} {n : List Int} (h : total us c n ≠ 0) :
    ∃ u ∈ us, u.idx = n := by
  by_contra hc
  push Not at hc
  apply h
  unfold total
  apply List.sum_eq_zero
  intro x hx
  obtain ⟨u, hu, rfl⟩ := List.mem_map.1 hx
  rw [if_neg (fun hh => hc u hu hh.2)]

/-- What is assumed of the particles of a step: order at most 11; every particle dead or on the grid
with a displacement below one cell along every axis; for the zigzag scheme in three dimensions, no
displacement along one of the axes. -/
def FitStep (O D : Nat) (p : DPrtl K) : Prop :=
  Fit D p ∧ (O = 0 → p.tag = dead ∨ D = 1 ∨ D = 2 ∨ Planar p)

theorem continuity {O D : Nat} (hO : O ≤ 11) {NG : Int} {charge dt : K} {ps : List (DPrtl K)}
    (hp : ∀ p ∈ ps, FitStep O D p) {us : List (Upd K)} (hu : depositAll O NG charge dt ps = .ok us)
    {n : List Int} (hn : n.length = D) :
    div (total us) n =
      -(rho (degree O) NG charge xNew ps n - rho (degree O) NG charge xOld ps n) / dt := by
  subst hn
  refine launch hu fun p h ws hw => ?_
  by_cases h0 : O = 0
  · subst h0
    exact zigzag_one rfl (hp p h).1 ((hp p h).2 rfl) hw
  · rw [degree, if_neg h0]
    exact esirkepov_one (by omega) hO (hp p h).1 hw

theorem rho_zero (deg : Nat) (NG : Int) (pos : Ax K → K) (ps : List (DPrtl K)) (n : List Int) :
    rho deg NG 0 pos ps n = 0 := by
  unfold rho
  apply List.sum_eq_zero
  intro x hx
  obtain ⟨p, _, rfl⟩ := List.mem_map.1 hx
  simp [chargeAt]

theorem species_continuity {O D : Nat} (hO : O ≤ 11) {NG : Int} {dt : K} {sps : List (Sp K)}
    (hp : ∀ s ∈ sps, ∀ p ∈ s.ps, FitStep O D p) {uss : List (List (Upd K))}
    (hu : (sps.filter deposits).mapM (fun s => depositAll O NG s.charge dt s.ps) = .ok uss)
    {n : List Int} (hn : n.length = D) :
    div (total uss.flatten) n =
      -(rankRho (degree O) NG xNew sps n - rankRho (degree O) NG xOld sps n) / dt := by
  induction sps generalizing uss with
  | nil =>
    simp only [List.filter_nil, List.mapM_nil, Outcome.pure_eq, Outcome.ok.injEq] at hu
    subst hu
    simp [rankRho, div]
  | cons s sps ih =>
    have ih := fun {uss} => ih (uss := uss) fun t ht => hp t (by simp [ht])
    have hcons : ∀ pos, rankRho (degree O) NG pos (s :: sps) n =
        (if s.frozen then 0 else rho (degree O) NG s.charge pos s.ps n) +
          rankRho (degree O) NG pos sps n := fun pos => by simp [rankRho]
    rw [hcons, hcons]
    by_cases hd : deposits s = true
    · rw [List.filter_cons_of_pos hd, List.mapM_cons] at hu
      obtain ⟨us, h1, hu⟩ := Outcome.bind_eq_ok.mp hu
      obtain ⟨vs, h2, hu⟩ := Outcome.bind_eq_ok.mp hu
      simp only [Outcome.pure_eq, Outcome.ok.injEq] at hu
      subst hu
      have e : total (us :: vs).flatten = fun c k => total us c k + total vs.flatten c k := by
        funext c k; rw [List.flatten_cons]; exact total_append _ _ _ _
      have hf : s.frozen = false := by
        simp only [deposits, Bool.and_eq_true, Bool.not_eq_true'] at hd
        exact hd.1.1
      rw [e, div_add, ih h2, continuity hO (hp s (by simp)) h1 hn, hf]
      simp only [Bool.false_eq_true, if_false]
      ring
    · rw [List.filter_cons_of_neg hd] at hu
      rw [ih hu]
      have : ∀ pos, (if s.frozen then 0 else rho (degree O) NG s.charge pos s.ps n) = 0 := by
        intro pos
        by_cases hf : s.frozen
        · simp [hf]
        · simp only [hf, Bool.false_eq_true, if_false]
          simp only [deposits, Bool.and_eq_true, Bool.not_eq_true', not_and, hf, forall_const,
            decide_eq_false_iff_not, not_not, Bool.not_false] at hd
          by_cases he : s.ps.isEmpty = false
          · rw [hd ⟨trivial, he⟩, rho_zero]
          · have : s.ps = [] := by simpa using he
            simp [this, rho]
      rw [this, this, zero_add, zero_add]

/-- The current a rank has deposited. -/
theorem deposit_rank (h : Built m dN) {O ng : Nat} (hO : O ≤ 11) {dt : K} {r : Nat}
    (hr : r < m.doms.length) {sps : List (Sp K)}
    (hp : ∀ s ∈ sps, ∀ p ∈ s.ps, FitStep O dN.length p) {v v' : Mem K}
    (hd : DepositRank O ng dt (sizes m r) sps v v') :
    (∀ l, l.arr ≠ 1 → v' l = v l) ∧
    (∀ c i, ¬ InArray m ng r i → v' ⟨1, c, i⟩ = 0) ∧
    (∀ n : List Int, n.length = dN.length → div (fun c i => v' ⟨1, c, i⟩) n =
      -(rankRho (degree O) ng xNew sps n - rankRho (degree O) ng xOld sps n) / dt) := by
  obtain ⟨uss, vs, J, h1, h2, h3, h4⟩ := hd
  have hJ : ∀ c i, v' ⟨1, c, i⟩ = total uss.flatten c i := by
    intro c i
    rw [h4]
    simp only [if_true]
    rw [applyAll_ok h3, total_perm h2, zero_add]
  refine ⟨fun l hl => by rw [h4, if_neg hl], fun c i hi => ?_, fun n hn => ?_⟩
  · by_contra hne
    rw [hJ, ← total_perm h2] at hne
    obtain ⟨u, hu, rfl⟩ := total_ne hne
    exact hi (inArray_of h hr (applyAll_in h3 hu))
  · rw [← species_continuity hO hp h1 hn]
    congr 1
    funext c i
    exact hJ c i

/-! ## Synchronisation -/

theorem array_fin0 (h : Built m dN) (ng r : Nat) {f : List Int → K}
    (hf : ∀ i, ¬ InArray m ng r i → f i = 0) : Fin0 dN.length f := by
  obtain ⟨T, hT⟩ := exists_arrayCells h ng
  refine ((T.image Prod.snd).finite_toSet).subset ?_
  rintro n ⟨_, h2⟩
  rw [Finset.mem_coe, Finset.mem_image]
  refine ⟨(r, n), (hT r n).2 ?_, rfl⟩
  by_contra hc
  exact h2 (hf n hc)

theorem sync_fold (h : Built m dN) (hp : AllPeriodic m) (hD : dN.length ∈ [1, 2, 3]) {ng : Nat}
    (hw : Wide dN ng) {M M' : MMem K} (hs : SyncAll m ng selJ M M') {c : Nat} (hc : c < 3)
    (hz : ∀ r, r < m.doms.length → ∀ i, ¬ InArray m ng r i → M r ⟨1, c, i⟩ = 0)
    {r : Nat} {i p : List Int} (hi : Active m ng r i)
    (hip : globalPos m (dN.map List.sum) ng r i = some p) :
    M' r ⟨1, c, i⟩ = ((List.range m.doms.length).map fun q =>
      fold (dN.map List.sum) (origin m ng q) (fun n => M q ⟨1, c, n⟩) p).sum := by
  classical
  have h1 : 1 ≤ dN.length := by simp at hD; omega
  have h3 : dN.length ≤ 3 := by simp at hD; omega
  obtain ⟨G, hG, _, hsum⟩ := C15_sync_sum h hp.good h1 h3 hw (fun r i => M r ⟨1, c, i⟩)
  rw [(hs 1 c).1 (Filter.selJ_lt hc)] at hG
  cases hG
  obtain ⟨S, hS, e⟩ := hsum r i hi
  beta_reduce at e
  rw [e]
  have hS' : ∀ q j, (q, j) ∈ S ↔ InArray m ng q j ∧ globalPos m (dN.map List.sum) ng q j = some p := by
    intro q j
    rw [hS, hip]
    constructor
    · rintro ⟨k1, k2, _⟩; exact ⟨k1, k2⟩
    · rintro ⟨k1, k2⟩
      refine ⟨k1, k2, ?_⟩
      have hl := active_length h (active_inArray hi)
      have hl' := active_length h k1
      refine not_wall_periodic h hp (active_lt hi) ?_ (by simp [stepDir, hl, hl'])
      intro x hx
      obtain ⟨a, ha, rfl⟩ := List.getElem_of_mem hx
      simp only [stepDir, List.getElem_zipWith]
      split_ifs <;> simp
  have hmap : ∀ x ∈ S, x.1 ∈ Finset.range m.doms.length := by
    rintro ⟨q, j⟩ hx
    exact Finset.mem_range.2 (inArray_lt ((hS' q j).1 hx).1)
  rw [← Finset.sum_fiberwise_of_maps_to hmap, ← List.sum_toFinset _ List.nodup_range,
    List.toFinset_range]
  refine Finset.sum_congr rfl fun q hq => ?_
  have hq := Finset.mem_range.1 hq
  unfold fold
  rw [finsum_mem_eq_sum_of_inter_support_eq (t := (S.filter fun x => x.1 = q).image Prod.snd)]
  · rw [Finset.sum_image]
    · refine Finset.sum_congr rfl fun x hx => ?_
      rw [Finset.mem_filter] at hx
      rw [hx.2]
    · intro x hx y hy hxy
      rw [Finset.mem_coe, Finset.mem_filter] at hx hy
      exact Prod.ext (hx.2.trans hy.2.symm) hxy
  · ext n
    simp only [Set.mem_inter_iff, Function.mem_support, Finset.coe_image, Set.mem_image,
      Finset.mem_coe, Finset.mem_filter, Prod.exists, exists_eq_right, images, Set.mem_setOf_eq,
      List.length_map]
    constructor
    · rintro ⟨⟨k1, k2⟩, k3⟩
      refine ⟨(hS' q n).2 ⟨?_, ?_⟩, k3⟩
      · by_contra hc; exact k3 (hz q hq n hc)
      · rw [globalPos_origin h ng hq k1, k2]
    · rintro ⟨k1, k3⟩
      obtain ⟨k1, k2⟩ := (hS' _ n).1 k1
      have hl := active_length h k1
      rw [globalPos_origin h ng hq hl] at k2
      exact ⟨⟨hl, Option.some.inj k2⟩, k3⟩

end Entity.Gauss
