import Verif.Lemmas.Gauss
import Verif.Lemmas.Ampere

/-!
# A step of the engine and the divergence of the electric field
-/

namespace Entity.Gauss

open Entity Entity.Topology Entity.Shapes Entity.Push Entity.Tags Entity.Deposit Entity.Ranks
open Entity.FieldSolver Entity.Kernel Entity.Decomp Entity.Filter

variable {K : Type} [Field K]
variable {m : Meta} {dN : List (List Nat)}

/-! ## Filter passes on the box -/

/-- The stencil of the filter as an operator on functions of the cell. -/
def W (D : Nat) (f : List Int → K) : List Int → K := wsum (weights D) f

theorem W_congr {D : Nat} (hD : D ∈ [1, 2, 3]) (n : Nat) {f g : List Int → K}
    (h : ∀ p : List Int, p.length = D → f p = g p) {p : List Int} (hp : p.length = D) :
    (W D)^[n] f p = (W D)^[n] g p := by
  induction n generalizing f g with
  | zero => exact h p hp
  | succ n ih =>
    rw [Function.iterate_succ_apply, Function.iterate_succ_apply]
    refine ih fun q hq => ?_
    unfold W wsum
    congr 1
    apply List.map_congr_left
    intro w hw
    rw [h _ (by simp [hq, (weights_dim hD hw).1])]

theorem W_lin {D : Nat} (n : Nat) (a b : K) (f g : List Int → K) (p : List Int) :
    (W D)^[n] (fun p => a * f p + b * g p) p = a * (W D)^[n] f p + b * (W D)^[n] g p := by
  induction n generalizing f g with
  | zero => rfl
  | succ n ih =>
    rw [Function.iterate_succ_apply, Function.iterate_succ_apply, Function.iterate_succ_apply, ← ih]
    refine congrFun (congrArg _ (funext fun q => ?_)) _
    unfold W wsum
    induction weights (K := K) D with
    | nil => simp
    | cons w ws ih => simp only [List.map_cons, List.sum_cons]; rw [ih]; ring

theorem passes_unroll {N : List Nat} (hN : N.length ∈ [1, 2, 3]) (n : Nat) (g : GMem K) {c : Nat}
    (hc : c < 3) (p : List Int) :
    (stepG N)^[n] g 1 c (wrap N p) = (W N.length)^[n] (fun q => g 1 c (wrap N q)) p := by
  induction n generalizing g with
  | zero => rfl
  | succ n ih =>
    rw [Function.iterate_succ_apply, Function.iterate_succ_apply, ih]
    refine congrFun (congrArg _ (funext fun q => ?_)) _
    rw [stepG, filterG_unroll hN g hc]
    rfl

theorem W_shift {D : Nat} (n : Nat) (f : List Int → K) (p o : List Int) :
    (W D)^[n] f (List.zipWith (· + ·) p o) =
      (W D)^[n] (fun q => f (List.zipWith (· + ·) q o)) p := by
  induction n generalizing f with
  | zero => rfl
  | succ n ih =>
    rw [Function.iterate_succ_apply, Function.iterate_succ_apply, ih]
    refine congrFun (congrArg _ (funext fun q => ?_)) _
    exact wsum_shift _ _ _ _

theorem divDown_W {D : Nat} (hD : D ∈ [1, 2, 3]) (n : Nat) (U : Nat → List Int → K) (p : List Int) :
    divDown D (fun c o => (W D)^[n] (U c) (List.zipWith (· + ·) p o)) =
      (W D)^[n] (fun q => divDown D (fun c o => U c (List.zipWith (· + ·) q o))) p := by
  induction n generalizing U with
  | zero => rfl
  | succ n ih =>
    simp only [Function.iterate_succ_apply]
    rw [ih]
    refine congrFun (congrArg _ (funext fun q => ?_)) _
    exact divDown_wsum hD _ _ _

theorem divDown_congr {D : Nat} (hD : D ≤ 3) {F G : Nat → List Int → K}
    (h : ∀ c, c < 3 → ∀ o : List Int, o.length = D → F c o = G c o) : divDown D F = divDown D G := by
  unfold divDown
  congr 1
  apply List.map_congr_left
  intro a ha
  have ha : a < 3 := by have := List.mem_range.1 ha; omega
  rw [h a ha _ (by simp [off]), h a ha _ (by simp [off])]

/-- The divergence of the filtered current. -/
theorem passes_div {N : List Nat} (hN : N.length ∈ [1, 2, 3]) (n : Nat) (g : GMem K) (p : List Int) :
    divDown N.length (current (((stepG N)^[n] g).unroll N) p) =
      (W N.length)^[n] (fun q => divDown N.length (current (g.unroll N) q)) p := by
  have h3 : N.length ≤ 3 := by simp at hN; omega
  have : divDown N.length (current (((stepG N)^[n] g).unroll N) p) =
      divDown N.length (fun c o => (W N.length)^[n] (fun q => g 1 c (wrap N q))
        (List.zipWith (· + ·) p o)) :=
    divDown_congr h3 fun c hc o _ => by
      simp only [current, GMem.unroll]
      rw [passes_unroll hN n g hc]
  rw [this, divDown_W hN]
  rfl

/-- Filter passes leave the fields alone. -/
theorem passes_other {N : List Nat} (hN : N.length ∈ [1, 2, 3]) (n : Nat) (g : GMem K) (c : Nat)
    {p : List Int} (hpl : p.length = N.length) (hpw : wrap N p = p) :
    (stepG N)^[n] g 0 c p = g 0 c p := by
  induction n generalizing g with
  | zero => rfl
  | succ n ih =>
    rw [Function.iterate_succ_apply, ih, stepG,
      globalStep_other (plainFilter_own hN) rfl _ (by simp [selJ]) hpl hpw]
    simp [copyG]

theorem passes_shows_sel (h : Built m dN) (hp : AllPeriodic m) (hD : dN.length ∈ [1, 2, 3])
    {ng : Nat} (hng : 1 ≤ ng) (hw : Wide dN ng) {sel : Nat → Nat → Bool}
    (hJ : ∀ c, c < 3 → sel 1 c = true) {n : Nat} {M M' : MMem K} {g : GMem K}
    (hg : Shows m (dN.map List.sum) ng sel M g) (hd : FilterPasses m ng n M M') :
    Shows m (dN.map List.sum) ng sel M' ((stepG (dN.map List.sum))^[n] g) := by
  induction hd with
  | zero M => exact hg
  | succ _ h2 ih =>
    rw [Function.iterate_succ_apply']
    have := filterPass_shows h hp hD hng hw hJ (ih hg) h2
    show Shows m _ ng sel _ (globalStep _ (plainFilter (dN.map List.sum).length) _)
    rw [List.length_map]
    exact this

/-! ## Divergences on the box -/

theorem off_nil {p : List Int} {D : Nat} (hp : p.length = D) : List.zipWith (· + ·) p (off D []) = p := by
  have := here_add hp
  simpa [off, here] using this

theorem off_down {p : List Int} {D : Nat} (hp : p.length = D) (d : Nat) :
    List.zipWith (· + ·) p (off D [(d, -1)]) = p.modify d (· - 1) := by
  apply List.ext_getElem
  · simp [off, hp]
  · intro i h1 h2
    simp only [off, List.foldl_cons, List.foldl_nil, List.getElem_zipWith, List.getElem_modify,
      List.getElem_set, List.getElem_replicate]
    split <;> simp [sub_eq_add_neg]

theorem divDown_unroll {N : List Nat} (g : GMem K) (a : Nat) {p : List Int} (hp : p.length = N.length) :
    divDown N.length (fun c o => g.unroll N ⟨a, c, List.zipWith (· + ·) p o⟩) =
      ((List.range N.length).map fun d => g a d (wrap N p) - g a d (wrap N (p.modify d (· - 1)))).sum := by
  unfold divDown
  congr 1
  apply List.map_congr_left
  intro d _
  simp only [GMem.unroll, off_nil hp, off_down hp]

/-- Divergence of a memory that shows a global field. -/
theorem divDown_shows (h : Built m dN) (hD : dN.length ∈ [1, 2, 3]) {ng : Nat} (hng : 1 ≤ ng)
    {sel : Nat → Nat → Bool} {M : MMem K} {g : GMem K}
    (hs : Shows m (dN.map List.sum) ng sel M g) {a : Nat} (hsel : ∀ c, c < 3 → sel a c = true)
    {r : Nat} {i p : List Int} (hi : Active m ng r i)
    (hip : globalPos m (dN.map List.sum) ng r i = some p) :
    divDown dN.length (fun c o => M r ⟨a, c, List.zipWith (· + ·) i o⟩) =
      divDown dN.length (fun c o => g.unroll (dN.map List.sum) ⟨a, c, List.zipWith (· + ·) p o⟩) := by
  unfold divDown
  congr 1
  apply List.map_congr_left
  intro d hd
  have hd' : d < 3 := by simp at hD hd; omega
  have b0 : ∀ x ∈ off dN.length [], -(ng : Int) ≤ x ∧ x ≤ ng := by
    intro x hx
    have : x = 0 := List.eq_of_mem_replicate hx
    omega
  have b1 : ∀ x ∈ off dN.length [(d, -1)], -(ng : Int) ≤ x ∧ x ≤ ng := by
    intro x hx
    rcases List.mem_or_eq_of_mem_set hx with hx | hx
    · have : x = 0 := List.eq_of_mem_replicate hx
      omega
    · omega
  beta_reduce
  rw [Shows.around h hs hi hip (by simp [off]) b0 (hsel d hd'), Shows.around h hs hi hip (by simp [off]) b1 (hsel d hd')]

/-! ## Electric update -/

/-- The electric update on the box. -/
theorem electric_div {N : List Nat} (hN : N.length ∈ [1, 2, 3]) (dT dx coeff ppc0 : K) (g : GMem K)
    {p : List Int} (hp : p.length = N.length) :
    divDown N.length (electric ((opG N.length N (.electric dT dx (some (coeff, ppc0))) g).unroll N) p) =
      divDown N.length (electric (g.unroll N) p) + coeff * divDown N.length (current (g.unroll N) p) := by
  have e1 : (opG N.length N (.electric dT dx (some (coeff, ppc0))) g).unroll N =
      stepAll N.length (currentsAmpere N.length coeff ppc0) (stepAll N.length (ampere N.length dT dx)
        (g.unroll N)) := by
    funext l
    refine (unroll_globalStep N _ (globalStep N (ampere N.length dT dx) g) l).trans ?_
    rw [show (globalStep N (ampere N.length dT dx) g).unroll N = _ from funext (unroll_globalStep N _ g)]
  rw [e1, current_div hN _ _ _ hp, ampere_div hN _ _ _ hp]
  congr 2
  refine divDown_congr (by simp at hN; omega) fun c hc o ho => ?_
  unfold current stepAll
  rw [runBody_other]
  · simp only [Loc.at]
    rw [here_add (by simp [hp, ho])]
  · intro b hb e
    have := (ampere_own hN dT dx b hb).1.2
    rw [e] at this
    simp [selE] at this

/-! ## Deposit -/

section
variable [LinearOrder K] [IsStrictOrderedRing K]

/-- The current of all ranks, folded to the box. -/
noncomputable def curG (m : Meta) (N : List Nat) (ng : Nat) (M : MMem K) : GMem K :=
  fun a c p => ((List.range m.doms.length).map fun q =>
    fold N (origin m ng q) (fun n => M q ⟨a, c, n⟩) p).sum

theorem sum_swap {α β : Type} (l : List α) (k : List β) (f : α → β → K) :
    (l.map fun a => (k.map fun b => f a b).sum).sum = (k.map fun b => (l.map fun a => f a b).sum).sum := by
  induction l with
  | nil => simp
  | cons a l ih => simp only [List.map_cons, List.sum_cons, ih]; rw [← List.sum_map_add]

theorem sum_map_sub {α : Type} (l : List α) (f g : α → K) :
    (l.map f).sum - (l.map g).sum = (l.map fun a => f a - g a).sum := by
  induction l with
  | nil => simp
  | cons a l ih => simp only [List.map_cons, List.sum_cons, ← ih]; ring

theorem sum_map_neg_div {α : Type} (l : List α) (f : α → K) (d : K) :
    (l.map fun a => -(f a) / d).sum = -((l.map f).sum) / d := by
  induction l with
  | nil => simp
  | cons a l ih => simp only [List.map_cons, List.sum_cons, ih]; ring

/-- The divergence of the deposited current is the change of the charge density. -/
theorem deposit_div (h : Built m dN) {O ng : Nat} (hO : O ≤ 11) (hw : Wide dN ng) {dt : K}
    {sps : Nat → List (Sp K)}
    (hf : ∀ r, r < m.doms.length → ∀ s ∈ sps r, ∀ p ∈ s.ps, FitStep O dN.length p) {M M1 : MMem K}
    (hd : DepositRanks m O ng dt sps M M1) {p : List Int} (hpl : p.length = dN.length)  :
    divDown dN.length (current ((curG m (dN.map List.sum) ng M1).unroll (dN.map List.sum)) p) =
      -(density (degree O) (dN.map List.sum) (charges m xNew (sps)) p -
        density (degree O) (dN.map List.sum) (charges m xOld (sps)) p) / dt := by
  have hl : (dN.map List.sum).length = dN.length := by simp
  have e := divDown_unroll (N := dN.map List.sum) (curG m (dN.map List.sum) ng M1) 1
    (p := p) (by rw [hl]; exact hpl)
  rw [hl] at e
  show divDown dN.length (fun c o => _) = _
  simp only [current] at e ⊢
  rw [e, ← density_wrap, ← density_wrap _ _ (charges m xOld sps)]
  have hyl : (wrap (dN.map List.sum) p).length = dN.length := by simp [wrap, hpl]
  have hmod : ∀ d, wrap (dN.map List.sum) (p.modify d (· - 1)) =
      wrap (dN.map List.sum) ((wrap (dN.map List.sum) p).modify d (· - 1)) := by
    intro d
    have := wrap_modify (dN.map List.sum) p d (-1)
    simp only [← sub_eq_add_neg] at this
    exact this.symm
  simp only [hmod]
  have hyw := wrap_wrap (dN.map List.sum) p
  generalize wrap (dN.map List.sum) p = y at hyl hyw
  have hfit : ∀ r, r < m.doms.length → ∀ s ∈ sps r, ∀ p ∈ s.ps, Fit dN.length p :=
    fun r hr s hs p hp => (hf r hr s hs p hp).1
  rw [density_ranks h hw _ _ hfit hyl hyw, density_ranks h hw _ _ hfit hyl hyw]
  unfold curG
  simp only [sum_map_sub]
  rw [sum_swap, ← sum_map_neg_div]
  congr 1
  apply List.map_congr_left
  intro q hq
  have hq : q < m.doms.length := List.mem_range.1 hq
  obtain ⟨_, d2, d3⟩ := deposit_rank h hO hq (hf q hq) (hd q hq)
  have hfin : ∀ c, Fin0 (dN.map List.sum).length (fun n => M1 q ⟨1, c, n⟩) := by
    intro c
    rw [hl]
    exact array_fin0 h ng q (d2 c)
  have hr0 : ∀ pos : Ax K → K, Fin0 (dN.map List.sum).length (rankRho (degree O) ng pos (sps q)) := by
    intro pos
    rw [hl]
    exact rankRho_fin0 _ _ _ (hfit q hq)
  have e1 : ∀ d, fold (dN.map List.sum) (origin m ng q) (fun n => M1 q ⟨1, d, n⟩) y -
      fold (dN.map List.sum) (origin m ng q) (fun n => M1 q ⟨1, d, n⟩)
        (wrap (dN.map List.sum) (y.modify d (· - 1))) =
      fold (dN.map List.sum) (origin m ng q)
        (fun n => M1 q ⟨1, d, n⟩ - M1 q ⟨1, d, n.modify d (· - 1)⟩) y := by
    intro d
    rw [fold_sub (hfin d) (fin0_shift (hfin d) d),
      fold_shift (f := fun n => M1 q ⟨1, d, n⟩) hyw]
  simp only [e1]
  rw [← fold_list _ (fun d _ => fin0_sub (hfin d) (fin0_shift (hfin d) d)),
    ← fold_sub (hr0 _) (hr0 _), show ∀ x : K, -x / dt = (-1 / dt) * x from fun x => by ring,
    ← fold_mul]
  refine fold_congr (fun n hn => ?_) _
  have := d3 n (hn.trans hl)
  simp only [div, hn.trans hl] at this
  rw [this]
  ring

/-- Deposit, synchronisation, exchange, filter. -/
theorem phase_shows (h : Built m dN) (hp : AllPeriodic m) (hD : dN.length ∈ [1, 2, 3]) {P : StepPrm K}
    (hng : 1 ≤ P.ng) (hw : Wide dN P.ng) (hO : P.O ≤ 11) {sps : Nat → List (Sp K)}
    (hf : ∀ r, r < m.doms.length → ∀ s ∈ sps r, ∀ p ∈ s.ps, FitStep P.O dN.length p)
    {M M' : MMem K} {g : GMem K} (hg : Shows m (dN.map List.sum) P.ng selEB M g)
    (hd : DepositPhase m P sps M M') :
    ∃ g' : GMem K, Shows m (dN.map List.sum) P.ng selAll M' g' ∧
      (∀ c p, c < 3 → p.length = dN.length → wrap (dN.map List.sum) p = p → g' 0 c p = g 0 c p) ∧
      ∀ p : List Int, p.length = dN.length →
        divDown dN.length (current (g'.unroll (dN.map List.sum)) p) =
          (W dN.length)^[P.nf] (fun p => -(density (degree P.O) (dN.map List.sum) (charges m xNew sps) p -
            density (degree P.O) (dN.map List.sum) (charges m xOld sps) p) / P.dt) p := by
  obtain ⟨M1, M2, M3, h1, h2, h3, h4⟩ := hd
  have l1 : 1 ≤ dN.length := by simp at hD; omega
  have l3 : dN.length ≤ 3 := by simp at hD; omega
  have hl : (dN.map List.sum).length = dN.length := by simp
  have hN : (dN.map List.sum).length ∈ [1, 2, 3] := by rw [hl]; exact hD
  -- the fields
  have hEB : Shows m (dN.map List.sum) P.ng selEB M3 g := by
    intro a c hs r i p hi hip
    have ha : a = 0 := by
      simp only [selEB, selE, selB, Bool.or_eq_true, Bool.and_eq_true, beq_iff_eq] at hs
      omega
    subst ha
    rw [(h3 0 c).2 rfl, (h2 0 c).2 rfl,
      (deposit_rank h hO (inArray_lt hi) (hf r (inArray_lt hi)) (h1 r (inArray_lt hi))).1 _ (by simp)]
    exact hg 0 c hs r i p hi hip
  -- the current
  have hact : ShowsActive m (dN.map List.sum) P.ng selJ M2 (curG m (dN.map List.sum) P.ng M1) := by
    intro a c hs r i p hi hip
    simp only [selJ, Bool.and_eq_true, beq_iff_eq, decide_eq_true_eq] at hs
    obtain ⟨rfl, hc⟩ := hs
    exact sync_fold h hp hD hw h2 hc (fun r hr i hi =>
      (deposit_rank h hO hr (hf r hr) (h1 r hr)).2.1 c i hi) hi hip
  have hJ := shows_of_comm h hp l1 l3 hw h3 (fun _ _ h => h) hact
  have hAll : Shows m (dN.map List.sum) P.ng selAll M3
      (fun a c p => if selEB a c then g a c p else curG m (dN.map List.sum) P.ng M1 a c p) :=
    shows_join hEB hJ
  refine ⟨_, passes_shows_sel h hp hD hng hw (fun c hc => by simp [selAll, selJ, hc]) hAll h4,
    fun c p hc hpl hpw => ?_, fun p hpl => ?_⟩
  · rw [passes_other hN _ _ _ (hpl.trans hl.symm) hpw]
    simp [selEB, selE, hc]
  · have := passes_div hN P.nf (fun a c p => if selEB a c then g a c p else
      curG m (dN.map List.sum) P.ng M1 a c p) p
    rw [hl] at this
    rw [this]
    refine W_congr hD _ (fun q hq => ?_) hpl
    rw [← deposit_div h hO hw hf h1 hq]
    refine divDown_congr l3 fun c hc o ho => ?_
    simp [current, GMem.unroll, selEB, selE, selB]

/-- A step. -/
theorem step_shows (h : Built m dN) (hp : AllPeriodic m) (hD : dN.length ∈ [1, 2, 3]) {P : StepPrm K}
    (hng : 2 ≤ P.ng) (hw : Wide dN P.ng) (hO : P.O ≤ 11) (hfs : P.fieldsolver = true)
    (hdep : P.deposit = true) {sps : Nat → List (Sp K)}
    (hf : ∀ r, r < m.doms.length → ∀ s ∈ sps r, ∀ p ∈ s.ps, FitStep P.O dN.length p)
    {M M' : MMem K} {g : GMem K} (hg : Shows m (dN.map List.sum) P.ng selEB M g)
    (hd : Step m dN.length P sps M M') :
    ∃ g' : GMem K, Shows m (dN.map List.sum) P.ng selEB M' g' ∧
      ∀ p : List Int, p.length = dN.length →
        divDown dN.length (electric (g'.unroll (dN.map List.sum)) p) =
          divDown dN.length (electric (g.unroll (dN.map List.sum)) p) + P.coeff *
          (W dN.length)^[P.nf] (fun p => -(density (degree P.O) (dN.map List.sum) (charges m xNew sps) p -
            density (degree P.O) (dN.map List.sum) (charges m xOld sps) p) / P.dt) p := by
  obtain ⟨M1, M2, h1, h2, h3⟩ := hd
  rw [if_pos hfs] at h1 h3
  rw [if_pos hdep] at h2 h3
  obtain ⟨M3, h3, h4⟩ := h3
  have l3 : dN.length ≤ 3 := by simp at hD; omega
  have hl : (dN.map List.sum).length = dN.length := by simp
  have hN : (dN.map List.sum).length ∈ [1, 2, 3] := by rw [hl]; exact hD
  -- first half of the magnetic update
  obtain ⟨M1', hl1, hc1⟩ := h1
  have s1 := kernel_comm_shows h hp hD hw (faraday_own hD _ _ _) (faraday_reach hD hng _ _ _)
    (faraday_sel hD _ _ _) hg hl1 hc1
  obtain ⟨g2, s2, e2, d2⟩ := phase_shows h hp hD (by omega) hw hO hf s1 h2
  have s3 := does_shows h hp hD hng hw s2 h3
  have s4 := does_shows h hp hD hng hw s3 h4
  refine ⟨_, shows_mono s4 (fun a c hs => by
    simp only [selEB] at hs; simp [selAll, hs]), fun p hpl => ?_⟩
  have hE : ∀ (g : GMem K) {a c : Nat} {p : List Int}, selB a c = false → p.length = dN.length →
      wrap (dN.map List.sum) p = p → opG dN.length (dN.map List.sum)
        (.faraday (1 / 2 * P.correction * P.dt) P.dx P.c) g a c p = g a c p :=
    fun g {a c p} hs hpl hpw => globalStep_other (faraday_own hD _ _ _) hl g hs hpl hpw
  have := electric_div hN (1 * P.correction * P.dt) P.dx P.coeff P.ppc0
    (opG dN.length (dN.map List.sum) (.faraday (1 / 2 * P.correction * P.dt) P.dx P.c) g2)
    (p := p) (hpl.trans hl.symm)
  rw [hl] at this
  rw [this, ← d2 p hpl]
  have wl : ∀ o : List Int, o.length = dN.length →
      (wrap (dN.map List.sum) (List.zipWith (· + ·) p o)).length = dN.length := by
    intro o ho; simp [wrap, hpl, ho]
  congr 1
  · refine divDown_congr l3 fun c hc o ho => ?_
    simp only [electric, GMem.unroll]
    rw [hE _ (by simp [selB, hc]) (wl o ho) (wrap_wrap _ _), e2 c _ hc (wl o ho) (wrap_wrap _ _)]
    exact hE g (by simp [selB, hc]) (wl o ho) (wrap_wrap _ _)
  · congr 1
    refine divDown_congr l3 fun c hc o ho => ?_
    simp only [current, GMem.unroll]
    rw [hE _ (by simp [selB]) (wl o ho) (wrap_wrap _ _)]

end

end Entity.Gauss
