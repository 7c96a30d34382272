import Verif.Lemmas.GaussStep

/-!
# C35: Gauss's law
-/

namespace Entity.Gauss

open Entity Entity.Topology Entity.Shapes Entity.Push Entity.Tags Entity.Deposit Entity.Ranks
open Entity.FieldSolver Entity.Kernel Entity.Decomp Entity.Filter

variable {K : Type} [Field K] [LinearOrder K] [IsStrictOrderedRing K]
variable {m : Meta} {dN : List (List Nat)}

/-! ## Lemmas -/

theorem sim_shows (h : Built m dN) (hp : AllPeriodic m) (hD : dN.length ∈ [1, 2, 3]) {P : StepPrm K}
    (hng : 2 ≤ P.ng) (hw : Wide dN P.ng) (hO : P.O ≤ 11) (hfs : P.fieldsolver = true)
    (hdep : P.deposit = true) (hdt : P.dt ≠ 0) {hist : List (Nat → List (Sp K))}
    (hf : ∀ sps ∈ hist, ∀ r, r < m.doms.length → ∀ s ∈ sps r, ∀ p ∈ s.ps, FitStep P.O dN.length p)
    {M0 M : MMem K} (hs : Sim m dN.length P hist M0 M) :
    ∃ g0 g : GMem K, Shows m (dN.map List.sum) P.ng selEB M0 g0 ∧
      Shows m (dN.map List.sum) P.ng selEB M g ∧ ∀ p : List Int, p.length = dN.length →
        divDown dN.length (electric (g.unroll (dN.map List.sum)) p) =
          divDown dN.length (electric (g0.unroll (dN.map List.sum)) p) +
          P.q0 / (P.B0 * P.V0) * (hist.map fun sps =>
            (W dN.length)^[P.nf] (density (degree P.O) (dN.map List.sum) (charges m xNew sps)) p -
            (W dN.length)^[P.nf] (density (degree P.O) (dN.map List.sum) (charges m xOld sps)) p).sum := by
  induction hs with
  | start hc =>
    obtain ⟨g, hg⟩ := exists_shown h hp hD hw hc
    exact ⟨g, g, hg, hg, fun p _ => by simp⟩
  | @step hist sps M0 M M' _ hstep ih =>
    obtain ⟨g0, g, s0, s, e⟩ := ih fun x hx => hf x (by simp [hx])
    obtain ⟨g', s', e'⟩ := step_shows h hp hD hng hw hO hfs hdep (hf sps (by simp)) s hstep
    refine ⟨g0, g', s0, s', fun p hpl => ?_⟩
    rw [e' p hpl, e p hpl]
    have : (fun p => -(density (degree P.O) (dN.map List.sum) (charges m xNew sps) p -
            density (degree P.O) (dN.map List.sum) (charges m xOld sps) p) / P.dt) =
        fun p => (-1 / P.dt) * density (degree P.O) (dN.map List.sum) (charges m xNew sps) p +
          (1 / P.dt) * density (degree P.O) (dN.map List.sum) (charges m xOld sps) p := by
      funext p; ring
    rw [this, W_lin]
    simp only [List.map_append, List.map_cons, List.map_nil, List.sum_append, List.sum_cons,
      List.sum_nil, StepPrm.coeff]
    field_simp
    ring

theorem telescope {α : Type} {f g : α → K} {l : List α} (hne : l ≠ [])
    (h : l.IsChain fun s t => f s = g t) :
    (l.map fun s => f s - g s).sum = f (l.getLast hne) - g (l.head hne) := by
  induction l with
  | nil => exact absurd rfl hne
  | cons a l ih =>
    cases l with
    | nil => simp
    | cons b l =>
      rw [List.isChain_cons_cons] at h
      rw [List.map_cons, List.sum_cons, ih (by simp) h.2]
      simp only [List.head_cons, List.getLast_cons_cons]
      rw [h.1]
      ring

/-- The charge density of `cs` stored in the current arrays of all ranks, ghosts included. -/
def Holds (m : Meta) (N : List Nat) (ng deg : Nat) (cs : List (Charge K)) (Q : MMem K) : Prop :=
  ∀ r i p, InArray m ng r i → globalPos m N ng r i = some p → ∀ c, c < 3 →
    Q r ⟨1, c, i⟩ = density deg N cs p

theorem holds_passes (h : Built m dN) (hp : AllPeriodic m) (hD : dN.length ∈ [1, 2, 3])
    {ng : Nat} (hng : 1 ≤ ng) (hw : Wide dN ng) {deg n : Nat} {cs : List (Charge K)} {Q Q' : MMem K}
    (hQ : Holds m (dN.map List.sum) ng deg cs Q) (hd : FilterPasses m ng n Q Q') {r : Nat}
    {i p : List Int} (hi : Active m ng r i) (hip : globalPos m (dN.map List.sum) ng r i = some p) :
    Q' r ⟨1, 0, i⟩ = (W dN.length)^[n] (density deg (dN.map List.sum) cs) p := by
  have hs : Shows m (dN.map List.sum) ng selJ Q (fun _ _ p => density deg (dN.map List.sum) cs p) := by
    intro a c hs r i p hi hip
    simp only [selJ, Bool.and_eq_true, beq_iff_eq, decide_eq_true_eq] at hs
    obtain ⟨rfl, hc⟩ := hs
    exact hQ r i p hi hip c hc
  have hN : (dN.map List.sum).length ∈ [1, 2, 3] := by simpa using hD
  obtain ⟨hpl, hpw⟩ := globalPos_wrapped h (active_lt hi) (active_length h (active_inArray hi)) hip
  rw [passes_shows h hp hD hng hw hs hd 1 0 (selJ_lt (by decide)) r i p (active_inArray hi) hip, ← hpw,
    passes_unroll hN _ _ (by decide), hpw, List.length_map]
  refine W_congr hD _ (fun q _ => ?_) hpl
  exact density_wrap _ _ _ _

/-! ## C35 -/

/-- **C35 (Gauss's law).**  On a periodic Cartesian box divided in any way among ranks, for any number
of steps with field solver and deposit enabled, in which the particles only move (no injection, no
removal): in every active cell of every rank the divergence of the electric field minus
`q0 / (B0 V0)` times the charge density is the same at the end as at the beginning.  The charge
density is that of the deposit shape at the positions of the moving particles (all ranks, periodic
images included), passed through the same filter passes as the current.  In particular, if Gauss's law
holds at the beginning, it holds forever.

Missing: particles moving along all three axes in a three-dimensional box with the zigzag deposit (`FitStep`),
where the deposited current violates the continuity equation (see C29). -/
theorem C35_gauss_partial (h : Built m dN) (hp : AllPeriodic m) (hD : dN.length ∈ [1, 2, 3])
    {P : StepPrm K} (hng : 2 ≤ P.ng) (hw : Wide dN P.ng) (hO : P.O ≤ 11)
    (hfs : P.fieldsolver = true) (hdep : P.deposit = true) (hdt : P.dt ≠ 0)
    {hist : List (Nat → List (Sp K))} (hne : hist ≠ [])
    (hf : ∀ sps ∈ hist, ∀ r, r < m.doms.length → ∀ s ∈ sps r, ∀ p ∈ s.ps, FitStep P.O dN.length p)
    (hj : Joined m (dN.map List.sum) hist)
    {M0 M : MMem K} (hs : Sim m dN.length P hist M0 M)
    {Q0 Q0' Q Q' : MMem K}
    (hQ0 : Holds m (dN.map List.sum) P.ng (degree P.O) (charges m xOld (hist.head hne)) Q0)
    (hQ0' : FilterPasses m P.ng P.nf Q0 Q0')
    (hQ : Holds m (dN.map List.sum) P.ng (degree P.O) (charges m xNew (hist.getLast hne)) Q)
    (hQ' : FilterPasses m P.ng P.nf Q Q')
    {r : Nat} {i : List Int} (hi : Active m P.ng r i) :
    divDown dN.length (electric (M r) i) - P.q0 / (P.B0 * P.V0) * Q' r ⟨1, 0, i⟩ =
      divDown dN.length (electric (M0 r) i) - P.q0 / (P.B0 * P.V0) * Q0' r ⟨1, 0, i⟩ := by
  obtain ⟨g0, g, s0, s, e⟩ := sim_shows h hp hD hng hw hO hfs hdep hdt hf hs
  obtain ⟨p, hip⟩ := globalPos_isSome (dN.map List.sum) (active_inArray hi)
  obtain ⟨hpl, _⟩ := globalPos_wrapped h (active_lt hi) (active_length h (active_inArray hi)) hip
  have hE : ∀ c, c < 3 → selEB 0 c = true := fun c hc => by simp [selEB, selE, hc]
  rw [holds_passes h hp hD (by omega) hw hQ0 hQ0' hi hip, holds_passes h hp hD (by omega) hw hQ hQ' hi hip]
  have d0 := divDown_shows h hD (by omega) s0 hE hi hip
  have d1 := divDown_shows h hD (by omega) s hE hi hip
  have e' := e p hpl
  rw [telescope (f := fun sps => (W dN.length)^[P.nf]
      (density (degree P.O) (dN.map List.sum) (charges m xNew sps)) p)
    (g := fun sps => (W dN.length)^[P.nf]
      (density (degree P.O) (dN.map List.sum) (charges m xOld sps)) p) hne
    (hj.imp fun s t hst => by
      refine congrFun (congrArg _ (funext fun q => ?_)) p
      exact density_same _ hst q)] at e'
  unfold electric at e' ⊢
  rw [d0, d1, e']
  ring

/-- Without filter passes. -/
theorem C35_gauss_unfiltered_partial (h : Built m dN) (hp : AllPeriodic m) (hD : dN.length ∈ [1, 2, 3])
    {P : StepPrm K} (hng : 2 ≤ P.ng) (hw : Wide dN P.ng) (hO : P.O ≤ 11) (hnf : P.nf = 0)
    (hfs : P.fieldsolver = true) (hdep : P.deposit = true) (hdt : P.dt ≠ 0)
    {hist : List (Nat → List (Sp K))} (hne : hist ≠ [])
    (hf : ∀ sps ∈ hist, ∀ r, r < m.doms.length → ∀ s ∈ sps r, ∀ p ∈ s.ps, FitStep P.O dN.length p)
    (hj : Joined m (dN.map List.sum) hist)
    {M0 M : MMem K} (hs : Sim m dN.length P hist M0 M)
    {r : Nat} {i p : List Int} (hi : Active m P.ng r i)
    (hip : globalPos m (dN.map List.sum) P.ng r i = some p) :
    divDown dN.length (electric (M r) i) - P.q0 / (P.B0 * P.V0) *
        density (degree P.O) (dN.map List.sum) (charges m xNew (hist.getLast hne)) p =
      divDown dN.length (electric (M0 r) i) - P.q0 / (P.B0 * P.V0) *
        density (degree P.O) (dN.map List.sum) (charges m xOld (hist.head hne)) p := by
  have hQ : ∀ cs : List (Charge K), Holds m (dN.map List.sum) P.ng (degree P.O) cs (fun r l => density (degree P.O)
      (dN.map List.sum) cs ((globalPos m (dN.map List.sum) P.ng r l.idx).getD [])) :=
    fun cs r i p _ hip c _ => by simp [hip]
  have z : ∀ Q : MMem K, FilterPasses m P.ng P.nf Q Q := fun Q => by rw [hnf]; exact .zero Q
  have := C35_gauss_partial h hp hD hng hw hO hfs hdep hdt hne hf hj hs (hQ _) (z _) (hQ _) (z _) hi
  simpa [hip] using this

/-- Without moving charges, the divergence of the electric field never changes. -/
theorem C35_vacuum (h : Built m dN) (hp : AllPeriodic m) (hD : dN.length ∈ [1, 2, 3])
    {P : StepPrm K} (hng : 2 ≤ P.ng) (hw : Wide dN P.ng) (hO : P.O ≤ 11)
    (hfs : P.fieldsolver = true) (hdep : P.deposit = true) (hdt : P.dt ≠ 0)
    {hist : List (Nat → List (Sp K))}
    (hf : ∀ sps ∈ hist, ∀ r, r < m.doms.length → ∀ s ∈ sps r, ∀ p ∈ s.ps, p.tag = dead)
    {M0 M : MMem K} (hs : Sim m dN.length P hist M0 M) {r : Nat} {i : List Int} (hi : Active m P.ng r i) :
    divDown dN.length (electric (M r) i) = divDown dN.length (electric (M0 r) i) := by
  obtain ⟨g0, g, s0, s, e⟩ := sim_shows h hp hD hng hw hO hfs hdep hdt
    (fun sps h1 r h2 s h3 p h4 => ⟨.inl (hf sps h1 r h2 s h3 p h4), fun _ => .inl (hf sps h1 r h2 s h3 p h4)⟩) hs
  obtain ⟨p, hip⟩ := globalPos_isSome (dN.map List.sum) (active_inArray hi)
  obtain ⟨hpl, _⟩ := globalPos_wrapped h (active_lt hi) (active_length h (active_inArray hi)) hip
  have hE : ∀ c, c < 3 → selEB 0 c = true := fun c hc => by simp [selEB, selE, hc]
  have d0 := divDown_shows h hD (by omega) s0 hE hi hip
  have d1 := divDown_shows h hD (by omega) s hE hi hip
  have e' := e p hpl
  have hc : ∀ sps ∈ hist, ∀ pos : Ax K → K, charges m pos sps = [] := by
    intro sps hsp pos
    unfold charges
    simp only [List.flatMap_eq_nil_iff, List.mem_range]
    intro r hr s hs
    split
    · rfl
    · rw [List.map_eq_nil_iff, List.filter_eq_nil_iff]
      intro p hp
      simp [hf sps hsp r hr s hs p hp]
  rw [List.map_congr_left (g := fun _ => (0 : K)) (fun sps hsp => by
    rw [hc sps hsp, hc sps hsp, sub_self])] at e'
  unfold electric at e' ⊢
  rw [d0, d1, e']
  simp

/-! ## The hypotheses can be met -/

/-- A particle of charge 2 and weight 3/2 on the second of two ranks crosses the upper edge of the
box … -/
def ex1 : Nat → List (Sp ℚ)
  | 1 => [⟨2, false, [⟨[⟨6, 5, 1/4, 3/4, 0⟩, ⟨2, 2, 1/8, 5/8, 0⟩], 3/2, 0, 1/3, alive⟩]⟩]
  | _ => []

/-- … and continues on the first rank. -/
def ex2 : Nat → List (Sp ℚ)
  | 0 => [⟨2, false, [⟨[⟨0, 0, 3/4, 1/4, 0⟩, ⟨1, 2, 7/8, 1/8, 0⟩], 3/2, 0, 1/3, alive⟩]⟩]
  | _ => []

def exPrm : StepPrm ℚ where
  O := 1
  ng := 2
  nf := 2
  dt := 1/2
  dx := 1/10
  correction := 1
  q0 := 1/3
  B0 := 2
  V0 := 1/100
  ppc0 := 4
  c := .yee
  fieldsolver := true
  deposit := true

theorem exists_passes (h : Built m dN) (hp : AllPeriodic m) (hD : dN.length ∈ [1, 2, 3]) {ng : Nat}
    (hw : Wide dN ng) (n : Nat) (M : MMem K) : ∃ M', FilterPasses m ng n M M' := by
  induction n with
  | zero => exact ⟨M, .zero M⟩
  | succ n ih =>
    obtain ⟨M1, h1⟩ := ih
    obtain ⟨M2, h2⟩ := exists_runs h hp hD hw [.filter] M1
    cases h2 with
    | cons h2 h3 => exact ⟨_, .succ h1 h2⟩

theorem exists_sync (h : Built m dN) (hp : AllPeriodic m) (hD : dN.length ∈ [1, 2, 3]) {ng : Nat}
    (hw : Wide dN ng) (sel : Nat → Nat → Bool) (M : MMem K) : ∃ M', SyncAll m ng sel M M' := by
  have h1 : 1 ≤ dN.length := by simp at hD; omega
  have h3 : dN.length ≤ 3 := by simp at hD; omega
  have key : ∀ a c, ∃ G : Fields K, synchronizeFields m ng (fun r i => M r ⟨a, c, i⟩) = .ok G := by
    intro a c
    obtain ⟨G, hG, _⟩ := C15_sync_sum h hp.good h1 h3 hw (fun r i => M r ⟨a, c, i⟩)
    exact ⟨G, hG⟩
  choose G hG using key
  refine ⟨fun r l => if sel l.arr l.comp then G l.arr l.comp r l.idx else M r l, fun a c => ⟨?_, ?_⟩⟩
  · intro hs; simp [hs, hG]
  · intro hs r i; simp [hs]

theorem exists_does (h : Built m dN) (hp : AllPeriodic m) (hD : dN.length ∈ [1, 2, 3]) {ng : Nat}
    (hw : Wide dN ng) (op : Op K) (M : MMem K) : ∃ M', Does m dN.length ng op M M' := by
  obtain ⟨M', h'⟩ := exists_runs h hp hD hw [op] M
  cases h' with
  | cons h1 _ => exact ⟨_, h1⟩

/-- If the deposit of every rank succeeds, a step can be taken. -/
theorem exists_step (h : Built m dN) (hp : AllPeriodic m) (hD : dN.length ∈ [1, 2, 3]) {P : StepPrm K}
    (hw : Wide dN P.ng) (hfs : P.fieldsolver = true) (hdep : P.deposit = true)
    {sps : Nat → List (Sp K)} (hd : ∀ r, r < m.doms.length → ∀ v, ∃ v', DepositRank P.O P.ng P.dt
      (sizes m r) (sps r) v v') (M : MMem K) : ∃ M', Step m dN.length P sps M M' := by
  obtain ⟨M1, h1⟩ := exists_does h hp hD hw (.faraday (1 / 2 * P.correction * P.dt) P.dx P.c) M
  have : ∃ M2, DepositRanks m P.O P.ng P.dt sps M1 M2 := by
    have : ∀ r, ∃ v', r < m.doms.length → DepositRank P.O P.ng P.dt (sizes m r) (sps r) (M1 r) v' := by
      intro r
      by_cases hr : r < m.doms.length
      · obtain ⟨v', hv⟩ := hd r hr (M1 r); exact ⟨v', fun _ => hv⟩
      · exact ⟨M1 r, fun h => absurd h hr⟩
    choose v' hv using this
    exact ⟨v', hv⟩
  obtain ⟨M2, h2⟩ := this
  obtain ⟨M3, h3⟩ := exists_sync h hp hD hw selJ M2
  obtain ⟨M4, h4⟩ := exists_comm h hp hD hw selJ M3
  obtain ⟨M5, h5⟩ := exists_passes h hp hD hw P.nf M4
  obtain ⟨M6, h6⟩ := exists_does h hp hD hw (.faraday (1 / 2 * P.correction * P.dt) P.dx P.c) M5
  obtain ⟨M7, h7⟩ := exists_does h hp hD hw (.electric (1 * P.correction * P.dt) P.dx
    (some (P.coeff, P.ppc0))) M6
  refine ⟨M7, M1, M5, ?_, ?_, ?_⟩
  · rw [if_pos hfs]; exact h1
  · rw [if_pos hdep]; exact ⟨M2, M3, M4, h2, h3, h4, h5⟩
  · rw [if_pos hfs]; exact ⟨M6, h6, by rw [if_pos hdep]; exact h7⟩

/-- One species whose deposit succeeds. -/
theorem exists_deposit {O ng : Nat} {dt : K} {n : List Nat} {sps : List (Sp K)}
    {uss : List (List (Upd K))}
    (h1 : (sps.filter deposits).mapM (fun s => depositAll O ng s.charge dt s.ps) = .ok uss)
    (h2 : ∀ u ∈ uss.flatten, Deposit.inArray (n.map (· + 2 * ng)) u.idx = true) (v : Mem K) :
    ∃ v', DepositRank O ng dt n sps v v' := by
  have : ∀ (us : List (Upd K)) (J : Cur K), (∀ u ∈ us, Deposit.inArray (n.map (· + 2 * ng)) u.idx = true) →
      ∃ J', applyAll (n.map (· + 2 * ng)) us J = .ok J' := by
    intro us
    induction us with
    | nil => intro J _; exact ⟨J, rfl⟩
    | cons u us ih =>
      intro J hu
      simp only [applyAll, List.foldlM_cons, applyUpd, hu u (by simp), if_true, Outcome.bind_ok]
      exact ih _ fun w hw => hu w (by simp [hw])
  obtain ⟨J, hJ⟩ := this uss.flatten (fun _ _ => 0) h2
  exact ⟨_, uss, _, J, h1, .refl _, hJ, fun l => rfl⟩

/-- The deposit of a rank succeeds. -/
def depositsB (O ng : Nat) (dt : ℚ) (n : List Nat) (sps : List (Sp ℚ)) : Bool :=
  match (sps.filter deposits).mapM (fun s => depositAll O ng s.charge dt s.ps) with
  | .ok uss => uss.flatten.all fun u => Deposit.inArray (n.map (· + 2 * ng)) u.idx
  | _ => false

theorem deposits_of {O ng : Nat} {dt : ℚ} {n : List Nat} {sps : List (Sp ℚ)}
    (h : depositsB O ng dt n sps = true) (v : Mem ℚ) : ∃ v', DepositRank O ng dt n sps v v' := by
  unfold depositsB at h
  split at h
  · rename_i uss e
    exact exists_deposit e (fun u hu => List.all_eq_true.1 h u hu) v
  · cases h

/-- The hypotheses of C35 are met by two steps in which a particle crosses the periodic edge of the box
from one rank to the other, from any electromagnetic field, with two filter passes. -/
example (M00 : MMem ℚ) : ∃ M0 M Q0 Q0' Q Q' : MMem ℚ,
    Sim perMeta 2 exPrm [ex1, ex2] M0 M ∧ Joined perMeta [11, 7] [ex1, ex2] ∧
    CommAll perMeta 2 (fun a c => selE a c || selB a c) M00 M0 ∧
    (∀ sps ∈ [ex1, ex2], ∀ r, r < perMeta.doms.length → ∀ s ∈ sps r, ∀ p ∈ s.ps, FitStep 1 2 p) ∧
    Holds perMeta [11, 7] 2 1 (charges perMeta xOld ex1) Q0 ∧ FilterPasses perMeta 2 2 Q0 Q0' ∧
    Holds perMeta [11, 7] 2 1 (charges perMeta xNew ex2) Q ∧ FilterPasses perMeta 2 2 Q Q' := by
  have hp : AllPeriodic perMeta := ⟨rfl, by decide⟩
  have hw : Wide [[5, 6], [7]] 2 := by unfold Wide; decide
  have hdoms : perMeta.doms.length = 2 := by decide +kernel
  obtain ⟨M0, h0⟩ := exists_comm perMeta_built hp (by decide) hw (fun a c => selE a c || selB a c) M00
  obtain ⟨M1, h1⟩ := exists_step (P := exPrm) (sps := ex1) perMeta_built hp (by decide) hw rfl rfl
    (fun r hr v => by
      have : r = 0 ∨ r = 1 := by omega
      rcases this with rfl | rfl <;> exact deposits_of (by decide +kernel) v) M0
  obtain ⟨M2, h2⟩ := exists_step (P := exPrm) (sps := ex2) perMeta_built hp (by decide) hw rfl rfl
    (fun r hr v => by
      have : r = 0 ∨ r = 1 := by omega
      rcases this with rfl | rfl <;> exact deposits_of (by decide +kernel) v) M1
  have hQ : ∀ cs : List (Charge ℚ), Holds perMeta [11, 7] 2 1 cs (fun r l => density 1 [11, 7] cs
      ((globalPos perMeta [11, 7] 2 r l.idx).getD [])) :=
    fun cs r i p _ hip c _ => by simp [hip]
  obtain ⟨Q0', hQ0'⟩ := exists_passes (K := ℚ) perMeta_built hp (by decide) hw 2
    (fun r l => density 1 [11, 7] (charges perMeta xOld ex1)
      ((globalPos perMeta [11, 7] 2 r l.idx).getD []))
  obtain ⟨Q', hQ'⟩ := exists_passes (K := ℚ) perMeta_built hp (by decide) hw 2
    (fun r l => density 1 [11, 7] (charges perMeta xNew ex2)
      ((globalPos perMeta [11, 7] 2 r l.idx).getD []))
  refine ⟨M0, M2, _, Q0', _, Q', .step (hist := [ex1]) (.step (hist := []) (.start h0) h1) h2, ?_, h0,
    ?_, hQ _, hQ0', hQ _, hQ'⟩
  · refine List.isChain_pair.2 ⟨_, List.Perm.refl _, ?_⟩
    have e1 : charges perMeta xNew ex1 = [⟨3, [45/4, 17/8]⟩] := by decide +kernel
    have e2 : charges perMeta xOld ex2 = [⟨3, [1/4, 17/8]⟩] := by decide +kernel
    rw [e1, e2]
    refine .cons ⟨rfl, [-1, 0], rfl, ?_⟩ .nil
    norm_num
  · intro sps hs r hr s hs' p hp
    refine ⟨.inr ?_, fun h => by cases h⟩
    have hr' : r = 0 ∨ r = 1 := by omega
    simp only [List.mem_cons, List.not_mem_nil, or_false] at hs
    rcases hs with rfl | rfl <;> rcases hr' with rfl | rfl <;>
      simp [ex1, ex2] at hs' <;> subst hs' <;> simp at hp <;> subst hp <;>
      (refine ⟨rfl, ?_⟩; simp only [List.forall_mem_cons, List.forall_mem_nil, and_true]
       refine ⟨⟨?_, ?_, ?_, ?_, ?_⟩, ⟨?_, ?_, ?_, ?_, ?_⟩, by simp⟩ <;> norm_num [abs_lt])

end Entity.Gauss
