import Verif.Lemmas.FullMain
import Verif.Props.Gauss
import Verif.Props.Interp

/-!
# The complete simulation: C133 (ranks compute what one box computes), C134 (independence of the
decomposition)
-/

namespace Entity.Full

open Entity Entity.Topology Entity.Kernel Entity.FieldSolver Entity.Push Entity.Prtl Entity.Ranks
open Entity.Deposit Entity.Interp Entity.Tags Entity.Decomp Entity.Gauss Entity.Dir Entity.Filter

variable {K : Type} [Field K] [LinearOrder K] [IsStrictOrderedRing K] [FloorRing K] [Inhabited K]

/-- **C133.** Any run of `n` complete steps of the special-relativistic engine on any number of ranks
in a periodic Cartesian box, under every schedule of every kernel, computes what the algorithm on the
undivided periodic box computes (`boxRun`: no ranks, no ghost cells, no exchange, no tags): the
electric and magnetic fields of all cells of all ranks, ghost cells included, are those of the box, and
the live particles of all ranks together, with their cells counted in the box, are its particles, none
lost or doubled.

Partial: exact arithmetic. -/
theorem C133_box_refinement_partial {m : Meta} {dN : List (List Nat)} (h : Built m dN)
    (hp : AllPeriodic m) (hD : dN.length ∈ [1, 2, 3]) {P : StepPrm K} (hng : 2 ≤ P.ng)
    (hw : Wide dN P.ng) {sps : List (SpPrm K)} (hk : ∀ s ∈ sps, s.kind.D = dN.length) {x0 : List K}
    {n : Nat} {A A' : State K} {B : Box K}
    (h1 : ShowsActive m (dN.map List.sum) P.ng selEB A.M B.g)
    (h2 : ∀ s sp, sps[s]? = some sp → (held m dN sp.kind (A.prtl s)).Perm (B.prtl s))
    (h3 : AllTame m sps A.prtl) (hr : Run m dN.length P sps x0 n A A') :
    Shows m (dN.map List.sum) P.ng selEB A'.M (boxRun P sps x0 (dN.map List.sum) n B).g ∧
    (∀ s sp, sps[s]? = some sp → (held m dN sp.kind (A'.prtl s)).Perm
      ((boxRun P sps x0 (dN.map List.sum) n B).prtl s)) ∧
    AllTame m sps A'.prtl := by
  obtain ⟨a, b, c⟩ := full_run h hp hD hng hw hk h1 h2 h3 hr
  exact ⟨a, b, c⟩

/-- Two decompositions hold the same electric and magnetic fields: whenever active cells stand for the
same cell of the box, they hold the same. -/
def SameEB (m m' : Meta) (N : List Nat) (ng : Nat) (M M' : MMem K) : Prop :=
  ∀ r i r' i' p, Active m ng r i → Active m' ng r' i' → globalPos m N ng r i = some p →
    globalPos m' N ng r' i' = some p → ∀ c < 6, M r ⟨0, c, i⟩ = M' r' ⟨0, c, i'⟩

/-- **C134.** The result of a simulation does not depend on how the box is divided.  Let the same
periodic box be divided in two ways among any numbers of ranks, and let both hold the same fields and
the same particles at the beginning, on whichever ranks and in whichever order in memory.  After any
number of complete steps (magnetic half-step, push, deposit, filters, exchanges, magnetic half-step,
electric step, clearing, sorting), under all schedules, both hold the same fields and the same
particles.

Partial: exact arithmetic (sums of floating-point numbers depend on their order). -/
theorem C134_whole_simulation_partial {m m' : Meta} {dN dN' : List (List Nat)} (h : Built m dN)
    (h' : Built m' dN') (hN : dN.map List.sum = dN'.map List.sum) (hp : AllPeriodic m)
    (hp' : AllPeriodic m') (hD : dN.length ∈ [1, 2, 3]) {P : StepPrm K} (hng : 2 ≤ P.ng)
    (hw : Wide dN P.ng) (hw' : Wide dN' P.ng) {sps : List (SpPrm K)}
    (hk : ∀ s ∈ sps, s.kind.D = dN.length) {x0 : List K} {n : Nat} {I I' F F' : State K}
    (hf : SameEB m m' (dN.map List.sum) P.ng I.M I'.M)
    (hq : ∀ s sp, sps[s]? = some sp →
      (held m dN sp.kind (I.prtl s)).Perm (held m' dN' sp.kind (I'.prtl s)))
    (ht : AllTame m sps I.prtl) (ht' : AllTame m' sps I'.prtl)
    (hr : Run m dN.length P sps x0 n I F) (hr' : Run m' dN.length P sps x0 n I' F') :
    SameEB m m' (dN.map List.sum) P.ng F.M F'.M ∧
    ∀ s sp, sps[s]? = some sp →
      (held m dN sp.kind (F.prtl s)).Perm (held m' dN' sp.kind (F'.prtl s)) := by
  have hDD : dN'.length = dN.length := by
    have := congrArg List.length hN
    simpa using this.symm
  have hsel : ∀ a c, selEB a c = true → a = 0 ∧ c < 6 := by
    intro a c hs
    simp only [selEB, selE, selB, Bool.or_eq_true, Bool.and_eq_true, beq_iff_eq, decide_eq_true_eq]
      at hs
    omega
  obtain ⟨g, hg⟩ := exists_global h P.ng I.M
  have hg' : ShowsActive m' (dN'.map List.sum) P.ng selEB I'.M g := by
    intro a c hs r i p hi hip
    obtain ⟨rfl, hc⟩ := hsel a c hs
    have hil := active_length h' (active_inArray hi)
    obtain ⟨hpl, hpw⟩ := globalPos_wrapped h' (active_lt hi) hil hip
    obtain ⟨q, j, hj, hjp⟩ := cover h hw (p := p) (by omega) (by rw [hN]; exact hpw)
    rw [← hf q j r i p hj hi hjp (by rw [hN]; exact hip) c hc]
    exact hg 0 c rfl q j p hj hjp
  obtain ⟨s1, q1, -⟩ := C133_box_refinement_partial h hp hD hng hw hk (B := ⟨g, fun s =>
    match sps[s]? with | some sp => held m dN sp.kind (I.prtl s) | none => []⟩)
    (fun a c _ => hg a c rfl) (fun s sp e => by simp [e]) ht hr
  rw [← hDD] at hr'
  obtain ⟨s2, q2, -⟩ := C133_box_refinement_partial h' hp' (by rw [hDD]; exact hD) hng hw'
    (fun s hs => by rw [hDD]; exact hk s hs) (B := ⟨g, fun s =>
    match sps[s]? with | some sp => held m dN sp.kind (I.prtl s) | none => []⟩)
    hg' (fun s sp e => by simp only [e]; exact (hq s sp e).symm) ht' hr'
  refine ⟨fun r i r' i' p hi hi' hip hip' c hc => ?_, fun s sp e => ?_⟩
  · have hs : selEB 0 c = true := by
      interval_cases c <;> rfl
    rw [s1.active 0 c hs r i p hi hip, s2.active 0 c hs r' i' p hi' (by rw [← hN]; exact hip'), hN]
  · have := q2 s sp e
    rw [← hN] at this
    exact (q1 s sp e).trans this.symm

end Entity.Full
