import Verif.Lemmas.Resume
import Verif.Props.FullSafe

/-!
# C137: stopping a simulation and continuing it from a checkpoint changes nothing
-/

namespace Entity.Resume

open Entity Entity.Topology Entity.Push Entity.Prtl Entity.Ranks Entity.Full Entity.Outcome
open Entity.Decomp Entity.PrtlIO Entity.FieldSolver Entity.Deposit Entity.Interp Entity.Tags
open Entity.Kernel hiding State

variable {K : Type} [Field K] [LinearOrder K] [IsStrictOrderedRing K] [FloorRing K] [Inhabited K]

/-- **C137.** A simulation that is stopped after any steps and continued from the checkpoints written
there, any number of times, computes what the uninterrupted simulation computes: after `n` steps in
total, every cell of every rank, ghost cells included, holds the same electric and magnetic field, and
the ranks together hold the same particles with the same positions, momenta, weights and payloads.
This holds for all schedules of all kernels in both simulations, whatever the order in which the
ranks write, whatever a new process finds in the memory that is not read from the file, and whatever the
capacity of its arrays.

Partial: exact arithmetic, the same decomposition before and after, and the numbers of particles are
taken from the temporaries before they end (`C43_deferred_counterexample`). -/
theorem C137_restart_partial {m : Meta} {dN : List (List Nat)} (h : Built m dN) (hp : AllPeriodic m)
    (hD : dN.length ∈ [1, 2, 3]) {P : StepPrm K} (hng : 2 ≤ P.ng) (hw : Wide dN P.ng)
    {sps : List (SpPrm K)} (hk : ∀ s ∈ sps, s.kind.D = dN.length) {x0 : List K}
    {cap : Nat → Nat → Nat} {n : Nat} {I F F' : State K} (ht : AllTame m sps I.prtl)
    (hs : Session m dN.length P sps x0 cap n I F) (hr : Run m dN.length P sps x0 n I F') :
    (∀ r i, InArray m P.ng r i → ∀ c < 6, F.M r ⟨0, c, i⟩ = F'.M r ⟨0, c, i⟩) ∧
    ∀ s sp, sps[s]? = some sp →
      (held m dN sp.kind (F.prtl s)).Perm (held m dN sp.kind (F'.prtl s)) := by
  obtain ⟨g, hg⟩ := exists_global h P.ng I.M
  have h1 := session_holds h hp hD hng hw hk (B := ⟨g, fun s =>
    match sps[s]? with | some sp => held m dN sp.kind (I.prtl s) | none => []⟩)
    (fun a c _ => hg a c rfl) (fun s sp e => by simp [e]) ht hs
  have h2 := full_run h hp hD hng hw hk (B := ⟨g, fun s =>
    match sps[s]? with | some sp => held m dN sp.kind (I.prtl s) | none => []⟩)
    (fun a c _ => hg a c rfl) (fun s sp e => by simp [e]) ht hr
  refine ⟨fun r i hi c hc => ?_, fun s sp e => (h1.prtl s sp e).trans (h2.prtl s sp e).symm⟩
  obtain ⟨p, hp⟩ := globalPos_isSome (dN.map List.sum) hi
  have hs : selEB 0 c = true := by interval_cases c <;> rfl
  rw [h1.fields 0 c hs r i p hi hp, h2.fields 0 c hs r i p hi hp]

/-- **C137 (no failure).** Under the conditions of C135 and with room in the arrays of the resumed
runs, an interrupted simulation never fails either: in every state it reaches, the next step succeeds
under every schedule, and (after the first step) the checkpoint can be written and read back. -/
theorem C137_resume_safe_partial {m : Meta} {dN : List (List Nat)} (h : Built m dN)
    (hp : AllPeriodic m) (hD : dN.length ∈ [1, 2, 3]) {P : StepPrm K} (hng : P.ng = nGhosts P.O)
    (hO : P.O ≤ 11) (hodd : P.O = 0 ∨ P.O % 2 = 1) (hw : Wide dN P.ng)
    (hsz : ∀ r, r < m.doms.length → ∀ x ∈ sizes m r, x ≤ 2 ^ 32) {sps : List (SpPrm K)}
    (hk : ∀ s ∈ sps, s.kind.D = dN.length) (hs : ∀ s ∈ sps, s.frozen = false → Slow P s)
    {C T : Nat → Nat} {A : State K} (ht : AllTame m sps A.prtl) (hF : Fits m dN sps C T A)
    {cap : Nat → Nat → Nat} (hcap : ∀ s r, C s + T s < cap s r) (x0 : List K) {n : Nat} {A' : State K}
    (hr : Session m dN.length P sps x0 cap n A A') :
    StepSafe m dN.length P sps x0 n A' ∧ (∃ B, Session m dN.length P sps x0 cap (n + 1) A B) ∧
    ∀ l : Layout, ∃ em pf R, Written m P.ng sps l A' em pf ∧ Read m P.ng sps l em pf R ∧
      (n ≠ 0 → Session m dN.length P sps x0 cap n A R) := by
  have o : Ok m dN P sps := ⟨h, hp, hD, hng, hO, hodd, hw, hsz, hk, hs⟩
  obtain ⟨g, hg⟩ := exists_global h P.ng A.M
  have hold : ∀ n A', Session m dN.length P sps x0 cap n A A' → Holds m dN P sps A' (boxRun P sps x0
      (dN.map List.sum) n ⟨g, fun s =>
        match sps[s]? with | some sp => held m dN sp.kind (A.prtl s) | none => []⟩) :=
    fun n A' hr => session_holds h hp hD o.two hw hk (fun a c _ => hg a c rfl)
      (fun s sp e => by simp [e]) ht hr
  have fits : Fits m dN sps C T A' := by
    clear hs
    induction hr with
    | start hc => exact ⟨hF.offsets, hF.room⟩
    | step hr hs ih => exact step_fits o (hold _ _ hr) (ih ht hF hg hold) hs
    | resume hr _ hW hR hc ih =>
      have f := ih ht hF hg hold
      obtain ⟨-, hq⟩ := read_written h hD hk (hold _ _ hr).tame hW hR
      refine ⟨fun s sp e => ?_, fun s sp e => ?_⟩
      · rw [held_of_live (fun r hr => (hq s sp e r hr).1)]
        exact f.offsets s sp e
      · have := f.room s sp e
        refine ⟨?_, this.le, fun r hr => ?_, fun r hr => ?_⟩
        · rw [held_of_live (fun r hr => (hq s sp e r hr).1)]
          exact this.total
        · rw [(hq s sp e r hr).2.2]
          exact this.used r hr
        · rw [hc s sp e r hr]
          exact hcap s r
  refine ⟨step_safe o (hold _ _ hr) fits x0 n, ?_, fun l => ?_⟩
  · obtain ⟨B, hB⟩ := exists_full_step o (hold _ _ hr) fits x0 n
    exact ⟨B, .step hr hB⟩
  · obtain ⟨em, pf, R, h1, h2, h3⟩ := exists_resume h hD P.ng hk l (A := A') cap fun s sp e r hr' => by
      have := (fits.room s sp e).used r hr'
      have := hcap s r
      omega
    exact ⟨em, pf, R, h1, h2, fun hn => .resume hr hn h1 h2 h3⟩

/-- The hypotheses are met: the electron of `full_example`, which crosses between two ranks; the
simulation is stopped after two steps, continued with larger arrays, and gives after three steps the
fields of the uninterrupted one. -/
example (f : Option (List Int) → ℝ) : ∃ I A R F F' : State ℝ, ∃ em pf,
    Session perMeta 2 fullPrm [fullSp] [0, 0] (fun _ _ => 9) 2 I A ∧
    Written perMeta 2 [fullSp] .right A em pf ∧ Read perMeta 2 [fullSp] .right em pf R ∧
    Session perMeta 2 fullPrm [fullSp] [0, 0] (fun _ _ => 9) 2 I R ∧
    Session perMeta 2 fullPrm [fullSp] [0, 0] (fun _ _ => 9) 3 I F ∧
    Run perMeta 2 fullPrm [fullSp] [0, 0] 3 I F' ∧
    (∀ r i, InArray perMeta 2 r i → ∀ c < 6, F.M r ⟨0, c, i⟩ = F'.M r ⟨0, c, i⟩) ∧
    held perMeta [[5, 6], [7]] fullSp.kind (I.prtl 0) ≠ [] := by
  obtain ⟨I, _, _, ht, _, _, hne, hsl, hF, hrun⟩ := full_example f
  have hp : AllPeriodic perMeta := ⟨rfl, by decide⟩
  have hw : Wide [[5, 6], [7]] 2 := by unfold Wide; decide
  have hd : perMeta.doms.length = 2 := by decide +kernel
  have s0 : sizes perMeta 0 = [5, 7] := by decide +kernel
  have s1 : sizes perMeta 1 = [6, 7] := by decide +kernel
  have key := fun {n : Nat} {A' : State ℝ} => C137_resume_safe_partial (P := fullPrm) (sps := [fullSp])
    (cap := fun _ _ => 9) (n := n) (A' := A') perMeta_built hp (by decide) (by decide) (by decide)
    (by decide) hw (by
      intro r hr x hx
      rw [hd] at hr
      interval_cases r
      · rw [s0] at hx; revert x; decide
      · rw [s1] at hx; revert x; decide) (by simp [fullSp]) (by simpa using fun _ => hsl) ht hF
      (by simp) [0, 0]
  obtain ⟨F', _, hr, _⟩ := hrun 3
  obtain ⟨_, _, h0, _⟩ := hrun 0
  cases h0 with
  | start hc =>
    obtain ⟨A1, h1⟩ := (key (.start hc)).2.1
    obtain ⟨A2, h2⟩ := (key h1).2.1
    obtain ⟨em, pf, R, hW, hR, h3⟩ := (key h2).2.2 .right
    obtain ⟨F, h4⟩ := (key (h3 (by decide))).2.1
    exact ⟨I, A2, R, F, F', em, pf, h2, hW, hR, h3 (by decide), h4, hr,
      (C137_restart_partial (P := fullPrm) perMeta_built hp (by decide) (by decide) hw
        (by simp [fullSp]) ht h4 hr).1, hne⟩

end Entity.Resume
