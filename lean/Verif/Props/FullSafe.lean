import Verif.Lemmas.FullSafe
import Verif.Props.FullStep
import Mathlib.Analysis.SpecialFunctions.Pow.Real

/-!
# C135: no step of a simulation fails
-/

namespace Entity.Full

open Entity Entity.Topology Entity.Kernel Entity.FieldSolver Entity.Push Entity.Prtl Entity.Ranks
open Entity.Deposit Entity.Interp Entity.Tags Entity.Decomp Entity.Gauss Entity.Dir Entity.Filter

variable {K : Type} [Field K] [LinearOrder K] [IsStrictOrderedRing K] [FloorRing K] [Inhabited K]

/-- **C135.** In a periodic Cartesian box, with the number of ghost cells of the build, the zigzag
deposit or an odd order, particles whose offsets start in `[0, 1)`, a time step within the Courant
condition and arrays with enough room at the beginning, no simulation ever fails: in every state
reached after any number of steps on any number of ranks under any schedule, the next push,
deposit, exchange, removal and sort all succeed under every schedule (no error, no access outside an
array), the offsets are in `[0, 1)` again and there is as much room as before; and a simulation of any
length exists.

Partial: exact arithmetic (a rounded offset can be 1); even orders are excluded, since for them the
deposit does leave the array (`C33_even_order_counterexample`). -/
theorem C135_no_step_fails_partial {m : Meta} {dN : List (List Nat)} (h : Built m dN)
    (hp : AllPeriodic m) (hD : dN.length ∈ [1, 2, 3]) {P : StepPrm K} (hng : P.ng = nGhosts P.O)
    (hO : P.O ≤ 11) (hodd : P.O = 0 ∨ P.O % 2 = 1) (hw : Wide dN P.ng)
    (hsz : ∀ r, r < m.doms.length → ∀ x ∈ sizes m r, x ≤ 2 ^ 32) {sps : List (SpPrm K)}
    (hk : ∀ s ∈ sps, s.kind.D = dN.length) (hs : ∀ s ∈ sps, s.frozen = false → Slow P s)
    {C T : Nat → Nat} {A : State K} (ht : AllTame m sps A.prtl) (hF : Fits m dN sps C T A)
    (x0 : List K) :
    (∀ n A', Run m dN.length P sps x0 n A A' →
      StepSafe m dN.length P sps x0 n A' ∧ Fits m dN sps C T A') ∧
    ∀ n, ∃ A', Run m dN.length P sps x0 n A A' := by
  have o : Ok m dN P sps := ⟨h, hp, hD, hng, hO, hodd, hw, hsz, hk, hs⟩
  obtain ⟨g, hg⟩ := exists_global h P.ng A.M
  have hold : ∀ n A', Run m dN.length P sps x0 n A A' → Holds m dN P sps A' (boxRun P sps x0
      (dN.map List.sum) n ⟨g, fun s =>
        match sps[s]? with | some sp => held m dN sp.kind (A.prtl s) | none => []⟩) :=
    fun n A' hr => full_run h hp hD o.two hw hk (fun a c _ => hg a c rfl)
      (fun s sp e => by simp [e]) ht hr
  have fits : ∀ n A', Run m dN.length P sps x0 n A A' → Fits m dN sps C T A' := by
    intro n A' hr
    induction hr with
    | start hc => exact ⟨hF.offsets, hF.room⟩
    | step hr hs ih => exact step_fits o (hold _ _ hr) (ih ht hF hg hold) hs
  refine ⟨fun n A' hr => ⟨step_safe o (hold n A' hr) (fits n A' hr) x0 n, fits n A' hr⟩, fun n => ?_⟩
  induction n with
  | zero =>
    obtain ⟨M0, hM⟩ := exists_comm h hp hD hw (fun a c => selE a c || selB a c) A.M
    exact ⟨_, .start hM⟩
  | succ n ih =>
    obtain ⟨A', hr⟩ := ih
    obtain ⟨A'', hs⟩ := exists_full_step o (hold n A' hr) (fits n A' hr) x0 n
    exact ⟨A'', .step hr hs⟩

/-- The Courant condition: a time step not larger than a cell keeps every massive particle slow,
whatever its momentum. -/
theorem C135_courant {P : StepPrm ℝ} {s : SpPrm ℝ} (hx : 0 < P.dx) (h0 : 0 ≤ P.dt) (h1 : P.dt ≤ P.dx)
    (hE : ∀ u, s.dtE u = P.dt / Real.sqrt (1 + u.x ^ 2 + u.y ^ 2 + u.z ^ 2)) : Slow P s := by
  have key : ∀ a b : ℝ, 0 ≤ b → |a / P.dx * (P.dt / Real.sqrt (1 + a ^ 2 + b))| < 1 := by
    intro a b hb
    have hg : |a| < Real.sqrt (1 + a ^ 2 + b) := by
      rw [← Real.sqrt_sq_eq_abs]
      exact Real.sqrt_lt_sqrt (sq_nonneg a) (by linarith)
    have hs : 0 < Real.sqrt (1 + a ^ 2 + b) := (abs_nonneg a).trans_lt hg
    rw [abs_mul, abs_div, abs_div, abs_of_pos hx, abs_of_nonneg h0, abs_of_pos hs,
      div_mul_div_comm, div_lt_one (mul_pos hx hs)]
    calc |a| * P.dt ≤ |a| * P.dx := mul_le_mul_of_nonneg_left h1 (abs_nonneg a)
      _ < P.dx * Real.sqrt (1 + a ^ 2 + b) := by rw [mul_comm]; exact mul_lt_mul_of_pos_left hg hx
  intro u
  rw [hE]
  refine ⟨?_, ?_, ?_⟩
  · have := key u.x (u.y ^ 2 + u.z ^ 2) (by positivity)
    rwa [← add_assoc] at this
  · have := key u.y (u.x ^ 2 + u.z ^ 2) (by positivity)
    rwa [show 1 + u.y ^ 2 + (u.x ^ 2 + u.z ^ 2) = 1 + u.x ^ 2 + u.y ^ 2 + u.z ^ 2 by ring] at this
  · have := key u.z (u.x ^ 2 + u.y ^ 2) (by positivity)
    rwa [show 1 + u.z ^ 2 + (u.x ^ 2 + u.y ^ 2) = 1 + u.x ^ 2 + u.y ^ 2 + u.z ^ 2 by ring] at this

/-! ## An example: an electron in an 11 × 7 box, on two ranks and on one -/

/-- A time step of half a cell, first-order shapes, two filter passes. -/
noncomputable def fullPrm : StepPrm ℝ :=
  ⟨1, 2, 2, 1/20, 1/10, 1, 1, 1, 1, 4, Coeffs.yee, true, true⟩

/-- Electrons accelerated by the electric field. -/
noncomputable def fullSp : SpPrm ℝ where
  kind := ⟨2, false, 0, 1⟩
  charge := -1
  frozen := false
  kick _ _ e _ u := ⟨u.x - e.x, u.y - e.y, u.z - e.z⟩
  dtE u := 1/20 / Real.sqrt (1 + u.x ^ 2 + u.y ^ 2 + u.z ^ 2)
  invE u := 1 / Real.sqrt (1 + u.x ^ 2 + u.y ^ 2 + u.z ^ 2)

/-- A particle in cell `(i, 3)`, moving to the right, with one integer of payload. -/
noncomputable def fullOne (i t : Int) : Prtl ℝ :=
  ⟨i, i, 3, 3, 0, 0, 1/2, 1/2, 1/4, 1/4, 0, 0, 3, 1, 0, 1, 0, [], [7], t⟩

/-- Arrays of eight entries of which the first is in use (dead or alive). -/
noncomputable def fullStore (i t : Int) : Store ℝ :=
  ⟨fullOne i t :: List.replicate 7 (fullOne 0 0), 1⟩

theorem fullStore_tame {m : Meta} {r : Nat} {i t : Int} (ht : t = 0 ∨ t = 1) {a : Nat}
    (hs : sizes m r = [a, 7]) (hi : 0 ≤ i ∧ i < a) : Tame m fullSp.kind r (fullStore i t) := by
  refine ⟨by simp [fullStore, Store.maxnpart], ?_, ?_, ?_⟩
  · intro q hq
    simp only [Store.used, fullStore, List.take_succ_cons, List.take_zero, List.mem_singleton] at hq
    subst hq
    exact ht
  · intro q hq b hb
    have hq' := (List.mem_filter.1 hq).1
    simp only [Store.used, fullStore, List.take_succ_cons, List.take_zero, List.mem_singleton] at hq'
    subst hq'
    rw [hs]
    have hb' : b < 2 := hb
    interval_cases b
    · exact hi
    · exact ⟨(by decide : (0 : Int) ≤ 3), (by decide : (3 : Int) < 7)⟩
  · intro q hq
    have : q.pld_r = [] ∧ q.pld_i = [7] := by
      rcases List.mem_cons.1 hq with rfl | hq
      · exact ⟨rfl, rfl⟩
      · rw [(List.mem_replicate.1 hq).2]; exact ⟨rfl, rfl⟩
    exact ⟨by rw [this.1]; rfl, by rw [this.2]; rfl⟩

theorem fullStore_live (i : Int) : (fullStore i 1).live = [fullOne i 1] ∧ (fullStore i 0).live = [] := by
  constructor
  · simp [Store.live, Store.used, fullStore, fullOne]
  · simp [Store.live, Store.used, fullStore, fullOne]

/-- The hypotheses of C133, C134 and C135 are met: the box in two pieces and in one piece, any fields
that agree, an electron in the last cell of the first piece, so that it crosses to the second one.
Both simulations can be run for any number of steps. -/
theorem full_example (f : Option (List Int) → ℝ) : ∃ I I' : State ℝ,
    (∀ M M', I.M = M → I'.M = M' → SameEB perMeta oneMeta [11, 7] 2 M M') ∧
    AllTame perMeta [fullSp] I.prtl ∧ AllTame oneMeta [fullSp] I'.prtl ∧
    (held perMeta [[5, 6], [7]] fullSp.kind (I.prtl 0)).Perm
      (held oneMeta [[11], [7]] fullSp.kind (I'.prtl 0)) ∧
    held perMeta [[5, 6], [7]] fullSp.kind (I.prtl 0) ≠ [] ∧
    Slow fullPrm fullSp ∧ Fits perMeta [[5, 6], [7]] [fullSp] (fun _ => 1) (fun _ => 1) I ∧
    ∀ n, ∃ F F', Run perMeta 2 fullPrm [fullSp] [0, 0] n I F ∧
      Run oneMeta 2 fullPrm [fullSp] [0, 0] n I' F' := by
  have hb1 : Built oneMeta [[11], [7]] := ⟨by decide, rfl, by decide +kernel⟩
  have hp : AllPeriodic perMeta := ⟨rfl, by decide⟩
  have hp1 : AllPeriodic oneMeta := ⟨rfl, by decide⟩
  have hw : Wide [[5, 6], [7]] 2 := by unfold Wide; decide
  have hw1 : Wide [[11], [7]] 2 := by unfold Wide; decide
  have hd : perMeta.doms.length = 2 := by decide +kernel
  have hd1 : oneMeta.doms.length = 1 := by decide +kernel
  have s0 : sizes perMeta 0 = [5, 7] := by decide +kernel
  have s1 : sizes perMeta 1 = [6, 7] := by decide +kernel
  have s2 : sizes oneMeta 0 = [11, 7] := by decide +kernel
  have hslow : Slow fullPrm fullSp := C135_courant (by norm_num [fullPrm]) (by norm_num [fullPrm])
    (by norm_num [fullPrm]) fun u => rfl
  let I : State ℝ := ⟨fun r l => f (globalPos perMeta [11, 7] 2 r l.idx),
    fun _ r => if r = 0 then fullStore 4 1 else fullStore 2 0⟩
  let I' : State ℝ := ⟨fun r l => f (globalPos oneMeta [11, 7] 2 r l.idx), fun _ _ => fullStore 4 1⟩
  have hkind : ∀ s sp, [fullSp][s]? = some sp → s = 0 ∧ sp = fullSp := by
    intro s sp e
    obtain ⟨a, b⟩ := List.getElem?_eq_some_iff.1 e
    simp at a
    subst a
    exact ⟨rfl, b.symm⟩
  have t1 : AllTame perMeta [fullSp] I.prtl := by
    intro s sp e r hr
    obtain ⟨rfl, rfl⟩ := hkind s sp e
    rw [hd] at hr
    interval_cases r
    · exact fullStore_tame (Or.inr rfl) s0 ⟨by decide, by decide⟩
    · exact fullStore_tame (Or.inl rfl) s1 ⟨by decide, by decide⟩
  have t2 : AllTame oneMeta [fullSp] I'.prtl := by
    intro s sp e r hr
    obtain ⟨rfl, rfl⟩ := hkind s sp e
    rw [hd1] at hr
    interval_cases r
    exact fullStore_tame (Or.inr rfl) s2 ⟨by decide, by decide⟩
  have l1 : held perMeta [[5, 6], [7]] fullSp.kind (I.prtl 0) =
      [gview perMeta [[5, 6], [7]] 0 fullSp.kind (fullOne 4 1)] := by
    unfold held
    rw [hd]
    simp [List.range_succ, I, (fullStore_live _).1, (fullStore_live _).2]
  have l2 : held oneMeta [[11], [7]] fullSp.kind (I'.prtl 0) =
      [gview oneMeta [[11], [7]] 0 fullSp.kind (fullOne 4 1)] := by
    unfold held
    rw [hd1]
    simp [List.range_succ, I', (fullStore_live _).1]
  have hsame : gview perMeta [[5, 6], [7]] 0 fullSp.kind (fullOne 4 1) =
      gview oneMeta [[11], [7]] 0 fullSp.kind (fullOne 4 1) := by
    have e : globalCells perMeta [[5, 6], [7]] 0 [4, 3] = globalCells oneMeta [[11], [7]] 0 [4, 3] := by
      decide +kernel
    have e' : (fullSp.kind.view (fullOne 4 1)).cell = [4, 3] ∧
        (fullSp.kind.view (fullOne 4 1)).cellPrev = [4, 3] := ⟨rfl, rfl⟩
    unfold gview
    rw [e'.1, e'.2, e]
  have off : ∀ (m : Meta) (dN : List (List Nat)), OffsetOk (gview m dN 0 fullSp.kind (fullOne 4 1)) := by
    intro m dN x hx
    have : x ∈ [(1 / 2 : ℝ), 1 / 4] := hx
    simp only [List.mem_cons, List.not_mem_nil, or_false] at this
    rcases this with rfl | rfl <;> norm_num
  have f1 : Fits perMeta [[5, 6], [7]] [fullSp] (fun _ => 1) (fun _ => 1) I := by
    refine ⟨fun s sp e => ?_, fun s sp e => ?_⟩ <;> obtain ⟨rfl, rfl⟩ := hkind s sp e
    · rw [l1]
      intro v hv
      rw [List.mem_singleton.1 hv]
      exact off _ _
    · refine ⟨by rw [l1]; simp, le_rfl, fun r _ => ?_, fun r _ => ?_⟩
      · by_cases h0 : r = 0 <;> simp [I, h0, fullStore]
      · by_cases h0 : r = 0 <;> simp [I, h0, fullStore, Store.maxnpart]
  have f2 : Fits oneMeta [[11], [7]] [fullSp] (fun _ => 1) (fun _ => 1) I' := by
    refine ⟨fun s sp e => ?_, fun s sp e => ?_⟩ <;> obtain ⟨rfl, rfl⟩ := hkind s sp e
    · rw [l2]
      intro v hv
      rw [List.mem_singleton.1 hv]
      exact off _ _
    · refine ⟨by rw [l2]; simp, le_rfl, fun r _ => ?_, fun r _ => ?_⟩
      · simp [I', fullStore]
      · simp [I', fullStore, Store.maxnpart]
  have r1 := (C135_no_step_fails_partial (P := fullPrm) (sps := [fullSp]) perMeta_built hp (by decide)
    (by decide) (by decide) (by decide) hw (by
      intro r hr x hx
      rw [hd] at hr
      interval_cases r
      · rw [s0] at hx; revert x; decide
      · rw [s1] at hx; revert x; decide) (by simp [fullSp]) (by simpa using fun _ => hslow) t1 f1
      [0, 0]).2
  have r2 := (C135_no_step_fails_partial (P := fullPrm) (sps := [fullSp]) hb1 hp1 (by decide)
    (by decide) (by decide) (by decide) hw1 (by
      intro r hr x hx
      rw [hd1] at hr
      interval_cases r
      rw [s2] at hx; revert x; decide) (by simp [fullSp]) (by simpa using fun _ => hslow) t2 f2
      [0, 0]).2
  refine ⟨I, I', ?_, t1, t2, by rw [l1, l2, hsame], by rw [l1]; simp, hslow, f1, fun n => ?_⟩
  · rintro M M' rfl rfl r i r' i' p _ _ hip hip' c _
    show f _ = f _
    rw [hip, hip']
  · obtain ⟨F, hF⟩ := r1 n
    obtain ⟨F', hF'⟩ := r2 n
    exact ⟨F, F', hF, hF'⟩

end Entity.Full
