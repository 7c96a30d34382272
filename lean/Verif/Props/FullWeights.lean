import Verif.Lemmas.FullWeights
import Verif.Props.FullSafe

/-!
# C155: only the distribution of weight matters
-/

namespace Entity.Full

open Entity Entity.Topology Entity.Kernel Entity.FieldSolver Entity.Push Entity.Prtl Entity.Ranks
open Entity.Deposit Entity.Interp Entity.Tags Entity.Decomp Entity.Gauss Entity.Dir Entity.Filter

variable {K : Type} [Field K] [LinearOrder K] [IsStrictOrderedRing K] [FloorRing K] [Inhabited K]

omit [LinearOrder K] [IsStrictOrderedRing K] [FloorRing K] [Inhabited K] in
theorem SameDist.of_perm {l l' m m' : List (View K)} (h : SameDist l m) (h1 : l'.Perm l)
    (h2 : m'.Perm m) : SameDist l' m' := by
  intro φ
  rw [(h1.map _).sum_eq, (h2.map _).sum_eq]
  exact h φ

/-- **C155.** Particles act on a simulation only through the distribution of their weight.  Let two
simulations of the same periodic box, divided in any two ways among ranks, start with the same fields
and with particles such that each species that is charged and pushed has the same distribution of
weight over positions and momenta, carried by however many particles.  After any number of complete
steps, under all schedules, the fields are the same, and every species that started with the same
distribution still has the same distribution.  So a particle may be replaced by several ones at the
same place whose weights add up to its weight, the order of the particles does not matter, particles of
weight zero and neutral species are test particles, and the payload of a particle does not matter.

Partial: exact arithmetic. -/
theorem C155_distribution_partial {m m' : Meta} {dN dN' : List (List Nat)} (h : Built m dN)
    (h' : Built m' dN') (hN : dN.map List.sum = dN'.map List.sum) (hp : AllPeriodic m)
    (hp' : AllPeriodic m') (hD : dN.length ∈ [1, 2, 3]) {P : StepPrm K} (hng : 2 ≤ P.ng)
    (hw : Wide dN P.ng) (hw' : Wide dN' P.ng) {sps : List (SpPrm K)}
    (hk : ∀ s ∈ sps, s.kind.D = dN.length) {x0 : List K} {n : Nat} {I I' F F' : State K}
    (hf : SameEB m m' (dN.map List.sum) P.ng I.M I'.M)
    (hq : ∀ s sp, sps[s]? = some sp → Charged sp →
      SameDist (held m dN sp.kind (I.prtl s)) (held m' dN' sp.kind (I'.prtl s)))
    (ht : AllTame m sps I.prtl) (ht' : AllTame m' sps I'.prtl)
    (hr : Run m dN.length P sps x0 n I F) (hr' : Run m' dN.length P sps x0 n I' F') :
    SameEB m m' (dN.map List.sum) P.ng F.M F'.M ∧
    ∀ s sp, sps[s]? = some sp →
      SameDist (held m dN sp.kind (I.prtl s)) (held m' dN' sp.kind (I'.prtl s)) →
      SameDist (held m dN sp.kind (F.prtl s)) (held m' dN' sp.kind (F'.prtl s)) := by
  have hDD : dN'.length = dN.length := by
    have := congrArg List.length hN
    simpa using this.symm
  have hsel : ∀ a c, selEB a c = true → a = 0 ∧ c < 6 := by
    intro a c hs
    simp only [selEB, selE, selB, Bool.or_eq_true, Bool.and_eq_true, beq_iff_eq, decide_eq_true_eq]
      at hs
    omega
  obtain ⟨g, hg⟩ := exists_global h P.ng I.M
  have hg' : ShowsActive m' (dN'.map List.sum) P.ng selEB I'.M g := by
    intro a c hs r i p hi hip
    obtain ⟨rfl, hc⟩ := hsel a c hs
    have hil := active_length h' (active_inArray hi)
    obtain ⟨hpl, hpw⟩ := globalPos_wrapped h' (active_lt hi) hil hip
    obtain ⟨q, j, hj, hjp⟩ := cover h hw (p := p) (by omega) (by rw [hN]; exact hpw)
    rw [← hf q j r i p hj hi hjp (by rw [hN]; exact hip) c hc]
    exact hg 0 c rfl q j p hj hjp
  let B : Box K := ⟨g, fun s =>
    match sps[s]? with | some sp => held m dN sp.kind (I.prtl s) | none => []⟩
  let B' : Box K := ⟨g, fun s =>
    match sps[s]? with | some sp => held m' dN' sp.kind (I'.prtl s) | none => []⟩
  have hB : SameBox sps B B' := by
    refine ⟨rfl, fun i s e hc => ?_⟩
    simp only [B, B', e]
    exact hq i s e hc
  obtain ⟨s1, q1, -⟩ := C133_box_refinement_partial h hp hD hng hw hk (B := B)
    (fun a c _ => hg a c rfl) (fun s sp e => by simp [B, e]) ht hr
  rw [← hDD] at hr'
  obtain ⟨s2, q2, -⟩ := C133_box_refinement_partial h' hp' (by rw [hDD]; exact hD) hng hw'
    (fun s hs => by rw [hDD]; exact hk s hs) (B := B')
    hg' (fun s sp e => by simp [B', e]) ht' hr'
  rw [← hN] at s2 q2
  obtain ⟨k1, k2⟩ := boxRun_dist (P := P) (x0 := x0) (N := dN.map List.sum) hB n
  refine ⟨fun r i r' i' p hi hi' hip hip' c hc => ?_, fun s sp e hd => ?_⟩
  · have hs : selEB 0 c = true := by
      interval_cases c <;> rfl
    rw [s1.active 0 c hs r i p hi hip, s2.active 0 c hs r' i' _ hi' hip', k1.fields]
  · exact (k2 s (by simp only [B, B', e]; exact hd)).of_perm (q1 s sp e) (q2 s sp e)

omit [LinearOrder K] [IsStrictOrderedRing K] [FloorRing K] [Inhabited K] in
/-- What counts as the same distribution: a particle may be split, and one of weight zero left out. -/
theorem C155_split {v : View K} {l : List (View K)} (h : Split v l) (rest : List (View K)) :
    SameDist (v :: rest) (l ++ rest) ∧ (v.weight = 0 → SameDist (v :: rest) rest) := by
  refine ⟨fun φ => ?_, fun h0 φ => by simp [h0]⟩
  rw [List.map_cons, List.sum_cons, List.map_append, List.sum_append, ← h.2,
    ← List.sum_map_mul_right]
  congr 2
  apply List.map_congr_left
  intro w hw
  obtain ⟨e1, e2, e3⟩ := h.1 w hw
  simp only [e1, e2, e3]

omit [LinearOrder K] [IsStrictOrderedRing K] [FloorRing K] [Inhabited K] in
/-- What does not: where there is a weighted mean that tells particles apart, the distributions differ
(here: the total weight, and the weight in a cell). -/
theorem C155_distinct {l l' : List (View K)} (h : SameDist l l') :
    (l.map (·.weight)).sum = (l'.map (·.weight)).sum ∧
    ∀ c : List Int, ((l.filter fun v => decide (v.cell = c)).map (·.weight)).sum =
      ((l'.filter fun v => decide (v.cell = c)).map (·.weight)).sum := by
  have key : ∀ (c : List Int) (l : List (View K)),
      (l.map fun v => v.weight * if v.cell = c then 1 else 0).sum =
        ((l.filter fun v => decide (v.cell = c)).map (·.weight)).sum := by
    intro c l
    induction l with
    | nil => rfl
    | cons v l ih =>
      rw [List.map_cons, List.sum_cons, ih]
      by_cases hv : v.cell = c <;> simp [hv]
  refine ⟨by simpa using h fun _ _ _ => 1, fun c => ?_⟩
  rw [← key, ← key]
  exact h fun cell _ _ => if cell = c then 1 else 0

/-! ## An example: an electron, and two half electrons -/

/-- An electron of weight `w` in cell `(4, 3)` of the box of `full_example`, with some payload. -/
noncomputable def partOf (w : ℝ) (k : Nat) : Prtl ℝ :=
  ⟨4, 4, 3, 3, 0, 0, 1/2, 1/2, 1/4, 1/4, 0, 0, 3, 1, 0, w, 0, [], [k], 1⟩

/-- A store with these particles and room for more. -/
noncomputable def partStore (l : List (Prtl ℝ)) : Store ℝ :=
  ⟨l ++ List.replicate 8 (fullOne 0 0), l.length⟩

theorem partStore_used (l : List (Prtl ℝ)) : (partStore l).used = l := by
  simp [Store.used, partStore]

theorem partStore_live {l : List (Prtl ℝ)} (hl : ∀ q ∈ l, ∃ w k, q = partOf w k) :
    (partStore l).live = l := by
  unfold Store.live
  rw [partStore_used, List.filter_eq_self]
  intro q hq
  obtain ⟨w, k, rfl⟩ := hl q hq
  rfl

/-- A state on one rank with given particles can be run for any number of steps. -/
theorem part_run {l : List (Prtl ℝ)} (hl : ∀ q ∈ l, ∃ w k, q = partOf w k) (h8 : l.length < 8) (M : MMem ℝ) :
    AllTame oneMeta [fullSp] (fun _ _ => partStore l) ∧
    held oneMeta [[11], [7]] fullSp.kind (fun _ => partStore l) =
      l.map (gview oneMeta [[11], [7]] 0 fullSp.kind) ∧
    ∀ n, ∃ F, Run oneMeta 2 fullPrm [fullSp] [0, 0] n ⟨M, fun _ _ => partStore l⟩ F := by
  have hd1 : oneMeta.doms.length = 1 := by decide +kernel
  have s2 : sizes oneMeta 0 = [11, 7] := by decide +kernel
  have hkind : ∀ s sp, [fullSp][s]? = some sp → s = 0 ∧ sp = fullSp := by
    intro s sp e
    obtain ⟨a, b⟩ := List.getElem?_eq_some_iff.1 e
    simp at a
    subst a
    exact ⟨rfl, b.symm⟩
  have hlive := partStore_live hl
  have t : AllTame oneMeta [fullSp] (fun _ _ => partStore l) := by
    intro s sp e r hr
    obtain ⟨rfl, rfl⟩ := hkind s sp e
    rw [hd1] at hr
    interval_cases r
    refine ⟨by simp [partStore, Store.maxnpart], ?_, ?_, ?_⟩
    · intro q hq
      rw [partStore_used] at hq
      obtain ⟨w, k, rfl⟩ := hl q hq
      exact .inr rfl
    · intro q hq b hb
      rw [hlive] at hq
      obtain ⟨w, k, rfl⟩ := hl q hq
      rw [s2]
      have hb' : b < 2 := hb
      interval_cases b
      · exact ⟨(by decide : (0 : Int) ≤ 4), (by decide : (4 : Int) < 11)⟩
      · exact ⟨(by decide : (0 : Int) ≤ 3), (by decide : (3 : Int) < 7)⟩
    · intro q hq
      have : q.pld_r = [] ∧ ∃ k, q.pld_i = [k] := by
        rcases List.mem_append.1 hq with hq | hq
        · obtain ⟨w, k, rfl⟩ := hl q hq
          exact ⟨rfl, k, rfl⟩
        · rw [(List.mem_replicate.1 hq).2]; exact ⟨rfl, 7, rfl⟩
      obtain ⟨e1, k, e2⟩ := this
      exact ⟨by rw [e1]; rfl, by rw [e2]; rfl⟩
  have hh : held oneMeta [[11], [7]] fullSp.kind (fun _ => partStore l) =
      l.map (gview oneMeta [[11], [7]] 0 fullSp.kind) := by
    unfold held
    rw [hd1]
    simp [List.range_succ, hlive]
  have f : Fits oneMeta [[11], [7]] [fullSp] (fun _ => l.length) (fun _ => l.length)
      ⟨M, fun _ _ => partStore l⟩ := by
    refine ⟨fun s sp e => ?_, fun s sp e => ?_⟩ <;> obtain ⟨rfl, rfl⟩ := hkind s sp e
    · show ∀ v ∈ held oneMeta [[11], [7]] fullSp.kind (fun _ => partStore l), OffsetOk v
      rw [hh]
      intro v hv
      obtain ⟨q, hq, rfl⟩ := List.mem_map.1 hv
      obtain ⟨w, k, rfl⟩ := hl q hq
      intro x hx
      have : x ∈ [(1 / 2 : ℝ), 1 / 4] := hx
      simp only [List.mem_cons, List.not_mem_nil, or_false] at this
      rcases this with rfl | rfl <;> norm_num
    · refine ⟨?_, le_rfl, fun r _ => le_rfl, fun r _ => ?_⟩
      · show (held oneMeta [[11], [7]] fullSp.kind (fun _ => partStore l)).length ≤ _
        rw [hh, List.length_map]
      · simp [partStore, Store.maxnpart]
        omega
  refine ⟨t, hh, ?_⟩
  exact (C135_no_step_fails_partial (P := fullPrm) (sps := [fullSp])
    (m := oneMeta) (dN := [[11], [7]]) ⟨by decide, rfl, by decide +kernel⟩ ⟨rfl, by decide⟩ (by decide)
    (by decide) (by decide) (by decide) (by unfold Wide; decide) (by
      intro r hr x hx
      rw [hd1] at hr
      interval_cases r
      rw [s2] at hx; revert x; decide) (by simp [fullSp]) (by
      simpa using fun _ => C135_courant (P := fullPrm) (s := fullSp) (by norm_num [fullPrm])
        (by norm_num [fullPrm]) (by norm_num [fullPrm]) fun u => rfl) t f [0, 0]).2

/-- The hypotheses are met: an electron of weight 1, and two of weight 1/3 and 2/3 at the same place
with other payloads and one of weight 0; any fields.  Both can be run for any number of steps and the
fields stay the same. -/
example (M : MMem ℝ) : ∀ n, ∃ F F' : State ℝ,
    Run oneMeta 2 fullPrm [fullSp] [0, 0] n ⟨M, fun _ _ => partStore [partOf 1 7]⟩ F ∧
    Run oneMeta 2 fullPrm [fullSp] [0, 0] n
      ⟨M, fun _ _ => partStore [partOf (1/3) 8, partOf (2/3) 9, partOf 0 1]⟩ F' ∧
    SameEB oneMeta oneMeta [11, 7] 2 F.M F'.M ∧
    SameDist (held oneMeta [[11], [7]] fullSp.kind (F.prtl 0))
      (held oneMeta [[11], [7]] fullSp.kind (F'.prtl 0)) := by
  intro n
  obtain ⟨t1, h1, r1⟩ := part_run (l := [partOf 1 7]) (by simpa using ⟨1, 7, rfl⟩) (by simp) M
  obtain ⟨t2, h2, r2⟩ := part_run (l := [partOf (1/3) 8, partOf (2/3) 9, partOf 0 1]) (by
    intro q hq
    simp only [List.mem_cons, List.not_mem_nil, or_false] at hq
    rcases hq with rfl | rfl | rfl <;> exact ⟨_, _, rfl⟩) (by simp) M
  obtain ⟨F, hF⟩ := r1 n
  obtain ⟨F', hF'⟩ := r2 n
  have hb : Built oneMeta [[11], [7]] := ⟨by decide, rfl, by decide +kernel⟩
  have hp : AllPeriodic oneMeta := ⟨rfl, by decide⟩
  have hw : Wide [[11], [7]] 2 := by unfold Wide; decide
  have hd : SameDist (held oneMeta [[11], [7]] fullSp.kind (fun _ => partStore [partOf 1 7]))
      (held oneMeta [[11], [7]] fullSp.kind
        (fun _ => partStore [partOf (1/3) 8, partOf (2/3) 9, partOf 0 1])) := by
    rw [h1, h2]
    have := (C155_split (v := gview oneMeta [[11], [7]] 0 fullSp.kind (partOf 1 7))
      (l := [partOf (1/3) 8, partOf (2/3) 9, partOf 0 1].map (gview oneMeta [[11], [7]] 0 fullSp.kind))
      ⟨fun w hw => by
        simp only [List.map_cons, List.map_nil, List.mem_cons, List.not_mem_nil, or_false] at hw
        rcases hw with rfl | rfl | rfl <;> exact ⟨rfl, rfl, rfl⟩, by
        show (1/3 : ℝ) + (2/3 + (0 + 0)) = 1
        norm_num⟩ []).1
    simpa using this
  have hkind : ∀ s sp, [fullSp][s]? = some sp → s = 0 ∧ sp = fullSp := by
    intro s sp e
    obtain ⟨a, b⟩ := List.getElem?_eq_some_iff.1 e
    simp at a
    subst a
    exact ⟨rfl, b.symm⟩
  obtain ⟨k1, k2⟩ := C155_distribution_partial (P := fullPrm) (sps := [fullSp]) hb hb rfl hp hp (by decide)
    (by decide) hw hw (by simp [fullSp]) (fun r i r' i' p hi hi' hip hip' c _ => by
      obtain ⟨e1, e2⟩ := active_image_unique hb hi hi' (hip.trans hip'.symm)
      rw [e1, e2]) (fun s sp e _ => by
      obtain ⟨rfl, rfl⟩ := hkind s sp e
      exact hd) t1 t2 hF hF'
  exact ⟨F, F', hF, hF', k1, k2 0 fullSp rfl hd⟩

end Entity.Full
