import Verif.Lemmas.FullTranslate
import Verif.Props.FullSafe

/-!
# C154: a periodic simulation commutes with translations
-/

namespace Entity.Full

open Entity Entity.Topology Entity.Kernel Entity.FieldSolver Entity.Push Entity.Prtl Entity.Ranks
open Entity.Deposit Entity.Interp Entity.Tags Entity.Decomp Entity.Gauss Entity.Dir Entity.Filter

variable {K : Type} [Field K] [LinearOrder K] [IsStrictOrderedRing K] [FloorRing K] [Inhabited K]

theorem held_sized {m : Meta} {dN : List (List Nat)} {k : Kind} (hk : k.D = dN.length)
    (h3 : dN.length ≤ 3) {st : Nat → Store K} {v : View K} (hv : v ∈ held m dN k st) :
    Sized (dN.map List.sum) v := by
  unfold held at hv
  obtain ⟨r, -, hv⟩ := List.mem_flatMap.1 hv
  obtain ⟨q, -, rfl⟩ := List.mem_map.1 hv
  refine ⟨by simp [gview, globalCells], by simp [gview, globalCells], ?_⟩
  simp [gview, Kind.view, hk, h3]

/-- **C154.** A simulation has no preferred origin.  Let two simulations of the same periodic box, with
the same parameters and forces that do not depend on the position, be divided in any two ways among
any numbers of ranks, their boxes starting at any two points of space.  If at the beginning the second
one holds the fields and particles of the first one translated by `k` cells (across the periodic
boundary where need be), then after any number of complete steps, under all schedules, it still does:
nothing depends on where boundaries of subdomains, or the periodic boundary itself, are relative to
the particles and fields.

Partial: exact arithmetic. -/
theorem C154_translation_partial {m m' : Meta} {dN dN' : List (List Nat)} (h : Built m dN)
    (h' : Built m' dN') (hN : dN.map List.sum = dN'.map List.sum) (hp : AllPeriodic m)
    (hp' : AllPeriodic m') (hD : dN.length ∈ [1, 2, 3]) {P : StepPrm K} (hng : 2 ≤ P.ng)
    (hw : Wide dN P.ng) (hw' : Wide dN' P.ng) {sps : List (SpPrm K)}
    (hk : ∀ s ∈ sps, s.kind.D = dN.length) (hu : ∀ s ∈ sps, Uniform s) {x0 x0' : List K}
    {k : List Int} (hkl : k.length = dN.length) {n : Nat} {I I' F F' : State K}
    (hf : MovedEB m m' (dN.map List.sum) k P.ng I.M I'.M)
    (hq : ∀ s sp, sps[s]? = some sp → (held m' dN' sp.kind (I'.prtl s)).Perm
      ((held m dN sp.kind (I.prtl s)).map (moveView (dN.map List.sum) k)))
    (ht : AllTame m sps I.prtl) (ht' : AllTame m' sps I'.prtl)
    (hr : Run m dN.length P sps x0 n I F) (hr' : Run m' dN.length P sps x0' n I' F') :
    MovedEB m m' (dN.map List.sum) k P.ng F.M F'.M ∧
    ∀ s sp, sps[s]? = some sp → (held m' dN' sp.kind (F'.prtl s)).Perm
      ((held m dN sp.kind (F.prtl s)).map (moveView (dN.map List.sum) k)) := by
  have h3 : dN.length ≤ 3 := by simp at hD; omega
  have hDD : dN'.length = dN.length := by
    have := congrArg List.length hN
    simpa using this.symm
  have hNl : (dN.map List.sum).length = dN.length := by simp
  have hkN : k.length = (dN.map List.sum).length := by rw [hkl, hNl]
  have hsel : ∀ a c, selEB a c = true → a = 0 ∧ c < 6 := by
    intro a c hs
    simp only [selEB, selE, selB, Bool.or_eq_true, Bool.and_eq_true, beq_iff_eq, decide_eq_true_eq]
      at hs
    omega
  obtain ⟨g, hg⟩ := exists_global h P.ng I.M
  -- going back
  have back : ∀ p : List Int, p.length = dN.length →
      moveCell (dN.map List.sum) k (moveCell (dN.map List.sum) (k.map (- ·)) p) =
        wrap (dN.map List.sum) p ∧
      moveCell (dN.map List.sum) (k.map (- ·)) (moveCell (dN.map List.sum) k p) =
        wrap (dN.map List.sum) p := by
    intro p hpl
    constructor <;>
    · unfold moveCell wrap
      apply List.ext_getElem
      · simp [hkl, hpl]
      · intro a h1 h2
        simp
  let g' : GMem K := fun a c p => g a c (moveCell (dN.map List.sum) (k.map (- ·)) p)
  have hgg : MovedG (dN.map List.sum) k g g' := by
    intro a c p hpl
    show g a c _ = _
    rw [(back p (by rw [hpl, hNl])).2]
  have hg' : ShowsActive m' (dN'.map List.sum) P.ng selEB I'.M g' := by
    intro a c hs r i p hi hip
    obtain ⟨rfl, hc⟩ := hsel a c hs
    have hil := active_length h' (active_inArray hi)
    obtain ⟨hpl, hpw⟩ := globalPos_wrapped h' (active_lt hi) hil hip
    have hkn : (k.map (- ·)).length = (dN.map List.sum).length := by simp [hkl]
    have hql := moveCell_length (p := p) hkn (by rw [hpl, hNl, hDD])
    obtain ⟨q, j, hj, hjp⟩ := cover h hw
      (p := moveCell (dN.map List.sum) (k.map (- ·)) p) (by rw [hql, hNl]) (wrap_moveCell _ _ _)
    rw [← hf q j r i _ hj hi hjp (by
      rw [(back p (by rw [hpl, hDD])).1, hN, hpw]; exact hip) c hc]
    exact hg 0 c rfl q j _ hj hjp
  let B : Box K := ⟨g, fun s =>
    match sps[s]? with | some sp => held m dN sp.kind (I.prtl s) | none => []⟩
  let B' : Box K := ⟨g', fun s =>
    match sps[s]? with | some sp => held m' dN' sp.kind (I'.prtl s) | none => []⟩
  have hB : MovedBox (dN.map List.sum) k sps B B' := by
    refine ⟨hgg, fun i s e v hv => ?_, fun i s e => ?_⟩
    · simp only [B, e] at hv
      exact held_sized (hk s (List.mem_of_getElem? e)) h3 hv
    · simp only [B, B', e]
      exact hq i s e
  obtain ⟨s1, q1, -⟩ := C133_box_refinement_partial h hp hD hng hw hk (B := B)
    (fun a c _ => hg a c rfl) (fun s sp e => by simp [B, e]) ht hr
  rw [← hDD] at hr'
  obtain ⟨s2, q2, -⟩ := C133_box_refinement_partial h' hp' (by rw [hDD]; exact hD) hng hw'
    (fun s hs => by rw [hDD]; exact hk s hs) (B := B')
    hg' (fun s sp e => by simp [B', e]) ht' hr'
  rw [← hN] at s2 q2
  have hR := boxRun_moved (P := P) hu x0 x0' (by rw [hNl]; exact hD) hkN n hB
  refine ⟨fun r i r' i' p hi hi' hip hip' c hc => ?_, fun s sp e => ?_⟩
  · have hs : selEB 0 c = true := by
      interval_cases c <;> rfl
    obtain ⟨hpl, hpw⟩ := globalPos_wrapped h (active_lt hi) (active_length h (active_inArray hi)) hip
    rw [s1.active 0 c hs r i p hi hip, s2.active 0 c hs r' i' _ hi' hip',
      hR.fields 0 c p (by rw [hpl, hNl]), hpw]
  · exact (q2 s sp e).trans ((hR.prtl s sp e).trans ((q1 s sp e).symm.map _))

/-- The hypotheses are met: an electron in the last cell of the first of two ranks, and the same
translated by seven cells, across the periodic boundary, on one rank; any fields; both simulations can
be run for any number of steps. -/
theorem translate_example (f : Option (List Int) → ℝ) : ∃ I I' : State ℝ,
    MovedEB perMeta oneMeta [11, 7] [7, 0] 2 I.M I'.M ∧
    AllTame perMeta [fullSp] I.prtl ∧ AllTame oneMeta [fullSp] I'.prtl ∧
    (held oneMeta [[11], [7]] fullSp.kind (I'.prtl 0)).Perm
      ((held perMeta [[5, 6], [7]] fullSp.kind (I.prtl 0)).map (moveView [11, 7] [7, 0])) ∧
    held perMeta [[5, 6], [7]] fullSp.kind (I.prtl 0) ≠ [] ∧
    ∀ n, ∃ F F', Run perMeta 2 fullPrm [fullSp] [0, 0] n I F ∧
      Run oneMeta 2 fullPrm [fullSp] [0, 0] n I' F' := by
  have hb1 : Built oneMeta [[11], [7]] := ⟨by decide, rfl, by decide +kernel⟩
  have hp : AllPeriodic perMeta := ⟨rfl, by decide⟩
  have hp1 : AllPeriodic oneMeta := ⟨rfl, by decide⟩
  have hw : Wide [[5, 6], [7]] 2 := by unfold Wide; decide
  have hw1 : Wide [[11], [7]] 2 := by unfold Wide; decide
  have hd : perMeta.doms.length = 2 := by decide +kernel
  have hd1 : oneMeta.doms.length = 1 := by decide +kernel
  have s0 : sizes perMeta 0 = [5, 7] := by decide +kernel
  have s1 : sizes perMeta 1 = [6, 7] := by decide +kernel
  have s2 : sizes oneMeta 0 = [11, 7] := by decide +kernel
  have hslow : Slow fullPrm fullSp := C135_courant (by norm_num [fullPrm]) (by norm_num [fullPrm])
    (by norm_num [fullPrm]) fun u => rfl
  let I : State ℝ := ⟨fun r l => f (globalPos perMeta [11, 7] 2 r l.idx),
    fun _ r => if r = 0 then fullStore 4 1 else fullStore 2 0⟩
  let I' : State ℝ := ⟨fun r l => f ((globalPos oneMeta [11, 7] 2 r l.idx).map (moveCell [11, 7] [4, 0])),
    fun _ _ => fullStore 0 1⟩
  have hkind : ∀ s sp, [fullSp][s]? = some sp → s = 0 ∧ sp = fullSp := by
    intro s sp e
    obtain ⟨a, b⟩ := List.getElem?_eq_some_iff.1 e
    simp at a
    subst a
    exact ⟨rfl, b.symm⟩
  have t1 : AllTame perMeta [fullSp] I.prtl := by
    intro s sp e r hr
    obtain ⟨rfl, rfl⟩ := hkind s sp e
    rw [hd] at hr
    interval_cases r
    · exact fullStore_tame (Or.inr rfl) s0 ⟨by decide, by decide⟩
    · exact fullStore_tame (Or.inl rfl) s1 ⟨by decide, by decide⟩
  have t2 : AllTame oneMeta [fullSp] I'.prtl := by
    intro s sp e r hr
    obtain ⟨rfl, rfl⟩ := hkind s sp e
    rw [hd1] at hr
    interval_cases r
    exact fullStore_tame (Or.inr rfl) s2 ⟨by decide, by decide⟩
  have l1 : held perMeta [[5, 6], [7]] fullSp.kind (I.prtl 0) =
      [gview perMeta [[5, 6], [7]] 0 fullSp.kind (fullOne 4 1)] := by
    unfold held
    rw [hd]
    simp [List.range_succ, I, (fullStore_live _).1, (fullStore_live _).2]
  have l2 : held oneMeta [[11], [7]] fullSp.kind (I'.prtl 0) =
      [gview oneMeta [[11], [7]] 0 fullSp.kind (fullOne 0 1)] := by
    unfold held
    rw [hd1]
    simp [List.range_succ, I', (fullStore_live _).1]
  have hsame : [gview oneMeta [[11], [7]] 0 fullSp.kind (fullOne 0 1)] =
      [gview perMeta [[5, 6], [7]] 0 fullSp.kind (fullOne 4 1)].map (moveView [11, 7] [7, 0]) := by
    have e : globalCells oneMeta [[11], [7]] 0 [0, 3] =
        moveCell [11, 7] [7, 0] (globalCells perMeta [[5, 6], [7]] 0 [4, 3]) := by
      decide +kernel
    have e' : (fullSp.kind.view (fullOne 4 1)).cell = [4, 3] ∧
        (fullSp.kind.view (fullOne 4 1)).cellPrev = [4, 3] := ⟨rfl, rfl⟩
    have e2 : (fullSp.kind.view (fullOne 0 1)).cell = [0, 3] ∧
        (fullSp.kind.view (fullOne 0 1)).cellPrev = [0, 3] := ⟨rfl, rfl⟩
    simp only [List.map_cons, List.map_nil, moveView, gview]
    rw [e'.1, e'.2, e2.1, e2.2, e]
    rfl
  have off : ∀ (m : Meta) (dN : List (List Nat)) (i : Int),
      OffsetOk (gview m dN 0 fullSp.kind (fullOne i 1)) := by
    intro m dN i x hx
    have : x ∈ [(1 / 2 : ℝ), 1 / 4] := hx
    simp only [List.mem_cons, List.not_mem_nil, or_false] at this
    rcases this with rfl | rfl <;> norm_num
  have f1 : Fits perMeta [[5, 6], [7]] [fullSp] (fun _ => 1) (fun _ => 1) I := by
    refine ⟨fun s sp e => ?_, fun s sp e => ?_⟩ <;> obtain ⟨rfl, rfl⟩ := hkind s sp e
    · rw [l1]
      intro v hv
      rw [List.mem_singleton.1 hv]
      exact off _ _ _
    · refine ⟨by rw [l1]; simp, le_rfl, fun r _ => ?_, fun r _ => ?_⟩
      · by_cases h0 : r = 0 <;> simp [I, h0, fullStore]
      · by_cases h0 : r = 0 <;> simp [I, h0, fullStore, Store.maxnpart]
  have f2 : Fits oneMeta [[11], [7]] [fullSp] (fun _ => 1) (fun _ => 1) I' := by
    refine ⟨fun s sp e => ?_, fun s sp e => ?_⟩ <;> obtain ⟨rfl, rfl⟩ := hkind s sp e
    · rw [l2]
      intro v hv
      rw [List.mem_singleton.1 hv]
      exact off _ _ _
    · refine ⟨by rw [l2]; simp, le_rfl, fun r _ => ?_, fun r _ => ?_⟩
      · simp [I', fullStore]
      · simp [I', fullStore, Store.maxnpart]
  have r1 := (C135_no_step_fails_partial (P := fullPrm) (sps := [fullSp]) perMeta_built hp (by decide)
    (by decide) (by decide) (by decide) hw (by
      intro r hr x hx
      rw [hd] at hr
      interval_cases r
      · rw [s0] at hx; revert x; decide
      · rw [s1] at hx; revert x; decide) (by simp [fullSp]) (by simpa using fun _ => hslow) t1 f1
      [0, 0]).2
  have r2 := (C135_no_step_fails_partial (P := fullPrm) (sps := [fullSp]) hb1 hp1 (by decide)
    (by decide) (by decide) (by decide) hw1 (by
      intro r hr x hx
      rw [hd1] at hr
      interval_cases r
      rw [s2] at hx; revert x; decide) (by simp [fullSp]) (by simpa using fun _ => hslow) t2 f2
      [0, 0]).2
  refine ⟨I, I', ?_, t1, t2, by rw [l1, l2, hsame], by rw [l1]; simp, fun n => ?_⟩
  · intro r i r' i' p hi _ hip hip' c _
    show f _ = f _
    rw [hip, hip']
    obtain ⟨e1, e2⟩ := globalPos_wrapped perMeta_built (active_lt hi)
      (active_length perMeta_built (active_inArray hi)) hip
    congr 1
    simp only [Option.map_some, Option.some.injEq]
    match p, e1 with
    | [x, y], _ =>
      have e2 : [x % (11 : Int), y % (7 : Int)] = [x, y] := e2
      have e3 : moveCell [11, 7] [4, 0] (moveCell [11, 7] [7, 0] [x, y]) =
        [((x + 7) % 11 + 4) % 11, ((y + 0) % 7 + 0) % 7] := rfl
      rw [e3, ← e2]
      simp only [List.cons.injEq, and_true]
      omega
  · obtain ⟨F, hF⟩ := r1 n
    obtain ⟨F', hF'⟩ := r2 n
    exact ⟨F, F', hF, hF'⟩

/-- The theorem applied to it. -/
example (f : Option (List Int) → ℝ) : ∃ I I' : State ℝ, ∀ n, ∃ F F',
    Run perMeta 2 fullPrm [fullSp] [0, 0] n I F ∧ Run oneMeta 2 fullPrm [fullSp] [0, 0] n I' F' ∧
    MovedEB perMeta oneMeta [11, 7] [7, 0] 2 F.M F'.M ∧
    (held oneMeta [[11], [7]] fullSp.kind (F'.prtl 0)).Perm
      ((held perMeta [[5, 6], [7]] fullSp.kind (F.prtl 0)).map (moveView [11, 7] [7, 0])) := by
  obtain ⟨I, I', e1, e2, e3, e4, -, e5⟩ := translate_example f
  refine ⟨I, I', fun n => ?_⟩
  obtain ⟨F, F', r1, r2⟩ := e5 n
  have hkind : ∀ s sp, [fullSp][s]? = some sp → s = 0 ∧ sp = fullSp := by
    intro s sp e
    obtain ⟨a, b⟩ := List.getElem?_eq_some_iff.1 e
    simp at a
    subst a
    exact ⟨rfl, b.symm⟩
  obtain ⟨k1, k2⟩ := C154_translation_partial (P := fullPrm) (sps := [fullSp]) (k := [7, 0])
    perMeta_built (m' := oneMeta) (dN' := [[11], [7]]) ⟨by decide, rfl, by decide +kernel⟩ rfl
    ⟨rfl, by decide⟩ ⟨rfl, by decide⟩ (by decide) (by decide) (by unfold Wide; decide)
    (by unfold Wide; decide) (by simp [fullSp]) (by
      intro s hs
      rw [List.mem_singleton.1 hs]
      intro t x y E B u
      rfl) rfl e1 (fun s sp e => by
      obtain ⟨rfl, rfl⟩ := hkind s sp e
      exact e4) e2 e3 r1 r2
  exact ⟨F, F', r1, r2, k1, k2 0 fullSp rfl⟩

end Entity.Full
