import Verif.Spec.FieldSetter
import Verif.Lemmas.FieldStats
import Mathlib.Tactic.IntervalCases

/-!
# Lemmas on prescribed fields
-/

namespace Entity.FieldSetter

open Entity Entity.Kernel Entity.Ranks Entity.Topology Entity.FieldOut

variable {K : Type} [Field K] {m : Meta} {dN : List (List Nat)}

/-! ## Bodies that store given values -/

/-- Assignments of given values to the components of a cell. -/
def litBody (vals : Nat → Option K) (t : List Int) : List (Assign K) :=
  (List.range 6).flatMap fun (c : Nat) =>
    match vals c with
    | none => []
    | some v => [⟨⟨0, c, t⟩, .lit v⟩]

/-- The thread of an element of `em`. -/
def ownEM (l : Loc) : Option (List Int) := if l.arr = 0 ∧ l.comp < 6 then some l.idx else none

theorem mem_litBody {vals : Nat → Option K} {t : List Int} {a : Assign K} (ha : a ∈ litBody vals t) :
    ∃ c v, c < 6 ∧ vals c = some v ∧ a = ⟨⟨0, c, t⟩, .lit v⟩ := by
  simp only [litBody, List.mem_flatMap, List.mem_range] at ha
  obtain ⟨c, hc, ha⟩ := ha
  cases hv : vals c with
  | none => rw [hv] at ha; simp at ha
  | some v => rw [hv] at ha; simp at ha; exact ⟨c, v, hc, hv, ha⟩

theorem litBody_owned (cells : List (List Int)) (vals : List Int → Nat → Option K) :
    OwnedL cells ownEM (fun t => litBody (vals t) t) := by
  intro t _ a ha
  obtain ⟨c, v, hc, _, rfl⟩ := mem_litBody ha
  refine ⟨by simp [ownEM, hc], fun l hl => ?_⟩
  simp [Ex.loads] at hl

theorem litBody_run (vals : Nat → Option K) (t : List Int) (v : Mem K) {c : Nat} (hc : c < 6) :
    runBody (litBody vals t) v ⟨0, c, t⟩ = (vals c).getD (v ⟨0, c, t⟩) := by
  cases hv : vals c with
  | none =>
    rw [runBody_other]
    · rfl
    · intro a ha e
      obtain ⟨c', w, _, hw, rfl⟩ := mem_litBody ha
      simp only [Loc.mk.injEq, true_and, and_true] at e
      rw [e, hv] at hw
      cases hw
  | some w =>
    have hm : (⟨⟨0, c, t⟩, .lit w⟩ : Assign K) ∈ litBody vals t := by
      simp only [litBody, List.mem_flatMap, List.mem_range]
      exact ⟨c, hc, by rw [hv]; simp⟩
    have := runBody_one (body := litBody vals t) ?_ ?_ hm v
    · simpa [Ex.eval] using this
    · simp only [litBody]
      rw [List.pairwise_flatMap]
      refine ⟨fun c _ => ?_, ?_⟩
      · cases vals c <;> simp
      · refine List.nodup_range.imp fun {a b} hab x hx y hy e => ?_
        cases ha : vals a <;> rw [ha] at hx <;> simp at hx
        cases hb : vals b <;> rw [hb] at hy <;> simp at hy
        subst hx hy
        simp at e
        exact hab e
    · intro a _ b hb hl
      obtain ⟨_, _, _, _, rfl⟩ := mem_litBody hb
      simp [Ex.loads] at hl

/-- The result of a launch of such bodies on all ranks. -/
theorem launch_lit {ng : Nat} {vals : Nat → List Int → Nat → Option K} {M M' : MMem K}
    (h : LaunchAll m ng (fun r t => litBody (vals r t) t) M M') {r : Nat} (hr : r < m.doms.length) (l : Loc) :
    M' r l = if l.arr = 0 ∧ l.comp < 6 ∧ l.idx ∈ activeCells m ng r then (vals r l.idx l.comp).getD (M r l) else M r l := by
  rw [launch_ownedL (litBody_owned _ (vals r)) (h r hr)]
  unfold resultL ownEM
  obtain ⟨a, c, i⟩ := l
  by_cases h1 : a = 0 ∧ c < 6
  · obtain ⟨rfl, hc⟩ := h1
    simp only [hc, and_self, if_true, true_and]
    split_ifs
    · exact litBody_run _ _ _ hc
    · rfl
  · simp only [h1, if_false]
    rw [if_neg (by tauto)]

theorem srBody_lit (fs : Setter K) (met : FMetric K) (ng : Nat) (t : List Int) :
    srBody fs met ng t = litBody (fun c => (fs.eb c).map fun f =>
      met.toU (c % 3) (coord ng ((srHalf t.length).getD c []) t)
        (f (met.phys (coord ng ((srHalf t.length).getD c []) t)))) t := by
  unfold srBody litBody
  congr 1
  funext c
  beta_reduce
  cases fs.eb c <;> rfl

/-- The functions that are used in general relativity. -/
def grFun (fs : Setter K) (c : Nat) : Option (List K → K) :=
  if c < 3 then (if (fs.d 0).isSome ∧ (fs.d 1).isSome ∧ (fs.d 2).isSome then fs.d c else none)
  else if (fs.b 0).isSome ∧ (fs.b 1).isSome ∧ (fs.b 2).isSome then fs.b (c - 3) else none

theorem grBody_lit (fs : Setter K) (met : FMetric K) (ng : Nat) (t : List Int) :
    grBody fs met ng t = litBody (fun c => (grFun fs c).map fun f =>
      f ((coord ng ((grHalf t.length).getD c []) t).mapIdx met.phys1)) t := by
  unfold grBody litBody grFun
  rw [show List.range 6 = [0, 1, 2, 3, 4, 5] from rfl]
  simp only [List.flatMap_cons, List.flatMap_nil, List.append_nil]
  cases fs.d 0 <;> cases fs.d 1 <;> cases fs.d 2 <;> cases fs.b 0 <;> cases fs.b 1 <;> cases fs.b 2 <;> rfl

/-! ## Positions -/

theorem coord_site (ng : Nat) {t : List Int} (ht : t.length ∈ [1, 2, 3]) {c : Nat} (hc : c < 6) :
    (coord ng ((srHalf t.length).getD c []) t : List K) = fieldSite ng c t := by
  simp only [List.mem_cons, List.not_mem_nil, or_false] at ht
  rcases t with _ | ⟨i1, _ | ⟨i2, _ | ⟨i3, _ | ⟨i4, t⟩⟩⟩⟩
  · simp at ht
  · interval_cases c <;> rfl
  · interval_cases c <;> rfl
  · interval_cases c <;> rfl
  · simp at ht

theorem grHalf_eq {D : Nat} (hD : D ∈ [2, 3]) : grHalf D = srHalf D := by
  simp only [List.mem_cons, List.not_mem_nil, or_false] at hD
  rcases hD with rfl | rfl <;> rfl

theorem fieldSite_length (ng c : Nat) (t : List Int) : (fieldSite (K := K) ng c t).length = t.length := by
  simp [fieldSite, FieldsToPhys.site]

theorem fieldSite_shift {ng c : Nat} {o : List Nat} {i : List Int} :
    List.zipWith (fun (o : Nat) y => (o : K) + y) o (fieldSite ng c i) =
      fieldSite 0 c (List.zipWith (fun (o : Nat) x => (o : Int) + (x - ng)) o i) := by
  unfold fieldSite FieldsToPhys.site
  apply List.ext_getElem
  · simp
  · intro k k1 k2
    simp only [List.getElem_zipWith, List.getElem_mapIdx]
    push_cast
    ring

/-! ## The conditional setter -/

theorem groups_table : ∀ D ∈ [1, 2, 3], ∀ g ∈ groups D, (stencil g.1).length = 6 ∧ ∀ c ∈ g.2, c < 6 ∧ g.1 = halves D c ∧
    ∀ k < 6, ((stencil g.1).getD k []).Perm (nearest ((halves D k).zip (halves D c))) := by
  decide +kernel

theorem stencil_sizes : ∀ D ∈ [1, 2, 3], ∀ g ∈ groups D, ∀ s ∈ stencil g.1, s.length ∈ [1, 2, 4, 8] := by
  decide +kernel

theorem groups_all : ∀ D ∈ [1, 2, 3], ((groups D).flatMap (·.2)).Perm (List.range 6) := by decide +kernel

theorem weight_eq [CharZero K] {n : Nat} (hn : n ∈ [1, 2, 4, 8]) : (weight n : K) = 1 / n := by
  simp only [List.mem_cons, List.not_mem_nil, or_false] at hn
  rcases hn with rfl | rfl | rfl | rfl <;> norm_num [weight]

theorem mean_some (a : Nat) (v : Mem K) (offs : List (List Int)) (c : Nat) (t : List Int) :
    mean (some a) v offs c t = .ok (weight offs.length * (offs.map fun o => v ⟨a, c, List.zipWith (· + ·) t o⟩).sum) := by
  have : offs.mapM (fun o => rd (some a) v c (List.zipWith (· + ·) t o)) =
      .ok (offs.map fun o => v ⟨a, c, List.zipWith (· + ·) t o⟩) := FieldStats.mapM_eq fun o _ => rfl
  unfold mean
  rw [this]
  rfl

theorem halves_coord (ng : Nat) {t : List Int} {c : Nat} :
    (coord ng (halves t.length c) t : List K) = fieldSite ng c t := by
  unfold coord halves fieldSite FieldsToPhys.site
  apply List.ext_getElem
  · simp
  · intro k k1 k2
    simp

/-- What has been set so far. -/
def Done (fs : CSetter K) (met : FMetric K) (ng : Nat) (w : Mem K) (P : List Int → Nat → Prop) (v : Mem K) : Prop :=
  ∀ l : Loc, (l.arr = 0 ∧ P l.idx l.comp → v l = prescribed fs met ng w l.comp l.idx) ∧
    (¬ (l.arr = 0 ∧ P l.idx l.comp) → v l = deepCopy w l)

theorem Done.congr {fs : CSetter K} {met : FMetric K} {ng : Nat} {w : Mem K} {P Q : List Int → Nat → Prop} {v : Mem K}
    (h : Done fs met ng w P v) (hPQ : ∀ i c, P i c ↔ Q i c) : Done fs met ng w Q v := by
  intro l
  have := hPQ l.idx l.comp
  exact ⟨fun hl => (h l).1 ⟨hl.1, this.2 hl.2⟩, fun hl => (h l).2 fun hp => hl ⟨hp.1, this.1 hp.2⟩⟩

theorem block_done [CharZero K] {fs : CSetter K} {met : FMetric K} {ng : Nat} {w : Mem K} {t : List Int}
    (ht : t.length ∈ [1, 2, 3]) {g : List Bool × List Nat} (hg : g ∈ groups t.length)
    {P : List Int → Nat → Prop} {v : Mem K} (h : Done fs met ng w P v) :
    ∃ v', block fs met ng (some 9) t v g = .ok v' ∧ Done fs met ng w (fun i c => P i c ∨ (i = t ∧ c ∈ g.2)) v' := by
  obtain ⟨hs6, hgt⟩ := groups_table _ ht g hg
  unfold block
  by_cases hn : g.2.all (fun c => (fs c).isNone) = true
  · rw [if_pos hn]
    refine ⟨v, rfl, fun l => ⟨?_, fun hl => (h l).2 fun hp => hl ⟨hp.1, .inl hp.2⟩⟩⟩
    rintro ⟨h0, hp | ⟨h1, h2⟩⟩
    · exact (h l).1 ⟨h0, hp⟩
    · by_cases hp : P l.idx l.comp
      · exact (h l).1 ⟨h0, hp⟩
      · rw [(h l).2 (by tauto)]
        have := List.all_eq_true.1 hn l.comp h2
        rw [Option.isNone_iff_eq_none] at this
        obtain ⟨a, c, i⟩ := l
        simp only at h0 this
        subst h0
        simp [prescribed, this, deepCopy]
  · rw [if_neg hn]
    set us : List K := ((stencil g.1).zip (List.range 6)).map fun oc =>
      weight oc.1.length * (oc.1.map fun o => v ⟨9, oc.2, List.zipWith (· + ·) t o⟩).sum with hus
    rw [FieldStats.mapM_eq (f := fun oc : List (List Int) × Nat =>
      weight oc.1.length * (oc.1.map fun o => v ⟨9, oc.2, List.zipWith (· + ·) t o⟩).sum) fun oc _ => mean_some _ _ _ _ _]
    refine ⟨_, rfl, ?_⟩
    -- the averages
    have husv : ∀ c ∈ g.2, us = (List.range 6).map fun (k : Nat) => nearMean w k c t := by
      intro c hc
      obtain ⟨hc6, hloc, hperm⟩ := hgt c hc
      apply List.ext_getElem
      · simp [hus, hs6]
      · intro k k1 k2
        simp only [List.length_map, List.length_range] at k2
        have hk : k < (stencil g.1).length := by omega
        have hp := hperm k k2
        rw [List.getD_eq_getElem?_getD, List.getElem?_eq_getElem hk, Option.getD_some] at hp
        simp only [hus, List.getElem_map, List.getElem_zip, List.getElem_range, nearMean]
        rw [← hp.length_eq, weight_eq (stencil_sizes _ ht g hg _ (List.getElem_mem hk)),
          ← (hp.map _).sum_eq]
        have hv : (fun o : List Int => v ⟨9, k, List.zipWith (· + ·) t o⟩) = fun o => w ⟨0, k, List.zipWith (· + ·) t o⟩ :=
          funext fun o => (h _).2 (by simp)
        rw [hv]
        ring
    change Done fs met ng w _ (g.2.foldl _ v)
    have key : ∀ (cs : List Nat), (∀ c ∈ cs, c ∈ g.2) → ∀ (P : List Int → Nat → Prop) (v : Mem K), Done fs met ng w P v →
        Done fs met ng w (fun i c => P i c ∨ (i = t ∧ c ∈ cs)) (cs.foldl (fun (v : Mem K) (c : Nat) =>
          match fs c with
          | none => v
          | some f => if (f (met.phys (coord ng g.1 t)) (met.toT (coord ng g.1 t) (us.take 3))
                (met.toT (coord ng g.1 t) (us.drop 3))).1 then
              store v ⟨0, c, t⟩ (met.toU (c % 3) (coord ng g.1 t) (f (met.phys (coord ng g.1 t))
                (met.toT (coord ng g.1 t) (us.take 3)) (met.toT (coord ng g.1 t) (us.drop 3))).2) else v) v) := by
      intro cs
      induction cs with
      | nil => intro _ P v h; exact h.congr (by simp)
      | cons c cs ih =>
        intro hcs P v h
        rw [List.foldl_cons]
        have hc := hcs c (by simp)
        obtain ⟨hc6, hloc, _⟩ := hgt c hc
        have hx : (coord ng g.1 t : List K) = fieldSite ng c t := by rw [hloc, halves_coord]
        have hu := husv c hc
        have h3 : us.take 3 = [nearMean w 0 c t, nearMean w 1 c t, nearMean w 2 c t] := by rw [hu]; rfl
        have h3' : us.drop 3 = [nearMean w 3 c t, nearMean w 4 c t, nearMean w 5 c t] := by rw [hu]; rfl
        refine (ih (fun d hd => hcs d (by simp [hd])) (fun i d => P i d ∨ (i = t ∧ d = c)) _ ?_).congr
          (by intro i d; simp only [List.mem_cons]; tauto)
        have hold : fs c = none ∨ (∃ f, fs c = some f ∧ (f (met.phys (fieldSite ng c t))
            (met.toT (fieldSite ng c t) [nearMean w 0 c t, nearMean w 1 c t, nearMean w 2 c t])
            (met.toT (fieldSite ng c t) [nearMean w 3 c t, nearMean w 4 c t, nearMean w 5 c t])).1 = false) →
            Done fs met ng w (fun i d => P i d ∨ (i = t ∧ d = c)) v := by
          intro hf l
          refine ⟨?_, fun hl => (h l).2 fun hp => hl ⟨hp.1, .inl hp.2⟩⟩
          rintro ⟨h0, hp | ⟨h1, h2⟩⟩
          · exact (h l).1 ⟨h0, hp⟩
          · by_cases hp : P l.idx l.comp
            · exact (h l).1 ⟨h0, hp⟩
            · rw [(h l).2 (by tauto)]
              obtain ⟨a, c', i⟩ := l
              simp only at h0 h1 h2
              subst h0 h1 h2
              rcases hf with hf | ⟨f, hf, hb⟩ <;> simp [prescribed, hf, deepCopy]
              intro hb'
              rw [hb] at hb'; cases hb'
        cases hf : fs c with
        | none => exact hold (.inl hf)
        | some f =>
          simp only [hx, h3, h3']
          split_ifs with hb
          · intro l
            by_cases hl : l = ⟨0, c, t⟩
            · subst hl
              refine ⟨fun _ => ?_, fun hh => absurd ⟨rfl, .inr ⟨rfl, rfl⟩⟩ hh⟩
              simp [store, prescribed, hf, hb]
            · simp only [store, if_neg hl]
              have : ∀ (x : l.arr = 0), ¬ (l.idx = t ∧ l.comp = c) := by
                intro x hh
                obtain ⟨a, c', i⟩ := l
                simp only at x hh
                exact hl (by rw [x, hh.1, hh.2])
              exact ⟨fun hh => (h l).1 ⟨hh.1, hh.2.resolve_right (this hh.1)⟩,
                fun hh => (h l).2 fun hp => hh ⟨hp.1, .inl hp.2⟩⟩
          · exact hold (.inr ⟨f, hf, by simpa using hb⟩)
    exact key g.2 (fun _ h => h) P v h

theorem cell_done [CharZero K] {fs : CSetter K} {met : FMetric K} {ng : Nat} {w : Mem K} {t : List Int}
    (ht : t.length ∈ [1, 2, 3]) {P : List Int → Nat → Prop} {v : Mem K} (h : Done fs met ng w P v) :
    ∃ v', customCell fs met ng (some 9) t v = .ok v' ∧ Done fs met ng w (fun i c => P i c ∨ (i = t ∧ c < 6)) v' := by
  have key : ∀ gs : List (List Bool × List Nat), (∀ g ∈ gs, g ∈ groups t.length) → ∀ (P : List Int → Nat → Prop) (v : Mem K),
      Done fs met ng w P v → ∃ v', gs.foldlM (block fs met ng (some 9) t) v = .ok v' ∧
        Done fs met ng w (fun i c => P i c ∨ (i = t ∧ c ∈ gs.flatMap (·.2))) v' := by
    intro gs
    induction gs with
    | nil => intro _ P v h; exact ⟨v, rfl, h.congr (by simp)⟩
    | cons g gs ih =>
      intro hgs P v h
      obtain ⟨v1, e1, d1⟩ := block_done ht (hgs g (by simp)) h
      obtain ⟨v2, e2, d2⟩ := ih (fun g' hg' => hgs g' (by simp [hg'])) _ v1 d1
      refine ⟨v2, ?_, d2.congr fun i c => by simp only [List.flatMap_cons, List.mem_append]; tauto⟩
      rw [List.foldlM_cons, e1]
      exact e2
  obtain ⟨v', e, d⟩ := key _ (fun _ h => h) P v h
  refine ⟨v', e, d.congr fun i c => ?_⟩
  rw [(groups_all _ ht).mem_iff, List.mem_range]

theorem run_done [CharZero K] {fs : CSetter K} {met : FMetric K} {ng : Nat} {w : Mem K} {sched : List (List Int)}
    (hs : ∀ t ∈ sched, t.length ∈ [1, 2, 3]) {P : List Int → Nat → Prop} {v : Mem K} (h : Done fs met ng w P v) :
    ∃ v', runCustom fs met ng (some 9) sched v = .ok v' ∧
      Done fs met ng w (fun i c => P i c ∨ (i ∈ sched ∧ c < 6)) v' := by
  induction sched generalizing P v with
  | nil => exact ⟨v, rfl, h.congr (by simp)⟩
  | cons t ts ih =>
    obtain ⟨v1, e1, d1⟩ := cell_done (hs t (by simp)) h
    obtain ⟨v2, e2, d2⟩ := ih (fun u hu => hs u (by simp [hu])) d1
    refine ⟨v2, ?_, d2.congr fun i c => by simp only [List.mem_cons]; tauto⟩
    unfold runCustom at e2 ⊢
    rw [List.foldlM_cons, e1]
    exact e2

/-! ## Multilinear fields -/

theorem nearest_sum [CharZero K] (ng : Nat) (hs : List (Bool × Bool)) : ∀ (φ : List K → K), FieldsToPhys.Multilinear φ →
    ∀ t : List Int, t.length = hs.length →
    ((nearest hs).map fun o => φ (coord ng (hs.map (·.1)) (List.zipWith (· + ·) t o))).sum =
      (nearest hs).length * φ (coord ng (hs.map (·.2)) t) := by
  induction hs with
  | nil =>
    intro φ _ t ht
    rw [List.length_nil, List.length_eq_zero_iff] at ht
    subst ht
    simp [nearest, coord]
  | cons h hs ih =>
    intro φ hφ t ht
    obtain ⟨own, at'⟩ := h
    rcases t with _ | ⟨i, t⟩
    · simp at ht
    have ht' : t.length = hs.length := by simpa using ht
    have hc : ∀ a : K, FieldsToPhys.Multilinear fun x => φ (a :: x) := by
      intro a x d b c
      have := hφ (a :: x) (d + 1) b c
      simpa using this
    have hm : ∀ (a b : K) (x : List K), φ ((a + b) / 2 :: x) = (φ (a :: x) + φ (b :: x)) / 2 := by
      intro a b x
      have := hφ (0 :: x) 0 a b
      simpa using this
    have key : ∀ j : Int, (((nearest hs).map (j :: ·)).map fun o =>
        φ (coord ng (((own, at') :: hs).map (·.1)) (List.zipWith (· + ·) (i :: t) o))).sum =
        (nearest hs).length * φ ((((i + j - (ng : Int) : Int) : K) + if own then 1 / 2 else 0) ::
          coord ng (hs.map (·.2)) t) := by
      intro j
      have := ih _ (hc (((i + j - (ng : Int) : Int) : K) + if own then 1 / 2 else 0)) t ht'
      rw [← this, List.map_map]
      rfl
    have hR : (coord ng (((own, at') :: hs).map (·.2)) (i :: t) : List K) =
        (((i - (ng : Int) : Int) : K) + if at' then 1 / 2 else 0) :: coord ng (hs.map (·.2)) t := rfl
    rw [hR]
    cases own <;> cases at'
    · rw [show nearest ((false, false) :: hs) = (nearest hs).map (0 :: ·) from rfl, key 0]; simp
    · rw [show nearest ((false, true) :: hs) = (nearest hs).map (0 :: ·) ++ (nearest hs).map (1 :: ·) from rfl,
        List.map_append, List.sum_append, key 0, key 1, List.length_append, List.length_map, List.length_map,
        show (((i - (ng : Int) : Int) : K) + if true = true then 1 / 2 else 0) =
        ((((i + 0 - (ng : Int) : Int) : K) + if false = true then 1 / 2 else 0) +
          (((i + 1 - (ng : Int) : Int) : K) + if false = true then 1 / 2 else 0)) / 2 by simp; ring, hm]
      push_cast; ring
    · rw [show nearest ((true, false) :: hs) = (nearest hs).map (-1 :: ·) ++ (nearest hs).map (0 :: ·) from rfl,
        List.map_append, List.sum_append, key (-1), key 0, List.length_append, List.length_map, List.length_map,
        show (((i - (ng : Int) : Int) : K) + if false = true then 1 / 2 else 0) =
        ((((i + -1 - (ng : Int) : Int) : K) + if true = true then 1 / 2 else 0) +
          (((i + 0 - (ng : Int) : Int) : K) + if true = true then 1 / 2 else 0)) / 2 by simp; ring, hm]
      push_cast; ring
    · rw [show nearest ((true, true) :: hs) = (nearest hs).map (0 :: ·) from rfl, key 0]; simp

theorem nearest_ne (hs : List (Bool × Bool)) : nearest hs ≠ [] := by
  induction hs with
  | nil => simp [nearest]
  | cons h hs ih =>
    obtain ⟨a, b⟩ := h
    unfold nearest
    split_ifs <;> simp [ih]

theorem nearest_bound (hs : List (Bool × Bool)) : ∀ o ∈ nearest hs, o.length = hs.length ∧ ∀ x ∈ o, -1 ≤ x ∧ x ≤ 1 := by
  induction hs with
  | nil => simp [nearest]
  | cons h hs ih =>
    obtain ⟨a, b⟩ := h
    intro o ho
    have : ∃ j u, -1 ≤ j ∧ j ≤ 1 ∧ u ∈ nearest hs ∧ o = j :: u := by
      unfold nearest at ho
      split_ifs at ho
      · obtain ⟨u, hu, rfl⟩ := List.mem_map.1 ho
        exact ⟨0, u, by omega, by omega, hu, rfl⟩
      · rcases List.mem_append.1 ho with ho | ho <;> obtain ⟨u, hu, rfl⟩ := List.mem_map.1 ho
        · exact ⟨0, u, by omega, by omega, hu, rfl⟩
        · exact ⟨1, u, by omega, by omega, hu, rfl⟩
      · rcases List.mem_append.1 ho with ho | ho <;> obtain ⟨u, hu, rfl⟩ := List.mem_map.1 ho
        · exact ⟨-1, u, by omega, by omega, hu, rfl⟩
        · exact ⟨0, u, by omega, by omega, hu, rfl⟩
    obtain ⟨j, u, h1, h2, hu, rfl⟩ := this
    obtain ⟨h3, h4⟩ := ih u hu
    refine ⟨by simp [h3], fun x hx => ?_⟩
    rcases List.mem_cons.1 hx with rfl | hx
    · exact ⟨h1, h2⟩
    · exact h4 x hx

end Entity.FieldSetter
