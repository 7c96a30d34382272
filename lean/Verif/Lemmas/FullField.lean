import Verif.Lemmas.FullPush

/-!
# The push and the deposit of all particles of all ranks
-/

namespace Entity.Full

open Entity Entity.Topology Entity.Kernel Entity.FieldSolver Entity.Push Entity.Prtl Entity.Ranks
open Entity.Deposit Entity.Interp Entity.Tags Entity.Decomp Entity.Gauss Entity.Dir Entity.Filter

variable {m : Meta} {dN : List (List Nat)}

/-! ## A kernel that replaces every particle -/

theorem fold_set {α : Type} {f : α → Outcome α} {body : List α → Nat → Outcome (List α)}
    (hb : ∀ arr p, body arr p = match arr[p]? with
      | none => .ub
      | some q => f q >>= fun q' => pure (arr.set p q')) {σ : List Nat} (hσ : σ.Nodup)
    {arr arr' : List α} (h : σ.foldlM body arr = .ok arr') :
    arr'.length = arr.length ∧ (∀ p ∉ σ, arr'[p]? = arr[p]?) ∧
    (∀ p ∈ σ, ∃ q q', arr[p]? = some q ∧ f q = .ok q' ∧ arr'[p]? = some q') := by
  induction σ generalizing arr with
  | nil =>
    simp only [List.foldlM_nil, Outcome.pure_eq, Outcome.ok.injEq] at h
    subst h
    simp
  | cons x σ ih =>
    rw [List.foldlM_cons] at h
    obtain ⟨a1, h1, h2⟩ := Outcome.bind_eq_ok.1 h
    rw [hb] at h1
    obtain ⟨hx, hn⟩ := List.nodup_cons.1 hσ
    obtain ⟨i1, i2, i3⟩ := ih hn h2
    cases hq : arr[x]? with
    | none => rw [hq] at h1; cases h1
    | some q =>
      rw [hq] at h1
      obtain ⟨q', hq', e⟩ := Outcome.bind_eq_ok.1 h1
      cases e
      have hxl : x < arr.length := (List.getElem?_eq_some_iff.1 hq).1
      refine ⟨by simpa using i1, fun p hp => ?_, fun p hp => ?_⟩
      · rw [List.mem_cons, not_or] at hp
        rw [i2 p hp.2, List.getElem?_set_ne (by omega)]
      · rcases List.mem_cons.1 hp with rfl | hp
        · exact ⟨q, q', hq, hq', by rw [i2 p hx, List.getElem?_set_self hxl]⟩
        · obtain ⟨a, b, c1, c2, c3⟩ := i3 p hp
          have : x ≠ p := fun e => hx (e ▸ hp)
          rw [List.getElem?_set_ne this] at c1
          exact ⟨a, b, c1, c2, c3⟩

variable {K : Type} [Field K] [LinearOrder K] [IsStrictOrderedRing K] [FloorRing K]

theorem pushStore_spec {P : StepPrm K} {s : SpPrm K} {t : Nat} {low : List K}
    {sides : List (PBC × PBC × Int)} {n : List Nat} {v : Mem K} {σ : List Nat} {st st' : Store K}
    (hσ : σ.Perm (List.range st.npart)) (hf : s.frozen = false)
    (h : pushStore P s t low sides n v σ st = .ok st') :
    st'.npart = st.npart ∧ st'.arr.length = st.arr.length ∧
    List.Forall₂ (fun q q' => pushOne P s t low sides n v q = .ok q') st.used st'.used ∧
    ∀ q' ∈ st'.arr, q' ∈ st.arr ∨ ∃ q ∈ st.used, pushOne P s t low sides n v q = .ok q' := by
  unfold pushStore at h
  by_cases hn : st.npart = 0
  · rw [if_pos (Or.inr hn)] at h
    cases h
    refine ⟨rfl, rfl, ?_, fun q hq => Or.inl hq⟩
    rw [Store.used, hn, List.take_zero]
    exact .nil
  · rw [if_neg (by rw [hf]; simp [hn])] at h
    obtain ⟨arr, ha, e⟩ := Outcome.bind_eq_ok.1 h
    cases e
    obtain ⟨i1, i2, i3⟩ := fold_set (f := pushOne P s t low sides n v) (fun arr p => by
      unfold pushBody
      cases arr[p]? <;> rfl) (hσ.nodup_iff.2 List.nodup_range) ha
    have hmem : ∀ p, p ∈ σ ↔ p < st.npart := fun p => by rw [hσ.mem_iff, List.mem_range]
    have hused : ∀ p, p < st.npart → ∃ q q', st.used[p]? = some q ∧
        pushOne P s t low sides n v q = .ok q' ∧ arr[p]? = some q' := by
      intro p hp
      obtain ⟨q, q', c1, c2, c3⟩ := i3 p ((hmem p).2 hp)
      exact ⟨q, q', by rw [Store.used, List.getElem?_take_of_lt hp, c1], c2, c3⟩
    refine ⟨rfl, i1, ?_, ?_⟩
    · rw [List.forall₂_iff_get]
      refine ⟨by simp [Store.used, i1], fun p h1 h2 => ?_⟩
      have hp : p < st.npart := by simp [Store.used] at h1; omega
      obtain ⟨q, q', c1, c2, c3⟩ := hused p hp
      have e1 : st.used[p] = q := by
        rw [List.getElem?_eq_getElem h1] at c1; exact Option.some.inj c1
      have e2 : (Store.used ⟨arr, st.npart⟩)[p] = q' := by
        have : (Store.used ⟨arr, st.npart⟩)[p]? = some q' := by
          rw [Store.used, List.getElem?_take_of_lt hp, c3]
        rw [List.getElem?_eq_getElem h2] at this; exact Option.some.inj this
      show pushOne P s t low sides n v st.used[p] = .ok ((Store.used ⟨arr, st.npart⟩)[p])
      rw [e1, e2, c2]
    · intro q' hq'
      obtain ⟨p, hp⟩ := List.getElem?_of_mem hq'
      by_cases hps : p < st.npart
      · obtain ⟨q, q'', c1, c2, c3⟩ := hused p hps
        rw [hp] at c3
        cases c3
        exact Or.inr ⟨q, List.mem_of_getElem? c1, c2⟩
      · rw [i2 p (by rw [hmem]; exact hps)] at hp
        exact Or.inl (List.mem_of_getElem? hp)

/-- The particles a rank holds after the push, those that are to be sent included. -/
def moving (st : Store K) : List (Prtl K) := st.used.filter fun q => decide (q.tag ≠ dead)

/-- A particle after the push. -/
def After (m : Meta) (k : Kind) (r : Nat) (q : Prtl K) : Prop :=
  q.tag = dead ∨ (q.tag = alive ∧ ∀ a < k.D, 0 ≤ (k.view q).cell.getD a 0 ∧
      (k.view q).cell.getD a 0 < (sizes m r).getD a 0) ∨
    (q.tag ≠ alive ∧ q.tag ≠ dead ∧ ∃ d ∈ allDirs k.D, dir2tag k.D d = .ok q.tag ∧
      Left m r d (k.view q).cell)

/-- A species on a rank after the push. -/
structure Pushed (m : Meta) (k : Kind) (r : Nat) (s : Store K) : Prop where
  npart : s.npart ≤ s.maxnpart
  after : ∀ q ∈ s.used, After m k r q
  payload : ∀ q ∈ s.arr, PldOk k q

theorem Tame.pushed {k : Kind} {r : Nat} {s : Store K} (h : Tame m k r s) : Pushed m k r s := by
  refine ⟨h.npart, fun q hq => ?_, h.payload⟩
  rcases h.tags q hq with e | e
  · exact Or.inl e
  · exact Or.inr (Or.inl ⟨e, h.inside q (List.mem_filter.2 ⟨hq, by simp [e]⟩)⟩)

theorem moving_tame {k : Kind} {r : Nat} {s : Store K} (h : Tame m k r s) : moving s = s.live := by
  unfold moving Store.live
  apply List.filter_congr
  intro q hq
  rcases h.tags q hq with e | e <;> simp [e, dead]

theorem push_rank (h : Built m dN) (hp : AllPeriodic m) (hD : dN.length ∈ [1, 2, 3])
    {P : StepPrm K} {s : SpPrm K} (hk : s.kind.D = dN.length) {r : Nat}
    (hr : r < m.doms.length) {x0 : List K} {t : Nat} {M : MMem K} {g : GMem K}
    (hg : Shows m (dN.map List.sum) P.ng selEB M g) {σ : List Nat} {st st' : Store K}
    (hσ : σ.Perm (List.range st.npart)) (ht : Tame m s.kind r st)
    (hs : pushStore P s t (lowCorner m P.dx x0 r) (sidesOf m r) (sizes m r) (M r) σ st = .ok st') :
    Pushed m s.kind r st' ∧
    (moving st').map (gview m dN r s.kind) =
      (st.live.map (gview m dN r s.kind)).map (boxPush P s x0 t (dN.map List.sum) g) ∧
    (s.frozen = false → ∀ us, depositAll P.O P.ng s.charge P.dt (st'.used.map (toD P s)) = .ok us →
      ∀ c p, landed (dN.map List.sum) (us.map (updShift (origin m P.ng r))) c p =
        ((st.live.map (gview m dN r s.kind)).map fun v =>
          landed (dN.map List.sum) (boxDeposit P s x0 t (dN.map List.sum) g v) c p).sum) := by
  by_cases hf : s.frozen = true
  · unfold pushStore at hs
    rw [if_pos (Or.inl hf)] at hs
    cases hs
    refine ⟨ht.pushed, ?_, fun e => by simp [hf] at e⟩
    rw [moving_tame ht, List.map_map]
    apply List.map_congr_left
    intro q _
    simp [boxPush, hf]
  · rw [Bool.not_eq_true] at hf
    obtain ⟨i1, i2, i3, i4⟩ := pushStore_spec hσ hf hs
    have hlive : ∀ q ∈ st.used, q.tag = alive → ∀ a < s.kind.D, 0 ≤ (s.kind.view q).cell.getD a 0 ∧
        (s.kind.view q).cell.getD a 0 < (sizes m r).getD a 0 := fun q hq e =>
      ht.inside q (List.mem_filter.2 ⟨hq, decide_eq_true (show q.tag = 1 from e)⟩)
    have hone : ∀ q ∈ st.used, ∀ q', pushOne P s t (lowCorner m P.dx x0 r) (sidesOf m r) (sizes m r)
        (M r) q = .ok q' → (q.tag = dead ∧ q' = q) ∨ q.tag = alive := by
      intro q hq q' hq'
      rcases ht.tags q hq with e | e
      · left
        refine ⟨e, ?_⟩
        unfold pushOne at hq'
        rw [if_pos (by rw [e]; decide), if_neg (by rw [e]; decide)] at hq'
        cases hq'; rfl
      · right; exact e
    refine ⟨⟨?_, ?_, ?_⟩, ?_, ?_⟩
    · have := ht.npart
      unfold Store.maxnpart at this ⊢
      rw [i1, i2]; exact this
    · have : ∀ q' ∈ st'.used, ∃ q ∈ st.used, pushOne P s t (lowCorner m P.dx x0 r) (sidesOf m r)
          (sizes m r) (M r) q = .ok q' := by
        intro q' hq'
        obtain ⟨j, hj, rfl⟩ := List.getElem_of_mem hq'
        have hl := i3.length_eq
        refine ⟨st.used[j], List.getElem_mem _, ?_⟩
        exact (List.forall₂_iff_get.1 i3).2 j (by omega) hj
      intro q' hq'
      obtain ⟨q, hq, e⟩ := this q' hq'
      rcases hone q hq q' e with ⟨e1, rfl⟩ | e1
      · exact Or.inl e1
      · exact Or.inr (push_live h hp hD hk hf hr hg e1 (hlive q hq e1) e).2.2.1
    · intro q' hq'
      rcases i4 q' hq' with e | ⟨q, hq, e⟩
      · exact ht.payload _ e
      · have hpl := ht.payload q (List.mem_of_mem_take hq)
        rcases hone q hq q' e with ⟨e1, rfl⟩ | e1
        · exact hpl
        · exact (push_live h hp hD hk hf hr hg e1 (hlive q hq e1) e).2.1 hpl
    · have key : ∀ l l' : List (Prtl K), (∀ q ∈ l, q ∈ st.used) → List.Forall₂ (fun q q' =>
          pushOne P s t (lowCorner m P.dx x0 r) (sidesOf m r) (sizes m r) (M r) q = .ok q') l l' →
          (l'.filter fun q => decide (q.tag ≠ dead)).map (gview m dN r s.kind) =
            ((l.filter fun q => decide (q.tag = 1)).map (gview m dN r s.kind)).map
              (boxPush P s x0 t (dN.map List.sum) g) := by
        intro l l' hl hfa
        induction hfa with
        | nil => rfl
        | @cons q q' l l' hq _ ih =>
          have ih := ih fun q hq => hl q (List.mem_cons_of_mem _ hq)
          have hm := hl q List.mem_cons_self
          rcases hone q hm q' hq with ⟨e1, rfl⟩ | e1
          · rw [List.filter_cons_of_neg (by simp [e1]), List.filter_cons_of_neg (by simp [e1, dead]), ih]
          · obtain ⟨p1, -, p3, -⟩ := push_live h hp hD hk hf hr hg e1 (hlive q hm e1) hq
            have hnd : q'.tag ≠ dead := by
              rcases p3 with ⟨e, -⟩ | ⟨-, e, -⟩
              · rw [e]; decide
              · exact e
            rw [List.filter_cons_of_pos (by simpa using hnd), List.filter_cons_of_pos (a := q) (by rw [e1]; rfl)]
            simp only [List.map_cons]
            rw [ih, p1]
      exact key _ _ (fun _ h => h) i3
    · intro _ us hus c p
      have key : ∀ l l' : List (Prtl K), (∀ q ∈ l, q ∈ st.used) → List.Forall₂ (fun q q' =>
          pushOne P s t (lowCorner m P.dx x0 r) (sidesOf m r) (sizes m r) (M r) q = .ok q') l l' →
          ∀ us, depositAll P.O P.ng s.charge P.dt (l'.map (toD P s)) = .ok us →
          landed (dN.map List.sum) (us.map (updShift (origin m P.ng r))) c p =
        (((l.filter fun q => decide (q.tag = 1)).map (gview m dN r s.kind)).map fun v =>
          landed (dN.map List.sum) (boxDeposit P s x0 t (dN.map List.sum) g v) c p).sum := by
        intro l l' hl hfa
        induction hfa with
        | nil =>
          intro us hus
          cases hus
          rfl
        | @cons q q' l l' hq _ ih =>
          intro us hus
          have ih := ih fun q hq => hl q (List.mem_cons_of_mem _ hq)
          have hm := hl q List.mem_cons_self
          rw [List.map_cons, depositAll] at hus
          obtain ⟨u1, h1, hus⟩ := Outcome.bind_eq_ok.1 hus
          obtain ⟨u2, h2, hus⟩ := Outcome.bind_eq_ok.1 hus
          cases hus
          rw [List.map_append, landed_append, ih u2 h2]
          rcases hone q hm q' hq with ⟨e1, rfl⟩ | e1
          · have : u1 = [] := by
              unfold depositOne at h1
              rw [if_pos (show (toD P s q').tag = dead from e1)] at h1
              cases h1; rfl
            rw [this, List.filter_cons_of_neg (by simp [e1, dead]), List.map_nil, landed_nil, zero_add]
          · obtain ⟨-, -, -, p4⟩ := push_live h hp hD hk hf hr hg e1 (hlive q hm e1) hq
            rw [List.filter_cons_of_pos (a := q) (by rw [e1]; rfl)]
            simp only [List.map_cons, List.sum_cons]
            rw [p4 u1 h1]
      exact key _ _ (fun _ h => h) i3 us hus

/-! ## The deposit of a rank -/

theorem deposit_rank' (h : Built m dN) {O ng : Nat} {dt : K} {r : Nat}
    (hr : r < m.doms.length) {sps : List (Sp K)} {v v' : Mem K}
    (hd : DepositRank O ng dt (sizes m r) sps v v') :
    (∀ l, l.arr ≠ 1 → v' l = v l) ∧
    (∀ c i, ¬ InArray m ng r i → v' ⟨1, c, i⟩ = 0) ∧
    ∃ uss, (sps.filter deposits).mapM (fun s => depositAll O ng s.charge dt s.ps) = .ok uss ∧
      ∀ N o, N.length = dN.length → ∀ c p, fold N o (fun i => v' ⟨1, c, i⟩) p =
        landed N (uss.flatten.map (updShift o)) c p := by
  obtain ⟨uss, vs, J, h1, h2, h3, h4⟩ := hd
  have hJ : ∀ c i, v' ⟨1, c, i⟩ = total uss.flatten c i := by
    intro c i
    rw [h4]
    simp only [if_true]
    rw [applyAll_ok h3, total_perm h2, zero_add]
  refine ⟨fun l hl => by rw [h4, if_neg hl], fun c i hi => ?_, uss, h1, fun N o hN c p => ?_⟩
  · by_contra hne
    rw [hJ, ← total_perm h2] at hne
    obtain ⟨u, hu, rfl⟩ := total_ne hne
    exact hi (inArray_of h hr (applyAll_in h3 hu))
  · rw [← fold_total]
    · congr 1
      funext i
      exact hJ c i
    · intro u hu
      have := inArray_length (applyAll_in h3 ((h2.mem_iff).2 hu))
      rw [List.length_map, sizes_length h hr] at this
      rw [this, hN]

theorem species_sum {O ng : Nat} {dt : K} {N : List Nat} {o : List Int} {c : Nat} {p : List Int}
    {sps : List (Sp K)} {xs : List K}
    (hx : List.Forall₂ (fun (s : Sp K) x => (deposits s = true → ∀ us,
      depositAll O ng s.charge dt s.ps = .ok us → landed N (us.map (updShift o)) c p = x) ∧
      (deposits s = false → x = 0)) sps xs) {uss : List (List (Upd K))}
    (h : (sps.filter deposits).mapM (fun s => depositAll O ng s.charge dt s.ps) = .ok uss) :
    landed N (uss.flatten.map (updShift o)) c p = xs.sum := by
  induction hx generalizing uss with
  | nil =>
    simp only [List.filter_nil, List.mapM_nil, Outcome.pure_eq, Outcome.ok.injEq] at h
    subst h
    rfl
  | @cons s x l xs hs _ ih =>
    cases hd : deposits s with
    | true =>
      rw [List.filter_cons_of_pos hd, List.mapM_cons] at h
      obtain ⟨us, h1, h⟩ := Outcome.bind_eq_ok.1 h
      obtain ⟨vs, h2, h⟩ := Outcome.bind_eq_ok.1 h
      cases h
      rw [List.flatten_cons, List.map_append, landed_append, ih h2, List.sum_cons, hs.1 hd us h1]
    | false =>
      rw [List.filter_cons_of_neg (by simp [hd])] at h
      rw [ih h, List.sum_cons, hs.2 hd, zero_add]

theorem sum_flat {α : Type} (l : List α) (f : α → List K) :
    (l.flatMap f).sum = (l.map fun a => (f a).sum).sum := by
  induction l with
  | nil => rfl
  | cons a l ih => simp [ih]

/-- The part of the current a rank contributes for one species. -/
def rankCurrent (m : Meta) (dN : List (List Nat)) (P : StepPrm K) (s : SpPrm K) (x0 : List K) (t : Nat)
    (g : GMem K) (st : Store K) (c : Nat) (p : List Int) (r : Nat) : K :=
  boxCurrentOf P s x0 t (dN.map List.sum) g (st.live.map (gview m dN r s.kind)) c p

theorem deposit_current (h : Built m dN) (hp : AllPeriodic m) (hD : dN.length ∈ [1, 2, 3])
    {P : StepPrm K} {sps : List (SpPrm K)} (hk : ∀ s ∈ sps, s.kind.D = dN.length) {x0 : List K} {t : Nat}
    {M : MMem K} {g : GMem K} (hg : Shows m (dN.map List.sum) P.ng selEB M g)
    {st st' : Nat → Nat → Store K} (ht : AllTame m sps st) (hpush : PushAll m P sps x0 t M st st')
    {M' : MMem K} (hd : DepositRanks m P.O P.ng P.dt (depositors P sps st') M M')
    {B : Nat → List (View K)}
    (hB : ∀ s sp, sps[s]? = some sp → (held m dN sp.kind (st s)).Perm (B s)) (c : Nat) (p : List Int) :
    curG m (dN.map List.sum) P.ng M' 1 c p =
      boxCurrent P sps x0 t (dN.map List.sum) g B c p := by
  unfold curG
  have hrank : ∀ r, r < m.doms.length → fold (dN.map List.sum) (origin m P.ng r)
      (fun n => M' r ⟨1, c, n⟩) p =
      (sps.zipIdx.map fun x => rankCurrent m dN P x.1 x0 t g (st x.2 r) c p r).sum := by
    intro r hr
    obtain ⟨-, -, uss, hu, hfold⟩ := deposit_rank' h hr (hd r hr)
    rw [hfold _ _ (by simp)]
    refine species_sum ?_ hu
    unfold depositors
    rw [List.mapIdx_eq_zipIdx_map, List.forall₂_map_left_iff, List.forall₂_map_right_iff,
      List.forall₂_same]
    rintro ⟨sp, s⟩ hm
    obtain ⟨hs, he⟩ := List.mem_zipIdx' hm
    have hget : sps[s]? = some sp := by rw [List.getElem?_eq_getElem hs, he]
    obtain ⟨σ, hσ, hst⟩ := hpush s sp hget r hr
    obtain ⟨-, -, q3⟩ := push_rank h hp hD (hk sp (List.mem_of_getElem? hget)) hr hg hσ
      (ht s sp hget r hr) hst
    simp only
    unfold rankCurrent boxCurrentOf
    refine ⟨fun hdep us hus => ?_, fun hdep => ?_⟩
    · simp only [deposits, Bool.and_eq_true, Bool.not_eq_true', decide_eq_false_iff_not] at hdep
      rw [if_neg (by rintro (e | e); · simp [e] at hdep
                     · exact hdep.2 e)]
      exact q3 hdep.1.1 us hus c p
    · split_ifs with hc
      · rfl
      · simp only [not_or, Bool.not_eq_true] at hc
        have hemp : (st' s r).arr.take (st' s r).npart = [] := by
          simp only [deposits, hc.1, hc.2, Bool.not_false, decide_false, Bool.true_and, Bool.and_true,
            Bool.not_eq_false', List.isEmpty_iff, List.map_eq_nil_iff] at hdep
          exact hdep
        have := q3 hc.1 [] (by show depositAll _ _ _ _ (List.map _ (List.take _ _)) = _; rw [hemp]; rfl) c p
        rw [← this]
        rfl
  rw [List.map_congr_left (g := fun r => (sps.zipIdx.map fun x =>
    rankCurrent m dN P x.1 x0 t g (st x.2 r) c p r).sum) (fun r hr => hrank r (List.mem_range.1 hr)),
    sum_swap]
  unfold boxCurrent
  rw [List.mapIdx_eq_zipIdx_map]
  congr 1
  apply List.map_congr_left
  rintro ⟨sp, s⟩ hm
  obtain ⟨hs, he⟩ := List.mem_zipIdx' hm
  have hget : sps[s]? = some sp := by rw [List.getElem?_eq_getElem hs, he]
  simp only
  unfold rankCurrent boxCurrentOf
  by_cases hc : sp.frozen = true ∨ sp.charge = 0
  · simp [hc]
  · simp only [hc, if_false]
    rw [← ((hB s sp hget).map _).sum_eq]
    unfold held
    rw [List.map_flatMap, sum_flat]

/-- The fields and the current after the deposit, the synchronisation and the filter. -/
theorem phase_box (h : Built m dN) (hp : AllPeriodic m) (hD : dN.length ∈ [1, 2, 3])
    {P : StepPrm K} (hng : 1 ≤ P.ng) (hw : Wide dN P.ng)
    {sps : List (SpPrm K)} (hk : ∀ s ∈ sps, s.kind.D = dN.length) {x0 : List K} {t : Nat}
    {M : MMem K} {g : GMem K} (hg : Shows m (dN.map List.sum) P.ng selEB M g)
    {st st' : Nat → Nat → Store K} (ht : AllTame m sps st) (hpush : PushAll m P sps x0 t M st st')
    {M' : MMem K} (hd : DepositPhase m P (depositors P sps st') M M')
    {B : Nat → List (View K)}
    (hB : ∀ s sp, sps[s]? = some sp → (held m dN sp.kind (st s)).Perm (B s)) :
    Shows m (dN.map List.sum) P.ng selAll M' ((stepG (dN.map List.sum))^[P.nf] fun a c p =>
      if selEB a c then g a c p else boxCurrent P sps x0 t (dN.map List.sum) g B c p) := by
  obtain ⟨M1, M2, M3, h1, h2, h3, h4⟩ := hd
  have l1 : 1 ≤ dN.length := by simp at hD; omega
  have l3 : dN.length ≤ 3 := by simp at hD; omega
  have hEB : Shows m (dN.map List.sum) P.ng selEB M3 g := by
    intro a c hs r i p hi hip
    have ha : a = 0 := by
      simp only [selEB, selE, selB, Bool.or_eq_true, Bool.and_eq_true, beq_iff_eq] at hs
      omega
    subst ha
    rw [(h3 0 c).2 rfl, (h2 0 c).2 rfl,
      (deposit_rank' h (inArray_lt hi) (h1 r (inArray_lt hi))).1 _ (by simp)]
    exact hg 0 c hs r i p hi hip
  have hact : ShowsActive m (dN.map List.sum) P.ng selJ M2
      (fun _ c p => boxCurrent P sps x0 t (dN.map List.sum) g B c p) := by
    intro a c hs r i p hi hip
    simp only [selJ, Bool.and_eq_true, beq_iff_eq, decide_eq_true_eq] at hs
    obtain ⟨rfl, hc⟩ := hs
    beta_reduce
    rw [← deposit_current h hp hD hk hg ht hpush h1 hB]
    exact sync_fold h hp hD hw h2 hc (fun r hr i hi =>
      (deposit_rank' h hr (h1 r hr)).2.1 c i hi) hi hip
  have hJ := shows_of_comm h hp l1 l3 hw h3 (fun _ _ h => h) hact
  exact passes_shows_sel h hp hD hng hw (fun c hc => by simp [selAll, selJ, hc]) (shows_join hEB hJ) h4

end Entity.Full
