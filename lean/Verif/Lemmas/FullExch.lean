import Verif.Lemmas.FullField

/-!
# The exchange of particles keeps what the box holds
-/

namespace Entity.Full

open Entity Entity.Topology Entity.Kernel Entity.FieldSolver Entity.Push Entity.Prtl Entity.Ranks
open Entity.Deposit Entity.Interp Entity.Tags Entity.Decomp Entity.Gauss Entity.Dir Entity.Filter

variable {m : Meta} {dN : List (List Nat)}

theorem fold_keeps {α β : Type} {f : α → β → Outcome α} (I : α → Prop)
    (hf : ∀ a x a', I a → f a x = .ok a' → I a') {l : List β} {a a' : α} (ha : I a)
    (h : l.foldlM f a = .ok a') : I a' := by
  induction l generalizing a with
  | nil =>
    simp only [List.foldlM_nil, Outcome.pure_eq, Outcome.ok.injEq] at h
    exact h ▸ ha
  | cons x l ih =>
    rw [List.foldlM_cons] at h
    obtain ⟨b, h1, h2⟩ := Outcome.bind_eq_ok.1 h
    exact ih (hf a x b ha h1) h2

theorem forRanks_inv {α : Type} {f : Nat → Outcome α} {n : Nat} {l : List α}
    (h : forRanks f n = .ok l) : l.length = n ∧ ∀ r < n, ∃ x, f r = .ok x ∧ l[r]? = some x := by
  induction n generalizing l with
  | zero => cases h; exact ⟨rfl, fun r hr => by omega⟩
  | succ n ih =>
    rw [forRanks] at h
    obtain ⟨rest, h1, h⟩ := Outcome.bind_eq_ok.1 h
    obtain ⟨x, h2, h⟩ := Outcome.bind_eq_ok.1 h
    cases h
    obtain ⟨i1, i2⟩ := ih h1
    refine ⟨by simp [i1], fun r hr => ?_⟩
    by_cases hrn : r < n
    · obtain ⟨y, a, b⟩ := i2 r hrn
      exact ⟨y, a, by rw [List.getElem?_append_left (by omega), b]⟩
    · have : r = n := by omega
      subst this
      exact ⟨x, h2, by rw [List.getElem?_append_right (by omega), i1]; simp⟩

section
variable {R : Type}

theorem readAt_length {α : Type} {buf : List α} {off n : Nat} {l : List α}
    (h : Prtl.readAt buf off n = .ok l) : l.length = n := by
  induction n generalizing off l with
  | zero => cases h; rfl
  | succ n ih =>
    rw [Prtl.readAt] at h
    split at h
    · cases h
    · obtain ⟨vs, h1, h⟩ := Outcome.bind_eq_ok.1 h
      cases h
      simp [ih h1]

/-- All particles of an array have payloads of the right extents. -/
def ArrOk (k : Kind) (arr : List (Prtl R)) : Prop := ∀ q ∈ arr, PldOk k q

theorem ArrOk.set {k : Kind} {arr : List (Prtl R)} (h : ArrOk k arr) {q : Prtl R} (hq : PldOk k q)
    (p : Nat) : ArrOk k (arr.set p q) := by
  intro x hx
  rcases List.mem_or_eq_of_mem_set hx with hx | rfl
  · exact h x hx
  · exact hq

theorem prepBody_ok {k : Kind} {D : Nat} {sh1 sh2 sh3 : List Int} {npart nA nD : Nat} {offs : List Nat}
    {a a' : Prep R} {p : Nat} (ha : ArrOk k a.arr)
    (h : prepBody D sh1 sh2 sh3 npart nA nD offs a p = .ok a') : ArrOk k a'.arr := by
  unfold prepBody at h
  split at h
  · cases h
  · rename_i q hq
    split_ifs at h
    all_goals first
      | (cases h; exact ha)
      | (split at h
         · cases h
         · simp only at h
           split_ifs at h
           cases h
           first
             | exact ha
             | (refine ArrOk.set ha ?_ p
                exact ha q (List.mem_of_getElem? hq)))

theorem populateBody_ok {k : Kind} {out : List Nat} {o : Nat} {a a' : Buffers R × List (Prtl R)}
    {p : Nat} (ha : ArrOk k a.2) (h : populateBody k out o a p = .ok a') : ArrOk k a'.2 := by
  unfold populateBody at h
  split at h
  · cases h
  · split at h
    · cases h
    · rename_i q hq
      obtain ⟨_, -, h⟩ := Outcome.bind_eq_ok.1 h
      obtain ⟨_, -, h⟩ := Outcome.bind_eq_ok.1 h
      obtain ⟨_, -, h⟩ := Outcome.bind_eq_ok.1 h
      obtain ⟨_, -, h⟩ := Outcome.bind_eq_ok.1 h
      obtain ⟨_, -, h⟩ := Outcome.bind_eq_ok.1 h
      cases h
      refine ArrOk.set ha ?_ _
      exact ha q (List.mem_of_getElem? hq)

theorem unpack_pld {k : Kind} {D : Nat} {b : Bool} {vi : List Int} {vd vr : List R}
    {q q1 q2 q3 : Prtl R}
    (h1 : unpackInts D vi q = .ok q1) (h2 : unpackDxs D vd q1 = .ok q2)
    (h3 : unpackReals b vr q2 = .ok q3) (hq : PldOk k q) : PldOk k q3 := by
  have e1 : q1.pld_r = q.pld_r ∧ q1.pld_i = q.pld_i := by
    unfold unpackInts at h1; split at h1 <;> cases h1 <;> exact ⟨rfl, rfl⟩
  have e2 : q2.pld_r = q1.pld_r ∧ q2.pld_i = q1.pld_i := by
    unfold unpackDxs at h2; split at h2 <;> cases h2 <;> exact ⟨rfl, rfl⟩
  have e3 : q3.pld_r = q2.pld_r ∧ q3.pld_i = q2.pld_i := by
    unfold unpackReals at h3; split at h3 <;> cases h3 <;> exact ⟨rfl, rfl⟩
  unfold PldOk at hq ⊢
  rw [e3.1, e3.2, e2.1, e2.2, e1.1, e1.2]
  exact hq

theorem extractBody_ok {k : Kind} {buf : Buffers R} {n : Nat} {out : List Nat}
    {a a' : List (Prtl R)} {p : Nat} (ha : ArrOk k a) (h : extractBody k buf n out a p = .ok a') :
    ArrOk k a' := by
  unfold extractBody at h
  simp only at h
  split at h
  · cases h
  · rename_i q hq
    obtain ⟨v1, -, h⟩ := Outcome.bind_eq_ok.1 h
    obtain ⟨q1, a1, h⟩ := Outcome.bind_eq_ok.1 h
    obtain ⟨v2, -, h⟩ := Outcome.bind_eq_ok.1 h
    obtain ⟨q2, a2, h⟩ := Outcome.bind_eq_ok.1 h
    obtain ⟨v3, -, h⟩ := Outcome.bind_eq_ok.1 h
    obtain ⟨q3, a3, h⟩ := Outcome.bind_eq_ok.1 h
    obtain ⟨r, b1, h⟩ := Outcome.bind_eq_ok.1 h
    obtain ⟨i, b2, h⟩ := Outcome.bind_eq_ok.1 h
    cases h
    have h3 := unpack_pld a1 a2 a3 (ha q (List.mem_of_getElem? hq))
    refine ha.set ?_ _
    have l1 := readAt_length b1
    have l2 := readAt_length b2
    unfold PldOk at h3 ⊢
    simp only
    constructor
    · split_ifs
      · exact l1
      · exact h3.1
    · split_ifs
      · exact l2
      · exact h3.2

variable [Inhabited R]

theorem prepare_pld {k : Kind} {s : Store R} {dirs : List Direction} {sh1 sh2 sh3 : List Int}
    {S : Scheds} {o : Outbox R} (hs : ArrOk k s.arr)
    (h : prepareMessages k s dirs sh1 sh2 sh3 S = .ok o) : ArrOk k o.arr := by
  unfold prepareMessages at h
  obtain ⟨⟨vec, offs⟩, -, h⟩ := Outcome.bind_eq_ok.1 h
  simp only at h
  obtain ⟨prep, h1, h⟩ := Outcome.bind_eq_ok.1 h
  obtain ⟨⟨msgs, arr⟩, h2, h⟩ := Outcome.bind_eq_ok.1 h
  cases h
  have p1 : ArrOk k prep.arr := fold_keeps (fun a : Prep R => ArrOk k a.arr)
    (fun a x a' ha hx => prepBody_ok ha hx) hs h1
  exact fold_keeps (fun a : List (Direction × Buffers R) × List (Prtl R) => ArrOk k a.2)
    (fun a x a' ha hx => by
      unfold packDir at hx
      obtain ⟨tag, -, hx⟩ := Outcome.bind_eq_ok.1 hx
      simp only at hx
      obtain ⟨⟨b, arr⟩, hx1, hx⟩ := Outcome.bind_eq_ok.1 hx
      cases hx
      exact fold_keeps (fun a : Buffers R × List (Prtl R) => ArrOk k a.2)
        (fun a x a' ha hx => populateBody_ok ha hx) ha hx1) p1 h2

theorem receive_pld {k : Kind} {s s' : Store R} {o : Outbox R} {inc : List (Nat × Buffers R)}
    {S : Scheds} (ho : ArrOk k o.arr) (h : receiveAll k s o inc S = .ok s') : ArrOk k s'.arr := by
  unfold receiveAll at h
  simp only at h
  split_ifs at h
  · obtain ⟨⟨_, buf⟩, -, h⟩ := Outcome.bind_eq_ok.1 h
    simp only at h
    obtain ⟨arr, h1, h⟩ := Outcome.bind_eq_ok.1 h
    have ha : ArrOk k arr := fold_keeps (ArrOk k) (fun a x a' ha hx => extractBody_ok ha hx) ho h1
    unfold setNpart at h
    split_ifs at h
    cases h
    exact ha
  · obtain ⟨⟨_, buf⟩, -, h⟩ := Outcome.bind_eq_ok.1 h
    simp only at h
    obtain ⟨arr, h1, h⟩ := Outcome.bind_eq_ok.1 h
    cases h
    exact fold_keeps (ArrOk k) (fun a x a' ha hx => extractBody_ok ha hx) ho h1

end

theorem size_pos (h : Built m dN) (hpos : ∀ l ∈ dN, ∀ x ∈ l, 0 < x) {r : Nat}
    (hr : r < m.doms.length) {a : Nat} (ha : a < dN.length) : 1 ≤ (sizes m r).getD a 0 := by
  obtain ⟨R, hR⟩ := h.getRec_lt hr
  have haR : a < R.length := by rw [hR.len]; exact ha
  have := axisRecs_pos (hpos _ (List.getElem_mem ha)) (hR.mem a ha haR)
  have e2 : (sizes m r).getD a 0 = R[a].n := by
    rw [hR.sizes]; simp [haR]
  omega

variable {K : Type} [Field K] [LinearOrder K] [IsStrictOrderedRing K] [FloorRing K] [Inhabited K]

omit [Field K] [LinearOrder K] [IsStrictOrderedRing K] [FloorRing K] [Inhabited K] in
theorem out_length {k : Kind} {s : Store K} {dirs : List Direction} {sh1 sh2 sh3 : List Int}
    {o : Outbox K} (hn : s.npart ≤ s.maxnpart) (ho : OutboxOk k s dirs sh1 sh2 sh3 o) :
    o.out.length + s.live.length = s.npart := by
  have h1 : o.out.Perm ((List.range s.npart).filter fun p => !decide (tagAt s.arr p = 1)) := by
    rw [List.perm_ext_iff_of_nodup ho.out_nodup (List.nodup_range.filter _)]
    intro p
    rw [ho.out_mem]
    simp
  have h2 : s.live = ((List.range s.npart).filter
      (fun p => decide (tagAt s.arr p = 1))).filterMap (fun p => s.arr[p]?) := by
    rw [filterMap_live, ← take_eq_filterMap]
    · rfl
    · intro p hp; rw [List.mem_range] at hp; unfold Store.maxnpart at hn; omega
  have h3 : s.live.length = ((List.range s.npart).filter
      (fun p => decide (tagAt s.arr p = 1))).length := by
    rw [h2]
    have : ∀ l : List Nat, (∀ p ∈ l, p < s.arr.length) →
        (l.filterMap fun p => s.arr[p]?).length = l.length := by
      intro l hl
      induction l with
      | nil => rfl
      | cons x l ih =>
        rw [List.filterMap_cons, List.getElem?_eq_getElem (hl x (by simp))]
        simp [ih fun p hp => hl p (by simp [hp])]
    apply this
    intro p hp
    have := List.mem_range.1 (List.mem_of_mem_filter hp)
    unfold Store.maxnpart at hn; omega
  rw [h1.length_eq, h3]
  have := List.length_eq_length_filter_add (l := List.range s.npart)
    (fun p => decide (tagAt s.arr p = 1))
  rw [List.length_range] at this
  omega

/-- One species, all ranks. -/
theorem exch_species (h : Built m dN) (hp : AllPeriodic m) (hD : dN.length ∈ [1, 2, 3])
    (hpos : ∀ l ∈ dN, ∀ x ∈ l, 0 < x) {k : Kind} (hk : k.D = dN.length) {f f' : Nat → Store K}
    (hf : ∀ r, r < m.doms.length → Pushed m k r (f r)) {S : Nat → Scheds}
    (hS : ∀ r, r < m.doms.length → AnyOrder (S r)) {l : List (Store K)}
    (hrun : communicateParticles m k ((List.range m.doms.length).map f) S = .ok l)
    (hl : ∀ r, r < m.doms.length → l[r]? = some (f' r)) :
    (∀ r, r < m.doms.length → Tame m k r (f' r)) ∧
    (held m dN k f').Perm ((List.range m.doms.length).flatMap fun (r : Nat) =>
      (moving (f r)).map (gview m dN r k)) ∧
    (∀ r, r < m.doms.length → (f' r).maxnpart = (f r).maxnpart ∧
      (f' r).npart ≤ max (f r).npart (f' r).live.length) := by
  have hb := hp.good
  have h1 : 1 ≤ k.D := by rw [hk]; simp at hD; omega
  have h3 : k.D ≤ 3 := by rw [hk]; simp at hD; omega
  set st := (List.range m.doms.length).map f with hst
  have hF : ∀ r, r < m.doms.length → st.getD r ⟨[], 0⟩ = f r := by
    intro r hr; simp [hst, hr]
  have hfair : ∀ r < m.doms.length, (S r).Fair := fun r hr => by
    obtain ⟨a, b, c, d⟩ := hS r hr
    exact ⟨a, b, c, d⟩
  have hready : Ready m k fun r => st.getD r ⟨[], 0⟩ := by
    refine ⟨fun r hr => ?_, fun r hr q hq => ?_, fun r hr q hq => ?_⟩
    · simp only [hF r hr]; exact (hf r hr).npart
    · simp only [hF r hr] at hq
      rcases (hf r hr).after q hq with e | ⟨e, -⟩ | ⟨-, -, d, hd, e, -⟩
      · exact Or.inl e
      · exact Or.inr (Or.inl e)
      · exact Or.inr (Or.inr ⟨d, hd, e, Or.inl (sendTo_some h hp hk h1 h3 hd hr)⟩)
    · simp only [hF r hr] at hq
      exact (hf r hr).payload q (List.mem_of_mem_take hq)
  -- the run
  obtain ⟨boxes, hbx, hr0⟩ := comm_ready h hb hk h1 h3 _ hready S hfair
  have hbxs := forRanks_inv hbx
  set F : Nat → Outcome (Store K) := fun r => do
      let dirs ← dirsToComm m r (allDirs k.D)
      let o := boxes.getD r ⟨[], [], [], []⟩
      let inc ← incoming k (fun q => boxes.getD q ⟨[], [], [], []⟩) (recvFrom m r) dirs
      receiveAll k (st.getD r ⟨[], 0⟩) o inc (S r) with hFd
  have hcomm : communicateParticles m k st S = forRanks F m.doms.length := by
    unfold communicateParticles
    simp only
    rw [hbx, Outcome.bind_ok]
  have hruns := forRanks_inv (hcomm ▸ hrun)
  have hFf : ∀ r, r < m.doms.length → F r = .ok (f' r) := by
    intro r hr
    obtain ⟨x, a, b⟩ := hruns.2 r hr
    rw [hl r hr] at b
    cases b; exact a
  have hcap : ∀ r < m.doms.length, (st.getD r ⟨[], 0⟩).npart +
      (arrivals m k (fun r => st.getD r ⟨[], 0⟩) r).length < (st.getD r ⟨[], 0⟩).maxnpart := by
    intro r hr
    by_contra hno
    obtain ⟨dirs, Ls, sh1, sh2, sh3, f1, f2, f3, f4, f5, f6, f7⟩ := hr0 r hr
    have hlen : Ls.flatten.length = (arrivals m k (fun r => st.getD r ⟨[], 0⟩) r).length := by
      rw [← f7.length_eq, List.length_map]
    have hfr : F r = receiveAll k (st.getD r ⟨[], 0⟩) (boxes.getD r ⟨[], [], [], []⟩)
        (Ls.map fun L => (L.length, flat (L.map (rowOf k)))) (S r) := by
      simp only [hFd]
      rw [f1, Outcome.bind_ok, f4, Outcome.bind_ok]
    have hne : Ls ≠ [] := by
      rintro rfl
      have hd0 : dirs = [] := by
        rw [List.length_nil] at f6
        exact List.length_eq_zero_iff.1 f6.symm
      rw [hd0, dirsToComm_eq m r _ fun d hd => ⟨_, _, (partner h hb hk h1 h3 hd hr).1⟩] at f1
      simp only [Outcome.ok.injEq, List.filter_eq_nil_iff] at f1
      have hex : ∃ d, d ∈ allDirs k.D := by
        have key : ∀ D ∈ [1, 2, 3], ∃ d, d ∈ allDirs D := by
          intro D hD
          simp only [List.mem_cons, List.not_mem_nil, or_false] at hD
          rcases hD with rfl | rfl | rfl
          · exact ⟨[-1], by decide⟩
          · exact ⟨[-1, -1], by decide⟩
          · exact ⟨[-1, -1, -1], by decide⟩
        exact key k.D (by rw [hk]; exact hD)
      obtain ⟨d, hd⟩ := hex
      have := f1 d hd
      simp only [decide_eq_true_eq, not_not] at this
      exact sendTo_some h hp hk h1 h3 hd hr this.1
    have : F r = .err := by
      rw [hfr]
      unfold receiveAll
      have : countsFit (st.getD r ⟨[], 0⟩).npart (st.getD r ⟨[], 0⟩).maxnpart 0
          ((Ls.map fun L => (L.length, flat (L.map (rowOf k)))).map (·.1)) = false := by
        rw [Bool.eq_false_iff, ne_eq, countsFit_iff]
        rw [List.map_map]
        have hs : (List.map ((fun x => x.1) ∘ fun L => (L.length, flat (L.map (rowOf k)))) Ls).sum =
            Ls.flatten.length := by rw [List.length_flatten]; rfl
        rw [hs]
        rintro (e | e)
        · exact hne (by simpa using e)
        · omega
      rw [this]; rfl
    rw [hFf r hr] at this
    cases this
  obtain ⟨l', e1, -, e3⟩ := C16_exchange m dN h hb k hk h1 h3 st hready S hfair hcap
  rw [hrun] at e1
  cases e1
  have hlf : ∀ r, r < m.doms.length → l.getD r ⟨[], 0⟩ = f' r := by
    intro r hr; rw [List.getD_eq_getElem?_getD, hl r hr]; rfl
  refine ⟨?_, ?_, ?_⟩
  · intro r hr
    obtain ⟨s', g1, g2, g3, -, g5, g6⟩ := e3 r hr
    rw [hl r hr] at g1
    cases g1
    refine ⟨g3, fun q hq => (g5 q hq).symm, ?_, ?_⟩
    · intro q hq
      have hv := (g6.mem_iff (a := k.view q)).1 (List.mem_map_of_mem hq)
      rw [List.mem_append] at hv
      rcases hv with hv | hv
      · obtain ⟨q0, hq0, e⟩ := List.mem_map.1 hv
        rw [hF r hr] at hq0
        have hu := List.mem_filter.1 hq0
        have ht : q0.tag = 1 := of_decide_eq_true hu.2
        rw [← e]
        rcases (hf r hr).after q0 hu.1 with e' | ⟨-, e'⟩ | ⟨e', -⟩
        · rw [ht] at e'; exact absurd e' (by decide)
        · exact e'
        · exact absurd ht e'
      · unfold arrivals at hv
        obtain ⟨d, hd, hv⟩ := List.mem_flatMap.1 hv
        cases hrf : recvFrom m r d with
        | none => rw [hrf] at hv; simp at hv
        | some s =>
          rw [hrf] at hv
          simp only at hv
          have hsl := (partner h hb hk h1 h3 hd hr).2.2.1 s hrf
          have hst' := ((partner h hb hk h1 h3 hd hsl).2.2.2 r hr).2 hrf
          rw [hF s hsl] at hv
          obtain ⟨p, hpm, e⟩ := List.mem_map.1 hv
          obtain ⟨hpu, hpt⟩ := List.mem_filter.1 hpm
          have hpt : dir2tag k.D d = .ok p.tag := of_decide_eq_true hpt
          obtain ⟨u, f1, hu2, -, f2⟩ := dir2tag_mem h1 h3 hd
          have hup : (u : Int) = p.tag := by
            rw [f1] at hpt; simpa using hpt
          have hdl : d.length = k.D := ((C07_direction_tables k.D h1 h3).1 d).1 hd |>.1
          have hlen : (k.view p).cell.length = d.length := by
            simp only [Kind.view, List.length_take, List.length_cons, List.length_nil, hdl]; omega
          rcases (hf s hsl).after p hpu with e' | ⟨e', -⟩ | ⟨-, -, d', hd', e', hleft⟩
          · have : p.tag = 0 := e'
            omega
          · have : p.tag = 1 := e'
            omega
          · have hdd : d' = d := by
              obtain ⟨v, g1, -, -, g2⟩ := dir2tag_mem h1 h3 hd'
              rw [g1] at e'
              have : (v : Int) = p.tag := by simpa using e'
              have : v = u := by omega
              subst this
              rw [f2] at g2
              cases g2; rfl
            subst hdd
            have := (C17_global_position m dN h hb hpos k.D hk h1 h3 d' hd s r hsl hst'
              (k.view p).cell hlen).2 ⟨hlen, fun a ha => by
                obtain ⟨c1, c2, c3⟩ := hleft a ha
                have p1 := size_pos h hpos hr (a := a) (by omega)
                refine ⟨fun e => ?_, fun e => ?_, c3⟩
                · have := c1 e; omega
                · have := c2 e; omega⟩
            rw [← e]
            exact this
    · obtain ⟨dirs, Ls, sh1, sh2, sh3, f1, f2, f3, f4, f5, f6, f7⟩ := hr0 r hr
      have hfr : F r = receiveAll k (st.getD r ⟨[], 0⟩) (boxes.getD r ⟨[], [], [], []⟩)
          (Ls.map fun L => (L.length, flat (L.map (rowOf k)))) (S r) := by
        simp only [hFd]
        rw [f1, Outcome.bind_ok, f4, Outcome.bind_ok]
      rw [hFf r hr] at hfr
      refine receive_pld ?_ hfr.symm
      obtain ⟨o, o1, o2⟩ := hbxs.2 r hr
      rw [List.getD_eq_getElem?_getD, o2, Option.getD_some]
      unfold outboxOf at o1
      obtain ⟨_, -, o1⟩ := Outcome.bind_eq_ok.1 o1
      obtain ⟨_, -, o1⟩ := Outcome.bind_eq_ok.1 o1
      obtain ⟨_, -, o1⟩ := Outcome.bind_eq_ok.1 o1
      obtain ⟨_, -, o1⟩ := Outcome.bind_eq_ok.1 o1
      refine prepare_pld ?_ o1
      simp only [hF r hr]
      exact (hf r hr).payload
  · have key := exchange_invariant m dN h hb k hk h1 h3 st l hready S hfair hcap hrun
      (fun r v => ({ v with cell := globalCells m dN r v.cell
                            cellPrev := globalCells m dN r v.cellPrev } : View K)) (by
        intro r t d hr hd ht p
        have hdl : d.length = k.D := ((C07_direction_tables k.D h1 h3).1 d).1 hd |>.1
        have hlen : (k.view p).cell.length = d.length ∧ (k.view p).cellPrev.length = d.length := by
          simp only [Kind.view, List.length_take, List.length_cons, List.length_nil, hdl]; omega
        have key : ∀ i : List Int, i.length = d.length →
            globalCells m dN t (List.zipWith (· + ·) i (displacement m r t d)) =
              globalCells m dN r i := by
          intro i hi
          unfold globalCells
          apply List.map_congr_left
          intro a ha
          have ha' := List.mem_range.1 ha
          have := (C17_global_position m dN h hb hpos k.D hk h1 h3 d hd r t hr ht i hi).1 a ha'
          rw [List.getD_eq_getElem?_getD, List.getElem?_eq_getElem ha', Option.getD_some]
          exact this
        simp only [View.move, key _ hlen.1, key _ hlen.2])
    have c1 : held m dN k f' = (List.range m.doms.length).flatMap fun r =>
        (l.getD r ⟨[], 0⟩).live.map fun q => ({ k.view q with
          cell := globalCells m dN r (k.view q).cell
          cellPrev := globalCells m dN r (k.view q).cellPrev } : View K) := by
      unfold held
      apply flatMap_congr'
      intro r hr
      rw [hlf r (List.mem_range.1 hr)]
      rfl
    have c2 : ((List.range m.doms.length).flatMap fun (r : Nat) =>
        (moving (f r)).map (gview m dN r k)) = (List.range m.doms.length).flatMap fun r =>
        ((st.getD r ⟨[], 0⟩).used.filter fun q => decide (Wanted m k r q)).map fun q =>
          ({ k.view q with
            cell := globalCells m dN r (k.view q).cell
            cellPrev := globalCells m dN r (k.view q).cellPrev } : View K) := by
      apply flatMap_congr'
      intro r hr
      have hr := List.mem_range.1 hr
      rw [hF r hr]
      have : moving (f r) = (f r).used.filter fun q => decide (Wanted m k r q) := by
        unfold moving
        apply List.filter_congr
        intro q hq
        rw [decide_eq_decide]
        rcases (hf r hr).after q hq with e | ⟨e, -⟩ | ⟨e, e', d, hd, ed, -⟩
        · refine ⟨fun hn => absurd e hn, ?_⟩
          rintro (e2 | ⟨d, hd, ed, -⟩) e3
          · have : q.tag = 0 := e
            omega
          · have : q.tag = 0 := e
            obtain ⟨u, f1, hu2, -, -⟩ := dir2tag_mem h1 h3 hd
            rw [f1] at ed
            have : (u : Int) = q.tag := by simpa using ed
            omega
        · refine ⟨fun _ => Or.inl e, fun _ e3 => ?_⟩
          rw [e] at e3; exact absurd e3 (by decide)
        · exact ⟨fun _ => Or.inr ⟨d, hd, ed, sendTo_some h hp hk h1 h3 hd hr⟩, fun _ => e'⟩
      rw [this]
      rfl
    rw [c1, c2]
    exact key
  · intro r hr
    obtain ⟨s', g1, g2, -, -, -, g6⟩ := e3 r hr
    rw [hl r hr] at g1
    cases g1
    refine ⟨by rw [g2, hF r hr], ?_⟩
    obtain ⟨dirs, Ls, sh1, sh2, sh3, f1, f2, f3, f4, f5, f6, f7⟩ := hr0 r hr
    have hfr : F r = receiveAll k (st.getD r ⟨[], 0⟩) (boxes.getD r ⟨[], [], [], []⟩)
        (Ls.map fun L => (L.length, flat (L.map (rowOf k)))) (S r) := by
      simp only [hFd]
      rw [f1, Outcome.bind_ok, f4, Outcome.bind_ok]
    rw [hFf r hr, hF r hr] at hfr
    rw [hF r hr] at f3 g6
    have hout := out_length (hf r hr).npart f3
    have hlen := g6.length_eq
    rw [List.length_append, ← f7.length_eq, List.length_map, List.length_map, List.length_map] at hlen
    have hs : ((Ls.map fun L => (L.length, flat (L.map (rowOf k)))).map (·.1)).sum =
        Ls.flatten.length := by rw [List.length_flatten, List.map_map]; rfl
    unfold receiveAll at hfr
    simp only [hs] at hfr
    split_ifs at hfr
    · obtain ⟨⟨_, buf⟩, -, h⟩ := Outcome.bind_eq_ok.1 hfr.symm
      simp only at h
      obtain ⟨arr, -, h⟩ := Outcome.bind_eq_ok.1 h
      unfold setNpart at h
      split_ifs at h
      injection h with h
      have : (f' r).npart = (f r).npart + Ls.flatten.length -
          (boxes.getD r ⟨[], [], [], []⟩).out.length := by rw [← h]
      apply le_max_of_le_right
      omega
    · obtain ⟨⟨_, buf⟩, -, h⟩ := Outcome.bind_eq_ok.1 hfr.symm
      simp only at h
      obtain ⟨arr, -, h⟩ := Outcome.bind_eq_ok.1 h
      injection h with h
      have : (f' r).npart = (f r).npart := by rw [← h]
      omega

end Entity.Full
