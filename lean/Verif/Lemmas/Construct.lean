import Verif.Model.Construct
import Verif.Props.Topology
import Verif.Props.Directions

/-!
# Lemmas about the construction of the metadomain
-/

namespace Entity.Construct

open Entity Entity.Decomp Entity.Dir Entity.Topology

theorem forAll_ok {α : Type} (body : α → Outcome Unit) (l : List α) :
    forAll body l = .ok () ↔ ∀ a ∈ l, body a = .ok () := by
  induction l with
  | nil => simp [forAll]
  | cons a l ih =>
    simp only [forAll, List.forall_mem_cons]
    cases h : body a with
    | ok u => simp [ih]
    | err => simp
    | ub => simp

theorem andThen_ok {α β : Type} {x : Outcome α} {y : Outcome β} {v : β} :
    andThen x y = .ok v ↔ (∃ a, x = .ok a) ∧ y = .ok v := by
  cases x <;> simp [andThen]

/-- Built as the constructor does -/
structure Made (D : Nat) (m : Meta) (dN : List (List Nat)) : Prop where
  built : Built m dN
  dim : dN.length = D
  h1 : 1 ≤ D
  h3 : D ≤ 3
  bcs : m.bcs.length = D

theorem Made.counts_len {D : Nat} {m : Meta} {dN : List (List Nat)} (h : Made D m dN) :
    m.counts.length = D := by
  rw [h.built.counts]; simp [Decomp.counts, h.dim]

theorem Made.reciprocal {D : Nat} {m : Meta} {dN : List (List Nat)} (h : Made D m dN) {idx : Nat}
    (hi : idx < m.doms.length) {d : Direction} (hd : d ∈ allDirs D) :
    (∃ j, neighborIdx m idx d = .ok j) ∧ reciprocal m idx d = .ok () := by
  obtain ⟨hl, hs, hn⟩ := ((C07_direction_tables D h.h1 h.h3).1 d).1 hd
  have hl' : d.length = m.counts.length := by rw [hl, h.counts_len]
  obtain ⟨p, hp, hg⟩ := h.built.at_of_lt hi
  obtain ⟨j, hj, hja⟩ := h.built.neighborIdx hp hs hl'
  obtain ⟨i', hi', hia⟩ := h.built.neighborIdx hja (Signs.neg hs) (by simpa [neg] using hl')
  rw [nbrOffset_neg hg hs hl'] at hia
  obtain rfl := h.built.at_inj hia hp
  exact ⟨⟨j, hj⟩, by simp [Construct.reciprocal, hj, hi']⟩

theorem Made.valid {D : Nat} {m : Meta} {dN : List (List Nat)} (h : Made D m dN)
    (hb : ∀ e ∈ m.bcs, e.1 ≠ .INVALID ∧ e.2 ≠ .INVALID) {idx : Nat}
    (hi : idx < m.doms.length) {d : Direction} (hd : d ∈ allDirs D) :
    (∃ b, dirBC m idx d = .ok b) ∧ validBC m idx d = .ok () := by
  obtain ⟨hl, hs, hn⟩ := ((C07_direction_tables D h.h1 h.h3).1 d).1 hd
  have hl' : d.length = m.counts.length := by rw [hl, h.counts_len]
  have hbl : m.bcs.length = m.counts.length := by rw [h.bcs, h.counts_len]
  obtain ⟨p, hp, hg⟩ := h.built.at_of_lt hi
  have e := h.built.dirBC hp hs hl' hbl hb hn
  have := corner_ne_invalid hb (List.Forall₂.length_eq hg) hbl hl' (acc := .INVALID) (.inr hn)
  exact ⟨⟨_, e⟩, by simp [validBC, e, this]⟩

theorem assocOrth_orth : ∀ D ∈ [1, 2, 3], ∀ d ∈ orthDirs D, (assocOrth d).length = 1 := by
  decide +kernel

/-- A condition that is not set at one end of an axis is found. -/
theorem Made.invalid {D : Nat} {m : Meta} {dN : List (List Nat)} (h : Made D m dN)
    (hv : ∀ idx < m.doms.length, ∀ d ∈ allDirs D, validBC m idx d = .ok ()) :
    ∀ e ∈ m.bcs, e.1 ≠ .INVALID ∧ e.2 ≠ .INVALID := by
  intro e he
  obtain ⟨b1, b2, hb⟩ := List.append_of_mem he
  have hbl : m.bcs.length = m.counts.length := by rw [h.bcs, h.counts_len]
  have hk : b1.length < m.counts.length := by rw [← hbl, hb]; simp
  obtain ⟨c1, n, c2, hc, hc1⟩ : ∃ c1 n c2, m.counts = c1 ++ n :: c2 ∧ c1.length = b1.length :=
    ⟨m.counts.take b1.length, m.counts[b1.length], m.counts.drop (b1.length + 1), by simp,
      by simp; omega⟩
  have hcl : c1.length + (c2.length + 1) = D := by
    rw [← h.counts_len, hc]; simp
  have hcpos : ∀ x ∈ m.counts, 0 < x := by
    rw [h.built.counts]
    intro x hx
    simp only [Decomp.counts, List.mem_map] at hx
    obtain ⟨l, hl, rfl⟩ := hx
    exact List.length_pos_iff.2 (h.built.ne l hl)
  have hn : 0 < n := hcpos n (by simp [hc])
  have main : ∀ (f : Nat → Nat) (v : Int), (v = -1 ∨ v = 1) → (∀ x, 0 < x → f x < x) →
      axisBC n (f n) e v ≠ .INVALID := by
    intro f v hv1 hf
    have hin : ∀ l : List Nat, (∀ x ∈ l, 0 < x) → InGrid (l.map f) l := by
      intro l hl
      induction l with
      | nil => exact .nil
      | cons a l ih => exact .cons (hf a (hl a (by simp))) (ih fun x hx => hl x (by simp [hx]))
    obtain ⟨i, hi⟩ := h.built.exists_at (hin m.counts hcpos)
    have hi2 : At m i (c1.map f ++ f n :: c2.map f) := by
      have := hi
      rw [hc] at this
      simpa using this
    have hu := h.built.faceBC_unit hi2 hc hb (by simp) (by simp) hc1.symm hv1 (hf n hn)
    set d : Direction := List.replicate c1.length 0 ++ v :: List.replicate c2.length 0 with hd
    have hdir : IsDirection D d := by
      refine ⟨by rw [hd]; simp; omega, signs_unit hv1, v, by rw [hd]; simp, by rcases hv1 with rfl | rfl <;> decide⟩
    have hax : IsAxisAligned d := by
      have hv0 : v ≠ 0 := by rcases hv1 with rfl | rfl <;> decide
      rw [hd]
      simp [IsAxisAligned, List.countP_append, List.countP_cons, List.countP_replicate, hv0]
    have hT := C07_direction_tables D h.h1 h.h3
    have ho : d ∈ orthDirs D := (hT.2.2.2.1 d).2 ⟨hdir, hax⟩
    have hlen : (assocOrth d).length = 1 := by
      have h1 := h.h1
      have h3 := h.h3
      exact assocOrth_orth D (by simp; omega) d ho
    have := hv i hi.lt d ((hT.1 d).2 hdir)
    rw [validBC, dirBC, if_pos hlen, hu] at this
    intro hI
    simp [hI] at this
  have a1 := main (fun _ => 0) (-1) (.inl rfl) (fun x hx => hx)
  have a2 := main (fun x => x - 1) 1 (.inr rfl) (fun x hx => by omega)
  constructor
  · intro hI
    apply a1
    simp [axisBC, hI]
  · intro hI
    apply a2
    simp [axisBC, hI]

theorem localIndices_mem (b : Build) (n idx : Nat) (h : idx < n) :
    (localIndices b n).any (fun g => idx == g) = isLocal b idx := by
  cases b with
  | mpi size rank =>
    simp only [localIndices, isLocal]
    rw [Bool.eq_iff_iff]
    simp only [List.any_eq_true, List.mem_filter, List.mem_range, beq_iff_eq]
    constructor
    · rintro ⟨x, ⟨_, h1⟩, h2⟩
      omega
    · intro h1
      exact ⟨idx, ⟨h, h1⟩, rfl⟩
  | serial debug =>
    simp only [localIndices, isLocal]
    simp [h]

theorem Made.localCheck {D : Nat} {m : Meta} {dN : List (List Nat)} (h : Made D m dN)
    (hne : ∀ s ∈ m.doms, s.ncells ≠ []) (ng nspec maxnpart : Nat) (b : Build) {idx : Nat}
    (hi : idx < m.doms.length) : Construct.localCheck ng nspec maxnpart b m idx = .ok () := by
  have e := localIndices_mem b m.doms.length idx hi
  unfold Construct.localCheck
  simp only [e]
  rw [List.getElem?_eq_getElem hi]
  have hw : localWrong b idx (isLocal b idx) = false := by
    cases b <;> simp [isLocal, localWrong]
  rw [hw]
  simp only [Bool.false_eq_true, if_false]
  rw [if_neg]
  rintro ⟨h1, h2⟩
  rw [h1] at h2
  have := hne _ (List.getElem_mem hi)
  simp [isPlaceholder, fieldsFootprint, extents, this] at h2

/-- Everything after `createEmptyDomains` -/
theorem connect_ok {D : Nat} {m mp : Meta} {dN : List (List Nat)} (h : Made D m dN) (hp : Made D mp dN)
    (hd : mp.doms = m.doms) (hne : ∀ s ∈ m.doms, s.ncells ≠ []) (ng nspec maxnpart : Nat) (b : Build) :
    connect ng nspec maxnpart D b m mp = .ok () ↔
      (∀ e ∈ m.bcs, e.1 ≠ .INVALID ∧ e.2 ≠ .INVALID) ∧ (∀ e ∈ mp.bcs, e.1 ≠ .INVALID ∧ e.2 ≠ .INVALID) := by
  unfold connect
  rw [andThen_ok, andThen_ok, andThen_ok]
  have hunit : ∀ x : Outcome Unit, (∃ a, x = .ok a) ↔ x = .ok () := by
    intro x; cases x <;> simp
  simp only [hunit, neighborsFound, boundariesFound, finalCheck, forAll_ok, List.mem_range]
  constructor
  · rintro ⟨_, _, _, hf⟩
    have hf' := fun idx hi => (andThen_ok.1 (hf idx hi)).2
    have hf2 := fun idx hi => andThen_ok.1 (hf' idx hi)
    have hf3 := fun idx hi => andThen_ok.1 (hf2 idx hi).2
    refine ⟨h.invalid fun idx hi d hdd => ?_, hp.invalid fun idx hi d hdd => ?_⟩
    · exact (forAll_ok _ _).1 ((hunit _).1 (hf2 idx hi).1) d hdd
    · rw [hd] at hi
      exact (forAll_ok _ _).1 ((hunit _).1 (hf3 idx hi).1) d hdd
  · rintro ⟨h1, h2⟩
    refine ⟨fun idx hi d hdd => ?_, fun idx hi d hdd => ?_, fun idx hi d hdd => ?_, fun idx hi => ?_⟩
    · obtain ⟨⟨j, hj⟩, _⟩ := h.reciprocal hi hdd
      rw [hj]
      rfl
    · obtain ⟨⟨j, hj⟩, _⟩ := h.valid h1 hi hdd
      rw [hj]
      rfl
    · obtain ⟨⟨j, hj⟩, _⟩ := hp.valid h2 hi hdd
      rw [hj]
      rfl
    · rw [andThen_ok, andThen_ok, andThen_ok]
      simp only [hunit, forAll_ok]
      exact ⟨fun d hdd => (h.reciprocal hi hdd).2, fun d hdd => (h.valid h1 hi hdd).2,
        fun d hdd => (hp.valid h2 (by rw [hd]; exact hi) hdd).2, h.localCheck hne ng nspec maxnpart b hi⟩

/-! ### A product of the numbers of subdomains that is too large -/

theorem tp_head_aux (ls : List (List Nat)) (hne : ∀ l ∈ ls, l ≠ []) (init : List (List Nat)) (a : List Nat)
    (h : init.head? = some a) : (ls.foldl tpStep init).head? = some (a ++ ls.map (fun l => l.headD 0)) := by
  induction ls generalizing init a with
  | nil => simpa using h
  | cons l ls ih =>
    obtain ⟨x, xs, rfl⟩ := List.exists_cons_of_ne_nil (hne l (by simp))
    obtain ⟨b, bs, rfl⟩ := List.exists_cons_of_ne_nil (l := init) (by rintro rfl; simp at h)
    simp only [List.head?_cons, Option.some.injEq] at h
    subst h
    rw [List.foldl_cons, ih (fun l hl => hne l (by simp [hl])) _ (b ++ [x]) (by simp [tpStep])]
    simp

theorem tp_last_aux (ls : List (List Nat)) (hne : ∀ l ∈ ls, l ≠ []) (init : List (List Nat)) (a : List Nat)
    (h : init.getLast? = some a) :
    (ls.foldl tpStep init).getLast? = some (a ++ ls.map (fun l => l.getLastD 0)) := by
  induction ls generalizing init a with
  | nil => simpa using h
  | cons l ls ih =>
    obtain ⟨xs, x, rfl⟩ := List.eq_nil_or_concat l |>.resolve_left (hne l (by simp))
    obtain ⟨bs, b, rfl⟩ := List.eq_nil_or_concat init |>.resolve_left (by rintro rfl; simp at h)
    simp only [List.concat_eq_append, List.getLast?_append, List.getLast?_singleton, Option.some_or, Option.some.injEq] at h
    subst h
    rw [List.foldl_cons, ih (fun l hl => hne l (by simp [hl])) _ (b ++ [x]) (by simp [tpStep])]
    simp

theorem axisRecs_dom_range (o k : Nat) (d : List Nat) :
    (axisRecs o k d).map (·.dom) = List.range' k d.length := by
  induction d generalizing o k with
  | nil => rfl
  | cons x xs ih => simp [axisRecs, ih, List.range'_succ]

theorem offsetsNdoms_range (d : List Nat) (hd : d ≠ []) : offsetsNdoms d = List.range' 0 d.length := by
  rw [offsetsNdoms_eq d hd, axisRecs_dom_range]

theorem offset2index_some {doms : List Subdomain} {p : List Nat} {j : Nat}
    (h : offset2index doms p = some j) : ∃ s ∈ doms, s.index = j ∧ s.offsetNdomains = p := by
  unfold offset2index at h
  obtain ⟨s, hs, rfl⟩ := Option.map_eq_some_iff.1 h
  have h1 := List.mem_of_find?_eq_some hs
  have h2 := List.find?_some hs
  exact ⟨s, by simpa using h1, rfl, by simpa using h2⟩

theorem mapM_get {β : Type} (f : Nat → Option β) (n : Nat) (l : List β) (h : (List.range n).mapM f = some l) :
    l.length = n ∧ ∀ i < n, l[i]? = f i := by
  have key : ∀ (r : List Nat) (l : List β), r.mapM f = some l → l.map some = r.map f := by
    intro r
    induction r with
    | nil => intro l hl; simp at hl; simp [hl]
    | cons a r ih =>
      intro l hl
      simp only [List.mapM_cons, Option.bind_eq_bind, Option.bind_eq_some_iff, Option.pure_def,
        Option.some.injEq] at hl
      obtain ⟨b, hb, bs, hbs, rfl⟩ := hl
      simp [hb, ih bs hbs]
  have e := key _ _ h
  have hl : l.length = n := by simpa using congrArg List.length e
  refine ⟨hl, fun i hi => ?_⟩
  have := congrArg (fun t => t[i]?) e
  simp only [List.getElem?_map, List.getElem?_range hi, Option.map_some] at this
  rw [List.getElem?_eq_getElem (by omega)] at this ⊢
  simpa using this

/-- If all neighbours are found there are not more positions than subdomains. -/
theorem found_prod {D nd : Nat} (h1 : 1 ≤ D) (h3 : D ≤ 3) (hnd : 0 < nd) {dN : List (List Nat)}
    (hD : dN.length = D) (hne : ∀ l ∈ dN, l ≠ []) {doms : List Subdomain} (bcs : List (BC × BC))
    (hc : createDomains nd dN = some doms)
    (hf : neighborsFound ⟨dN.map List.length, doms, bcs⟩ (allDirs D) = .ok ()) :
    (dN.map List.length).prod ≤ nd := by
  obtain ⟨hlen, hget⟩ := mapM_get _ _ _ hc
  set ond := tensorProduct (dN.map offsetsNdoms) with hond
  have hoff : ∀ (i : Nat) (s : Subdomain), doms[i]? = some s → ond[i]? = some s.offsetNdomains ∧ s.index = i := by
    intro i s hs
    have hi : i < nd := by rw [← hlen]; exact (List.getElem?_eq_some_iff.1 hs).1
    have := hget i hi
    rw [hs] at this
    simp only [Option.bind_eq_bind, Option.pure_def] at this
    obtain ⟨a, ha, this⟩ := Option.bind_eq_some_iff.1 this.symm
    obtain ⟨b, hb, this⟩ := Option.bind_eq_some_iff.1 this
    obtain ⟨c, hcc, this⟩ := Option.bind_eq_some_iff.1 this
    simp only [Option.some.injEq] at this
    subst this
    exact ⟨ha, rfl⟩
  have hne' : ∀ l ∈ dN.map offsetsNdoms, l ≠ [] := by
    intro l hl
    obtain ⟨d, hd, rfl⟩ := List.mem_map.1 hl
    rw [offsetsNdoms_range d (hne d hd)]
    have := List.length_pos_iff.2 (hne d hd)
    intro h0
    have := congrArg List.length h0
    simp only [List.length_range', List.length_nil] at this
    omega
  have hhead : ond.head? = some (dN.map (fun _ => 0)) := by
    have := tp_head_aux (dN.map offsetsNdoms) hne' [[]] [] rfl
    rw [hond]
    refine this.trans ?_
    simp only [List.nil_append, List.map_map, Option.some.injEq]
    apply List.map_congr_left
    intro d hd
    obtain ⟨x, xs, rfl⟩ := List.exists_cons_of_ne_nil (hne d hd)
    simp [offsetsNdoms_range, List.range'_succ]
  have hlast : ond.getLast? = some (dN.map (fun d => d.length - 1)) := by
    have := tp_last_aux (dN.map offsetsNdoms) hne' [[]] [] rfl
    rw [hond]
    refine this.trans ?_
    simp only [List.nil_append, List.map_map, Option.some.injEq]
    apply List.map_congr_left
    intro d hd
    obtain ⟨x, xs, rfl⟩ := List.exists_cons_of_ne_nil (hne d hd)
    simp [offsetsNdoms_range, List.range'_concat]
  have hP : ond.length = (dN.map List.length).prod := by
    rw [hond, tp_length]
    congr 1
    simp only [List.map_map]
    apply List.map_congr_left
    intro d hd
    simp [offsetsNdoms_range d (hne d hd)]
  have hnod : ond.Nodup := by
    apply tp_nodup
    intro l hl
    obtain ⟨d, hd, rfl⟩ := List.mem_map.1 hl
    rw [offsetsNdoms_range d (hne d hd)]
    exact List.nodup_range'
  -- the neighbour of the first subdomain in the direction (-1, ..., -1)
  have hdir : List.replicate D (-1 : Int) ∈ allDirs D := by
    obtain rfl | rfl | rfl : D = 1 ∨ D = 2 ∨ D = 3 := by omega
    all_goals decide
  obtain ⟨s, hs⟩ : ∃ s, doms[0]? = some s := ⟨doms[0], List.getElem?_eq_getElem (by omega)⟩
  have hs0 : s.offsetNdomains = dN.map (fun _ => 0) := by
    have := (hoff 0 s hs).1
    rw [← List.head?_eq_getElem?, hhead] at this
    exact (Option.some.inj this).symm
  rw [neighborsFound, forAll_ok] at hf
  have := (forAll_ok _ _).1 (hf 0 (by simp; omega)) _ hdir
  obtain ⟨⟨j, hj⟩, _⟩ := andThen_ok.1 this
  unfold neighborIdx at hj
  simp only [hs] at hj
  have hnb : nbrOffset (dN.map List.length) s.offsetNdomains (List.replicate D (-1)) =
      dN.map (fun d => d.length - 1) := by
    rw [hs0, ← hD]
    clear * -
    induction dN with
    | nil => rfl
    | cons d dN ih =>
      simp only [List.map_cons, List.length_cons, List.replicate_succ, nbrOffset, ih]
      simp
  rw [hnb] at hj
  cases ho : offset2index doms (dN.map (fun d => d.length - 1)) with
  | none => simp [ho] at hj
  | some k =>
    obtain ⟨t, ht, hti, hto⟩ := offset2index_some ho
    obtain ⟨i, hi, rfl⟩ := List.getElem_of_mem ht
    have h5 := (hoff i _ (List.getElem?_eq_getElem hi)).1
    have hiP : i < ond.length := (List.getElem?_eq_some_iff.1 h5).1
    rw [hto, ← hlast, List.getLast?_eq_getElem?, List.getElem?_eq_getElem hiP,
      List.getElem?_eq_getElem (by omega)] at h5
    have := (List.Nodup.getElem_inj_iff hnod).1 (Option.some.inj h5)
    omega

end Entity.Construct
