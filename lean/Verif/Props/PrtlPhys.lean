import Verif.Lemmas.PrtlPhys

/-!
# Property C144: particles in the output are the particles of the simulation, in physical units
-/

namespace Entity.PrtlPhys

open Entity Entity.Outcome Entity.Metric Entity.PrtlIO
open Entity.Push (V3)

/-! ## The writes -/

/-- One write. -/
structure Blk where
  name : List Char
  off : Nat
  vals : List Val

/-- The write covers the position. -/
def Blk.Covers (b : Blk) (m : List Char) (k : Nat) : Prop := m = b.name ∧ b.off ≤ k ∧ k < b.off + b.vals.length

theorem put_fold (m : List Char) (k : Nat) (o : Option Val) : ∀ (bs : List Blk) (f : Out),
    (∀ b ∈ bs, b.Covers m k → b.vals[k - b.off]? = o) → ((∃ b ∈ bs, b.Covers m k) ∨ f m k = o) →
    bs.foldl (fun f b => put f b.name b.off b.vals) f m k = o
  | [], f, _, h => by simpa using h
  | b :: bs, f, ha, h => by
    rw [List.foldl_cons]
    refine put_fold m k o bs _ (fun w hw => ha w (by simp [hw])) ?_
    by_cases hc : b.Covers m k
    · right
      exact (if_pos hc).trans (ha b (by simp) hc)
    · rcases h with ⟨w, hw, hw'⟩ | h
      · rcases List.mem_cons.1 hw with rfl | hw
        · exact absurd hw' hc
        · exact .inl ⟨w, hw, hw'⟩
      · right
        exact (if_neg hc).trans h

theorem mapM_ok {α β γ : Type} {r : γ → α} {f : α → Outcome β} {g : γ → β} : ∀ (l : List γ),
    (∀ x ∈ l, f (r x) = .ok (g x)) → (l.map r).mapM f = .ok (l.map g)
  | [], _ => rfl
  | x :: l, h => by
    rw [List.map_cons, List.mapM_cons, h x (by simp), bind_ok, mapM_ok l (fun y hy => h y (by simp [hy]))]
    rfl

/-- The writes of one species on one rank, for entries with values `val`. -/
def blocks (c : OutCfg) (sp off : Nat) (l : List Nat) (val : Var → Nat → Val) : List Blk :=
  (writeVars c).map fun w => ⟨w.1.name sp, off, l.map (val w.1)⟩

/-- A list of writes. -/
def puts (f : Out) (bs : List Blk) : Out := bs.foldl (fun f b => put f b.name b.off b.vals) f

theorem puts_append (f : Out) (a b : List Blk) : puts f (a ++ b) = puts (puts f a) b := by
  simp [puts, List.foldl_append]

theorem writeSpecies_ok {ds : List (List Char)} {c : OutCfg} {sp : Nat} {counts : List Nat} {rank : Nat}
    {l : List Nat} {rec : Nat → Rec} {val : Var → Nat → Val}
    (hds : ∀ w ∈ writeVars c, w.1.name sp ∈ ds)
    (hv : ∀ x ∈ l, ∀ w ∈ writeVars c, w.2 (rec x) = .ok (val w.1 x)) (f : Out) :
    writeSpecies ds c sp counts rank (l.map rec) f =
      .ok (puts f (blocks c sp (counts.take rank).sum l val)) := by
  unfold writeSpecies blocks
  rw [offsetTotal_eq]
  generalize writeVars c = ws at hds hv
  induction ws generalizing f with
  | nil => rfl
  | cons w ws ih =>
    have h1 : (l.map rec).mapM w.2 = .ok (l.map (val w.1)) := mapM_ok l fun x hx => hv x hx w (by simp)
    rw [List.foldlM_cons, if_pos (hds w (by simp)), h1, bind_ok]
    exact ih _ (fun w hw => hds w (by simp [hw])) (fun x hx w hw => hv x hx w (by simp [hw]))

theorem foldlM_puts {α : Type} {step : Out → α → Outcome Out} {bs : α → List Blk} : ∀ (l : List α) (f : Out),
    (∀ x ∈ l, ∀ f, step f x = .ok (puts f (bs x))) → l.foldlM step f = .ok (puts f (l.flatMap bs))
  | [], f, _ => rfl
  | x :: l, f, h => by
    rw [List.foldlM_cons, h x (by simp), bind_ok, foldlM_puts l _ (fun y hy => h y (by simp [hy])),
      List.flatMap_cons, puts_append]

theorem flatten_get {α : Type} : ∀ (L : List (List α)) {r j : Nat} (_ : r < L.length) (_ : j < L[r].length),
    L.flatten[((L.map List.length).take r).sum + j]? = L[r][j]?
  | [], r, j, hr, _ => by simp at hr
  | x :: L, 0, j, _, hj => by
    simp only [List.getElem_cons_zero] at hj
    simp [List.getElem?_append_left hj]
  | x :: L, r + 1, j, hr, hj => by
    have := flatten_get L (r := r) (j := j) (by simpa using hr) (by simpa using hj)
    rw [List.flatten_cons, List.map_cons, List.take_succ_cons, List.sum_cons,
      List.getElem?_append_right (by omega)]
    simpa [Nat.add_assoc] using this

theorem declareAll_ok (sps : List (Nat × OutCfg)) (h : (sps.map Prod.fst).Nodup) :
    declareAll sps = .ok (sps.flatMap fun s => (declareVars s.2).map (·.name s.1)) := by
  have aux : ∀ (l ds : List (List Char)), (ds ++ l).Nodup →
      l.foldlM (fun (ds : List (List Char)) (n : List Char) => if n ∈ ds then Outcome.err else .ok (ds ++ [n])) ds =
        .ok (ds ++ l) := by
    intro l
    induction l with
    | nil => intro ds _; simp
    | cons n l ih =>
      intro ds hd
      have hn : n ∉ ds := fun hm => by
        rw [List.nodup_append] at hd
        exact hd.2.2 n hm n (by simp) rfl
      rw [List.foldlM_cons, if_neg hn, bind_ok, ih]
      · simp
      · simpa using hd
  unfold declareAll
  rw [aux _ [] ?_, List.nil_append]
  rw [List.nil_append, List.nodup_flatMap]
  refine ⟨fun s _ => (nodup_declare s.2).map fun a b h => (name_inj h).1, ?_⟩
  rw [List.Nodup, List.pairwise_map] at h
  refine h.imp ?_
  intro s t hne
  simp only [Function.onFun, List.disjoint_left, List.mem_map]
  rintro n ⟨v, -, rfl⟩ ⟨w, -, hw⟩
  exact hne (name_inj hw).2.symm

/-! ## Entries -/

theorem entry_ok {G l : Met} {off : Fin 3 → Nat} (hl : LocalOf G l off) (nR nI : Nat) (a : Arrays) (p : Nat)
    (hp : p < a.max) : ∃ u, Velocity G off a p u ∧ entry l nR nI a p =
      .ok ⟨bufferX l a p, u, a.weight p, (List.range nR).map (a.pldR p), (List.range nI).map (a.pldI p)⟩ := by
  obtain ⟨u, h1, h2⟩ := hl.kind a p
  refine ⟨u, h2, ?_⟩
  unfold entry
  rw [if_pos hp, h1]
  rfl

theorem col_content {G l : Met} {off : Fin 3 → Nat} (hl : LocalOf G l off) {c : OutCfg}
    (hd : c.dim = 1 ∨ c.dim = 2 ∨ c.dim = 3) (hc : c.dim = G.dim) (hc' : c.cartesian = G.cartesian)
    (ht : c.ntrack ≤ c.npldI) (hk : G.cartesian = false → G.dim = 2) (a : Arrays) (u : V3 ℝ) (p : Nat)
    {v : Var} (hv : HasVar c v) :
    colOf c ⟨bufferX l a p, u, a.weight p, (List.range c.npldR).map (a.pldR p),
      (List.range c.npldI).map (a.pldI p)⟩ v = .ok (content G off c a u p v) := by
  have hn : c.ntrack = if c.tracking then (if c.mpi then 2 else 1) else 0 := rfl
  cases v with
  | X d =>
    obtain ⟨h1, h2⟩ := hv
    simp only [colOf, content, bufferX, hl.dim, hl.cart, ← hc, ← hc', position]
    have s0 := hl.shift 0 (.inl (by norm_num))
    have s1 := hl.shift 1 (.inl (by norm_num))
    simp only [s0, s1, Arrays.code]
    rcases hd with h | h | h
    · have : d = 1 := by simp only [h] at h2; norm_num at h2; omega
      subst this
      simp [h, colR]
    · cases hcart : c.cartesian
      · have : d = 1 ∨ d = 2 ∨ d = 3 := by simp only [h, hcart] at h2; norm_num at h2; omega
        rcases this with rfl | rfl | rfl <;> simp [h, colR]
      · have : d = 1 ∨ d = 2 := by simp only [h, hcart] at h2; norm_num at h2; omega
        rcases this with rfl | rfl <;> simp [h, colR]
    · have hcart : G.cartesian = true := by
        cases hh : G.cartesian
        · have := hk hh; omega
        · rfl
      have s2 := hl.shift 2 (.inr hcart)
      simp only [s2]
      have : d = 1 ∨ d = 2 ∨ d = 3 := by simp only [h] at h2; norm_num at h2; omega
      rcases this with rfl | rfl | rfl <;> simp [h, colR, hc', hcart]
  | U d => rfl
  | W => rfl
  | R j =>
    have hv : j < c.npldR := hv
    simp [colOf, colR, content, hv]
  | IDX =>
    have hv : c.tracking = true := hv
    have : 0 < c.npldI := by rw [hn, hv] at ht; simp at ht; split_ifs at ht <;> omega
    simp [colOf, colI, content, this]
  | RNK =>
    obtain ⟨h1, h2⟩ := hv
    have : 1 < c.npldI := by rw [hn, h1, h2] at ht; simp at ht; omega
    simp [colOf, colI, content, this]
  | I j =>
    have hv : j + c.ntrack < c.npldI := hv
    simp only [colOf, colI, content, ← hn]
    simp [hv]

theorem chosen {c : OutCfg} {stride : Nat} (hs : 0 < stride) {s : SpeciesOnRank}
    (hp : s.sched.Perm (List.range s.npart)) :
    ∃ sel, selection c.tracking s.npart stride s.tag (fun p => s.arr.pldI p 0) s.sched = .ok sel ∧
      Chosen c stride s sel ∧ ∀ p ∈ sel, p < s.npart := by
  unfold selection Chosen
  cases c.tracking with
  | false =>
    refine ⟨_, rfl, rfl, ?_⟩
    exact (C82_strided s.npart stride hs).2.2.1
  | true =>
    obtain ⟨out, h1, -, h2, h3⟩ := C82_tracked s.npart stride s.tag (fun p => s.arr.pldI p 0) s.sched hp
    refine ⟨out, h1, ?_, fun p hp => ((h3 p).1 hp).1⟩
    simp only [if_true]
    refine ⟨h2, fun p => ?_⟩
    rw [h3, Int.natCast_dvd_natCast]

/-! ## C144 -/

/-- **C144.** For every metric and every decomposition, any number of ranks writing in any order, any
species chosen for the output (each once), with or without tracking: the output succeeds; the variables in
the file are those documented; and each of them lists, rank after rank, for the particles that are to be
written the coordinates on the whole grid in physical units, the velocity in the documented basis, the
weight, the payloads and the identity, and nothing else.  Missing: floating-point rounding, stretched
grids with a negative stretching, and the removal of dead particles beforehand. -/
theorem C144_output_partial {k : Kind} {q : MetPrm} {e : Fin 3 → Ext} (hgrid : Grid k q e) {G : Met}
    (hG : Met.make k q e = .ok G) (hD : G.dim = 1 ∨ G.dim = 2 ∨ G.dim = 3) {nranks : Nat}
    (off nc : Nat → Fin 3 → Nat) (hnc : ∀ r d, 0 < nc r d) (l : Nat → Met)
    (hl : ∀ r, r < nranks → Met.make k q (fun d => localExt (G.toPh d) (off r d) (nc r d)) = .ok (l r))
    (sps : List (Nat × OutCfg)) (hsp : (sps.map Prod.fst).Nodup)
    (hcfg : ∀ s ∈ sps, s.2.dim = G.dim ∧ s.2.cartesian = G.cartesian ∧
      (s.2.tracking = true → (if s.2.mpi then 2 else 1) ≤ s.2.npldI))
    (stride : Nat) (hs : 0 < stride) (pop : Nat → Nat → SpeciesOnRank)
    (hpop : ∀ r, r < nranks → ∀ s ∈ sps, (pop r s.1).npart ≤ (pop r s.1).arr.max ∧
      (pop r s.1).sched.Perm (List.range (pop r s.1).npart))
    (order : List Nat) (hord : ∀ r, r ∈ order ↔ r < nranks) :
    ∃ (ds : List (List Char)) (recs : Nat → Nat → List Rec) (f : Out) (sel : Nat → Nat → List Nat)
      (u : Nat → Nat → Nat → V3 ℝ), declareAll sps = .ok ds ∧
      (∀ r, r < nranks → ∀ s ∈ sps, buffers (l r) s.2 stride (pop r s.1) = .ok (recs r s.1)) ∧
      writeAll ds sps nranks recs order (fun _ _ => none) = .ok f ∧
      (∀ n, n ∈ ds ↔ ∃ s ∈ sps, ∃ v, HasVar s.2 v ∧ n = v.name s.1) ∧
      (∀ r, r < nranks → ∀ s ∈ sps, Chosen s.2 stride (pop r s.1) (sel r s.1) ∧
        ∀ p ∈ sel r s.1, Velocity G (off r) (pop r s.1).arr p (u r s.1 p)) ∧
      (∀ s ∈ sps, ∀ v, HasVar s.2 v → ∀ i, f (v.name s.1) i =
        ((List.range nranks).flatMap fun r => (sel r s.1).map fun p =>
          content G (off r) s.2 (pop r s.1).arr (u r s.1 p) p v)[i]?) := by
  have hloc := fun r (hr : r < nranks) => localOf hgrid hG (hnc r) (hl r hr)
  have huniq : ∀ s ∈ sps, ∀ t ∈ sps, s.1 = t.1 → s = t := fun s h1 t h2 h => List.inj_on_of_nodup_map hsp h1 h2 h
  have hdim : ∀ s ∈ sps, s.2.dim = 1 ∨ s.2.dim = 2 ∨ s.2.dim = 3 := fun s h => by rw [(hcfg s h).1]; exact hD
  have hk : G.cartesian = false → G.dim = 2 := by cases G <;> simp [Met.cartesian, Met.dim]
  have hsel : ∀ r sp, ∃ sel, ∀ c, r < nranks → (sp, c) ∈ sps →
      selection c.tracking (pop r sp).npart stride (pop r sp).tag (fun p => (pop r sp).arr.pldI p 0)
        (pop r sp).sched = .ok sel ∧ Chosen c stride (pop r sp) sel ∧ ∀ p ∈ sel, p < (pop r sp).npart := by
    intro r sp
    by_cases h : ∃ c, r < nranks ∧ (sp, c) ∈ sps
    · obtain ⟨c, hr, hm⟩ := h
      obtain ⟨sel, h⟩ := chosen (c := c) hs (hpop r hr _ hm).2
      refine ⟨sel, fun c' _ hm' => ?_⟩
      have := huniq _ hm' _ hm rfl
      simp only [Prod.mk.injEq, true_and] at this
      rw [this]
      exact h
    · exact ⟨[], fun c h1 h2 => absurd ⟨c, h1, h2⟩ h⟩
  choose sel hsel using hsel
  have hent : ∀ r sp p, ∃ b u, ∀ c, r < nranks → (sp, c) ∈ sps → p ∈ sel r sp →
      Velocity G (off r) (pop r sp).arr p u ∧ entry (l r) c.npldR c.npldI (pop r sp).arr p = .ok b ∧
      ∀ v, HasVar c v → colOf c b v = .ok (content G (off r) c (pop r sp).arr u p v) := by
    intro r sp p
    by_cases h : ∃ c, r < nranks ∧ (sp, c) ∈ sps ∧ p ∈ sel r sp
    · obtain ⟨c, hr, hm, hp⟩ := h
      have hp' := (hsel r sp c hr hm).2.2 p hp
      obtain ⟨u, h1, h2⟩ := entry_ok (hloc r hr) c.npldR c.npldI (pop r sp).arr p
        (lt_of_lt_of_le hp' (hpop r hr _ hm).1)
      refine ⟨⟨bufferX (l r) (pop r sp).arr p, u, (pop r sp).arr.weight p, (List.range c.npldR).map
        ((pop r sp).arr.pldR p), (List.range c.npldI).map ((pop r sp).arr.pldI p)⟩, u, fun c' _ hm' _ => ?_⟩
      have := huniq _ hm' _ hm rfl
      simp only [Prod.mk.injEq, true_and] at this
      rw [this]
      refine ⟨h1, h2, fun v hv => ?_⟩
      obtain ⟨c1, c2, c3⟩ := hcfg _ hm
      refine col_content (hloc r hr) (hdim _ hm) c1 c2 ?_ hk _ u p hv
      unfold OutCfg.ntrack
      split_ifs with h
      · have := c3 ‹_›; rwa [if_pos ‹_›] at this
      · have := c3 ‹_›; rwa [if_neg ‹_›] at this
      · omega
    · exact ⟨⟨[], ⟨0, 0, 0⟩, 0, [], []⟩, ⟨0, 0, 0⟩, fun c h1 h2 h3 => absurd ⟨c, h1, h2, h3⟩ h⟩
  choose b u hent using hent
  have hds := declareAll_ok sps hsp
  have hmem : ∀ n, n ∈ (sps.flatMap fun s => (declareVars s.2).map (·.name s.1)) ↔
      ∃ s ∈ sps, ∃ v, HasVar s.2 v ∧ n = v.name s.1 := by
    intro n
    simp only [List.mem_flatMap, List.mem_map]
    constructor
    · rintro ⟨s, h1, v, h2, rfl⟩
      exact ⟨s, h1, v, (mem_declare (hdim s h1)).1 h2, rfl⟩
    · rintro ⟨s, h1, v, h2, rfl⟩
      exact ⟨s, h1, v, (mem_declare (hdim s h1)).2 h2, rfl⟩
  -- the writes
  have hcount : ∀ sp, (List.range nranks).map (fun q => ((sel q sp).map (b q sp)).length) =
      (List.range nranks).map (fun q => (sel q sp).length) := fun sp => by simp
  have hw := foldlM_puts (bs := fun r => sps.flatMap fun s => blocks s.2 s.1
      (((List.range nranks).map (fun q => (sel q s.1).length)).take r).sum (sel r s.1)
      (fun v p => content G (off r) s.2 (pop r s.1).arr (u r s.1 p) p v))
    (step := fun f r => sps.foldlM (fun f (s : Nat × OutCfg) =>
      writeSpecies (sps.flatMap fun s => (declareVars s.2).map (·.name s.1)) s.2 s.1
        ((List.range nranks).map (fun q => ((sel q s.1).map (b q s.1)).length)) r ((sel r s.1).map (b r s.1)) f) f)
    order (fun _ _ => none) (by
      intro r hr f
      have hr := (hord r).1 hr
      refine foldlM_puts sps f fun s hs f => ?_
      rw [← hcount]
      refine writeSpecies_ok ?_ ?_ f
      · intro w hw
        exact (hmem _).2 ⟨s, hs, w.1, (writeVars_mem (hdim s hs) _).1 (List.mem_map_of_mem hw), rfl⟩
      · intro p hp w hw
        rw [writeVars_eq _ w hw]
        exact (hent r s.1 p s.2 hr hs hp).2.2 w.1 ((writeVars_mem (hdim s hs) _).1 (List.mem_map_of_mem hw)))
  refine ⟨_, fun r sp => (sel r sp).map (b r sp), _, sel, u, hds, ?_, hw, hmem, ?_, ?_⟩
  · intro r hr s hs
    unfold buffers
    rw [(hsel r s.1 s.2 hr hs).1, bind_ok]
    have := mapM_ok (r := id) (g := b r s.1) (f := entry (l r) s.2.npldR s.2.npldI (pop r s.1).arr) (sel r s.1)
      fun p hp => (hent r s.1 p s.2 hr hs hp).2.1
    simpa using this
  · intro r hr s hs
    exact ⟨(hsel r s.1 s.2 hr hs).2.1, fun p hp => (hent r s.1 p s.2 hr hs hp).1⟩
  · intro s hs v hv i
    set F : Nat → List Val := fun r => (sel r s.1).map fun p =>
      content G (off r) s.2 (pop r s.1).arr (u r s.1 p) p v with hF
    set cnt := (List.range nranks).map (fun q => (sel q s.1).length) with hcnt
    have hlen : ((List.range nranks).map F).map List.length = cnt := by
      simp [hF, hcnt, Function.comp_def]
    have hget : ∀ r (hr : r < nranks) j, j < (F r).length →
        ((List.range nranks).flatMap F)[(cnt.take r).sum + j]? = (F r)[j]? := by
      intro r hr j hj
      have := flatten_get ((List.range nranks).map F) (r := r) (j := j) (by simpa using hr) (by simpa using hj)
      rw [hlen] at this
      rw [List.flatMap_def, this]
      simp
    have hcov : ∀ B ∈ order.flatMap (fun r => sps.flatMap fun s => blocks s.2 s.1
        (((List.range nranks).map (fun q => (sel q s.1).length)).take r).sum (sel r s.1)
        (fun v p => content G (off r) s.2 (pop r s.1).arr (u r s.1 p) p v)), B.Covers (v.name s.1) i →
        ∃ r, r < nranks ∧ B.off = (cnt.take r).sum ∧ B.vals = F r := by
      intro B hB hc
      simp only [List.mem_flatMap, blocks, List.mem_map] at hB
      obtain ⟨r, hr, t, ht, w, hw, rfl⟩ := hB
      obtain ⟨e1, e2⟩ := name_inj hc.1
      obtain rfl := huniq _ hs _ ht e2
      exact ⟨r, (hord r).1 hr, rfl, by rw [hF, e1]⟩
    apply put_fold
    · intro B hB hc
      obtain ⟨r, hr, h1, h2⟩ := hcov B hB hc
      obtain ⟨-, h3, h4⟩ := hc
      have := hget r hr (i - B.off) (by rw [← h2]; omega)
      rw [← h1, Nat.add_sub_cancel' h3] at this
      rw [this, h2]
    · by_cases hi : i < cnt.sum
      · left
        obtain ⟨r, hr, h1, h2⟩ := exists_block cnt i hi
        have hr' : r < nranks := by simpa [hcnt] using hr
        obtain ⟨w, hw, hwv⟩ := List.mem_map.1 ((writeVars_mem (hdim s hs) v).2 hv)
        refine ⟨⟨w.1.name s.1, (cnt.take r).sum, F r⟩, ?_, ?_⟩
        · simp only [List.mem_flatMap, blocks, List.mem_map]
          exact ⟨r, (hord r).2 hr', s, hs, w, hw, by rw [hF, hwv]⟩
        · refine ⟨by rw [hwv], h1, ?_⟩
          have : (F r).length = cnt[r] := by simp [hF, hcnt]
          simp only [this]
          exact h2
      · right
        rw [eq_comm, List.getElem?_eq_none_iff]
        rw [List.flatMap_def, List.length_flatten, hlen]
        omega

/-- The Kerr-Schild grid of radii 1 to 3 and angles 0 to 1 with four by two cells, divided in two along the
radius. -/
noncomputable def exExt : Fin 3 → Ext
  | 0 => ⟨1, 3, 4⟩
  | _ => ⟨0, 1, 2⟩
@[inherit_doc exExt]
noncomputable def exGrid : Met := .ks (KS.make 0 (1 / 2) ⟨1, 3, 4⟩ ⟨0, 1, 2⟩)
/-- Four particles on the first rank, three on the second, in cell 1 of the rank at offset 1/2. -/
noncomputable def exPop (r : Nat) : SpeciesOnRank where
  npart := if r = 0 then 4 else 3
  tag := fun _ => 1
  arr := ⟨5, fun _ _ => 1, fun _ _ => 1 / 2, fun _ _ => 3, fun _ => 0, fun p => p, fun _ _ => 0, fun _ _ => 0⟩
  sched := List.range (if r = 0 then 4 else 3)

/-- With stride two, particles 0 and 2 of the first rank and 0 of the second are written.  The latter is
at radius 2.75, and its radial velocity is the one of the code over the cell size. -/
example : ∃ ds recs f, declareAll [(1, ⟨2, false, 0, 0, false, true⟩)] = .ok ds ∧
    writeAll ds [(1, ⟨2, false, 0, 0, false, true⟩)] 2 recs [1, 0] (fun _ _ => none) = .ok f ∧
    f "pX1_1".toList 2 = some (.r (11 / 4)) ∧ f "pX1_1".toList 3 = none ∧ f "pW_1".toList 1 = some (.r 2) := by
  obtain ⟨ds, recs, f, sel, u, h1, -, h3, -, h5, h6⟩ := C144_output_partial (k := .ks) (q := ⟨0, 1 / 2, 0, 0⟩)
    (e := exExt) (G := exGrid) ⟨fun d => by fin_cases d <;> norm_num [exExt],
      fun d => by fin_cases d <;> norm_num [exExt], le_refl _, fun h => by simp at h⟩ rfl (.inr (.inl rfl))
    (nranks := 2) (fun r d => if d = 0 then 2 * r else 0) (fun _ _ => 2) (fun _ _ => by norm_num)
    (fun r => .ks (KS.make 0 (1 / 2) (localExt (exGrid.toPh 0) (2 * r) 2) (localExt (exGrid.toPh 1) 0 2)))
    (fun r _ => rfl) [(1, ⟨2, false, 0, 0, false, true⟩)] (by simp)
    (fun s hs => by
      rw [List.mem_singleton] at hs
      subst hs
      exact ⟨rfl, rfl, by simp⟩) 2 (by norm_num) (fun r _ => exPop r)
    (fun r _ s _ => ⟨by simp only [exPop]; split_ifs <;> norm_num, List.Perm.refl _⟩) [1, 0]
    (fun r => by simp; omega)
  have s0 := (h5 0 (by norm_num) _ (List.mem_singleton_self _)).1
  have s1 := (h5 1 (by norm_num) _ (List.mem_singleton_self _)).1
  simp only [Chosen, Bool.false_eq_true, if_false, exPop, if_true, Nat.one_ne_zero] at s0 s1
  have e0 : sel 0 1 = [0, 2] := s0
  have e1 : sel 1 1 = [0] := s1
  have nX : "pX1_1".toList = (Var.X 1).name 1 := by decide +kernel
  have nW : "pW_1".toList = Var.W.name 1 := by decide +kernel
  have key := fun v hv i => h6 _ (List.mem_singleton_self _) v hv i
  simp only [show List.range 2 = [0, 1] from rfl, List.flatMap_cons, List.flatMap_nil, e0, e1, List.map_cons,
    List.map_nil, List.cons_append, List.nil_append] at key
  rw [nX, nW]
  refine ⟨ds, recs, f, h1, h3, ?_, ?_, ?_⟩
  · refine (key (.X 1) (by simp [HasVar]) 2).trans ?_
    simp only [content, position, exPop, exGrid, Met.toPh, KS.make, KS.toPh1]
    norm_num
    intro h
    exact absurd h (by decide)
  · exact (key (.X 1) (by simp [HasVar]) 3).trans rfl
  · refine (key .W trivial 1).trans ?_
    simp [content, exPop]

end Entity.PrtlPhys
