import Verif.Lemmas.WallGeo

/-!
# The ranks show the lattice fields
-/

namespace Entity.Walls

open Entity Entity.Topology Entity.Kernel Entity.FieldSolver Entity.FieldBC Entity.Ranks Entity.Decomp Entity.Dir

variable {K : Type} [Field K] {m : Meta} {dN : List (List Nat)}

/-- Places for which the walls they lie behind have been treated (`S`); the outermost ghost layer behind
an upper wall is never written for components between the nodes. -/
def Good (m : Meta) (N : List Nat) (ng : Nat) (S : Nat → Int → Prop) (c : Nat) (p : List Int) : Prop :=
  ∀ o, isWallAxis m o = true →
    (p.getD o 0 < 0 ∨ p.getD o 0 = 0 ∧ halfAlong c o = false → S o (-1)) ∧
    ((N.getD o 0 : Int) ≤ p.getD o 0 → S o 1 ∧
      ¬ (halfAlong c o = true ∧ p.getD o 0 = N.getD o 0 + ng - 1))

/-- The good cells of the ranks hold the lattice field. -/
def ShowsOn (m : Meta) (N : List Nat) (ng : Nat) (S : Nat → Int → Prop) (sel : Nat → Prop) (M : MMem K)
    (G : Mem K) : Prop :=
  ∀ r i c, sel c → InArray m ng r i → Good m N ng S c (latticePos m ng r i) →
    M r ⟨0, c, i⟩ = G ⟨0, c, latticePos m ng r i⟩

/-- The active cells hold it, except on the nodes of the walls. -/
def ShowsIn (m : Meta) (N : List Nat) (ng : Nat) (sel : Nat → Prop) (M : MMem K) (G : Mem K) : Prop :=
  ∀ r i c, sel c → Active m ng r i → Good m N ng (fun _ _ => False) c (latticePos m ng r i) →
    M r ⟨0, c, i⟩ = G ⟨0, c, latticePos m ng r i⟩

omit [Field K] in
theorem wallAxis_lt (h : Built m dN) (hb : WallBox m) {o : Nat} (hw : isWallAxis m o = true) : o < dN.length := by
  have hcl : m.counts.length = dN.length := by rw [h.counts]; simp [Decomp.counts]
  have := of_decide_eq_true hw
  have := (List.getElem?_eq_some_iff.1 this).1
  have := hb.1
  omega

/-- Cells at the same place of the periodic box. -/
theorem globalPos_lattice (h : Built m dN) {ng r q : Nat} (hr : r < m.doms.length) (hq : q < m.doms.length)
    {i j : List Int} (hi : i.length = dN.length) (hj : j.length = dN.length)
    (e : globalPos m (dN.map List.sum) ng r i = globalPos m (dN.map List.sum) ng q j) (o : Nat) :
    (latticePos m ng r i).getD o 0 % ((dN.map List.sum).getD o 0 : Int) =
      (latticePos m ng q j).getD o 0 % ((dN.map List.sum).getD o 0 : Int) := by
  obtain ⟨R, hR⟩ := h.getRec_lt hr
  obtain ⟨Q, hQ⟩ := h.getRec_lt hq
  have hl := hR.len; have hl' := hQ.len
  unfold latticePos
  rw [hR.dom, hQ.dom]
  by_cases ho : o < dN.length
  · have := (globalPos_eq_iff hR hQ ng hi hj).1 e o ho (by omega) (by omega) (by omega) (by omega)
    simpa [mkSub, List.getElem?_zipWith, ho, hl, hl', hi, hj] using this
  · simp [mkSub, List.getElem?_zipWith, ho, hl, hl', hi, hj]

omit [Field K] in
theorem comm_showsOn (h : Built m dN) (hb : WallBox m) (hD : dN.length ∈ [1, 2, 3]) {ng : Nat} (hw : Wider dN ng)
    {sel : Nat → Nat → Bool} {M M' : MMem K} (hc : CommAll m ng sel M M') {G : Mem K}
    (hG : ∀ c p q, p.length = dN.length → q.length = dN.length →
      (∀ o, p.getD o 0 % ((dN.map List.sum).getD o 0 : Int) = q.getD o 0 % ((dN.map List.sum).getD o 0 : Int)) →
      (∀ o, isWallAxis m o = true → p.getD o 0 = q.getD o 0) → G ⟨0, c, p⟩ = G ⟨0, c, q⟩)
    {selc : Nat → Prop} (hsel : ∀ c, selc c → sel 0 c = true)
    (hs : ShowsIn m (dN.map List.sum) ng selc M G) :
    ShowsOn m (dN.map List.sum) ng (fun _ _ => False) selc M' G := by
  intro r i c hcs hi hgood
  simp only [List.mem_cons, List.not_mem_nil, or_false] at hD
  obtain ⟨F, hF, g1, _, g3⟩ := C14_halo_exchange h hb.good (by omega) (by omega) hw.wide (fun r i => M r ⟨0, c, i⟩)
  rw [(hc 0 c).1 (hsel c hcs)] at hF
  cases hF
  by_cases ha : Active m ng r i
  · have := g1 r i ha
    beta_reduce at this
    rw [this]
    exact hs r i c hcs ha hgood
  · obtain ⟨off, n, g⟩ := geo h hb hw (inArray_lt hi)
    obtain ⟨hil, hib⟩ := (g.arr i).1 hi
    obtain ⟨R, hR⟩ := h.getRec_lt (inArray_lt hi)
    obtain ⟨hsl, hsa⟩ := sideOf_get hR ng hil
    have hl := hR.len
    obtain ⟨p1, p2⟩ := g.pos i hil
    have hsg : Signs (sideOf m ng r i) := by
      intro x hx
      obtain ⟨a, ha, rfl⟩ := List.getElem_of_mem hx
      rw [hsa a ha (by omega) (by omega)]; split_ifs <;> simp
    have hsz := g.size.2
    rw [hR.sizes] at hsz
    have hnw : ¬ IsWall m r (sideOf m ng r i) := by
      refine g.notWall _ hsl hsg fun o ho hwa => ?_
      have k := hgood o hwa
      rw [p2 o ho] at k
      have kb := hib o ho
      have kw := g.wide o ho
      have kz := hsz o ho
      rw [getD_lt (by simp; omega), List.getElem_map] at kz
      rw [getD_lt (by omega : o < (sideOf m ng r i).length), hsa o (by omega) (by omega) (by omega)]
      rw [getD_lt (by omega : o < i.length)] at k kb
      constructor
      · intro hv hoff
        split_ifs at hv <;> first | omega | exact k.1 (.inl (by omega))
      · intro hv hoff
        split_ifs at hv <;> first | omega | exact (k.2 (by omega)).1
    obtain ⟨x, ⟨⟨k1, k2⟩, k3⟩, _⟩ := g3 r i hi ha hnw
    beta_reduce at k3
    obtain ⟨off', n', g'⟩ := geo h hb hw (active_lt k1)
    obtain ⟨hjl, hjb⟩ := (g'.act x.2).1 k1
    obtain ⟨q1, q2⟩ := g'.pos x.2 hjl
    have hmod := globalPos_lattice h (inArray_lt hi) (active_lt k1) hil hjl k2
    have heq : ∀ o, isWallAxis m o = true →
        (latticePos m ng r i).getD o 0 = (latticePos m ng x.1 x.2).getD o 0 := by
      intro o hwa
      have ho := wallAxis_lt h hb hwa
      have k := hgood o hwa
      have b1 : 0 ≤ (latticePos m ng r i).getD o 0 := by
        by_contra hc; exact k.1 (.inl (by omega))
      have b2 : (latticePos m ng r i).getD o 0 < (dN.map List.sum).getD o 0 := by
        by_contra hc; exact (k.2 (by omega)).1
      have w := g'.wide o ho
      have b3 := hjb o ho
      have b4 : 0 ≤ (latticePos m ng x.1 x.2).getD o 0 ∧
          (latticePos m ng x.1 x.2).getD o 0 < (dN.map List.sum).getD o 0 := by
        rw [q2 o ho]; omega
      have := hmod o
      rwa [Int.emod_eq_of_lt b1 b2, Int.emod_eq_of_lt b4.1 b4.2] at this
    rw [k3, hG c _ _ p1 q1 hmod heq]
    refine hs x.1 x.2 c hcs k1 fun o hwa => ?_
    rw [← heq o hwa]
    exact hgood o hwa

/-! ## One wall -/

theorem mem_tagged {setE setB : Bool} {c : Nat} :
    c ∈ tagged setE setB ↔ (setE = true ∧ c < 3) ∨ (setB = true ∧ 3 ≤ c ∧ c < 6) := by
  unfold tagged
  cases setE <;> cases setB <;> simp <;> omega

theorem lower_written {M : Mesh} {o : Nat} {setE setB : Bool} (ho : o < M.n.length) {v v' : Mem K}
    (h : conductor M o false setE setB v v') {c : Nat} (hc : c ∈ tagged setE setB) {i : List Int}
    (hl : i.length = M.n.length) (h0 : 0 ≤ i.getD o 0)
    (hi : ∀ d < M.n.length, d ≠ o → 0 ≤ i.getD d 0 ∧ i.getD d 0 < M.n.getD d 0 + 2 * M.ng) :
    (halfAlong c o = true → i.getD o 0 < M.ng →
      v' ⟨0, c, i⟩ = v ⟨0, c, i.set o (2 * M.ng - i.getD o 0 - 1)⟩) ∧
    (halfAlong c o = false → i.getD o 0 < M.ng → v' ⟨0, c, i⟩ = - v ⟨0, c, i.set o (2 * M.ng - i.getD o 0)⟩) ∧
    (halfAlong c o = false → i.getD o 0 = M.ng → v' ⟨0, c, i⟩ = 0) := by
  obtain ⟨e, _⟩ := conductor_effect ho h
  have ht : i.getD o 0 ≤ M.ng → i.set o (M.ng - i.getD o 0) ∈ box (conductorRange M o false) := by
    intro hle
    refine (mem_wall ho).2 ⟨by simp [hl], ?_, fun d hd hdo => ?_⟩
    · rw [getD_set_self (by omega)]; simp only [Bool.false_eq_true, if_false]; omega
    · rw [getD_set_other hdo]; exact hi d hd hdo
  have hio : o < i.length := by omega
  have back : (i.set o ((M.ng : Int) - i.getD o 0)).set o (M.ng - (M.ng - i.getD o 0)) = i := by
    rw [List.set_set, sub_sub_cancel, set_getD hio]
  refine ⟨fun hh hlt => ?_, fun hh hlt => ?_, fun hh heq => ?_⟩
  · have := e _ (ht hlt.le) c hc
    simp only [conductorAt, hh, if_true, Bool.false_eq_true, if_false, getD_set_self hio, Mesh.iMin] at this
    rw [if_neg (by omega)] at this
    have := this _ rfl
    simp only [back, Ex.eval, List.set_set] at this
    rw [this]
    congr 3; ring
  · have := e _ (ht hlt.le) c hc
    simp only [conductorAt, hh, Bool.false_eq_true, if_false, getD_set_self hio, Mesh.iMin] at this
    rw [if_neg (by omega)] at this
    have := this _ rfl
    simp only [back, List.set_set] at this
    rw [this]
    show - v _ = _
    congr 4; ring
  · have := e _ (ht heq.le) c hc
    simp only [conductorAt, hh, Bool.false_eq_true, if_false, getD_set_self hio, Mesh.iMin] at this
    rw [if_pos (by omega)] at this
    have := this _ rfl
    simp only [List.set_set, Ex.eval] at this
    rw [← heq, set_getD hio] at this
    exact this

theorem lower_kept {M : Mesh} {o : Nat} {setE setB : Bool} (ho : o < M.n.length) {v v' : Mem K}
    (h : conductor M o false setE setB v v') {c : Nat} {i : List Int}
    (hi : c ∈ tagged setE setB → (M.ng : Int) < i.getD o 0 ∨ i.getD o 0 = M.ng ∧ halfAlong c o = true) :
    v' ⟨0, c, i⟩ = v ⟨0, c, i⟩ := by
  obtain ⟨_, e⟩ := conductor_effect ho h
  refine e _ fun t ht c' hc' p hp hne => ?_
  obtain ⟨tl, tb, _⟩ := (mem_wall ho).1 ht
  simp only [Loc.mk.injEq, true_and] at hne
  obtain ⟨rfl, rfl⟩ := hne
  have hi := hi hc'
  simp only [Bool.false_eq_true, if_false] at tb
  have hto : o < t.length := by omega
  simp only [conductorAt, Bool.false_eq_true, if_false, Mesh.iMin] at hp
  split_ifs at hp
  · have := Option.some.inj hp; subst this
    simp only [getD_set_self hto] at hi
    omega
  · have := Option.some.inj hp; subst this
    simp only [getD_set_self hto] at hi
    simp_all
  · have := Option.some.inj hp; subst this
    simp only [getD_set_self hto] at hi
    omega

theorem upper_written {M : Mesh} {o : Nat} {setE setB : Bool} (ho : o < M.n.length) {v v' : Mem K}
    (h : conductor M o true setE setB v v') {c : Nat} (hc : c ∈ tagged setE setB) {i : List Int}
    (hl : i.length = M.n.length) (h0 : i.getD o 0 < M.n.getD o 0 + 2 * M.ng)
    (hi : ∀ d < M.n.length, d ≠ o → 0 ≤ i.getD d 0 ∧ i.getD d 0 < M.n.getD d 0 + 2 * M.ng) :
    (halfAlong c o = true → M.n.getD o 0 + (M.ng : Int) ≤ i.getD o 0 → i.getD o 0 + 1 < M.n.getD o 0 + 2 * M.ng →
      v' ⟨0, c, i⟩ = v ⟨0, c, i.set o (2 * (M.n.getD o 0 + M.ng) - i.getD o 0 - 1)⟩) ∧
    (halfAlong c o = false → M.n.getD o 0 + (M.ng : Int) < i.getD o 0 →
      v' ⟨0, c, i⟩ = - v ⟨0, c, i.set o (2 * (M.n.getD o 0 + M.ng) - i.getD o 0)⟩) ∧
    (halfAlong c o = false → i.getD o 0 = M.n.getD o 0 + (M.ng : Int) → v' ⟨0, c, i⟩ = 0) := by
  obtain ⟨e, _⟩ := conductor_effect ho h
  have hio : o < i.length := by omega
  have ht : ∀ k : Int, 0 ≤ k → k < M.ng → i.set o k ∈ box (conductorRange M o true) := by
    intro k k0 k1
    refine (mem_wall ho).2 ⟨by simp [hl], ?_, fun d hd hdo => ?_⟩
    · rw [getD_set_self (by omega)]; simp only [if_true]; omega
    · rw [getD_set_other hdo]; exact hi d hd hdo
  refine ⟨fun hh hlt hlt' => ?_, fun hh hlt => ?_, fun hh heq => ?_⟩
  · have := e _ (ht (i.getD o 0 - (M.n.getD o 0 + M.ng) + 1) (by omega) (by omega)) c hc
    simp only [conductorAt, hh, if_true, getD_set_self hio, Mesh.iMax] at this
    rw [if_neg (by omega)] at this
    have := this _ rfl
    simp only [Ex.eval, List.set_set] at this
    rw [show (M.n.getD o 0 : Int) + M.ng + (i.getD o 0 - (M.n.getD o 0 + M.ng) + 1) - 1 = i.getD o 0 by ring,
      set_getD hio] at this
    rw [this]
    congr 3; ring
  · have := e _ (ht (i.getD o 0 - (M.n.getD o 0 + M.ng)) (by omega) (by omega)) c hc
    simp only [conductorAt, hh, Bool.false_eq_true, if_false, if_true, getD_set_self hio, Mesh.iMax] at this
    rw [if_neg (by omega)] at this
    have := this _ rfl
    simp only [List.set_set] at this
    rw [add_sub_cancel, set_getD hio] at this
    rw [this]
    show - v _ = _
    congr 4; ring
  · have := e _ (ht 0 le_rfl (by omega)) c hc
    simp only [conductorAt, hh, Bool.false_eq_true, if_false, if_true, getD_set_self hio, Mesh.iMax] at this
    have := this _ rfl
    simp only [List.set_set, Ex.eval] at this
    rw [← heq, set_getD hio] at this
    exact this

theorem upper_kept {M : Mesh} {o : Nat} {setE setB : Bool} (ho : o < M.n.length) {v v' : Mem K}
    (h : conductor M o true setE setB v v') {c : Nat} {i : List Int}
    (hi : c ∈ tagged setE setB → i.getD o 0 < M.n.getD o 0 + (M.ng : Int)) :
    v' ⟨0, c, i⟩ = v ⟨0, c, i⟩ := by
  obtain ⟨_, e⟩ := conductor_effect ho h
  refine e _ fun t ht c' hc' p hp hne => ?_
  obtain ⟨tl, tb, _⟩ := (mem_wall ho).1 ht
  simp only [Loc.mk.injEq, true_and] at hne
  obtain ⟨rfl, rfl⟩ := hne
  have hi := hi hc'
  have hto : o < t.length := by omega
  simp only [conductorAt, if_true, Mesh.iMax] at hp
  split_ifs at hp
  · have := Option.some.inj hp; subst this
    simp only [getD_set_self hto] at hi
    omega
  · have := Option.some.inj hp; subst this
    simp only [getD_set_self hto] at hi
    omega
  · have := Option.some.inj hp; subst this
    simp only [getD_set_self hto] at hi
    omega

/-- Add a side to the walls that have been treated. -/
def addSide (a : Nat) (s : Int) (S : Nat → Int → Prop) : Nat → Int → Prop :=
  fun o t => (o = a ∧ t = s) ∨ S o t

theorem latticePos_set {ng r : Nat} {off n : Nat → Int} (g : Geo m dN ng r off n) {i : List Int}
    (hi : i.length = dN.length) {a : Nat} (ha : a < dN.length) (k : Int) :
    latticePos m ng r (i.set a k) = (latticePos m ng r i).set a (off a + k - ng) := by
  obtain ⟨p1, p2⟩ := g.pos i hi
  obtain ⟨q1, q2⟩ := g.pos (i.set a k) (by simpa using hi)
  apply List.ext_getElem
  · simp [p1, q1]
  · intro o h1 h2
    have ho : o < dN.length := by omega
    have e1 := q2 o ho
    have e2 := p2 o ho
    rw [getD_lt h1] at e1
    rw [getD_lt (by omega : o < (latticePos m ng r i).length)] at e2
    rw [e1, List.getElem_set]
    split
    · subst_vars; rw [getD_set_self (by omega)]
    · rw [getD_set_other (by omega), e2]

theorem zero_of_neg_eq {x : K} (h2 : (2 : K) ≠ 0) (h : x = -x) : x = 0 := by
  have : 2 * x = 0 := by linear_combination h
  exact (mul_eq_zero.1 this).resolve_left h2

theorem lower_shows (h2 : (2 : K) ≠ 0) {ng r : Nat} {off n : Nat → Int} (g : Geo m dN ng r off n) {a : Nat}
    (ha : a < dN.length) (hwa : isWallAxis m a = true) (h0 : off a = 0) {setE setB : Bool} {v v' : Mem K}
    (hk : conductor ⟨ng, sizes m r⟩ a false setE setB v v') {G : Mem K} (hG : Mirror dN.length 0 a G)
    {S : Nat → Int → Prop} {c : Nat} (hc : c ∈ tagged setE setB)
    (hs : ∀ i, InArray m ng r i → Good m (dN.map List.sum) ng S c (latticePos m ng r i) →
      v ⟨0, c, i⟩ = G ⟨0, c, latticePos m ng r i⟩) {i : List Int} (hi : InArray m ng r i)
    (hg : Good m (dN.map List.sum) ng (addSide a (-1) S) c (latticePos m ng r i)) :
    v' ⟨0, c, i⟩ = G ⟨0, c, latticePos m ng r i⟩ := by
  obtain ⟨hil, hib⟩ := (g.arr i).1 hi
  obtain ⟨p1, p2⟩ := g.pos i hil
  obtain ⟨s1, s2⟩ := g.size
  have hn : a < (⟨ng, sizes m r⟩ : Mesh).n.length := by simpa [s1] using ha
  have hc6 : c < 6 := by rw [mem_tagged] at hc; omega
  have hpa := p2 a ha
  have hba := hib a ha
  have hwide := g.wide a ha
  rw [h0] at hpa
  have hin : ∀ d < (⟨ng, sizes m r⟩ : Mesh).n.length, d ≠ a →
      0 ≤ i.getD d 0 ∧ i.getD d 0 < (⟨ng, sizes m r⟩ : Mesh).n.getD d 0 + 2 * (⟨ng, sizes m r⟩ : Mesh).ng := by
    intro d hd _
    have hd' : d < dN.length := by simpa [s1] using hd
    have := s2 d hd'
    have := hib d hd'
    simp only at *
    omega
  -- places with another coordinate along the axis
  have hset : ∀ k : Int, 0 ≤ k → k < n a + 2 * ng → 0 ≤ k - ng → k - ng < (dN.map List.sum).getD a 0 →
      (k - ng = 0 → halfAlong c a = true) →
      v ⟨0, c, i.set a k⟩ = G ⟨0, c, (latticePos m ng r i).set a (k - ng)⟩ := by
    intro k k0 k1 k2 k3 k4
    have e := latticePos_set g hil ha k
    rw [h0, zero_add] at e
    rw [← e]
    apply hs
    · refine (g.arr _).2 ⟨by simp [hil], fun o ho => ?_⟩
      by_cases hoa : o = a
      · subst hoa; rw [getD_set_self (by omega)]; omega
      · rw [getD_set_other hoa]; exact hib o ho
    · intro o hwo
      rw [e]
      by_cases hoa : o = a
      · subst hoa
        rw [getD_set_self (by omega)]
        refine ⟨?_, fun hh => by omega⟩
        rintro (hh | ⟨hh, hf⟩)
        · omega
        · rw [k4 hh] at hf; cases hf
      · rw [getD_set_other hoa]
        obtain ⟨g1, g2⟩ := hg o hwo
        refine ⟨fun hh => ?_, fun hh => ?_⟩
        · rcases g1 hh with ⟨e, _⟩ | h'
          · exact absurd e hoa
          · exact h'
        · obtain ⟨h3, h4⟩ := g2 hh
          refine ⟨?_, h4⟩
          rcases h3 with ⟨e, _⟩ | h'
          · exact absurd e hoa
          · exact h'
  obtain ⟨w1, w2, w3⟩ := lower_written hn hk hc (by simpa [s1] using hil) hba.1 hin
  simp only at w1 w2 w3
  have hmir := hG c (latticePos m ng r i) hc6 p1
  rw [hpa] at hmir
  cases hh : halfAlong c a
  · rw [hh] at hmir w2 w3 hset
    simp only [Bool.false_eq_true, if_false] at hmir
    rcases lt_trichotomy (i.getD a 0) ng with hlt | heq | hgt
    · rw [w2 rfl hlt, hset _ (by omega) (by omega) (by omega) (by omega) (fun hz => by omega)]
      rw [show (2 * (ng : Int) - i.getD a 0 - ng) = 0 - (0 + i.getD a 0 - ng) - 0 by ring, hmir, neg_neg]
    · rw [w3 rfl heq]
      rw [show (0 : Int) - (0 + i.getD a 0 - ng) - 0 = (latticePos m ng r i).getD a 0 by rw [hpa]; omega,
        set_getD (by omega)] at hmir
      exact (zero_of_neg_eq h2 hmir).symm
    · rw [lower_kept hn hk (fun _ => .inl hgt)]
      refine hs i hi fun o hwo => ?_
      obtain ⟨g1, g2⟩ := hg o hwo
      by_cases hoa : o = a
      · subst hoa
        refine ⟨fun hb => by rw [hpa] at hb; omega, fun hb => ?_⟩
        obtain ⟨h3, h4⟩ := g2 hb
        refine ⟨?_, h4⟩
        rcases h3 with ⟨_, e⟩ | h'
        · omega
        · exact h'
      · refine ⟨fun hb => ?_, fun hb => ?_⟩
        · rcases g1 hb with ⟨e, _⟩ | h'
          · exact absurd e hoa
          · exact h'
        · obtain ⟨h3, h4⟩ := g2 hb
          refine ⟨?_, h4⟩
          rcases h3 with ⟨e, _⟩ | h'
          · exact absurd e hoa
          · exact h'
  · rw [hh] at hmir w1 hset
    simp only [if_true] at hmir
    by_cases hlt : i.getD a 0 < ng
    · rw [w1 rfl hlt, hset _ (by omega) (by omega) (by omega) (by omega) (fun _ => rfl)]
      rw [show (2 * (ng : Int) - i.getD a 0 - 1 - ng) = 0 - (0 + i.getD a 0 - ng) - 1 by ring, hmir]
    · rw [lower_kept hn hk (fun _ => by
        rcases lt_or_eq_of_le (not_lt.1 hlt) with h' | h'
        · exact .inl h'
        · exact .inr ⟨h'.symm, hh⟩)]
      refine hs i hi fun o hwo => ?_
      obtain ⟨g1, g2⟩ := hg o hwo
      by_cases hoa : o = a
      · subst hoa
        refine ⟨fun hb => by rw [hpa, hh] at hb; simp only [Bool.true_eq_false, and_false, or_false] at hb; omega, fun hb => ?_⟩
        obtain ⟨h3, h4⟩ := g2 hb
        refine ⟨?_, h4⟩
        rcases h3 with ⟨_, e⟩ | h'
        · omega
        · exact h'
      · refine ⟨fun hb => ?_, fun hb => ?_⟩
        · rcases g1 hb with ⟨e, _⟩ | h'
          · exact absurd e hoa
          · exact h'
        · obtain ⟨h3, h4⟩ := g2 hb
          refine ⟨?_, h4⟩
          rcases h3 with ⟨e, _⟩ | h'
          · exact absurd e hoa
          · exact h'

theorem upper_shows (h2 : (2 : K) ≠ 0) {ng r : Nat} {off n : Nat → Int} (g : Geo m dN ng r off n) {a : Nat}
    (ha : a < dN.length) (h0 : off a + n a = (dN.map List.sum).getD a 0)
    {setE setB : Bool} {v v' : Mem K}
    (hk : conductor ⟨ng, sizes m r⟩ a true setE setB v v') {G : Mem K}
    (hG : Mirror dN.length (2 * ((dN.map List.sum).getD a 0 : Nat)) a G)
    {S : Nat → Int → Prop} {c : Nat} (hc : c ∈ tagged setE setB)
    (hs : ∀ i, InArray m ng r i → Good m (dN.map List.sum) ng S c (latticePos m ng r i) →
      v ⟨0, c, i⟩ = G ⟨0, c, latticePos m ng r i⟩) {i : List Int} (hi : InArray m ng r i)
    (hwa : isWallAxis m a = true)
    (hg : Good m (dN.map List.sum) ng (addSide a 1 S) c (latticePos m ng r i)) :
    v' ⟨0, c, i⟩ = G ⟨0, c, latticePos m ng r i⟩ := by
  obtain ⟨hil, hib⟩ := (g.arr i).1 hi
  obtain ⟨p1, p2⟩ := g.pos i hil
  obtain ⟨s1, s2⟩ := g.size
  have hn : a < (⟨ng, sizes m r⟩ : Mesh).n.length := by simpa [s1] using ha
  have hc6 : c < 6 := by rw [mem_tagged] at hc; omega
  have hpa := p2 a ha
  have hba := hib a ha
  have hwide := g.wide a ha
  have hsa := s2 a ha
  have hin : ∀ d < (⟨ng, sizes m r⟩ : Mesh).n.length, d ≠ a →
      0 ≤ i.getD d 0 ∧ i.getD d 0 < (⟨ng, sizes m r⟩ : Mesh).n.getD d 0 + 2 * (⟨ng, sizes m r⟩ : Mesh).ng := by
    intro d hd _
    have hd' : d < dN.length := by simpa [s1] using hd
    have := s2 d hd'
    have := hib d hd'
    simp only at *
    omega
  have hset : ∀ k : Int, 0 ≤ k → k < n a + 2 * ng → 0 < off a + k - ng → off a + k - ng < (dN.map List.sum).getD a 0 →
      v ⟨0, c, i.set a k⟩ = G ⟨0, c, (latticePos m ng r i).set a (off a + k - ng)⟩ := by
    intro k k0 k1 k2 k3
    have e := latticePos_set g hil ha k
    rw [← e]
    apply hs
    · refine (g.arr _).2 ⟨by simp [hil], fun o ho => ?_⟩
      by_cases hoa : o = a
      · subst hoa; rw [getD_set_self (by omega)]; omega
      · rw [getD_set_other hoa]; exact hib o ho
    · intro o hwo
      rw [e]
      by_cases hoa : o = a
      · subst hoa
        rw [getD_set_self (by omega)]
        refine ⟨?_, fun hh => by omega⟩
        rintro (hh | ⟨hh, hf⟩) <;> omega
      · rw [getD_set_other hoa]
        obtain ⟨g1, g2⟩ := hg o hwo
        refine ⟨fun hh => ?_, fun hh => ?_⟩
        · rcases g1 hh with ⟨e, _⟩ | h'
          · exact absurd e hoa
          · exact h'
        · obtain ⟨h3, h4⟩ := g2 hh
          refine ⟨?_, h4⟩
          rcases h3 with ⟨e, _⟩ | h'
          · exact absurd e hoa
          · exact h'
  obtain ⟨w1, w2, w3⟩ := upper_written hn hk hc (by simpa [s1] using hil) (by simp only; omega) hin
  simp only [hsa] at w1 w2 w3
  have hmir := hG c (latticePos m ng r i) hc6 p1
  rw [hpa] at hmir
  -- cells in front of the wall
  have hfront : i.getD a 0 < n a + ng → v' ⟨0, c, i⟩ = G ⟨0, c, latticePos m ng r i⟩ := by
    intro hlt
    rw [upper_kept hn hk (fun _ => by simp only [hsa]; exact hlt)]
    refine hs i hi fun o hwo => ?_
    obtain ⟨g1, g2⟩ := hg o hwo
    by_cases hoa : o = a
    · subst hoa
      refine ⟨fun hb => ?_, fun hb => by rw [hpa] at hb; omega⟩
      rcases g1 hb with ⟨_, e⟩ | h'
      · omega
      · exact h'
    · refine ⟨fun hb => ?_, fun hb => ?_⟩
      · rcases g1 hb with ⟨e, _⟩ | h'
        · exact absurd e hoa
        · exact h'
      · obtain ⟨h3, h4⟩ := g2 hb
        refine ⟨?_, h4⟩
        rcases h3 with ⟨e, _⟩ | h'
        · exact absurd e hoa
        · exact h'
  obtain ⟨_, ga⟩ := hg a hwa
  rw [hpa] at ga
  cases hh : halfAlong c a
  · rw [hh] at hmir w2 w3
    simp only [Bool.false_eq_true, if_false] at hmir
    rcases lt_trichotomy (i.getD a 0) (n a + ng) with hlt | heq | hgt
    · exact hfront hlt
    · rw [w3 rfl heq]
      rw [show (2 * ((dN.map List.sum).getD a 0 : Nat) : Int) - (off a + i.getD a 0 - ng) - 0 =
        (latticePos m ng r i).getD a 0 by rw [hpa]; omega, set_getD (by omega)] at hmir
      exact (zero_of_neg_eq h2 hmir).symm
    · rw [w2 rfl hgt, hset _ (by omega) (by omega) (by omega) (by omega)]
      rw [show off a + (2 * (n a + (ng : Int)) - i.getD a 0) - ng =
        2 * ((dN.map List.sum).getD a 0 : Nat) - (off a + i.getD a 0 - ng) - 0 by omega, hmir, neg_neg]
  · rw [hh] at hmir w1
    simp only [if_true] at hmir
    by_cases hlt : i.getD a 0 < n a + ng
    · exact hfront hlt
    · have := (ga (by omega)).2
      rw [hh] at this
      rw [w1 rfl (by omega) (by
        by_contra hc
        exact this ⟨rfl, by omega⟩), hset _ (by omega) (by omega) (by omega) (by omega)]
      rw [show off a + (2 * (n a + (ng : Int)) - i.getD a 0 - 1) - ng =
        2 * ((dN.map List.sum).getD a 0 : Nat) - (off a + i.getD a 0 - ng) - 1 by omega, hmir]

end Entity.Walls
