import Verif.Lemmas.WallRuns

/-!
# Operations in a box with conducting walls
-/

namespace Entity.Walls

open Entity Entity.Topology Entity.Kernel Entity.FieldSolver Entity.FieldBC Entity.Ranks Entity.Decomp Entity.Dir

variable {K : Type} [Field K] {m : Meta} {dN : List (List Nat)}

/-! ## All walls -/

theorem orth_table {D : Nat} (hD : D ∈ [1, 2, 3]) {d : Direction} (hd : d ∈ orthDirs D) :
    ∃ a s, a < D ∧ (s = -1 ∨ s = 1) ∧ getDim d = .ok a ∧ getSign d = .ok s ∧ d = unitDir D a s := by
  have : ∀ D ∈ [1, 2, 3], ∀ d ∈ orthDirs D, ∃ a ∈ List.range D, ∃ s ∈ [(-1 : Int), 1],
      getDim d = .ok a ∧ getSign d = .ok s ∧ d = unitDir D a s := by decide +kernel
  obtain ⟨a, ha, s, hs, h1, h2, h3⟩ := this D hD d hd
  exact ⟨a, s, by simpa using ha, by simpa using hs, h1, h2, h3⟩

theorem orth_complete {D : Nat} (hD : D ∈ [1, 2, 3]) {a : Nat} (ha : a < D) {s : Int} (hs : s = -1 ∨ s = 1) :
    ∃ d ∈ orthDirs D, getDim d = .ok a ∧ getSign d = .ok s := by
  have : ∀ D ∈ [1, 2, 3], ∀ a ∈ List.range D, ∀ s ∈ [(-1 : Int), 1],
      ∃ d ∈ orthDirs D, getDim d = .ok a ∧ getSign d = .ok s := by decide +kernel
  exact this D hD a (by simpa using ha) s (by simpa using hs)

theorem globalBC_iff (h : Built m dN) (hb : WallBox m) {a : Nat} (ha : a < dN.length) (s : Int) :
    globalBC m a s = .CONDUCTOR ↔ isWallAxis m a = true := by
  have hcl : m.counts.length = dN.length := by rw [h.counts]; simp [Decomp.counts]
  have hal : a < m.bcs.length := by have := hb.1; omega
  unfold globalBC isWallAxis
  rw [getD_lt hal, List.getElem?_eq_getElem hal]
  rcases hb.2 m.bcs[a] (List.getElem_mem _) with e | e <;> rw [e] <;> simp

theorem good_mono {N : List Nat} {ng : Nat} {S S' : Nat → Int → Prop} {c : Nat} {p : List Int}
    (hS : ∀ o, isWallAxis m o = true → (S o (-1) → S' o (-1)) ∧ (S o 1 → S' o 1)) (h : Good m N ng S c p) :
    Good m N ng S' c p := fun o ho =>
  ⟨fun hh => (hS o ho).1 ((h o ho).1 hh), fun hh => ⟨(hS o ho).2 ((h o ho).2 hh).1, ((h o ho).2 hh).2⟩⟩

theorem good_side {ng r : Nat} {off n : Nat → Int} (g : Geo m dN ng r off n) {a : Nat} {s : Int} {i : List Int}
    (hi : InArray m ng r i) {S : Nat → Int → Prop} {c : Nat}
    (hg : Good m (dN.map List.sum) ng (addSide a s S) c (latticePos m ng r i)) (hlt : a < dN.length)
    (hs : s = -1 ∨ s = 1)
    (hn : isWallAxis m a = true → (s = -1 → off a ≠ 0) ∧ (s = 1 → off a + n a ≠ (dN.map List.sum).getD a 0)) :
    Good m (dN.map List.sum) ng S c (latticePos m ng r i) := by
  obtain ⟨hil, hib⟩ := (g.arr i).1 hi
  obtain ⟨p1, p2⟩ := g.pos i hil
  intro o hwo
  obtain ⟨g1, g2⟩ := hg o hwo
  by_cases hoa : o = a
  · subst hoa
    have e := p2 o hlt
    have l := g.lower o hlt
    have u := g.upper o hlt
    have w := g.wide o hlt
    have b := hib o hlt
    refine ⟨fun hb => ?_, fun hb => ?_⟩
    · rcases g1 hb with ⟨_, hh⟩ | h'
      · exfalso
        have := (hn hwo).1 hh.symm
        omega
      · exact h'
    · obtain ⟨h3, h4⟩ := g2 hb
      refine ⟨?_, h4⟩
      rcases h3 with ⟨_, hh⟩ | h'
      · exfalso
        have := (hn hwo).2 hh.symm
        omega
      · exact h'
  · refine ⟨fun hb => ?_, fun hb => ?_⟩
    · rcases g1 hb with ⟨e, _⟩ | h'
      · exact absurd e hoa
      · exact h'
    · obtain ⟨h3, h4⟩ := g2 hb
      refine ⟨?_, h4⟩
      rcases h3 with ⟨e, _⟩ | h'
      · exact absurd e hoa
      · exact h'

theorem boundaryIn_shows (h2 : (2 : K) ≠ 0) (h : Built m dN) (hb : WallBox m) (hD : dN.length ∈ [1, 2, 3]) {ng : Nat}
    (hw : Wider dN ng) {setE setB : Bool} {d : Direction} (hd : d ∈ orthDirs dN.length) {M M' : MMem K}
    (hk : boundaryIn m ng setE setB d M M') {G : Mem K} (hG : Images m (dN.map List.sum) dN.length G)
    {S : Nat → Int → Prop}
    (hs : ShowsOn m (dN.map List.sum) ng S (· ∈ tagged setE setB) M G) {a : Nat} {s : Int}
    (ha : getDim d = .ok a) (hsg : getSign d = .ok s) :
    ShowsOn m (dN.map List.sum) ng (addSide a s S) (· ∈ tagged setE setB) M' G := by
  obtain ⟨a', s', e1, e2, hk⟩ := hk
  rw [ha] at e1; rw [hsg] at e2
  cases e1; cases e2
  obtain ⟨a', s', hlt, hs1, e1, e2, rfl⟩ := orth_table hD hd
  rw [ha] at e1; rw [hsg] at e2
  cases e1; cases e2
  intro r i c hc hi hg
  have hr := inArray_lt hi
  obtain ⟨off, n, g⟩ := geo h hb hw hr
  have hk := hk r hr
  have hgb := globalBC_iff h hb hlt s
  by_cases hwa : isWallAxis m a = true
  · rcases hs1 with rfl | rfl
    · have e := g.bcLower a hlt hwa
      simp only [hgb.2 hwa, true_and, e] at hk
      by_cases h0 : off a = 0
      · rw [if_pos h0] at hk
        exact lower_shows h2 g hlt hwa h0 (by simpa using hk) (hG.lower a hlt hwa) hc (fun i hi hg => hs r i c hc hi hg) hi hg
      · rw [if_neg h0] at hk
        rw [hk]
        exact hs r i c hc hi (good_side g hi hg hlt (.inl rfl) (fun _ => ⟨fun _ => h0, fun hh => by omega⟩))
    · have e := g.bcUpper a hlt hwa
      simp only [hgb.2 hwa, true_and, e] at hk
      by_cases h0 : off a + n a = (dN.map List.sum).getD a 0
      · rw [if_pos h0] at hk
        exact upper_shows h2 g hlt h0 (by simpa using hk) (hG.upper a hlt hwa) hc (fun i hi hg => hs r i c hc hi hg) hi hwa hg
      · rw [if_neg h0] at hk
        rw [hk]
        exact hs r i c hc hi (good_side g hi hg hlt (.inr rfl) (fun _ => ⟨fun hh => by omega, fun _ => h0⟩))
  · rw [if_neg (fun hh => hwa (hgb.1 hh.1))] at hk
    rw [hk]
    exact hs r i c hc hi (good_side g hi hg hlt hs1 (fun hh => absurd hh hwa))

theorem boundaryIn_other (h : Built m dN) (hb : WallBox m) (hD : dN.length ∈ [1, 2, 3]) {ng : Nat}
    (hw : Wider dN ng) {setE setB : Bool} {d : Direction} (hd : d ∈ orthDirs dN.length) {M M' : MMem K}
    (hk : boundaryIn m ng setE setB d M M') {c : Nat} (hc : c ∉ tagged setE setB) {r : Nat}
    (hr : r < m.doms.length) (i : List Int) : M' r ⟨0, c, i⟩ = M r ⟨0, c, i⟩ := by
  obtain ⟨a, s, e1, e2, hk⟩ := hk
  obtain ⟨a', s', hlt, hs1, e1', e2', rfl⟩ := orth_table hD hd
  rw [e1] at e1'; rw [e2] at e2'
  cases e1'; cases e2'
  obtain ⟨off, n, g⟩ := geo h hb hw hr
  have hk := hk r hr
  have hn : a < (⟨ng, sizes m r⟩ : Mesh).n.length := by simpa [g.size.1] using hlt
  split_ifs at hk
  · rcases hs1 with rfl | rfl
    · exact lower_kept hn (by simpa using hk) (fun hh => absurd hh hc)
    · exact upper_kept hn (by simpa using hk) (fun hh => absurd hh hc)
  · rw [hk]

theorem boundaries_shows (h2 : (2 : K) ≠ 0) (h : Built m dN) (hb : WallBox m) (hD : dN.length ∈ [1, 2, 3]) {ng : Nat}
    (hw : Wider dN ng) {setE setB : Bool} {G : Mem K} (hG : Images m (dN.map List.sum) dN.length G)
    {ds : List Direction} (hds : ∀ d ∈ ds, d ∈ orthDirs dN.length) :
    ∀ {M M' : MMem K} {S : Nat → Int → Prop}, boundariesIn m ng setE setB ds M M' →
    ShowsOn m (dN.map List.sum) ng S (· ∈ tagged setE setB) M G →
    ShowsOn m (dN.map List.sum) ng (fun o t => S o t ∨ ∃ d ∈ ds, getDim d = .ok o ∧ getSign d = .ok t)
      (· ∈ tagged setE setB) M' G := by
  induction ds with
  | nil =>
    intro M M' S hk hs r i c hc hi hg
    have : M' r = M r := hk r (inArray_lt hi)
    rw [this]
    exact hs r i c hc hi (good_mono (fun o _ => ⟨by simp, by simp⟩) hg)
  | cons d ds ih =>
    intro M M' S hk hs
    obtain ⟨M1, hk1, hk2⟩ := hk
    obtain ⟨a, s, _, _, e1, e2, _⟩ := orth_table hD (hds d (by simp))
    have := ih (fun d hd => hds d (by simp [hd])) hk2
      (boundaryIn_shows h2 h hb hD hw (hds d (by simp)) hk1 hG hs e1 e2)
    intro r i c hc hi hg
    have key : ∀ o t, (S o t ∨ ∃ d' ∈ d :: ds, getDim d' = .ok o ∧ getSign d' = .ok t) →
        (addSide a s S o t ∨ ∃ d ∈ ds, getDim d = .ok o ∧ getSign d = .ok t) := by
      intro o t hh
      rcases hh with hh | ⟨d', hd', k1, k2⟩
      · exact .inl (.inr hh)
      · rcases List.mem_cons.1 hd' with rfl | hd'
        · rw [e1] at k1; rw [e2] at k2
          cases k1; cases k2
          exact .inl (.inl ⟨rfl, rfl⟩)
        · exact .inr ⟨d', hd', k1, k2⟩
    exact this r i c hc hi (good_mono (fun o _ => ⟨key _ _, key _ _⟩) hg)

theorem boundaries_other (h : Built m dN) (hb : WallBox m) (hD : dN.length ∈ [1, 2, 3]) {ng : Nat}
    (hw : Wider dN ng) {setE setB : Bool} {ds : List Direction} (hds : ∀ d ∈ ds, d ∈ orthDirs dN.length)
    {c : Nat} (hc : c ∉ tagged setE setB) {r : Nat} (hr : r < m.doms.length) (i : List Int) :
    ∀ {M M' : MMem K}, boundariesIn m ng setE setB ds M M' → M' r ⟨0, c, i⟩ = M r ⟨0, c, i⟩ := by
  induction ds with
  | nil => intro M M' hk; rw [hk r hr]
  | cons d ds ih =>
    intro M M' hk
    obtain ⟨M1, hk1, hk2⟩ := hk
    rw [ih (fun d hd => hds d (by simp [hd])) hk2, boundaryIn_other h hb hD hw (hds d (by simp)) hk1 hc hr]

/-- The whole of `FieldBoundaries`. -/
theorem fieldBoundaries_shows (h2 : (2 : K) ≠ 0) (h : Built m dN) (hb : WallBox m) (hD : dN.length ∈ [1, 2, 3])
    {ng : Nat} (hw : Wider dN ng) {setE setB : Bool} {G : Mem K} (hG : Images m (dN.map List.sum) dN.length G)
    {M M' : MMem K} (hk : fieldBoundaries m ng setE setB M M')
    (hs : ShowsOn m (dN.map List.sum) ng (fun _ _ => False) (· ∈ tagged setE setB) M G)
    (ho : ShowsOn m (dN.map List.sum) ng (fun _ _ => True) (fun c => c ∉ tagged setE setB ∧ c < 6) M G) :
    ShowsOn m (dN.map List.sum) ng (fun _ _ => True) (· < 6) M' G := by
  have hcl : m.counts.length = dN.length := by rw [h.counts]; simp [Decomp.counts]
  unfold fieldBoundaries at hk
  rw [hcl] at hk
  intro r i c hc hi hg
  by_cases ht : c ∈ tagged setE setB
  · refine boundaries_shows h2 h hb hD hw hG (fun d hd => hd) hk hs r i c ht hi
      (good_mono (fun o hwo => ⟨fun _ => .inr ?_, fun _ => .inr ?_⟩) hg)
    · exact orth_complete hD (wallAxis_lt h hb hwo) (.inl rfl)
    · exact orth_complete hD (wallAxis_lt h hb hwo) (.inr rfl)
  · rw [boundaries_other h hb hD hw (fun d hd => hd) ht (inArray_lt hi) i hk]
    exact ho r i c ⟨ht, hc⟩ hi hg

/-! ## Kernels -/

/-- Checkable: components between the nodes are read at most one cell up. -/
def upB (D : Nat) (as : List (Assign K)) : Bool :=
  (locs as).all fun l => (List.range D).all fun o => !halfAlong l.comp o || decide (l.idx.getD o 0 ≤ 1)

theorem up_of {D : Nat} {as : List (Assign K)} (h : upB D as = true) :
    ∀ l, accessed as l → ∀ o < D, halfAlong l.comp o = true → l.idx.getD o 0 ≤ 1 := by
  intro l hl o ho hh
  have := List.all_eq_true.1 h l ((accessed_iff as l).1 hl)
  have := List.all_eq_true.1 this o (List.mem_range.2 ho)
  rw [hh] at this
  simpa using this

theorem faraday_up {D : Nat} (hD : D ∈ [1, 2, 3]) (dT dx : K) (c : Coeffs K) : upB D (faraday D dT dx c) = true := by
  simp only [List.mem_cons, List.not_mem_nil, or_false] at hD
  rcases hD with rfl | rfl | rfl <;> kernel_rfl

theorem ampere_up {D : Nat} (hD : D ∈ [1, 2, 3]) (dT dx : K) : upB D (ampere D dT dx) = true := by
  simp only [List.mem_cons, List.not_mem_nil, or_false] at hD
  rcases hD with rfl | rfl | rfl <;> kernel_rfl

theorem latticePos_add {ng r : Nat} {off n : Nat → Int} (g : Geo m dN ng r off n) {i q : List Int}
    (hi : i.length = dN.length) (hq : q.length = dN.length) :
    latticePos m ng r (List.zipWith (· + ·) i q) = List.zipWith (· + ·) (latticePos m ng r i) q := by
  obtain ⟨p1, p2⟩ := g.pos i hi
  obtain ⟨q1, q2⟩ := g.pos (List.zipWith (· + ·) i q) (by simp [hi, hq])
  apply List.ext_getElem
  · simp [p1, q1, hq]
  · intro o h1 h3
    have ho : o < dN.length := by omega
    have e1 := q2 o ho
    have e2 := p2 o ho
    rw [getD_lt h1, getD_zipWith_add (by omega)] at e1
    rw [getD_lt (by omega : o < (latticePos m ng r i).length)] at e2
    rw [e1, List.getElem_zipWith, e2, getD_lt (by omega : o < q.length)]
    ring

theorem launch_lattice (h : Built m dN) (hb : WallBox m) {ng : Nat} (hng : 2 ≤ ng) (hw : Wider dN ng)
    {wr : Nat → Nat → Bool} {as : List (Assign K)} (ho : OwnCell dN.length wr as) (hr : Reach dN.length ng as)
    (hsel : ∀ l, accessed as l → selEB l.arr l.comp = true) (hu : upB dN.length as = true) {M M' : MMem K} {G : Mem K}
    (hg : ShowsOn m (dN.map List.sum) ng (fun _ _ => True) (· < 6) M G)
    (hl : LaunchAll m ng (fun _ t => atCell as t) M M') {r : Nat} {i : List Int} (hi : Active m ng r i) {c : Nat}
    (hc : c < 6) : M' r ⟨0, c, i⟩ = onLattice dN.length as G ⟨0, c, latticePos m ng r i⟩ := by
  rw [launchAll_active (f := fun _ _ => as) h (fun _ _ _ => ⟨ho, hr.dimd⟩) hl hi]
  unfold onLattice
  obtain ⟨off, n, g⟩ := geo h hb hw (active_lt hi)
  obtain ⟨hil, hib⟩ := (g.act i).1 hi
  obtain ⟨p1, p2⟩ := g.pos i hil
  refine runBody_congr as (S := fun l => accessed as l ∨ l = ⟨0, c, here dN.length⟩)
    (fun l hl => .inl hl) ?_ _ (.inr rfl)
  intro l hl
  have key : l.idx.length = dN.length ∧ (∀ x ∈ l.idx, -(ng : Int) ≤ x ∧ x ≤ ng) ∧ l.arr = 0 ∧ l.comp < 6 ∧
      ∀ o < dN.length, halfAlong l.comp o = true → l.idx.getD o 0 ≤ 1 := by
    rcases hl with hl | rfl
    · exact ⟨(hr l hl).1, (hr l hl).2, (selEB_arr hsel l hl).1, (selEB_arr hsel l hl).2, up_of hu l hl⟩
    · refine ⟨by simp [here], ?_, rfl, hc, fun o ho _ => ?_⟩
      · intro x hx
        have := List.eq_of_mem_replicate hx
        omega
      · simp [here, List.getElem?_replicate]; split <;> simp
  obtain ⟨k1, k2, k3, k4, k5⟩ := key
  have e := latticePos_add g hil k1
  simp only [Loc.at, k3]
  rw [← e]
  refine hg r _ l.comp k4 (near_inArray h hi k1 k2) fun o hwo => ⟨fun _ => trivial, fun _ => ⟨trivial, ?_⟩⟩
  rintro ⟨hh, he⟩
  have ho := wallAxis_lt h hb hwo
  have u := k5 o ho hh
  have b := hib o ho
  have w := g.wide o ho
  rw [e, getD_zipWith_add (by omega), p2 o ho] at he
  omega

/-! ## Operations -/

variable (h2 : (2 : K) ≠ 0) (h : Built m dN) (hb : WallBox m) (hD : dN.length ∈ [1, 2, 3])
  {ng : Nat} (hng : 2 ≤ ng) (hw : Wider dN ng)

include h hb hw in
theorem good_latticePos_len {r : Nat} {i : List Int} (hi : InArray m ng r i) :
    (latticePos m ng r i).length = dN.length := by
  obtain ⟨off, n, g⟩ := geo h hb hw (inArray_lt hi)
  exact (g.pos i ((g.arr i).1 hi).1).1

include h2 h hb hD hng hw

theorem faraday_shows {dT dx : K} {cf : Coeffs K} {M M' : MMem K} {G : Mem K}
    (hG : Images m (dN.map List.sum) dN.length G)
    (hs : ShowsOn m (dN.map List.sum) ng (fun _ _ => True) (· < 6) M G)
    (hd : doesW m dN.length ng (.faraday dT dx cf) M M') :
    ShowsOn m (dN.map List.sum) ng (fun _ _ => True) (· < 6) M'
      (latticeStep m (dN.map List.sum) dN.length (.faraday dT dx cf) G) := by
  obtain ⟨M1, ⟨M0, hl, hc⟩, hbd⟩ := hd
  have hG' := images_faraday hD dT dx cf hG
  refine fieldBoundaries_shows h2 h hb hD hw hG' hbd ?_ ?_
  · refine comm_showsOn h hb hD hw hc hG'.per (fun c hc => ?_) fun r i c hc hi _ => ?_
    · rw [mem_tagged] at hc
      simp at hc
      simp [selB, hc]
    · rw [mem_tagged] at hc
      exact launch_lattice h hb hng hw (faraday_own hD dT dx cf) (faraday_reach hD hng dT dx cf)
        (faraday_sel hD dT dx cf) (faraday_up hD dT dx cf) hs hl hi (by omega)
  · rintro r i c ⟨hc1, hc2⟩ hi hg
    have hsel : selB 0 c = false := by
      rw [mem_tagged] at hc1
      simp [selB]; simp at hc1; omega
    rw [(hc 0 c).2 hsel, launchAll_other (f := fun _ _ => faraday dN.length dT dx cf) h
      (fun _ _ _ => faraday_own hD dT dx cf) hl (inArray_lt hi) hsel]
    rw [onLattice_other (faraday_own hD dT dx cf) G (good_latticePos_len h hb hw hi) hsel]
    exact hs r i c hc2 hi hg

theorem electric_shows {dT dx : K} {dep : Option (K × K × (Nat → List Int → K))} {M M' : MMem K} {G : Mem K}
    (hG : Images m (dN.map List.sum) dN.length G)
    (hs : ShowsOn m (dN.map List.sum) ng (fun _ _ => True) (· < 6) M G)
    (hd : doesW m dN.length ng (.electric dT dx dep) M M') :
    ShowsOn m (dN.map List.sum) ng (fun _ _ => True) (· < 6) M'
      (latticeStep m (dN.map List.sum) dN.length (.electric dT dx dep) G) := by
  have hN : ∀ o < dN.length, 0 < (dN.map List.sum).getD o 0 := by
    intro o ho
    have hne := h.ne _ (List.getElem_mem ho)
    obtain ⟨x, xs, e⟩ := List.exists_cons_of_ne_nil hne
    have := hw _ (List.getElem_mem ho) x (by rw [e]; simp)
    rw [getD_lt (by simpa using ho), List.getElem_map, e, List.sum_cons]
    omega
  have hG' := images_step (m := m) hD hN (.electric dT dx dep) hG
  have hselc : ∀ c, c ∈ tagged true false → (selE 0 c || selJ 0 c) = true := by
    intro c hc
    rw [mem_tagged] at hc
    simp at hc
    simp [selE, hc]
  match dep, hd with
  | none, hd =>
    obtain ⟨M1, ⟨Ma, Mb, hl, rfl, hc⟩, hbd⟩ := hd
    refine fieldBoundaries_shows h2 h hb hD hw hG' hbd ?_ ?_
    · refine comm_showsOn h hb hD hw hc hG'.per hselc fun r i c hc hi _ => ?_
      rw [mem_tagged] at hc
      exact launch_lattice h hb hng hw (ampere_own hD dT dx) (ampere_reach hD hng dT dx)
        (ampere_sel hD dT dx) (ampere_up hD dT dx) hs hl hi (by omega)
    · rintro r i c ⟨hc1, hc2⟩ hi hg
      have hc3 : 3 ≤ c := by rw [mem_tagged] at hc1; simp at hc1; omega
      have hsel : selE 0 c = false := by simp [selE]; omega
      have hsel2 : (selE 0 c || selJ 0 c) = false := by simp [selJ, hsel]
      rw [(hc 0 c).2 hsel2, launchAll_other (f := fun _ _ => ampere dN.length dT dx) h
        (fun _ _ _ => ampere_own hD dT dx) hl (inArray_lt hi) hsel]
      show _ = onLattice _ _ _ _
      rw [onLattice_other (ampere_own hD dT dx) G (good_latticePos_len h hb hw hi) hsel]
      exact hs r i c hc2 hi hg
  | some (coeff, ppc0, j), hd =>
    obtain ⟨M0, M1, ⟨hj1, hj2⟩, ⟨Ma, Mb, hl, hl2, hc⟩, hbd⟩ := hd
    have hl2 : LaunchAll m ng (fun _ t => atCell (currentsAmpere dN.length coeff ppc0) t) Ma Mb := hl2
    have hs0 : ShowsOn m (dN.map List.sum) ng (fun _ _ => True) (· < 6) M0 G := by
      intro r i c hc hi hg
      rw [hj1 r ⟨0, c, i⟩ (by simp)]
      exact hs r i c hc hi hg
    refine fieldBoundaries_shows h2 h hb hD hw hG' hbd ?_ ?_
    · refine comm_showsOn h hb hD hw hc hG'.per hselc fun r i c hc hi hg => ?_
      have hc3 : c < 3 := by rw [mem_tagged] at hc; simp at hc; exact hc
      obtain ⟨off, n, g⟩ := geo h hb hw (active_lt hi)
      obtain ⟨hil, hib⟩ := (g.act i).1 hi
      obtain ⟨p1, p2⟩ := g.pos i hil
      rw [launchAll_active (f := fun _ _ => currentsAmpere dN.length coeff ppc0) h
        (fun _ _ _ => ⟨currentsAmpere_own hD coeff ppc0, (currentsAmpere_reach0 hD coeff ppc0).dimd⟩) hl2 hi,
        cur_e hD coeff ppc0 _ hc3]
      have hat : ∀ a, (⟨a, c, here dN.length⟩ : Loc).at i = ⟨a, c, i⟩ := by
        intro a; simp only [Loc.at]; rw [← hil, here_at]
      simp only [hat]
      rw [launch_lattice h hb hng hw (ampere_own hD dT dx) (ampere_reach hD hng dT dx)
        (ampere_sel hD dT dx) (ampere_up hD dT dx) hs0 hl hi (by omega : c < 6)]
      have hselJ : selE 1 c = false := by simp [selE]
      rw [launchAll_other (f := fun _ _ => ampere dN.length dT dx) h
        (fun _ _ _ => ampere_own hD dT dx) hl (active_lt hi) hselJ,
        hj2 r i c hc3 (active_lt hi) ((mem_activeCells (active_lt hi)).2 hi)]
      show _ = onLattice _ _ _ _ + if c < 3 then _ else _
      rw [if_pos hc3, image_box j c]
      · intro o ho
        rw [p1] at ho
        have := hib o ho
        have := g.wide o ho
        rw [p2 o ho]
        omega
      · intro o hwo hz ho
        by_contra hh
        exact (hg o hwo).1 (.inr ⟨hz, by simpa using hh⟩)
    · rintro r i c ⟨hc1, hc2⟩ hi hg
      have hc3 : 3 ≤ c := by rw [mem_tagged] at hc1; simp at hc1; omega
      have hsel : selE 0 c = false := by simp [selE]; omega
      have hsel2 : (selE 0 c || selJ 0 c) = false := by simp [selJ, hsel]
      rw [(hc 0 c).2 hsel2, launchAll_other (f := fun _ _ => currentsAmpere dN.length coeff ppc0) h
        (fun _ _ _ => currentsAmpere_own hD coeff ppc0) hl2 (inArray_lt hi) hsel2,
        launchAll_other (f := fun _ _ => ampere dN.length dT dx) h
        (fun _ _ _ => ampere_own hD dT dx) hl (inArray_lt hi) hsel]
      show _ = onLattice _ _ _ _ + if c < 3 then _ else _
      rw [if_neg (by omega), add_zero,
        onLattice_other (ampere_own hD dT dx) G (good_latticePos_len h hb hw hi) hsel]
      exact hs0 r i c hc2 hi hg

theorem runs_shows_walls {ops : List (WOp K)} {M M' : MMem K} (hr : RunsW m dN.length ng ops M M') :
    ∀ {G : Mem K}, Images m (dN.map List.sum) dN.length G →
    ShowsOn m (dN.map List.sum) ng (fun _ _ => True) (· < 6) M G →
    Images m (dN.map List.sum) dN.length (latticeRun m (dN.map List.sum) dN.length ops G) ∧
    ShowsOn m (dN.map List.sum) ng (fun _ _ => True) (· < 6) M' (latticeRun m (dN.map List.sum) dN.length ops G) := by
  have hN : ∀ o < dN.length, 0 < (dN.map List.sum).getD o 0 := by
    intro o ho
    have hne := h.ne _ (List.getElem_mem ho)
    obtain ⟨x, xs, e⟩ := List.exists_cons_of_ne_nil hne
    have := hw _ (List.getElem_mem ho) x (by rw [e]; simp)
    rw [getD_lt (by simpa using ho), List.getElem_map, e, List.sum_cons]
    omega
  induction hr with
  | nil M => intro G hG hs; exact ⟨hG, hs⟩
  | @cons op ops M M1 M2 hd _ ih =>
    intro G hG hs
    refine ih (images_step (m := m) hD hN op hG) ?_
    cases op with
    | faraday dT dx c => exact faraday_shows h2 h hb hD hng hw hG hs hd
    | electric dT dx dep => exact electric_shows h2 h hb hD hng hw hG hs hd

theorem initial_shows {f : Nat → List Int → K} {M M' : MMem K}
    (hf : ∀ r i c, c < 6 → Active m ng r i → M r ⟨0, c, i⟩ = f c (latticePos m ng r i))
    (hd : initial m ng M M') :
    Images m (dN.map List.sum) dN.length (imageMem m (dN.map List.sum) f) ∧
    ShowsOn m (dN.map List.sum) ng (fun _ _ => True) (· < 6) M' (imageMem m (dN.map List.sum) f) := by
  have hN : ∀ o < dN.length, 0 < (dN.map List.sum).getD o 0 := by
    intro o ho
    have hne := h.ne _ (List.getElem_mem ho)
    obtain ⟨x, xs, e⟩ := List.exists_cons_of_ne_nil hne
    have := hw _ (List.getElem_mem ho) x (by rw [e]; simp)
    rw [getD_lt (by simpa using ho), List.getElem_map, e, List.sum_cons]
    omega
  have hG := imageMem_images (m := m) f hN
  refine ⟨hG, ?_⟩
  obtain ⟨M1, hc, hbd⟩ := hd
  refine fieldBoundaries_shows h2 h hb hD hw hG hbd ?_ ?_
  · refine comm_showsOn h hb hD hw hc hG.per (fun c hc => ?_) fun r i c hc hi hg => ?_
    · rw [mem_tagged] at hc
      simp at hc
      simp [selE, selB]; omega
    · have hc6 : c < 6 := by rw [mem_tagged] at hc; omega
      obtain ⟨off, n, g⟩ := geo h hb hw (active_lt hi)
      obtain ⟨hil, hib⟩ := (g.act i).1 hi
      obtain ⟨p1, p2⟩ := g.pos i hil
      rw [hf r i c hc6 hi]
      show _ = image _ _ _ _ _
      rw [image_box f c]
      · intro o ho
        rw [p1] at ho
        have := hib o ho
        have := g.wide o ho
        rw [p2 o ho]
        omega
      · intro o hwo hz ho
        by_contra hh
        exact (hg o hwo).1 (.inr ⟨hz, by simpa using hh⟩)
  · rintro r i c ⟨hc1, hc2⟩ hi hg
    rw [mem_tagged] at hc1
    simp at hc1; omega

end Entity.Walls
