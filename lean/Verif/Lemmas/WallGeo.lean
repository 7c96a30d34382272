import Verif.Lemmas.Walls

/-!
# Where the walls are
-/

namespace Entity.Walls

open Entity Entity.Topology Entity.Kernel Entity.FieldSolver Entity.FieldBC Entity.Ranks Entity.Decomp Entity.Dir

variable {m : Meta} {dN : List (List Nat)}

theorem Wider.wide {ng : Nat} (h : Wider dN ng) : Wide dN ng := fun l hl x hx => by
  have := h l hl x hx; omega

theorem axisRecs_lower {ng : Nat} {d : List Nat} (hw : ∀ x ∈ d, ng < x) {o k : Nat} {r : AxisRec}
    (h : r ∈ axisRecs o k d) : r.dom = k ∧ r.off = o ∨ r.dom ≠ k ∧ o + ng < r.off := by
  cases d with
  | nil => simp [axisRecs] at h
  | cons x xs =>
    simp only [axisRecs, List.mem_cons] at h
    rcases h with rfl | h
    · left; simp
    · have := axisRecs_bounds h
      have := hw x (by simp)
      right; omega

theorem axisRecs_upper {ng : Nat} {d : List Nat} (hw : ∀ x ∈ d, ng < x) {o k : Nat} {r : AxisRec}
    (h : r ∈ axisRecs o k d) :
    r.dom + 1 = k + d.length ∧ r.off + r.n = o + d.sum ∨
      r.dom + 1 ≠ k + d.length ∧ r.off + r.n + ng < o + d.sum := by
  induction d generalizing o k with
  | nil => simp [axisRecs] at h
  | cons x xs ih =>
    simp only [axisRecs, List.mem_cons] at h
    rcases h with rfl | h
    · cases xs with
      | nil => left; simp
      | cons y ys =>
        have := hw y (by simp)
        right; simp; omega
    · have := ih (fun y hy => hw y (by simp [hy])) h
      simp only [List.length_cons, List.sum_cons]
      omega

theorem axisRecs_wider {ng : Nat} {d : List Nat} (hw : ∀ x ∈ d, ng < x) {o k : Nat} {r : AxisRec}
    (h : r ∈ axisRecs o k d) : ng < r.n := by
  have : r.n ∈ (axisRecs o k d).map (·.n) := List.mem_map_of_mem h
  rw [axisRecs_n] at this
  exact hw _ this

/-! ## Conditions of the subdomains -/

theorem corner_zero (c p : List Nat) (b : List (BC × BC)) {d : Direction} (hd : ∀ x ∈ d, x = 0) (acc : BC) :
    corner c p b d acc = acc := by
  fun_induction corner c p b d acc with
  | case1 n ns p ps b bs d ds acc h1 h2 => exact absurd (hd d (by simp)) h1
  | case2 n ns p ps b bs d ds acc h1 h2 ih => exact absurd (hd d (by simp)) h1
  | case3 n ns p ps b bs d ds acc h1 ih => exact ih (fun x hx => hd x (by simp [hx]))
  | case4 => rfl

theorem corner_unit (c p : List Nat) (b : List (BC × BC)) {a : Nat} (h1 : a < c.length) (h2 : a < p.length)
    (h3 : a < b.length) {D : Nat} (hD : a < D) {s : Int} (hs : s ≠ 0) (acc : BC) :
    corner c p b (unitDir D a s) acc = axisBC c[a] p[a] b[a] s := by
  induction a generalizing c p b D with
  | zero =>
    obtain ⟨n, c, rfl⟩ := List.exists_cons_of_ne_nil (List.ne_nil_of_length_pos h1)
    obtain ⟨q, p, rfl⟩ := List.exists_cons_of_ne_nil (List.ne_nil_of_length_pos h2)
    obtain ⟨e, b, rfl⟩ := List.exists_cons_of_ne_nil (List.ne_nil_of_length_pos h3)
    obtain ⟨D, rfl⟩ : ∃ k, D = k + 1 := ⟨D - 1, by omega⟩
    simp only [unitDir, List.replicate_succ, List.set_cons_zero, corner, ne_eq, hs, not_false_eq_true, if_true,
      List.getElem_cons_zero]
    split
    · rfl
    · rename_i h
      rw [corner_zero _ _ _ (fun x hx => List.eq_of_mem_replicate hx)]
      simpa using (not_not.1 h).symm
  | succ a ih =>
    obtain ⟨n, c, rfl⟩ := List.exists_cons_of_ne_nil (List.ne_nil_of_length_pos (by omega : 0 < c.length))
    obtain ⟨q, p, rfl⟩ := List.exists_cons_of_ne_nil (List.ne_nil_of_length_pos (by omega : 0 < p.length))
    obtain ⟨e, b, rfl⟩ := List.exists_cons_of_ne_nil (List.ne_nil_of_length_pos (by omega : 0 < b.length))
    obtain ⟨D, rfl⟩ : ∃ k, D = k + 1 := ⟨D - 1, by omega⟩
    simp only [unitDir, List.replicate_succ, List.set_cons_succ, corner, ne_eq, not_true_eq_false, if_false,
      List.getElem_cons_succ]
    exact ih c p b (by simpa using h1) (by simpa using h2) (by simpa using h3) (by omega)

theorem corner_inner (c p : List Nat) (b : List (BC × BC)) (d : Direction) (acc : BC)
    (h : ∀ a (h1 : a < c.length) (h2 : a < p.length) (h3 : a < b.length) (h4 : a < d.length), d[a] ≠ 0 →
      axisBC c[a] p[a] b[a] d[a] = .PERIODIC ∨ axisBC c[a] p[a] b[a] d[a] = .SYNC) :
    corner c p b d acc = acc ∨ corner c p b d acc = .PERIODIC ∨ corner c p b d acc = .SYNC := by
  fun_induction corner c p b d acc with
  | case1 n ns p ps b bs d ds acc h1 h2 =>
    have := h 0 (by simp) (by simp) (by simp) (by simp) h1
    simp only [List.getElem_cons_zero] at this
    tauto
  | case2 n ns p ps b bs d ds acc h1 h2 ih =>
    have := ih (fun a k1 k2 k3 k4 => h (a + 1) (by simpa using k1) (by simpa using k2) (by simpa using k3) (by simpa using k4))
    tauto
  | case3 n ns p ps b bs d ds acc h1 ih =>
    exact ih (fun a k1 k2 k3 k4 => h (a + 1) (by simpa using k1) (by simpa using k2) (by simpa using k3) (by simpa using k4))
  | case4 => left; rfl

theorem WallBox.good (h : WallBox m) : GoodBCs m :=
  ⟨h.1, fun b hb => by rcases h.2 b hb with rfl | rfl <;> decide⟩

theorem WallBox.valid (h : WallBox m) : ∀ e ∈ m.bcs, e.1 ≠ .INVALID ∧ e.2 ≠ .INVALID := by
  intro e he
  rcases h.2 e he with rfl | rfl <;> decide

/-- A subdomain of a box: where it begins, how many cells it has along each axis. -/
structure Geo (m : Meta) (dN : List (List Nat)) (ng r : Nat) (off n : Nat → Int) : Prop where
  pos : ∀ i, i.length = dN.length → (latticePos m ng r i).length = dN.length ∧
    ∀ o < dN.length, (latticePos m ng r i).getD o 0 = off o + i.getD o 0 - ng
  arr : ∀ i, InArray m ng r i ↔ i.length = dN.length ∧
    ∀ o < dN.length, 0 ≤ i.getD o 0 ∧ i.getD o 0 < n o + 2 * ng
  act : ∀ i, Active m ng r i ↔ i.length = dN.length ∧
    ∀ o < dN.length, (ng : Int) ≤ i.getD o 0 ∧ i.getD o 0 < n o + ng
  size : (sizes m r).length = dN.length ∧ ∀ o < dN.length, ((sizes m r).getD o 0 : Int) = n o
  wide : ∀ o < dN.length, (ng : Int) < n o ∧ 0 ≤ off o ∧ off o + n o ≤ (dN.map List.sum).getD o 0
  lower : ∀ o < dN.length, off o = 0 ∨ (ng : Int) < off o
  upper : ∀ o < dN.length, off o + n o = (dN.map List.sum).getD o 0 ∨
    off o + n o + ng < (dN.map List.sum).getD o 0
  bcLower : ∀ o < dN.length, isWallAxis m o = true →
    (dirBC m r (unitDir dN.length o (-1)) = .ok .CONDUCTOR ↔ off o = 0)
  bcUpper : ∀ o < dN.length, isWallAxis m o = true →
    (dirBC m r (unitDir dN.length o 1) = .ok .CONDUCTOR ↔ off o + n o = (dN.map List.sum).getD o 0)
  notWall : ∀ e : Direction, e.length = dN.length → Signs e →
    (∀ o < dN.length, isWallAxis m o = true →
      (e.getD o 0 = -1 → off o ≠ 0) ∧ (e.getD o 0 = 1 → off o + n o ≠ (dN.map List.sum).getD o 0)) →
    ¬ IsWall m r e

theorem getD_lt {α : Type} {l : List α} {o : Nat} (h : o < l.length) (d : α) : l.getD o d = l[o] := by
  simp [h]

theorem geo (h : Built m dN) (hb : WallBox m) {ng : Nat} (hw : Wider dN ng) {r : Nat} (hr : r < m.doms.length) :
    ∃ off n, Geo m dN ng r off n := by
  obtain ⟨R, hR⟩ := h.getRec_lt hr
  have hl := hR.len
  have hcl : m.counts.length = dN.length := by rw [h.counts]; simp [Decomp.counts]
  have hbl := hb.1
  have hsum : ∀ o (ho : o < dN.length), (dN.map List.sum).getD o 0 = dN[o].sum := by
    intro o ho; simp [ho]
  have hcnt : ∀ o (ho : o < dN.length) (h1 : o < m.counts.length), m.counts[o] = dN[o].length := by
    intro o ho h1; simp [h.counts, Decomp.counts]
  have hax : ∀ o (ho : o < dN.length) (h1 : o < m.counts.length) (h2 : o < (R.map (·.dom)).length)
      (h3 : o < m.bcs.length), isWallAxis m o = true → ∀ s : Int,
      axisBC m.counts[o] (R.map (·.dom))[o] m.bcs[o] s =
        if s = -1 then (if (R[o]'(by omega)).off = 0 then .CONDUCTOR else .SYNC)
        else (if (R[o]'(by omega)).off + (R[o]'(by omega)).n = dN[o].sum then .CONDUCTOR else .SYNC) := by
    intro o ho h1 h2 h3 hwa s
    have hbo : m.bcs[o] = (.CONDUCTOR, .CONDUCTOR) := by
      have := of_decide_eq_true hwa
      rw [List.getElem?_eq_getElem h3] at this
      exact Option.some.inj this
    have hm := hR.mem o ho (by omega)
    have hwd : ∀ x ∈ dN[o], ng < x := hw _ (List.getElem_mem ho)
    have l1 := axisRecs_lower hwd hm
    have l2 := axisRecs_upper hwd hm
    have l3 := (axisRecs_bounds hm)
    simp only [axisBC, hbo, List.getElem_map, hcnt o ho h1]
    split_ifs <;> first | rfl | omega | simp_all
  have hunit : ∀ o (ho : o < dN.length) (s : Int), s = -1 ∨ s = 1 → isWallAxis m o = true →
      dirBC m r (unitDir dN.length o s) = .ok (
        if s = -1 then (if (R[o]'(by omega)).off = 0 then .CONDUCTOR else .SYNC)
        else (if (R[o]'(by omega)).off + (R[o]'(by omega)).n = dN[o].sum then .CONDUCTOR else .SYNC)) := by
    intro o ho s hs hwa
    obtain ⟨u1, u2⟩ := unitDir_signs dN.length o hs
    have hs0 : s ≠ 0 := by rcases hs with rfl | rfl <;> decide
    have hnz : ∃ x ∈ unitDir dN.length o s, x ≠ 0 :=
      ⟨s, List.mem_iff_getElem.2 ⟨o, by rw [u2]; exact ho, by simp [unitDir]⟩, hs0⟩
    rw [h.dirBC hR.at u1 (by rw [u2, hcl]) hb.1 hb.valid hnz,
      corner_unit _ _ _ (by omega) (by simp; omega) (by omega) ho hs0,
      hax o ho (by omega) (by simp; omega) (by omega) hwa]
  refine ⟨fun o => (R.getD o ⟨0, 0, 0⟩).off, fun o => (R.getD o ⟨0, 0, 0⟩).n, ?_, ?_, ?_, ?_, ?_, ?_, ?_, ?_, ?_, ?_⟩
  · intro i hi
    unfold latticePos
    rw [hR.dom]
    refine ⟨by simp [mkSub, hl, hi], fun o ho => ?_⟩
    have h1 : o < R.length := by omega
    have h2 : o < i.length := by omega
    simp [mkSub, List.getElem?_zipWith, h1, h2]
  · intro i
    rw [inArray_iff hR]
    refine and_congr_right fun hi => ⟨fun hh o ho => ?_, fun hh o h1 h2 => ?_⟩
    · rw [getD_lt (by omega : o < i.length), getD_lt (by omega : o < R.length)]
      exact hh o (by omega) (by omega)
    · have := hh o (by omega)
      rwa [getD_lt h2, getD_lt h1] at this
  · intro i
    rw [active_iff hR]
    refine and_congr_right fun hi => ⟨fun hh o ho => ?_, fun hh o h1 h2 => ?_⟩
    · rw [getD_lt (by omega : o < i.length), getD_lt (by omega : o < R.length)]
      have := hh o (by omega) (by omega)
      omega
    · have := hh o (by omega)
      rw [getD_lt h2, getD_lt h1] at this
      omega
  · rw [hR.sizes]
    refine ⟨by simp [hl], fun o ho => ?_⟩
    have : o < R.length := by omega
    simp [this]
  · intro o ho
    have h1 : o < R.length := by omega
    have hm := hR.mem o ho h1
    have a1 := axisRecs_wider (hw _ (List.getElem_mem ho)) hm
    have a2 := axisRecs_bounds hm
    rw [hsum o ho, getD_lt h1]
    omega
  · intro o ho
    have h1 : o < R.length := by omega
    have a1 := axisRecs_lower (hw _ (List.getElem_mem ho)) (hR.mem o ho h1)
    rw [getD_lt h1]; omega
  · intro o ho
    have h1 : o < R.length := by omega
    have a1 := axisRecs_upper (hw _ (List.getElem_mem ho)) (hR.mem o ho h1)
    rw [hsum o ho, getD_lt h1]; omega
  · intro o ho hwa
    have h1 : o < R.length := by omega
    rw [hunit o ho (-1) (.inl rfl) hwa, getD_lt h1]
    simp only [if_true]
    split <;> simp_all
  · intro o ho hwa
    have h1 : o < R.length := by omega
    rw [hunit o ho 1 (.inr rfl) hwa, getD_lt h1, hsum o ho]
    simp only [show ¬ (1 : Int) = -1 by decide, if_false]
    split
    · rename_i hh; simp only [true_iff]; omega
    · rename_i hh; simp only [Outcome.ok.injEq, reduceCtorEq, false_iff]; omega
  · intro e hel hes hin
    by_cases hz : ∀ x ∈ e, x = 0
    · exact isWall_zero r hz
    · push Not at hz
      rintro ⟨b, hbc, h1, h2⟩
      rw [h.dirBC hR.at hes (by omega) hb.1 hb.valid hz] at hbc
      have hni := corner_ne_invalid (acc := .INVALID) (d := e) (p := R.map (·.dom)) hb.valid
        (h.inGrid hR.at).length_eq hb.1 (by omega) (.inr hz)
      have hc : ∀ a (h1 : a < m.counts.length) (h2 : a < (R.map (·.dom)).length) (h3 : a < m.bcs.length)
          (h4 : a < e.length), e[a] ≠ 0 →
          axisBC m.counts[a] (R.map (·.dom))[a] m.bcs[a] e[a] = .PERIODIC ∨
            axisBC m.counts[a] (R.map (·.dom))[a] m.bcs[a] e[a] = .SYNC := by
        intro a k1 k2 k3 k4 hne
        have ha : a < dN.length := by omega
        have haR : a < R.length := by omega
        by_cases hwa : isWallAxis m a = true
        · right
          rw [hax a ha k1 k2 k3 hwa]
          have := hin a ha hwa
          rw [getD_lt (by omega : a < e.length), getD_lt haR, hsum a ha] at this
          rcases hes e[a] (List.getElem_mem _) with hv | hv | hv
          · rw [if_pos hv, if_neg]
            have := this.1 hv; omega
          · exact absurd hv hne
          · rw [if_neg (by omega), if_neg]
            have := this.2 hv; omega
        · have hbo : m.bcs[a] = (.PERIODIC, .PERIODIC) := by
            rcases hb.2 m.bcs[a] (List.getElem_mem _) with hh | hh
            · exact hh
            · exfalso; apply hwa; unfold isWallAxis
              rw [List.getElem?_eq_getElem k3, hh]; simp
          unfold axisBC
          rw [hbo]
          simp only
          split_ifs <;> simp_all
      rcases corner_inner m.counts (R.map (·.dom)) m.bcs e .INVALID hc with h3 | h3 | h3
      · exact hni h3
      · rw [h3] at hbc; cases hbc; exact h1 rfl
      · rw [h3] at hbc; cases hbc; exact h2 rfl

end Entity.Walls
