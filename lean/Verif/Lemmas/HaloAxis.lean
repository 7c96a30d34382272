import Verif.Model.Halo
import Verif.Props.Topology

/-! Helper lemmas about the halo exchange along one axis. -/

namespace Entity.Topology

open Entity Entity.Decomp Entity.Dir

/-- adjacency in integer form: `q` is the neighbour of `r` in direction `e` -/
theorem adj_int {l : List Nat} (hl : ∀ x ∈ l, 0 < x) {r q : AxisRec}
    (hr : r ∈ axisRecs 0 0 l) (hq : q ∈ axisRecs 0 0 l) {e : Int}
    (he : e = -1 ∨ e = 0 ∨ e = 1) (h : q.dom = nbr1 l.length r.dom e) :
    (e = 0 → q = r) ∧
    (e = 1 → ((q.off : Int) - (r.off + r.n)) % (l.sum : Int) = 0) ∧
    (e = -1 → ((q.off : Int) + q.n - r.off) % (l.sum : Int) = 0) := by
  obtain ⟨h0, h1, h2⟩ := adjAxis_of hl hr hq he h
  have hb := axisRecs_bounds hr
  have hp := axisRecs_pos hl hr
  have hs : 0 < l.sum := by omega
  refine ⟨fun e0 => ?_, fun e1 => ?_, fun e2 => ?_⟩
  · apply axisRecs_dom_inj hq hr
    rw [h, e0, nbr1]
    simp
  · have := h1 e1
    simp only at this
    rw [← this]
    push_cast
    rw [Int.emod_sub_emod]; simp
  · have := h2 e2
    simp only at this
    have h3 : (r.off : Int) = (q.off + q.n : Int) % (l.sum : Int) := by
      rw [← this]; push_cast; rfl
    rw [h3, Int.sub_emod, Int.emod_emod_of_dvd _ (dvd_refl _)]; simp

/-- two active positions that agree modulo the axis length are the same cell -/
theorem active_unique {l : List Nat} {r q : AxisRec} {ng : Nat} {x y : Int}
    (hr : r ∈ axisRecs 0 0 l) (hq : q ∈ axisRecs 0 0 l)
    (hx : (ng : Int) ≤ x ∧ x < ng + r.n) (hy : (ng : Int) ≤ y ∧ y < ng + q.n)
    (h : ((r.off : Int) + x - ng) % (l.sum : Int) = ((q.off : Int) + y - ng) % (l.sum : Int)) :
    r = q ∧ x = y := by
  have hb := axisRecs_bounds hr
  have hb' := axisRecs_bounds hq
  rw [Int.emod_eq_of_lt (by omega) (by omega), Int.emod_eq_of_lt (by omega) (by omega)] at h
  have : r = q := by
    apply axisRecs_disjoint hr hq (c := ((r.off : Int) + x - ng).toNat) <;> omega
  subst this
  exact ⟨rfl, by omega⟩

/-- halo exchange: the cell read lies in the active part of the sender and has the same global
position -/
theorem halo_axis {l : List Nat} (hl : ∀ x ∈ l, 0 < x) {r q : AxisRec} {ng : Nat}
    (hr : r ∈ axisRecs 0 0 l) (hq : q ∈ axisRecs 0 0 l) (hn : ng ≤ q.n) {e : Int}
    (he : e = -1 ∨ e = 0 ∨ e = 1) (h : q.dom = nbr1 l.length r.dom e) {x y : Int}
    (hx : (recvRange false ng r.n (-e)).1 ≤ x ∧ x < (recvRange false ng r.n (-e)).2)
    (hyd : y = x - (recvRange false ng r.n (-e)).1 + (sendRange false ng q.n (-e)).1) :
    ((ng : Int) ≤ y ∧ y < ng + q.n) ∧
    ((r.off : Int) + x - ng) % (l.sum : Int) = ((q.off : Int) + y - ng) % (l.sum : Int) := by
  obtain ⟨h0, h1, h2⟩ := adj_int hl hr hq he h
  rcases he with rfl | rfl | rfl
  · have h2 := h2 rfl
    simp [recvRange, sendRange] at hx hyd
    refine ⟨by omega, ?_⟩
    rw [← Int.emod_eq_emod_iff_emod_sub_eq_zero] at h2
    rw [Int.emod_eq_emod_iff_emod_sub_eq_zero]
    rw [Int.emod_eq_emod_iff_emod_sub_eq_zero] at h2
    rw [← Int.dvd_iff_emod_eq_zero] at h2 ⊢
    rw [show (r.off : Int) + x - ng - (q.off + y - ng) = -((q.off : Int) + q.n - r.off) by omega]
    exact (Int.dvd_neg).2 h2
  · have := h0 rfl
    subst this
    simp [recvRange, sendRange] at hx hyd
    refine ⟨by omega, ?_⟩
    rw [show y = x by omega]
  · have h1 := h1 rfl
    simp [recvRange, sendRange] at hx hyd
    refine ⟨by omega, ?_⟩
    rw [Int.emod_eq_emod_iff_emod_sub_eq_zero, ← Int.dvd_iff_emod_eq_zero]
    rw [← Int.dvd_iff_emod_eq_zero] at h1
    rw [show (r.off : Int) + x - ng - (q.off + y - ng) = -((q.off : Int) - (r.off + r.n)) by omega]
    exact (Int.dvd_neg).2 h1

/-- synchronisation: the cell read lies in the array of the sender, has the same global position,
and its index is smaller, equal, larger according to the direction -/
theorem sync_axis {l : List Nat} (hl : ∀ x ∈ l, 0 < x) {r q : AxisRec} {ng : Nat}
    (hr : r ∈ axisRecs 0 0 l) (hq : q ∈ axisRecs 0 0 l) (hn : ng ≤ q.n) {e : Int}
    (he : e = -1 ∨ e = 0 ∨ e = 1) (h : q.dom = nbr1 l.length r.dom e) {x y : Int}
    (ha : (ng : Int) ≤ x ∧ x < ng + r.n)
    (hx : (recvRange true ng r.n (-e)).1 ≤ x ∧ x < (recvRange true ng r.n (-e)).2)
    (hyd : y = x - (recvRange true ng r.n (-e)).1 + (sendRange true ng q.n (-e)).1) :
    (0 ≤ y ∧ y < q.n + 2 * ng) ∧
    ((r.off : Int) + x - ng) % (l.sum : Int) = ((q.off : Int) + y - ng) % (l.sum : Int) ∧
    (e = 1 → y < x) ∧ (e = 0 → y = x) ∧ (e = -1 → x < y) := by
  obtain ⟨h0, h1, h2⟩ := adj_int hl hr hq he h
  have hrp := axisRecs_pos hl hr
  have hqp := axisRecs_pos hl hq
  rcases he with rfl | rfl | rfl
  · have h2 := h2 rfl
    simp [recvRange, sendRange] at hx hyd
    refine ⟨by omega, ?_, by omega, by omega, fun _ => by omega⟩
    rw [Int.emod_eq_emod_iff_emod_sub_eq_zero]
    rw [← Int.dvd_iff_emod_eq_zero] at h2 ⊢
    rw [show (r.off : Int) + x - ng - (q.off + y - ng) = -((q.off : Int) + q.n - r.off) by omega]
    exact (Int.dvd_neg).2 h2
  · have := h0 rfl
    subst this
    simp [recvRange, sendRange] at hx hyd
    refine ⟨by omega, ?_, by omega, fun _ => by omega, by omega⟩
    rw [show y = x by omega]
  · have h1 := h1 rfl
    simp [recvRange, sendRange] at hx hyd
    refine ⟨by omega, ?_, fun _ => by omega, by omega, by omega⟩
    rw [Int.emod_eq_emod_iff_emod_sub_eq_zero, ← Int.dvd_iff_emod_eq_zero]
    rw [← Int.dvd_iff_emod_eq_zero] at h1
    rw [show (r.off : Int) + x - ng - (q.off + y - ng) = -((q.off : Int) - (r.off + r.n)) by omega]
    exact (Int.dvd_neg).2 h1

theorem nbr1_lt {n p : Nat} {e : Int} (hp : p < n) (he : e = -1 ∨ e = 0 ∨ e = 1) :
    nbr1 n p e < n := by
  unfold nbr1; split_ifs <;> omega

theorem nbr1_neg {n p : Nat} {e : Int} (hp : p < n) (he : e = -1 ∨ e = 0 ∨ e = 1) :
    nbr1 n (nbr1 n p e) (-e) = p := by
  unfold nbr1; split_ifs <;> omega

/-- every array cell with the global position of the active cell `x` of `r` is reached by exactly
the step that the code makes -/
theorem sync_axis_surj {l : List Nat} {r q : AxisRec} {ng : Nat} (hl : ∀ x ∈ l, 0 < x ∧ ng ≤ x)
    (hr : r ∈ axisRecs 0 0 l) (hq : q ∈ axisRecs 0 0 l) {x y : Int}
    (ha : (ng : Int) ≤ x ∧ x < ng + r.n) (hy : 0 ≤ y ∧ y < q.n + 2 * ng)
    (h : ((r.off : Int) + x - ng) % (l.sum : Int) = ((q.off : Int) + y - ng) % (l.sum : Int)) :
    ∃ e : Int, (e = -1 ∨ e = 0 ∨ e = 1) ∧ q.dom = nbr1 l.length r.dom e ∧
      ((recvRange true ng r.n (-e)).1 ≤ x ∧ x < (recvRange true ng r.n (-e)).2) ∧
      y = x - (recvRange true ng r.n (-e)).1 + (sendRange true ng q.n (-e)).1 := by
  have hpos : ∀ x ∈ l, 0 < x := fun x hx => (hl x hx).1
  have hng : ∀ {s : AxisRec}, s ∈ axisRecs 0 0 l → ng ≤ s.n := by
    intro s hs
    have : s.n ∈ (axisRecs 0 0 l).map (·.n) := List.mem_map_of_mem hs
    rw [axisRecs_n] at this
    exact (hl _ this).2
  have hqb := axisRecs_bounds hq
  by_cases h1 : y < ng
  · -- lower ghost cell of `q`: belongs to the subdomain below it
    obtain ⟨t, ht, htd⟩ := axisRecs_dom_ex (o := 0) (k := 0) (d := l)
      (p := nbr1 l.length q.dom (-1)) (Nat.zero_le _)
      (by have := nbr1_lt (n := l.length) (p := q.dom) (e := -1) (by omega) (by omega); omega)
    obtain ⟨_, _, h2⟩ := adj_int hpos hq ht (e := -1) (by omega) htd
    have h2 := h2 rfl
    have hngt := hng ht
    have hcong : ((r.off : Int) + x - ng) % (l.sum : Int) =
        ((t.off : Int) + (y + t.n) - ng) % (l.sum : Int) := by
      rw [h, Int.emod_eq_emod_iff_emod_sub_eq_zero, ← Int.dvd_iff_emod_eq_zero]
      rw [← Int.dvd_iff_emod_eq_zero] at h2
      rw [show (q.off : Int) + y - ng - (t.off + (y + t.n) - ng) =
        -((t.off : Int) + t.n - q.off) by omega]
      exact (Int.dvd_neg).2 h2
    obtain ⟨rfl, hxy⟩ := active_unique hr ht ha (by omega) hcong
    refine ⟨1, by omega, ?_, ?_, ?_⟩
    · rw [htd]
      exact (nbr1_neg (e := -1) (by omega) (by omega)).symm
    · simp [recvRange]; omega
    · simp [recvRange, sendRange]; omega
  · by_cases h2 : y < ng + q.n
    · obtain ⟨rfl, hxy⟩ := active_unique hr hq ha (by omega) h
      refine ⟨0, by omega, ?_, ?_, ?_⟩
      · simp [nbr1]
      · simp [recvRange]; omega
      · simp [recvRange, sendRange]; omega
    · obtain ⟨t, ht, htd⟩ := axisRecs_dom_ex (o := 0) (k := 0) (d := l)
        (p := nbr1 l.length q.dom 1) (Nat.zero_le _)
        (by have := nbr1_lt (n := l.length) (p := q.dom) (e := 1) (by omega) (by omega); omega)
      obtain ⟨_, h3, _⟩ := adj_int hpos hq ht (e := 1) (by omega) htd
      have h3 := h3 rfl
      have hngt := hng ht
      have hcong : ((r.off : Int) + x - ng) % (l.sum : Int) =
          ((t.off : Int) + (y - q.n) - ng) % (l.sum : Int) := by
        rw [h, Int.emod_eq_emod_iff_emod_sub_eq_zero, ← Int.dvd_iff_emod_eq_zero]
        rw [← Int.dvd_iff_emod_eq_zero] at h3
        rw [show (q.off : Int) + y - ng - (t.off + (y - q.n) - ng) =
          -((t.off : Int) - (q.off + q.n)) by omega]
        exact (Int.dvd_neg).2 h3
      obtain ⟨rfl, hxy⟩ := active_unique hr ht ha (by omega) hcong
      refine ⟨-1, by omega, ?_, ?_, ?_⟩
      · rw [htd]
        exact (nbr1_neg (e := 1) (by omega) (by omega)).symm
      · simp [recvRange]; omega
      · simp [recvRange, sendRange]; omega

end Entity.Topology
