import Verif.Lemmas.HaloAxis
import Verif.Props.Directions

/-! Helper lemmas about the halo exchange in any number of dimensions. -/

namespace Entity.Topology

open Entity Entity.Decomp Entity.Dir

/-- rank `r` has the axis records `R` -/
structure Rec (m : Meta) (dN : List (List Nat)) (r : Nat) (R : List AxisRec) : Prop where
  dom : m.doms[r]? = some (mkSub r R)
  len : R.length = dN.length
  mem : ∀ a (h : a < dN.length) (h' : a < R.length), R[a] ∈ axisRecs 0 0 dN[a]

variable {m : Meta} {dN : List (List Nat)}

theorem Rec.lt {r : Nat} {R : List AxisRec} (h : Rec m dN r R) : r < m.doms.length :=
  (List.getElem?_eq_some_iff.1 h.dom).1

theorem Built.getRec (h : Built m dN) {r : Nat} {s : Subdomain} (hr : m.doms[r]? = some s) :
    ∃ R, Rec m dN r R ∧ s = mkSub r R := by
  rw [h.doms_eq, List.getElem?_mapIdx] at hr
  simp only [Option.map_eq_some_iff] at hr
  obtain ⟨R, hR, rfl⟩ := hr
  have hmem := List.getElem?_eq_some_iff.1 hR
  have hf := (mem_tp _ _).1 (hmem.2 ▸ List.getElem_mem hmem.1 : R ∈ recTable dN)
  have hlen : R.length = dN.length := by simpa using hf.length_eq
  refine ⟨R, ⟨?_, hlen, ?_⟩, rfl⟩
  · rw [h.doms_eq, List.getElem?_mapIdx, hR]; rfl
  · intro a ha ha'
    have := List.forall₂_iff_get.1 hf
    simpa using this.2 a ha' (by simpa using ha)

theorem Built.getRec_lt (h : Built m dN) {r : Nat} (hr : r < m.doms.length) :
    ∃ R, Rec m dN r R := by
  obtain ⟨R, hR, _⟩ := h.getRec (List.getElem?_eq_getElem hr)
  exact ⟨R, hR⟩

theorem Rec.at {r : Nat} {R : List AxisRec} (h : Rec m dN r R) : At m r (R.map (·.dom)) :=
  ⟨_, h.dom, rfl, rfl⟩

theorem Rec.sizes {r : Nat} {R : List AxisRec} (h : Rec m dN r R) :
    sizes m r = R.map (·.n) := by
  unfold Topology.sizes; rw [h.dom]; rfl

theorem Rec.unique {r : Nat} {R R' : List AxisRec} (h : Rec m dN r R) (h' : Rec m dN r R')  :
    R = R' := by
  have := h.dom.symm.trans h'.dom
  simp only [Option.some.injEq, mkSub, Subdomain.mk.injEq] at this
  apply List.ext_getElem (by rw [h.len, h'.len])
  intro a h1 h2
  have ha : a < dN.length := by rw [← h.len]; exact h1
  apply axisRecs_dom_inj (h.mem a ha h1) (h'.mem a ha h2)
  have e := congrArg (fun l => l[a]?) this.2.1
  simpa [h1, h2] using e

theorem Built.rec_inj (hb : Built m dN) {r q : Nat} {R : List AxisRec} (h : Rec m dN r R)
    (h' : Rec m dN q R) : r = q := hb.at_inj h.at h'.at

theorem nbrOffset_eq (c p : List Nat) (d : Direction) :
    nbrOffset c p d = List.zipWith (fun (x : Nat × Nat) v => nbr1 x.1 x.2 v) (c.zip p) d := by
  induction c generalizing p d with
  | nil => simp [nbrOffset]
  | cons n c ih =>
    cases p with
    | nil => simp [nbrOffset]
    | cons x p =>
      cases d with
      | nil => simp [nbrOffset]
      | cons v d => simp [nbrOffset, ih, nbr1]

/-- `Q` are the records of the neighbour of `R` in direction `e` -/
def Nbr (dN : List (List Nat)) (R Q : List AxisRec) (e : Direction) : Prop :=
  ∀ a (h : a < dN.length) (h1 : a < R.length) (h2 : a < Q.length) (h3 : a < e.length),
    Q[a].dom = nbr1 dN[a].length R[a].dom e[a]

theorem Built.nbr_of_at (hb : Built m dN) {r q : Nat} {R Q : List AxisRec} (_ : Rec m dN r R)
    (hq : Rec m dN q Q) {e : Direction} (hat : At m q (nbrOffset m.counts (R.map (·.dom)) e)) :
    Nbr dN R Q e := by
  intro a h h1 h2 h3
  have := hq.at.unique hat
  rw [nbrOffset_eq, hb.counts] at this
  have e := congrArg (fun l => l[a]?) this
  simp only [List.getElem?_map, List.getElem?_eq_getElem h2, Option.map_some] at e
  rw [List.getElem?_eq_getElem (by simp [Decomp.counts]; omega)] at e
  simpa [Decomp.counts] using e

theorem Built.at_of_nbr (hb : Built m dN) {r q : Nat} {R Q : List AxisRec} (hr : Rec m dN r R)
    (hq : Rec m dN q Q) {e : Direction} (he : e.length = dN.length) (hn : Nbr dN R Q e) :
    At m q (nbrOffset m.counts (R.map (·.dom)) e) := by
  have : Q.map (·.dom) = nbrOffset m.counts (R.map (·.dom)) e := by
    rw [nbrOffset_eq, hb.counts]
    apply List.ext_getElem
    · simp [Decomp.counts, hr.len, hq.len, he]
    · intro a h1 h2
      simp only [List.length_map, hq.len] at h1
      have := hn a h1 (by rw [hr.len]; exact h1) (by rw [hq.len]; exact h1) (by omega)
      simpa [Decomp.counts] using this
  rw [← this]; exact hq.at

/-- from whom rank `r` receives in direction `d` -/
theorem recv_spec (h : Built m dN) (hg : GoodBCs m) {d : Direction} (hd : IsDirection dN.length d)
    {r : Nat} {R : List AxisRec} (hr : Rec m dN r R) :
    ∃ a b q Q, Rec m dN q Q ∧ Nbr dN R Q (neg d) ∧ dirBC m r (neg d) = .ok b ∧
      sendRecv m r d = .ok (a, if cls b = .W then none else some q) := by
  obtain ⟨hl, hs, hnz⟩ := hd
  obtain ⟨jp, jm, _, _, _, hm, he⟩ := sendRecv_eq m dN h hg d hs hl hnz r _ hr.at
  obtain ⟨Q, hQ⟩ := h.getRec_lt hm.lt
  have hs' : Signs d := hs
  have hnz' : ∃ x ∈ neg d, x ≠ 0 := by
    obtain ⟨x, hx, h0⟩ := hnz
    exact ⟨-x, by simpa [neg] using hx, by omega⟩
  have hl' : (neg d).length = m.counts.length := by
    rw [h.counts]; simpa [neg, Decomp.counts] using hl
  have hbi : ∀ e ∈ m.bcs, e.1 ≠ .INVALID ∧ e.2 ≠ .INVALID :=
    fun e he => ⟨(hg.2 e he).2.2.1, (hg.2 e he).2.2.2.1⟩
  exact ⟨_, _, jm, Q, hQ, h.nbr_of_at hr hQ hm, h.dirBC hr.at hs'.neg hl' hg.1 hbi hnz', he⟩

theorem roundOk_true (h : Built m dN) (hg : GoodBCs m) {d : Direction}
    (hd : IsDirection dN.length d) : roundOk m d = true := by
  obtain ⟨hl, hs, hnz⟩ := hd
  obtain ⟨h1, h2⟩ := C05_sends_match_receives m dN h hg d hs hl hnz
  unfold roundOk
  rw [List.all_eq_true]
  intro r hr
  rw [List.mem_range] at hr
  obtain ⟨a, b, he, _⟩ := h1 r hr
  have := h2 r hr r hr a b a b he he
  rw [he]
  simpa using this

theorem inSlice_iff (sl : List (Int × Int)) (i : List Int) :
    inSlice sl i = true ↔ sl.length = i.length ∧
      ∀ a (h : a < sl.length) (h' : a < i.length), sl[a].1 ≤ i[a] ∧ i[a] < sl[a].2 := by
  unfold inSlice
  rw [Bool.and_eq_true, decide_eq_true_iff, List.all_eq_true]
  refine and_congr_right fun hlen => ?_
  constructor
  · intro h a h1 h2
    have := h (decide (sl[a].1 ≤ i[a] ∧ i[a] < sl[a].2))
      (List.mem_iff_getElem.2 ⟨a, by simp; omega, by simp⟩)
    simpa using this
  · intro h x hx
    obtain ⟨a, ha, rfl⟩ := List.mem_iff_getElem.1 hx
    simp only [List.length_zipWith] at ha
    simpa using h a (by omega) (by omega)

theorem inSlice_recv {r : Nat} {R : List AxisRec} (hr : Rec m dN r R) (sync : Bool) (ng : Nat)
    {d : Direction} (hd : d.length = dN.length) {i : List Int} (hi : i.length = dN.length) :
    inSlice (recvSlice sync ng (sizes m r) d) i = true ↔
      ∀ a (_ : a < dN.length) (h1 : a < R.length) (h2 : a < d.length) (h3 : a < i.length),
        (recvRange sync ng R[a].n d[a]).1 ≤ i[a] ∧ i[a] < (recvRange sync ng R[a].n d[a]).2 := by
  rw [inSlice_iff, hr.sizes]
  have hl := hr.len
  constructor
  · rintro ⟨_, h⟩ a h0 h1 h2 h3
    simpa [recvSlice] using h a (by simp [recvSlice]; omega) h3
  · intro h
    refine ⟨by simp [recvSlice, hl, hd, hi], fun a h1 h2 => ?_⟩
    simp only [recvSlice, List.length_zipWith, List.length_map] at h1
    simpa [recvSlice] using h a (by omega) (by omega) (by omega) h2

theorem srcCell_length {r q : Nat} {R Q : List AxisRec} (hr : Rec m dN r R) (hq : Rec m dN q Q)
    (sync : Bool) (ng : Nat) {d : Direction} (hd : d.length = dN.length) {i : List Int}
    (hi : i.length = dN.length) :
    (srcCell (sendSlice sync ng (sizes m q) d) (recvSlice sync ng (sizes m r) d) i).length
      = dN.length := by
  simp [srcCell, sendSlice, recvSlice, hr.sizes, hq.sizes, hr.len, hq.len, hd, hi]

theorem srcCell_get {r q : Nat} {R Q : List AxisRec} (hr : Rec m dN r R) (hq : Rec m dN q Q)
    (sync : Bool) (ng : Nat) {d : Direction} {i : List Int}
    (a : Nat) (h : a < (srcCell (sendSlice sync ng (sizes m q) d)
      (recvSlice sync ng (sizes m r) d) i).length)
    (h1 : a < R.length) (h2 : a < Q.length) (h3 : a < d.length) (h4 : a < i.length) :
    (srcCell (sendSlice sync ng (sizes m q) d) (recvSlice sync ng (sizes m r) d) i)[a] =
      i[a] - (recvRange sync ng R[a].n d[a]).1 + (sendRange sync ng Q[a].n d[a]).1 := by
  simp [srcCell, sendSlice, recvSlice, hr.sizes, hq.sizes]

end Entity.Topology
