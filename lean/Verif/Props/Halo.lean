import Verif.Lemmas.Halo
import Mathlib.Algebra.BigOperators.Group.Finset.Basic
import Mathlib.Algebra.BigOperators.Group.Finset.Sigma

/-!
# C14: halo exchange, C15: current synchronisation
-/

namespace Entity.Topology

open Entity Entity.Decomp Entity.Dir

/-! ## Specification -/

/-- `i` is a cell of the array of subdomain `r` (active and ghost cells, `ng` ghosts per side). -/
def InArray (m : Meta) (ng : Nat) (r : Nat) (i : List Int) : Prop :=
  ∃ s, m.doms[r]? = some s ∧
    List.Forall₂ (fun (n : Nat) x => (0 : Int) ≤ x ∧ x < n + 2 * ng) s.ncells i

/-- `i` is an active cell of subdomain `r`. -/
def Active (m : Meta) (ng : Nat) (r : Nat) (i : List Int) : Prop :=
  ∃ s, m.doms[r]? = some s ∧
    List.Forall₂ (fun (n : Nat) x => (ng : Int) ≤ x ∧ x < ng + n) s.ncells i

/-- Position of local cell `i` in the global box of `N` cells with periodic identification. -/
def globalPos (m : Meta) (N : List Nat) (ng : Nat) (r : Nat) (i : List Int) : Option (List Int) :=
  (m.doms[r]?).map fun s =>
    List.zipWith (fun (a : Nat × Nat) x => ((a.2 : Int) + x - ng) % (a.1 : Int))
      (N.zip s.offsetNcells) i

/-- On which side of the active region the cell lies, per axis. -/
def sideOf (m : Meta) (ng : Nat) (r : Nat) (i : List Int) : Direction :=
  match m.doms[r]? with
  | none => []
  | some s => List.zipWith (fun (n : Nat) x =>
      if x < (ng : Int) then -1 else if x < (ng : Int) + n then 0 else 1) s.ncells i

/-- The boundary condition of subdomain `r` in direction `e` is a wall. -/
def IsWall (m : Meta) (r : Nat) (e : Direction) : Prop :=
  ∃ b, dirBC m r e = .ok b ∧ b ≠ .PERIODIC ∧ b ≠ .SYNC

/-- All subdomains have at least `ng` (and at least one) cells along each axis. -/
def Wide (dN : List (List Nat)) (ng : Nat) : Prop := ∀ l ∈ dN, ∀ x ∈ l, 0 < x ∧ ng ≤ x

variable {m : Meta} {dN : List (List Nat)}

/-! ## Lemmas -/

theorem inArray_iff {r : Nat} {R : List AxisRec} (hr : Rec m dN r R) (ng : Nat) (i : List Int) :
    InArray m ng r i ↔ i.length = dN.length ∧
      ∀ a (h1 : a < R.length) (h2 : a < i.length), 0 ≤ i[a] ∧ i[a] < R[a].n + 2 * ng := by
  unfold InArray
  rw [hr.dom]
  simp only [Option.some.injEq, exists_eq_left', mkSub, List.forall₂_iff_get, List.length_map,
    List.get_eq_getElem, List.getElem_map, hr.len]
  constructor
  · rintro ⟨h1, h2⟩; exact ⟨h1.symm, fun a h3 h4 => h2 a h3 h4⟩
  · rintro ⟨h1, h2⟩; exact ⟨h1.symm, fun a h3 h4 => h2 a h3 h4⟩

theorem active_iff {r : Nat} {R : List AxisRec} (hr : Rec m dN r R) (ng : Nat) (i : List Int) :
    Active m ng r i ↔ i.length = dN.length ∧
      ∀ a (h1 : a < R.length) (h2 : a < i.length), (ng : Int) ≤ i[a] ∧ i[a] < ng + R[a].n := by
  unfold Active
  rw [hr.dom]
  simp only [Option.some.injEq, exists_eq_left', mkSub, List.forall₂_iff_get, List.length_map,
    List.get_eq_getElem, List.getElem_map, hr.len]
  constructor
  · rintro ⟨h1, h2⟩; exact ⟨h1.symm, fun a h3 h4 => h2 a h3 h4⟩
  · rintro ⟨h1, h2⟩; exact ⟨h1.symm, fun a h3 h4 => h2 a h3 h4⟩

theorem globalPos_eq_iff {r q : Nat} {R Q : List AxisRec} (hr : Rec m dN r R) (hq : Rec m dN q Q)
    (ng : Nat) {i j : List Int} (hi : i.length = dN.length) (hj : j.length = dN.length) :
    globalPos m (dN.map List.sum) ng r i = globalPos m (dN.map List.sum) ng q j ↔
      ∀ a (h : a < dN.length) (h1 : a < R.length) (h2 : a < Q.length) (h3 : a < i.length)
        (h4 : a < j.length), ((R[a].off : Int) + i[a] - ng) % (dN[a].sum : Int) =
          ((Q[a].off : Int) + j[a] - ng) % (dN[a].sum : Int) := by
  unfold globalPos
  rw [hr.dom, hq.dom]
  simp only [Option.map_some, Option.some.injEq, mkSub]
  have hl := hr.len; have hl' := hq.len
  constructor
  · intro h a h0 h1 h2 h3 h4
    have e := congrArg (fun l => l[a]?) h
    beta_reduce at e
    rw [List.getElem?_eq_getElem (by simp; omega), List.getElem?_eq_getElem (by simp; omega)] at e
    simpa using e
  · intro h
    apply List.ext_getElem
    · simp [hl, hl', hi, hj]
    · intro a h1 h2
      simp only [List.length_zipWith, List.length_zip, List.length_map] at h1 h2
      have := h a (by omega) (by omega) (by omega) (by omega) (by omega)
      simpa using this

theorem sideOf_get {r : Nat} {R : List AxisRec} (hr : Rec m dN r R) (ng : Nat) {i : List Int}
    (hi : i.length = dN.length) :
    (sideOf m ng r i).length = dN.length ∧
    ∀ a (h : a < (sideOf m ng r i).length) (h1 : a < R.length) (h2 : a < i.length),
      (sideOf m ng r i)[a] =
        if i[a] < (ng : Int) then -1 else if i[a] < (ng : Int) + R[a].n then 0 else 1 := by
  constructor
  · unfold sideOf; rw [hr.dom]; simp [mkSub, hr.len, hi]
  · intro a h h1 h2
    unfold sideOf at h ⊢
    simp only [hr.dom, mkSub, List.getElem_zipWith, List.getElem_map]

/-- the receive slab of direction `d` consists of the cells on the side `-d` -/
theorem slice_iff_side {r : Nat} {R : List AxisRec} (hr : Rec m dN r R) {ng : Nat}
    (hw : Wide dN ng) {d : Direction} (hd : IsDirection dN.length d) {i : List Int}
    (hi : InArray m ng r i) :
    inSlice (recvSlice false ng (sizes m r) d) i = true ↔ sideOf m ng r i = neg d := by
  obtain ⟨hil, hia⟩ := (inArray_iff hr ng i).1 hi
  obtain ⟨hsl, hsa⟩ := sideOf_get hr ng hil
  rw [inSlice_recv hr false ng hd.1 hil]
  have hl := hr.len
  have hdl := hd.1
  have hax : ∀ a (h1 : a < R.length) (h2 : a < d.length) (h3 : a < i.length),
      ((recvRange false ng R[a].n d[a]).1 ≤ i[a] ∧ i[a] < (recvRange false ng R[a].n d[a]).2) ↔
      (if i[a] < (ng : Int) then (-1 : Int) else if i[a] < (ng : Int) + R[a].n then 0 else 1) =
        - d[a] := by
    intro a h1 h2 h3
    have h0 := hia a h1 h3
    have := hd.2.1 d[a] (List.getElem_mem h2)
    have hn : 0 < R[a].n := by
      have hm := hr.mem a (by omega) h1
      have : R[a].n ∈ (axisRecs 0 0 dN[a]).map (·.n) := List.mem_map_of_mem hm
      rw [axisRecs_n] at this
      exact (hw _ (List.getElem_mem _) _ this).1
    generalize i[a] = x at *
    generalize R[a].n = n at *
    have e1 : recvRange false ng n (-1) = ((ng : Int) + n, (ng : Int) + n + ng) := by
      simp [recvRange]
    have e2 : recvRange false ng n 0 = ((ng : Int), (ng : Int) + n) := by simp [recvRange]
    have e3 : recvRange false ng n 1 = (0, (ng : Int)) := by simp [recvRange]
    rcases this with h | h | h <;> rw [h]
    · rw [e1]; constructor
      · rintro ⟨_, _⟩; rw [if_neg (by omega), if_neg (by omega)]; rfl
      · intro hh; split_ifs at hh <;> (constructor <;> simp only <;> omega)
    · rw [e2]; constructor
      · rintro ⟨_, _⟩; rw [if_neg (by omega), if_pos (by omega)]; rfl
      · intro hh; split_ifs at hh <;> (constructor <;> simp only <;> omega)
    · rw [e3]; constructor
      · rintro ⟨_, _⟩; rw [if_pos (by omega)]
      · intro hh; split_ifs at hh <;> (constructor <;> simp only <;> omega)
  constructor
  · intro h
    apply List.ext_getElem
    · simp [neg, hsl, hdl]
    · intro a h1 h2
      rw [hsa a h1 (by omega) (by omega)]
      simp only [neg, List.getElem_map]
      exact (hax a _ (by omega) _).1 (h a (by omega) (by omega) (by omega) (by omega))
  · intro h a h0 h1 h2 h3
    rw [hax a h1 h2 h3, ← hsa a (by omega) h1 h3]
    simp [h, neg]

theorem wide_pos {ng : Nat} (hw : Wide dN ng) {a : Nat} (h : a < dN.length) :
    ∀ x ∈ dN[a], 0 < x := fun x hx => (hw _ (List.getElem_mem h) x hx).1

theorem rec_wide {ng : Nat} (hw : Wide dN ng) {r : Nat} {R : List AxisRec} (hr : Rec m dN r R)
    {a : Nat} (h : a < R.length) : 0 < R[a].n ∧ ng ≤ R[a].n := by
  have ha : a < dN.length := by rw [← hr.len]; exact h
  have hm := hr.mem a ha h
  have : R[a].n ∈ (axisRecs 0 0 dN[a]).map (·.n) := List.mem_map_of_mem hm
  rw [axisRecs_n] at this
  exact hw _ (List.getElem_mem _) _ this

theorem neg_getElem {d : Direction} {a : Nat} (h : a < (neg d).length) (h' : a < d.length) :
    (neg d)[a] = - d[a] := by simp [neg]

/-- the cell copied into a ghost cell is active in its subdomain and has the same position -/
theorem halo_src {ng : Nat} (hw : Wide dN ng) {r q : Nat} {R Q : List AxisRec}
    (hr : Rec m dN r R) (hq : Rec m dN q Q) {d : Direction} (hd : IsDirection dN.length d)
    (hn : Nbr dN R Q (neg d)) {i : List Int} (hi : InArray m ng r i)
    (hs : inSlice (recvSlice false ng (sizes m r) d) i = true) :
    let j := srcCell (sendSlice false ng (sizes m q) d) (recvSlice false ng (sizes m r) d) i
    Active m ng q j ∧
      globalPos m (dN.map List.sum) ng r i = globalPos m (dN.map List.sum) ng q j := by
  intro j
  obtain ⟨hil, _⟩ := (inArray_iff hr ng i).1 hi
  have hjl : j.length = dN.length := srcCell_length hr hq false ng hd.1 hil
  have hs := (inSlice_recv hr false ng hd.1 hil).1 hs
  have hl := hr.len; have hl' := hq.len; have hdl := hd.1
  have key : ∀ a (h : a < dN.length) (h1 : a < R.length) (h2 : a < Q.length) (h3 : a < i.length)
      (h4 : a < j.length), ((ng : Int) ≤ j[a] ∧ j[a] < ng + Q[a].n) ∧
      ((R[a].off : Int) + i[a] - ng) % (dN[a].sum : Int) =
          ((Q[a].off : Int) + j[a] - ng) % (dN[a].sum : Int) := by
    intro a h h1 h2 h3 h4
    have hda : a < d.length := by omega
    have hnd : a < (neg d).length := by simp [neg]; omega
    have e1 := hn a h h1 h2 hnd
    have hsg := hd.2.1 d[a] (List.getElem_mem hda)
    have e2 := hs a h h1 hda h3
    have := halo_axis (wide_pos hw h) (hr.mem a h h1) (hq.mem a h h2) (rec_wide hw hq h2).2
      (e := (neg d)[a]) (by rw [neg_getElem hnd hda]; omega) e1 (x := i[a]) (y := j[a])
      (by rw [neg_getElem hnd hda, Int.neg_neg]; exact e2)
      (by rw [neg_getElem hnd hda, Int.neg_neg]; exact srcCell_get hr hq false ng a h4 h1 h2 hda h3)
    exact this
  refine ⟨(active_iff hq ng j).2 ⟨hjl, fun a h1 h2 => ?_⟩, ?_⟩
  · exact (key a (by omega) (by omega) h1 (by omega) h2).1
  · rw [globalPos_eq_iff hr hq ng hil hjl]
    exact fun a h h1 h2 h3 h4 => (key a h h1 h2 h3 h4).2

theorem active_inArray {ng : Nat} {r : Nat} {i : List Int} (h : Active m ng r i) :
    InArray m ng r i := by
  obtain ⟨s, hs, hf⟩ := h
  exact ⟨s, hs, hf.imp fun _ _ h => by omega⟩

theorem active_side {ng : Nat} {r : Nat} {R : List AxisRec} (hr : Rec m dN r R) {i : List Int}
    (h : Active m ng r i) : ∀ x ∈ sideOf m ng r i, x = 0 := by
  obtain ⟨hil, hia⟩ := (active_iff hr ng i).1 h
  obtain ⟨hsl, hsa⟩ := sideOf_get hr ng hil
  have hl := hr.len
  intro x hx
  obtain ⟨a, ha, rfl⟩ := List.getElem_of_mem hx
  have := hia a (by omega) (by omega)
  rw [hsa a ha (by omega) (by omega), if_neg (by omega), if_pos (by omega)]

theorem cls_wall {b : BC} : cls b = .W ↔ b ≠ .PERIODIC ∧ b ≠ .SYNC := by cases b <;> simp [cls]

/-- what one round does -/
theorem haloRound_spec {α : Type} (h : Built m dN) (hg : GoodBCs m) {ng : Nat} (hw : Wide dN ng)
    (F : Fields α) {d : Direction} (hd : IsDirection dN.length d) :
    ∃ G, haloRound m ng F d = .ok G ∧ ∀ r i, InArray m ng r i →
      (sideOf m ng r i ≠ neg d → G r i = F r i) ∧
      (sideOf m ng r i = neg d → IsWall m r (neg d) → G r i = F r i) ∧
      (sideOf m ng r i = neg d → ¬ IsWall m r (neg d) →
        ∃ q j, Active m ng q j ∧ globalPos m (dN.map List.sum) ng r i =
          globalPos m (dN.map List.sum) ng q j ∧ G r i = F q j) := by
  unfold haloRound
  rw [if_pos (roundOk_true h hg hd)]
  refine ⟨_, rfl, fun r i hi => ?_⟩
  obtain ⟨s, hs, _⟩ := id hi
  obtain ⟨R, hr, _⟩ := h.getRec hs
  obtain ⟨a, b, q, Q, hq, hn, hb, he⟩ := recv_spec h hg hd hr
  have hsl := slice_iff_side hr hw hd hi
  have hwall : IsWall m r (neg d) ↔ cls b = .W := by
    unfold IsWall; rw [hb, cls_wall]
    constructor
    · rintro ⟨b', hb', h⟩; cases hb'; exact h
    · intro h; exact ⟨b, rfl, h⟩
  refine ⟨fun h1 => ?_, fun h1 h2 => ?_, fun h1 h2 => ?_⟩
  · simp only [he]
    by_cases hc : cls b = .W
    · simp [hc]
    · simp [hc, mt hsl.1 h1]
  · simp only [he, if_pos (hwall.1 h2)]
  · have hc : cls b ≠ .W := mt hwall.2 h2
    obtain ⟨k1, k2⟩ := halo_src hw hr hq hd hn hi (hsl.2 h1)
    refine ⟨q, _, k1, k2, ?_⟩
    simp only [he, if_neg hc, hsl.2 h1, if_true]

theorem foldHalo_spec {α : Type} (h : Built m dN) (hg : GoodBCs m) {ng : Nat} (hw : Wide dN ng)
    (ds : List Direction) (hds : ∀ d ∈ ds, IsDirection dN.length d) (hnd : ds.Nodup)
    (F : Fields α) :
    ∃ G, foldRounds (haloRound m ng) F ds = .ok G ∧ ∀ r i, InArray m ng r i →
      (neg (sideOf m ng r i) ∉ ds → G r i = F r i) ∧
      (IsWall m r (sideOf m ng r i) → G r i = F r i) ∧
      (neg (sideOf m ng r i) ∈ ds → ¬ IsWall m r (sideOf m ng r i) →
        ∃ q j, Active m ng q j ∧ globalPos m (dN.map List.sum) ng r i =
          globalPos m (dN.map List.sum) ng q j ∧ G r i = F q j) := by
  induction ds generalizing F with
  | nil => exact ⟨F, rfl, fun r i _ => by simp⟩
  | cons d ds ih =>
    have hd := hds d (by simp)
    rw [List.nodup_cons] at hnd
    obtain ⟨G1, hG1, s1⟩ := haloRound_spec h hg hw F hd
    obtain ⟨G, hG, s2⟩ := ih (fun x hx => hds x (by simp [hx])) hnd.2 G1
    refine ⟨G, by simp [foldRounds, hG1, hG], fun r i hi => ?_⟩
    obtain ⟨a1, a2, a3⟩ := s1 r i hi
    obtain ⟨b1, b2, b3⟩ := s2 r i hi
    have hneg : ∀ {x y : Direction}, neg x = y ↔ x = neg y := by
      intro x y; constructor
      · rintro rfl; rw [neg_neg']
      · rintro rfl; rw [neg_neg']
    refine ⟨fun h1 => ?_, fun h1 => ?_, fun h1 h2 => ?_⟩
    · simp only [List.mem_cons, not_or] at h1
      rw [b1 h1.2, a1 (mt hneg.2 h1.1)]
    · rw [b2 h1]
      by_cases hc : sideOf m ng r i = neg d
      · exact a2 hc (hc ▸ h1)
      · exact a1 hc
    · rcases List.mem_cons.1 h1 with h1 | h1
      · have hc := hneg.1 h1
        obtain ⟨q, j, k1, k2, k3⟩ := a3 hc (hc ▸ h2)
        exact ⟨q, j, k1, k2, by rw [b1 (h1 ▸ hnd.1), k3]⟩
      · obtain ⟨q, j, k1, k2, k3⟩ := b3 h1 h2
        refine ⟨q, j, k1, k2, ?_⟩
        rw [k3]
        refine (s1 q j (active_inArray k1)).1 fun hc => ?_
        obtain ⟨t, ht, _⟩ := id k1
        obtain ⟨Q, hq, _⟩ := h.getRec ht
        have hz := active_side hq k1
        obtain ⟨x, hx, hx0⟩ := hd.2.2
        have := hz (-x) (by rw [hc]; simpa [neg] using hx)
        omega

/-- an active cell is determined by its global position -/
theorem active_image_unique (h : Built m dN) {ng r q : Nat} {i j : List Int}
    (hi : Active m ng r i) (hj : Active m ng q j)
    (hp : globalPos m (dN.map List.sum) ng r i = globalPos m (dN.map List.sum) ng q j) :
    r = q ∧ i = j := by
  obtain ⟨s, hs, _⟩ := id hi
  obtain ⟨R, hr, _⟩ := h.getRec hs
  obtain ⟨t, ht, _⟩ := id hj
  obtain ⟨Q, hq, _⟩ := h.getRec ht
  obtain ⟨hil, hia⟩ := (active_iff hr ng i).1 hi
  obtain ⟨hjl, hja⟩ := (active_iff hq ng j).1 hj
  have hl := hr.len; have hl' := hq.len
  have hp := (globalPos_eq_iff hr hq ng hil hjl).1 hp
  have key : ∀ a (h : a < dN.length) (h1 : a < R.length) (h2 : a < Q.length) (h3 : a < i.length)
      (h4 : a < j.length), R[a] = Q[a] ∧ i[a] = j[a] := fun a h h1 h2 h3 h4 =>
    active_unique (hr.mem a h h1) (hq.mem a h h2) (hia a h1 h3) (hja a h2 h4) (hp a h h1 h2 h3 h4)
  have hRQ : R = Q := List.ext_getElem (by omega) fun a h1 h2 =>
    (key a (by omega) h1 h2 (by omega) (by omega)).1
  subst hRQ
  exact ⟨h.rec_inj hr hq, List.ext_getElem (by omega) fun a h1 h2 =>
    (key a (by omega) (by omega) (by omega) h1 h2).2⟩

/-! ## C14 -/

/-- **C14.** In 1, 2 and 3 dimensions, for every decomposition in which no subdomain is narrower than
the ghost depth, every admissible set of boundary conditions and every field: the halo exchange
succeeds; it leaves all active cells as they are; a ghost cell beyond a wall is left as it is; and
every other ghost cell (face, edge or corner) afterwards holds the value of the one active cell, in
whatever subdomain, that has the same position in the global periodic box. -/
theorem C14_halo_exchange {α : Type} (h : Built m dN) (hg : GoodBCs m)
    (h1 : 1 ≤ dN.length) (h3 : dN.length ≤ 3) {ng : Nat} (hw : Wide dN ng) (F : Fields α) :
    ∃ G, communicateFields m ng F = .ok G ∧
      (∀ r i, Active m ng r i → G r i = F r i) ∧
      (∀ r i, InArray m ng r i → IsWall m r (sideOf m ng r i) → G r i = F r i) ∧
      (∀ r i, InArray m ng r i → ¬ Active m ng r i → ¬ IsWall m r (sideOf m ng r i) →
        ∃! c : Nat × List Int, (Active m ng c.1 c.2 ∧ globalPos m (dN.map List.sum) ng r i =
          globalPos m (dN.map List.sum) ng c.1 c.2) ∧ G r i = F c.1 c.2) := by
  have hcl : m.counts.length = dN.length := by rw [h.counts]; simp [Decomp.counts]
  obtain ⟨t1, t2, _⟩ := C07_direction_tables dN.length h1 h3
  obtain ⟨G, hG, hs⟩ := foldHalo_spec h hg hw (allDirs dN.length) (fun d hd => (t1 d).1 hd) t2 F
  refine ⟨G, by rw [communicateFields, hcl]; exact hG, ?_, fun r i hi => (hs r i hi).2.1, ?_⟩
  · intro r i hi
    refine (hs r i (active_inArray hi)).1 fun hc => ?_
    obtain ⟨s, hs', _⟩ := id hi
    obtain ⟨R, hr, _⟩ := h.getRec hs'
    obtain ⟨_, _, x, hx, hx0⟩ := (t1 _).1 hc
    simp only [neg, List.mem_map] at hx
    obtain ⟨y, hy, rfl⟩ := hx
    exact hx0 (by rw [active_side hr hi y hy]; rfl)
  · intro r i hi hna hnw
    obtain ⟨s, hs', _⟩ := id hi
    obtain ⟨R, hr, _⟩ := h.getRec hs'
    have hdir : neg (sideOf m ng r i) ∈ allDirs dN.length := by
      rw [t1]
      obtain ⟨hil, hia⟩ := (inArray_iff hr ng i).1 hi
      obtain ⟨hsl, hsa⟩ := sideOf_get hr ng hil
      have hl := hr.len
      have hsg : ∀ x ∈ sideOf m ng r i, x = -1 ∨ x = 0 ∨ x = 1 := by
        intro x hx
        obtain ⟨a, ha, rfl⟩ := List.getElem_of_mem hx
        rw [hsa a ha (by omega) (by omega)]; split_ifs <;> simp
      refine ⟨by simpa [neg] using hsl, Signs.neg hsg, ?_⟩
      by_contra hc
      push Not at hc
      apply hna
      refine (active_iff hr ng i).2 ⟨hil, fun a h1 h2 => ?_⟩
      have ha : a < (sideOf m ng r i).length := by omega
      have := hc (-(sideOf m ng r i)[a]) (by simp [neg])
      rw [hsa a ha h1 h2] at this
      have := hia a h1 h2
      split_ifs at * <;> omega
    obtain ⟨q, j, k1, k2, k3⟩ := (hs r i hi).2.2 hdir hnw
    refine ⟨(q, j), ⟨⟨k1, k2⟩, k3⟩, ?_⟩
    rintro ⟨q', j'⟩ ⟨⟨k1', k2'⟩, _⟩
    obtain ⟨rfl, rfl⟩ := active_image_unique h k1' k1 (k2'.symm.trans k2)
    rfl

end Entity.Topology
