import Verif.Lemmas.Topology
import Verif.Model.Rounds
import Mathlib.Algebra.BigOperators.Intervals
import Mathlib.Algebra.Order.BigOperators.Group.Finset

/-!
# C04 neighbours, C05 matching sends and receives, C06 corners of non-periodic walls
-/

namespace Entity.Topology

open Entity Entity.Decomp Entity.Dir

/-! ## C04 -/

/-- Specification: along one axis of `N` cells, box `t = (offset, size)` is the neighbour of box `s`
in direction `v`: the same box if `v = 0`, starting where `s` ends if `v = 1`, ending where `s`
starts if `v = -1` (modulo `N`, i.e. around a periodic axis). -/
def AdjAxis (N : Nat) (v : Int) (s t : Nat × Nat) : Prop :=
  (v = 0 → t = s) ∧ (v = 1 → (s.1 + s.2) % N = t.1) ∧ (v = -1 → (t.1 + t.2) % N = s.1)

/-- Specification: box of `t` adjacent to box of `s` in direction `d` on a grid of `N` cells. -/
def Adjacent (N : List Nat) (d : Direction) (s t : Subdomain) : Prop :=
  List.Forall₂ (fun (x : (Nat × Nat) × (Nat × Nat)) (y : Int × Nat) => AdjAxis y.2 y.1 x.1 x.2)
    ((s.offsetNcells.zip s.ncells).zip (t.offsetNcells.zip t.ncells)) (d.zip N)

theorem axisRecs_next {o k : Nat} {d : List Nat} {r s : AxisRec} (hr : r ∈ axisRecs o k d)
    (hs : s ∈ axisRecs o k d) (h : s.dom = r.dom + 1) : s.off = r.off + r.n := by
  induction d generalizing o k with
  | nil => simp [axisRecs] at hr
  | cons x xs ih =>
    simp only [axisRecs, List.mem_cons] at hr hs
    rcases hr with rfl | hr <;> rcases hs with rfl | hs
    · simp at h
    · cases xs with
      | nil => simp [axisRecs] at hs
      | cons y ys =>
        simp only [axisRecs, List.mem_cons] at hs
        rcases hs with rfl | hs
        · rfl
        · have := axisRecs_bounds hs; simp only at h; omega
    · have := axisRecs_bounds hr; simp only at h; omega
    · exact ih hr hs

theorem axisRecs_first {o k : Nat} {d : List Nat} {r : AxisRec} (hr : r ∈ axisRecs o k d)
    (h : r.dom = k) : r.off = o := by
  cases d with
  | nil => simp [axisRecs] at hr
  | cons x xs =>
    simp only [axisRecs, List.mem_cons] at hr
    rcases hr with rfl | hr
    · rfl
    · have := axisRecs_bounds hr; omega

theorem axisRecs_last {o k : Nat} {d : List Nat} {r : AxisRec} (hr : r ∈ axisRecs o k d)
    (h : r.dom + 1 = k + d.length) : r.off + r.n = o + d.sum := by
  induction d generalizing o k with
  | nil => simp [axisRecs] at hr
  | cons x xs ih =>
    simp only [axisRecs, List.mem_cons] at hr
    rcases hr with rfl | hr
    · cases xs with
      | nil => simp
      | cons y ys => simp at h
    · rw [ih hr (by simp at h; omega)]; simp; omega

theorem axisRecs_pos {o k : Nat} {d : List Nat} (hd : ∀ x ∈ d, 0 < x) {r : AxisRec}
    (hr : r ∈ axisRecs o k d) : 0 < r.n := by
  induction d generalizing o k with
  | nil => simp [axisRecs] at hr
  | cons x xs ih =>
    simp only [axisRecs, List.mem_cons] at hr
    rcases hr with rfl | hr
    · exact hd x (by simp)
    · exact ih (fun y hy => hd y (by simp [hy])) hr

theorem adjAxis_of {d : List Nat} (hd : ∀ x ∈ d, 0 < x) {r s : AxisRec}
    (hr : r ∈ axisRecs 0 0 d) (hs : s ∈ axisRecs 0 0 d) {v : Int} (hv : v = -1 ∨ v = 0 ∨ v = 1)
    (h : s.dom = nbr1 d.length r.dom v) : AdjAxis d.sum v (r.off, r.n) (s.off, s.n) := by
  have br := axisRecs_bounds hr
  have bs := axisRecs_bounds hs
  have pr := axisRecs_pos hd hr
  have ps := axisRecs_pos hd hs
  rw [nbr1] at h
  rcases hv with rfl | rfl | rfl
  · refine ⟨fun h => by omega, fun h => by omega, fun _ => ?_⟩
    simp only
    by_cases h0 : r.dom = 0
    · simp only [h0, and_self, if_true] at h
      rw [axisRecs_last hs (by omega), axisRecs_first hr h0]; simp
    · rw [if_neg (by omega), if_neg (by omega)] at h
      rw [← axisRecs_next hs hr (by omega)]
      exact Nat.mod_eq_of_lt (by omega)
  · refine ⟨fun _ => ?_, fun h => by omega, fun h => by omega⟩
    rw [if_neg (by omega), if_neg (by omega)] at h
    rw [axisRecs_dom_inj hs hr (by omega)]
  · refine ⟨fun h => by omega, fun _ => ?_, fun h => by omega⟩
    simp only
    rw [if_neg (by omega)] at h
    by_cases h0 : r.dom = d.length - 1
    · rw [if_pos ⟨rfl, h0⟩] at h
      rw [axisRecs_last hr (by omega), axisRecs_first hs h]; simp
    · rw [if_neg (by omega)] at h
      rw [← axisRecs_next hr hs (by omega)]
      exact Nat.mod_eq_of_lt (by omega)

theorem adjacent_of {dN : List (List Nat)} (hd : ∀ l ∈ dN, ∀ x ∈ l, 0 < x) {r s : List AxisRec}
    {i j : Nat} {d : Direction} (hr : List.Forall₂ (· ∈ ·) r (dN.map (axisRecs 0 0)))
    (hs : List.Forall₂ (· ∈ ·) s (dN.map (axisRecs 0 0))) (hl : d.length = dN.length)
    (hsg : Signs d)
    (h : s.map (·.dom) = nbrOffset (Decomp.counts dN) (r.map (·.dom)) d) :
    Adjacent (dN.map List.sum) d (mkSub i r) (mkSub j s) := by
  unfold Adjacent mkSub
  induction dN generalizing r s d with
  | nil => cases hr; cases hs; cases d <;> simp
  | cons l dN ih =>
    simp only [List.map_cons] at hr hs
    cases hr with
    | cons ha hr =>
      cases hs with
      | cons hb hs =>
        cases d with
        | nil => simp at hl
        | cons v d =>
          simp only [Decomp.counts, List.map_cons, nbrOffset, List.cons.injEq] at h
          simp only [List.map_cons, List.zip_cons_cons]
          refine .cons ?_ (ih (fun l hl => hd l (by simp [hl])) hr hs (by simpa using hl)
            (fun z hz => hsg z (by simp [hz])) h.2)
          exact adjAxis_of (hd l (by simp)) ha hb (hsg v (by simp)) h.1

/-- **C04.** For every decomposition with non-empty subdomains, every subdomain and every direction:
the neighbour search succeeds, finds the subdomain whose box is adjacent (periodically) in that
direction, and the neighbour's neighbour in the opposite direction is the subdomain itself. -/
theorem C04_neighbors (m : Meta) (dN : List (List Nat)) (h : Built m dN)
    (hpos : ∀ l ∈ dN, ∀ x ∈ l, 0 < x) (d : Direction) (hd : Signs d)
    (hl : d.length = dN.length) (i : Nat) (hi : i < m.doms.length) :
    ∃ j s t, neighborIdx m i d = .ok j ∧ neighborIdx m j (neg d) = .ok i ∧
      m.doms[i]? = some s ∧ m.doms[j]? = some t ∧ Adjacent (dN.map List.sum) d s t := by
  have hl' : d.length = m.counts.length := by rw [h.counts, hl]; simp [Decomp.counts]
  obtain ⟨p, hp, hg⟩ := h.at_of_lt hi
  obtain ⟨j, hj, hja⟩ := h.neighborIdx hp hd hl'
  obtain ⟨i', hi', hia⟩ := h.neighborIdx hja hd.neg (by simpa [neg] using hl')
  rw [nbrOffset_neg hg hd hl'] at hia
  obtain rfl := h.at_inj hia hp
  obtain ⟨s, hs, _, hsp⟩ := id hp
  obtain ⟨t, ht, _, htp⟩ := id hja
  refine ⟨j, s, t, hj, hi', hs, ht, ?_⟩
  rw [h.doms_eq, List.getElem?_mapIdx] at hs ht
  simp only [Option.map_eq_some_iff] at hs ht
  obtain ⟨a, ha, rfl⟩ := hs
  obtain ⟨b, hb, rfl⟩ := ht
  have hae := List.getElem?_eq_some_iff.1 ha
  have hbe := List.getElem?_eq_some_iff.1 hb
  apply adjacent_of hpos ((mem_tp _ _).1 (hae.2 ▸ List.getElem_mem hae.1))
    ((mem_tp _ _).1 (hbe.2 ▸ List.getElem_mem hbe.1)) hl hd
  rw [← h.counts]
  simp only [mkSub] at hsp htp
  rw [htp, hsp]

/-- a 2 × 3 decomposition used in the examples below; walls in x2, periodic in x1 -/
def exMeta : Meta where
  counts := [2, 3]
  doms := (createDomains 6 [[20, 20], [21, 20, 20]]).getD []
  bcs := [(.PERIODIC, .PERIODIC), (.CONDUCTOR, .MATCH)]

theorem exMeta_built : Built exMeta [[20, 20], [21, 20, 20]] :=
  ⟨by decide, rfl, by decide +kernel⟩

example : neighborIdx exMeta 0 [-1, 1] = .ok 3 ∧ neighborIdx exMeta 3 [1, -1] = .ok 0 := by
  decide +kernel

/-! ## C05 -/

/-- Specification: the global conditions of a run: one pair per dimension, each a real condition
(neither `SYNC` nor `INVALID`), periodic on both sides or on neither. -/
def GoodBCs (m : Meta) : Prop :=
  m.bcs.length = m.counts.length ∧ ∀ b ∈ m.bcs, GoodBC b

/-- closed form of `GetSendRecvRanks` -/
theorem sendRecv_eq (m : Meta) (dN : List (List Nat)) (h : Built m dN) (hb : GoodBCs m)
    (d : Direction) (hd : Signs d) (hl : d.length = dN.length) (hnz : ∃ x ∈ d, x ≠ 0)
    (i : Nat) (p : List Nat) (hp : At m i p) :
    ∃ jp jm, neighborIdx m i d = .ok jp ∧ neighborIdx m i (neg d) = .ok jm ∧
      At m jp (nbrOffset m.counts p d) ∧ At m jm (nbrOffset m.counts p (neg d)) ∧
      sendRecv m i d = .ok
        (if cls (corner m.counts p m.bcs d .INVALID) = .W then none else some jp,
         if cls (corner m.counts p m.bcs (neg d) .INVALID) = .W then none else some jm) := by
  have hl' : d.length = m.counts.length := by rw [h.counts, hl]; simp [Decomp.counts]
  have hln : (neg d).length = m.counts.length := by simpa [neg] using hl'
  have hg := h.inGrid hp
  have hnz' : ∃ x ∈ neg d, x ≠ 0 := by
    obtain ⟨x, hx, h0⟩ := hnz
    exact ⟨-x, by simpa [neg] using hx, by omega⟩
  obtain ⟨jp, hjp, hjpa⟩ := h.neighborIdx hp hd hl'
  obtain ⟨jm, hjm, hjma⟩ := h.neighborIdx hp hd.neg hln
  refine ⟨jp, jm, hjp, hjm, hjpa, hjma, ?_⟩
  have hbi : ∀ e ∈ m.bcs, e.1 ≠ .INVALID ∧ e.2 ≠ .INVALID :=
    fun e he => ⟨(hb.2 e he).2.2.1, (hb.2 e he).2.2.2.1⟩
  have e1 := h.dirBC hp hd hl' hb.1 hbi hnz
  have e2 := h.dirBC hp hd.neg hln hb.1 hbi hnz'
  have hpn := corner_periodic_neg (acc := .INVALID) hb.2 hg hb.1 hl' hd
  have hpp := corner_periodic_nbr (acc := .INVALID) hg hb.1 hl' hd
  have hpm := corner_periodic_nbr (acc := .INVALID) hg hb.1 hln hd.neg
  have hsp := corner_sync_nbr (acc := .INVALID) hb.2 hg hb.1 hl' hd (by decide)
  have hsm := corner_sync_nbr (acc := .INVALID) hb.2 hg hb.1 hln hd.neg (by decide)
  have hself : ∀ {j q}, At m j q → (j = i ↔ q = p) := by
    intro j q hj
    constructor
    · rintro rfl; exact hj.unique hp
    · rintro rfl; exact h.at_inj hj hp
  unfold sendRecv
  rw [e1, e2, hjp, hjm]
  simp only [Outcome.bind_ok, Outcome.pure_eq]
  generalize corner m.counts p m.bcs d .INVALID = bp at *
  generalize corner m.counts p m.bcs (neg d) .INVALID = bm at *
  by_cases hP : bp = .PERIODIC
  · have hi1 : jp = i := (hself hjpa).2 (hpp hP)
    have hi2 : jm = i := (hself hjma).2 (hpm (hpn.2 hP))
    simp [hP, hpn.2 hP, hi1, hi2, cls]
  · have hP' : bm ≠ .PERIODIC := fun hh => hP (hpn.1 hh)
    by_cases hS : bp = .SYNC
    · have hi1 : jp ≠ i := fun hh => hsp hS ((hself hjpa).1 hh)
      by_cases hS' : bm = .SYNC
      · have hi2 : jm ≠ i := fun hh => hsm hS' ((hself hjma).1 hh)
        simp [hS, hS', hi1, hi2, cls]
      · have : cls bm = .W := by cases bm <;> simp_all [cls]
        simp [hS, hS', hi1, this]
        simp [cls]
    · have hW : cls bp = .W := by cases bp <;> simp_all [cls]
      by_cases hS' : bm = .SYNC
      · have hi2 : jm ≠ i := fun hh => hsm hS' ((hself hjma).1 hh)
        simp [hP, hS, hS', hi2, hW]
        simp [cls]
      · have : cls bm = .W := by cases bm <;> simp_all [cls]
        simp [hP, hS, hS', hW, this]

/-- **C05 (matching).** In every direction, for every decomposition and every admissible set of
boundary conditions: the partner search never raises an error, partners are existing subdomains, and
subdomain `i` sends to `t` exactly when `t` receives from `i`. -/
theorem C05_sends_match_receives (m : Meta) (dN : List (List Nat)) (h : Built m dN)
    (hb : GoodBCs m) (d : Direction) (hd : Signs d) (hl : d.length = dN.length)
    (hnz : ∃ x ∈ d, x ≠ 0) :
    (∀ i < m.doms.length, ∃ a b, sendRecv m i d = .ok (a, b) ∧
      (∀ t, a = some t → t < m.doms.length) ∧ (∀ t, b = some t → t < m.doms.length)) ∧
    (∀ i < m.doms.length, ∀ t < m.doms.length, ∀ a b a' b',
      sendRecv m i d = .ok (a, b) → sendRecv m t d = .ok (a', b') →
      (a = some t ↔ b' = some i)) := by
  have hl' : d.length = m.counts.length := by rw [h.counts, hl]; simp [Decomp.counts]
  have hln : (neg d).length = m.counts.length := by simpa [neg] using hl'
  constructor
  · intro i hi
    obtain ⟨p, hp, hg⟩ := h.at_of_lt hi
    obtain ⟨jp, jm, _, _, h1, h2, he⟩ := sendRecv_eq m dN h hb d hd hl hnz i p hp
    refine ⟨_, _, he, ?_, ?_⟩
    · intro t ht
      split at ht
      · simp at ht
      · simp only [Option.some.injEq] at ht; subst ht; exact h1.lt
    · intro t ht
      split at ht
      · simp at ht
      · simp only [Option.some.injEq] at ht; subst ht; exact h2.lt
  · intro i hi t ht a b a' b' h1 h2
    obtain ⟨p, hp, hgp⟩ := h.at_of_lt hi
    obtain ⟨q, hq, hgq⟩ := h.at_of_lt ht
    obtain ⟨jp, jm, _, _, ajp, ajm, hei⟩ := sendRecv_eq m dN h hb d hd hl hnz i p hp
    obtain ⟨kp, km, _, _, akp, akm, het⟩ := sendRecv_eq m dN h hb d hd hl hnz t q hq
    rw [hei] at h1
    rw [het] at h2
    simp only [Outcome.ok.injEq, Prod.mk.injEq] at h1 h2
    rw [← h1.1, ← h2.2]
    have hjt : jp = t ↔ nbrOffset m.counts p d = q :=
      ⟨fun e => by subst e; exact ajp.unique hq, fun e => by rw [e] at ajp; exact h.at_inj ajp hq⟩
    have hki : km = i ↔ nbrOffset m.counts q (neg d) = p :=
      ⟨fun e => by subst e; exact akm.unique hp, fun e => by rw [e] at akm; exact h.at_inj akm hp⟩
    have hpq : nbrOffset m.counts p d = q ↔ nbrOffset m.counts q (neg d) = p := by
      constructor
      · rintro rfl; exact nbrOffset_neg hgp hd hl'
      · rintro rfl
        have := nbrOffset_neg hgq hd.neg hln
        rwa [neg_neg'] at this
    by_cases hc : nbrOffset m.counts p d = q
    · have hcl := cls_corner_nbr (acc := .INVALID) (acc' := .INVALID) hb.2 hgp hb.1 hl' hd rfl
      rw [hc] at hcl
      rw [hcl]
      have e1 := hjt.2 hc
      have e2 := hki.2 (hpq.1 hc)
      split <;> simp [e1, e2]
    · have e1 : jp ≠ t := fun e => hc (hjt.1 e)
      have e2 : km ≠ i := fun e => hc (hpq.2 (hki.1 e))
      constructor
      · intro hh; split at hh <;> simp at hh; exact absurd hh e1
      · intro hh; split at hh <;> simp at hh; exact absurd hh e2

theorem slice_sizes {dN : List (List Nat)} (sync : Bool) (ng : Nat) {N : List Nat}
    {d : Direction} {s t : Subdomain} (h : Adjacent N d s t) (hd : Signs d)
    (l1 : s.offsetNcells.length = d.length) (l2 : s.ncells.length = d.length)
    (l3 : t.offsetNcells.length = d.length) (l4 : t.ncells.length = d.length)
    (l5 : N.length = d.length) :
    (sendSlice sync ng s.ncells d).map (fun r => r.2 - r.1) =
      (recvSlice sync ng t.ncells d).map (fun r => r.2 - r.1) := by
  obtain ⟨_, _, so, sn⟩ := s
  obtain ⟨_, _, t0, tn⟩ := t
  unfold Adjacent at h
  simp only at h l1 l2 l3 l4 ⊢
  induction d generalizing so sn t0 tn N with
  | nil => simp [sendSlice, recvSlice]
  | cons v d ih =>
    cases so with
    | nil => simp at l1
    | cons so1 so =>
      cases sn with
      | nil => simp at l2
      | cons sn1 sn =>
        cases t0 with
        | nil => simp at l3
        | cons t01 t0 =>
          cases tn with
          | nil => simp at l4
          | cons tn1 tn =>
            cases N with
            | nil => simp at l5
            | cons N1 N =>
              simp only [List.zip_cons_cons] at h
              cases h with
              | cons h1 h =>
                have ih' := ih (fun z hz => hd z (by simp [hz])) (by simpa using l5) so sn
                  (by simpa using l1) (by simpa using l2) t0 tn (by simpa using l3)
                  (by simpa using l4) h
                simp only [sendSlice, recvSlice] at ih'
                simp only [sendSlice, recvSlice, List.zipWith_cons_cons, List.map_cons,
                  List.cons.injEq]
                refine ⟨?_, ih'⟩
                have hv := hd v (by simp)
                rcases hv with rfl | rfl | rfl
                · cases sync <;> simp [sendRange, recvRange] <;> omega
                · have := h1.1 rfl
                  simp only [Prod.mk.injEq] at this
                  cases sync <;> simp [sendRange, recvRange, this.2]
                · cases sync <;> simp [sendRange, recvRange] <;> omega

/-- **C05 (message sizes).** Whenever `i` sends to `t`, the slab that `i` sends and the slab that
`t` receives have the same extent in every dimension, in the halo exchange (`sync = false`) and in
the current synchronisation (`sync = true`), for every ghost depth. -/
theorem C05_message_sizes (m : Meta) (dN : List (List Nat)) (h : Built m dN)
    (hb : GoodBCs m) (hpos : ∀ l ∈ dN, ∀ x ∈ l, 0 < x)
    (d : Direction) (hd : Signs d) (hl : d.length = dN.length)
    (hnz : ∃ x ∈ d, x ≠ 0) (sync : Bool) (ng i t : Nat) (b : Option Nat) (s u : Subdomain)
    (hi : m.doms[i]? = some s) (ht : m.doms[t]? = some u) (hs : sendRecv m i d = .ok (some t, b)) :
    (sendSlice sync ng s.ncells d).map (fun r => r.2 - r.1) =
      (recvSlice sync ng u.ncells d).map (fun r => r.2 - r.1) := by
  have hilt : i < m.doms.length := (List.getElem?_eq_some_iff.1 hi).1
  obtain ⟨p, hp, _⟩ := h.at_of_lt hilt
  obtain ⟨jp, jm, hjp, _, _, _, he⟩ := sendRecv_eq m dN h hb d hd hl hnz i p hp
  rw [he] at hs
  simp only [Outcome.ok.injEq, Prod.mk.injEq] at hs
  have hjt : jp = t := by
    have := hs.1
    split at this
    · simp at this
    · simpa using this
  subst hjt
  obtain ⟨j, s', t', hj, _, hs', ht', hadj⟩ := C04_neighbors m dN h hpos d hd hl i hilt
  rw [hjp] at hj; cases hj
  rw [hi] at hs'; cases hs'
  rw [ht] at ht'; cases ht'
  have hlen : ∀ (k : Nat) (x : Subdomain), m.doms[k]? = some x →
      x.offsetNcells.length = d.length ∧ x.ncells.length = d.length := by
    intro k x hx
    rw [h.doms_eq, List.getElem?_mapIdx] at hx
    simp only [Option.map_eq_some_iff] at hx
    obtain ⟨a, ha, rfl⟩ := hx
    have hae := List.getElem?_eq_some_iff.1 ha
    have := List.Forall₂.length_eq ((mem_tp _ _).1 (hae.2 ▸ List.getElem_mem hae.1))
    simp only [List.length_map] at this
    simp [mkSub, this, hl]
  exact slice_sizes (dN := dN) sync ng hadj hd (hlen i s hi).1 (hlen i s hi).2 (hlen _ u ht).1
    (hlen _ u ht).2 (by simp [hl])

example : GoodBCs exMeta ∧ sendRecv exMeta 0 [-1, 0] = .ok (some 1, some 1) ∧
    sendRecv exMeta 0 [0, -1] = .ok (none, some 2) ∧
    sendRecv exMeta 2 [0, -1] = .ok (some 0, some 4) := by
  refine ⟨⟨rfl, by decide⟩, ?_⟩
  decide +kernel

end Entity.Topology

namespace Entity.Rounds

/-! ### No deadlock, no mix-up of messages -/

/-- every send has its receive in the same round -/
def Matched (n : Nat) (P : Prog) : Prop :=
  ∀ k < P.K, ∀ r < n, ∀ t < n, P.send k r = some t ↔ P.recv k t = some r

/-- partners are ranks `< n` -/
def InRange (n : Nat) (P : Prog) : Prop :=
  ∀ k < P.K, ∀ r < n, (∀ t, P.send k r = some t → t < n) ∧ (∀ t, P.recv k r = some t → t < n)

def sdone (σ : State) (r k : Nat) : Prop := k < (σ r).round ∨ (k = (σ r).round ∧ (σ r).sent = true)
def rdone (σ : State) (r k : Nat) : Prop := k < (σ r).round ∨ (k = (σ r).round ∧ (σ r).recvd = true)

/-- invariant: a message has been sent iff it has been received -/
def Inv (n : Nat) (P : Prog) (σ : State) : Prop :=
  ∀ k < P.K, ∀ r < n, ∀ t < n, P.send k r = some t → (sdone σ r k ↔ rdone σ t k)

theorem same_round {n : Nat} {P : Prog} {σ : State} (hM : Matched n P) (hI : Inv n P σ)
    {r t : Nat} (hr : r < n) (ht : t < n) (hs : PendingSend P σ r t) (hv : PendingRecv P σ t r) :
    (σ r).round = (σ t).round := by
  obtain ⟨h1, h2, h3⟩ := hs
  obtain ⟨h4, h5, h6⟩ := hv
  have a := hI _ h1 r hr t ht h3
  have b := hI _ h4 r hr t ht ((hM _ h4 r hr t ht).2 h6)
  unfold sdone rdone at a b
  simp only [h2, h5, lt_irrefl, true_and, false_or, and_false, Bool.false_eq_true, or_false,
    false_iff, iff_false, not_or, not_and] at a b
  omega

theorem inv_reach {n : Nat} {P : Prog} (hM : Matched n P) {σ : State} (h : Reach n P σ) :
    Inv n P σ := by
  induction h with
  | init =>
    intro k hk r hr t ht hs
    simp [sdone, rdone, init]
  | @step σ σ' hre hst ih =>
    cases hst with
    | transfer r t hr ht hs hv =>
      have hsame := same_round hM ih hr ht hs hv
      intro k hk r' hr' t' ht' hsend
      have hold := ih k hk r' hr' t' ht' hsend
      have hround : ∀ x, (deliver σ r t x).round = (σ x).round := by
        intro x; simp only [deliver, upd]; split_ifs <;> simp_all
      have hsent : ∀ x, (deliver σ r t x).sent = (if x = r then true else (σ x).sent) := by
        intro x; simp only [deliver, upd]; split_ifs <;> simp_all
      have hrecv : ∀ x, (deliver σ r t x).recvd = (if x = t then true else (σ x).recvd) := by
        intro x; simp only [deliver, upd]; split_ifs <;> simp_all
      unfold sdone rdone at hold ⊢
      rw [hround, hround, hsent, hrecv]
      by_cases hkr : k = (σ r).round
      · have hkt : k = (σ t).round := by omega
        by_cases h1 : r' = r
        · subst h1
          have : t' = t := by
            have e := hs.2.2; rw [← hkr, hsend] at e; simpa using e
          subst this
          simp [← hkr, ← hkt]
        · have h2 : t' ≠ t := by
            rintro rfl
            have e := hv.2.2
            rw [← hkt] at e
            have e' := (hM k hk r' hr' t' ht').1 hsend
            rw [e] at e'; simp at e'; exact h1 e'.symm
          simpa [h1, h2] using hold
      · have hkt : k ≠ (σ t).round := by omega
        have e1 : (k = (σ r').round ∧ (if r' = r then true else (σ r').sent) = true) ↔
            (k = (σ r').round ∧ (σ r').sent = true) := by
          by_cases h1 : r' = r
          · subst h1; simp [hkr]
          · simp [h1]
        have e2 : (k = (σ t').round ∧ (if t' = t then true else (σ t').recvd) = true) ↔
            (k = (σ t').round ∧ (σ t').recvd = true) := by
          by_cases h1 : t' = t
          · subst h1; simp [hkt]
          · simp [h1]
        rw [e1, e2]; exact hold
    | advance r hr hkr hs hv =>
      intro k hk r' hr' t' ht' hsend
      have hold := ih k hk r' hr' t' ht' hsend
      have hS : sdone (upd σ r ⟨(σ r).round + 1, false, false⟩) r' k ↔ sdone σ r' k := by
        unfold sdone upd
        by_cases h1 : r' = r
        · subst h1
          simp only [if_true, Bool.false_eq_true, and_false, or_false]
          by_cases hkk : k = (σ r').round
          · have : (σ r').sent = true := by
              rcases hs with h | h
              · exact h
              · rw [← hkk, hsend] at h; simp at h
            simp [hkk, this]
          · constructor
            · intro h; left; omega
            · rintro (h | ⟨h, _⟩) <;> omega
        · simp [h1]
      have hR : rdone (upd σ r ⟨(σ r).round + 1, false, false⟩) t' k ↔ rdone σ t' k := by
        unfold rdone upd
        by_cases h1 : t' = r
        · subst h1
          simp only [if_true, Bool.false_eq_true, and_false, or_false]
          by_cases hkk : k = (σ t').round
          · have : (σ t').recvd = true := by
              rcases hv with h | h
              · exact h
              · have e' := (hM k hk r' hr' t' ht').1 hsend
                rw [← hkk, e'] at h; simp at h
            simp [hkk, this]
          · constructor
            · intro h; left; omega
            · rintro (h | ⟨h, _⟩) <;> omega
        · simp [h1]
      rw [hS, hR]; exact hold

theorem round_le {n : Nat} {P : Prog} {σ : State} (h : Reach n P σ) (r : Nat) :
    (σ r).round ≤ P.K := by
  induction h with
  | init => simp [init]
  | step _ hst ih =>
    cases hst with
    | transfer a b _ _ _ _ =>
      simp only [deliver, upd]
      split_ifs <;> simp_all
    | advance a _ _ _ _ =>
      simp only [upd]
      split_ifs
      · simp; omega
      · exact ih

/-- progress -/
theorem progress {n : Nat} {P : Prog} (hM : Matched n P) (hR : InRange n P) {σ : State}
    (h : Reach n P σ) (hnf : ∃ r < n, (σ r).round ≠ P.K) : ∃ σ', Step n P σ σ' := by
  have hI := inv_reach hM h
  -- a rank with the smallest round
  obtain ⟨r, hr, hmin⟩ : ∃ r < n, ∀ t < n, (σ r).round ≤ (σ t).round := by
    obtain ⟨r0, hr0, _⟩ := hnf
    have hne : (Finset.range n).Nonempty := ⟨r0, by simpa using hr0⟩
    obtain ⟨r, hr, hm⟩ := Finset.exists_min_image (Finset.range n) (fun r => (σ r).round) hne
    exact ⟨r, by simpa using hr, fun t ht => hm t (by simpa using ht)⟩
  have hk : (σ r).round < P.K := by
    obtain ⟨r0, hr0, hne⟩ := hnf
    have := hmin r0 hr0
    have := round_le h r0
    omega
  by_cases hs : (σ r).sent = true ∨ P.send (σ r).round r = none
  · by_cases hv : (σ r).recvd = true ∨ P.recv (σ r).round r = none
    · exact ⟨_, .advance r hr hk hs hv⟩
    · simp only [not_or, Bool.not_eq_true] at hv
      obtain ⟨t, ht⟩ := Option.ne_none_iff_exists'.1 hv.2
      have htn := (hR _ hk r hr).2 t ht
      have hsend := (hM _ hk t htn r hr).2 ht
      have hi := hI _ hk t htn r hr hsend
      have hm := hmin t htn
      unfold sdone rdone at hi
      simp only [hv.1, lt_irrefl, Bool.false_eq_true, and_false, or_false, iff_false, not_or,
        not_and] at hi
      have hround : (σ t).round = (σ r).round := by omega
      refine ⟨_, .transfer t r htn hr ⟨by omega, ?_, by rw [hround]; exact hsend⟩ ⟨hk, hv.1, ht⟩⟩
      have := hi.2 hround.symm
      simpa using this
  · simp only [not_or, Bool.not_eq_true] at hs
    obtain ⟨t, ht⟩ := Option.ne_none_iff_exists'.1 hs.2
    have htn := (hR _ hk r hr).1 t ht
    have hrecv := (hM _ hk r hr t htn).1 ht
    have hi := hI _ hk r hr t htn ht
    have hm := hmin t htn
    unfold sdone rdone at hi
    simp only [hs.1, lt_irrefl, Bool.false_eq_true, and_false, or_false, false_iff, not_or,
      not_and] at hi
    have hround : (σ t).round = (σ r).round := by omega
    refine ⟨_, .transfer r t hr htn ⟨hk, hs.1, ht⟩ ⟨by omega, ?_, by rw [hround]; exact hrecv⟩⟩
    have := hi.2 hround.symm
    simpa using this

/-- amount of work done by one rank -/
def work1 (s : RankState) : Nat := 3 * s.round + s.sent.toNat + s.recvd.toNat

def work (n : Nat) (σ : State) : Nat := ∑ r ∈ Finset.range n, work1 (σ r)

theorem work_step {n : Nat} {P : Prog} {σ σ' : State} (h : Step n P σ σ') :
    work n σ < work n σ' := by
  unfold work
  cases h with
  | transfer r t hr ht hs hv =>
    have hw : ∀ x, work1 (deliver σ r t x) = 3 * (σ x).round +
        (if x = r then true else (σ x).sent).toNat +
        (if x = t then true else (σ x).recvd).toNat := by
      intro x
      by_cases h1 : x = t
      · subst h1
        by_cases h2 : x = r <;> simp [deliver, upd, work1, h2]
      · by_cases h2 : x = r
        · subst h2; simp [deliver, upd, work1, h1]
        · simp [deliver, upd, work1, h1, h2]
    apply Finset.sum_lt_sum
    · intro x _
      rw [hw]
      unfold work1
      have h1 := Bool.toNat_le (σ x).sent
      have h2 := Bool.toNat_le (σ x).recvd
      split_ifs <;> simp <;> omega
    · refine ⟨r, by simpa using hr, ?_⟩
      have h1 := hs.2.1
      have h2 := Bool.toNat_le (σ r).recvd
      rw [hw]
      unfold work1
      simp only [h1, if_true, Bool.toNat_true, Bool.toNat_false]
      split_ifs <;> simp <;> omega
  | advance r hr hk hs hv =>
    apply Finset.sum_lt_sum
    · intro x _
      simp only [upd, work1]
      split_ifs with hx
      · subst hx
        cases (σ x).sent <;> cases (σ x).recvd <;> simp <;> omega
      · rfl
    · refine ⟨r, by simpa using hr, ?_⟩
      simp only [upd, work1, if_true]
      cases (σ r).sent <;> cases (σ r).recvd <;> simp <;> omega

theorem work_le {n : Nat} {P : Prog} {σ : State} (h : Reach n P σ) : work n σ ≤ n * (3 * P.K + 2) := by
  unfold work
  have : ∀ r ∈ Finset.range n, work1 (σ r) ≤ 3 * P.K + 2 := by
    intro r _
    have := round_le h r
    unfold work1
    cases (σ r).sent <;> cases (σ r).recvd <;> simp <;> omega
  have := Finset.sum_le_card_nsmul _ _ _ this
  simpa using this

/-- `σ` reaches `σ'` in exactly `k` steps. -/
inductive Steps (n : Nat) (P : Prog) : Nat → State → State → Prop
  | refl (σ : State) : Steps n P 0 σ σ
  | tail {k : Nat} {σ σ' σ'' : State} : Steps n P k σ σ' → Step n P σ' σ'' → Steps n P (k + 1) σ σ''

theorem steps_reach {n : Nat} {P : Prog} {k : Nat} {σ : State} (h : Steps n P k init σ) :
    Reach n P σ := by
  generalize hi : init = σ0 at h
  induction h with
  | refl => subst hi; exact .init
  | tail _ hst ih => exact .step (ih hi) hst

theorem steps_work {n : Nat} {P : Prog} {k : Nat} {σ σ' : State} (h : Steps n P k σ σ') :
    work n σ + k ≤ work n σ' := by
  induction h with
  | refl => simp
  | tail _ hst ih => have := work_step hst; omega

end Entity.Rounds

namespace Entity.Topology

open Entity Entity.Decomp Entity.Dir Entity.Rounds

/-- The program every rank runs in one communication phase: for each direction of the list `dirs`,
in order, exchange with the partners computed by `GetSendRecvRanks`
(metadomain_comm.cpp:242-364). -/
def phase (m : Meta) (dirs : List Direction) : Prog where
  K := dirs.length
  send k r := match dirs[k]? with
    | none => none
    | some d => match sendRecv m r d with
      | .ok (a, _) => a
      | _ => none
  recv k r := match dirs[k]? with
    | none => none
    | some d => match sendRecv m r d with
      | .ok (_, b) => b
      | _ => none

theorem phase_matched (m : Meta) (dN : List (List Nat)) (h : Built m dN)
    (hb : GoodBCs m) (dirs : List Direction)
    (hdirs : ∀ d ∈ dirs, Signs d ∧ d.length = dN.length ∧ ∃ x ∈ d, x ≠ 0) :
    Matched m.doms.length (phase m dirs) ∧ InRange m.doms.length (phase m dirs) := by
  constructor
  · intro k hk r hr t ht
    simp only [phase] at hk ⊢
    rw [List.getElem?_eq_getElem hk]
    simp only
    obtain ⟨h1, h2, h3⟩ := hdirs _ (List.getElem_mem hk)
    obtain ⟨hA, hB⟩ := C05_sends_match_receives m dN h hb _ h1 h2 h3
    obtain ⟨a, b, e, _⟩ := hA r hr
    obtain ⟨a', b', e', _⟩ := hA t ht
    rw [e, e']
    exact hB r hr t ht a b a' b' e e'
  · intro k hk r hr
    simp only [phase] at hk ⊢
    rw [List.getElem?_eq_getElem hk]
    simp only
    obtain ⟨h1, h2, h3⟩ := hdirs _ (List.getElem_mem hk)
    obtain ⟨hA, _⟩ := C05_sends_match_receives m dN h hb _ h1 h2 h3
    obtain ⟨a, b, e, ha, hb⟩ := hA r hr
    rw [e]
    exact ⟨ha, hb⟩

/-- **C05 (no deadlock).** All ranks run the same list of directions with blocking, unbuffered
exchanges.  For every decomposition, admissible boundary conditions and every interleaving:
- every run is finite (at most `ranks * (3 * directions + 2)` steps);
- a run that cannot continue has every rank past its last exchange (no deadlock);
- whenever a message is delivered, sender and receiver are in the same direction, so messages of
  different directions are never mixed up although they carry the same tag. -/
theorem C05_no_deadlock (m : Meta) (dN : List (List Nat)) (h : Built m dN)
    (hb : GoodBCs m) (dirs : List Direction)
    (hdirs : ∀ d ∈ dirs, Signs d ∧ d.length = dN.length ∧ ∃ x ∈ d, x ≠ 0)
    (k : Nat) (σ : State) (hrun : Steps m.doms.length (phase m dirs) k init σ) :
    k ≤ m.doms.length * (3 * dirs.length + 2) ∧
    ((¬ ∃ σ', Step m.doms.length (phase m dirs) σ σ') →
      ∀ r < m.doms.length, (σ r).round = dirs.length) ∧
    (∀ r < m.doms.length, ∀ t < m.doms.length, PendingSend (phase m dirs) σ r t →
      PendingRecv (phase m dirs) σ t r → (σ r).round = (σ t).round) := by
  obtain ⟨hM, hR⟩ := phase_matched m dN h hb dirs hdirs
  have hre := steps_reach hrun
  refine ⟨?_, ?_, ?_⟩
  · have h1 := steps_work hrun
    have h2 := work_le hre
    simp only [phase] at h2
    omega
  · intro hstuck r hr
    by_contra hne
    exact hstuck (progress hM hR hre ⟨r, hr, hne⟩)
  · intro r hr t ht h1 h2
    exact same_round hM (inv_reach hM hre) hr ht h1 h2

example : ∀ d ∈ allDirs 2, Signs d ∧ d.length = [[20, 20], [21, 20, 20]].length ∧
    ∃ x ∈ d, x ≠ 0 := by
  simp only [allDirs, all2, Signs]; decide

/-! ## C06 -/

/-- Specification: along the axes where `d` is non-zero, the subdomain at position `p` touches no
non-periodic wall of the global grid in that direction. -/
def NoWall : List Nat → List Nat → List (BC × BC) → Direction → Prop
  | n :: ns, p :: ps, b :: bs, d :: ds =>
    ¬ (d = -1 ∧ p = 0 ∧ b.1 ≠ .PERIODIC) ∧ ¬ (d = 1 ∧ p = n - 1 ∧ b.2 ≠ .PERIODIC) ∧
      NoWall ns ps bs ds
  | _, _, _, _ => True

/-- the walls of a direction are seen by the loop only if every earlier axis is periodic with one
domain or a wall too: the first entry decides -/
def FirstDecides : List Nat → List Nat → List (BC × BC) → Direction → Prop
  | n :: ns, p :: ps, b :: bs, d :: ds =>
    (d ≠ 0 → axisBC n p b d = .SYNC → NoWall ns ps bs ds) ∧ FirstDecides ns ps bs ds
  | _, _, _, _ => True

theorem axis_wall {n p : Nat} {b : BC × BC} {v : Int} (hb : GoodBC b) (hp : p < n)
    (hv : v = -1 ∨ v = 1) : cls (axisBC n p b v) = .W ↔
      (v = -1 ∧ p = 0 ∧ b.1 ≠ .PERIODIC) ∨ (v = 1 ∧ p = n - 1 ∧ b.2 ≠ .PERIODIC) := by
  obtain ⟨b1, b2⟩ := b
  obtain ⟨h1, h2, h3, h4, h5⟩ := hb
  simp only at h1 h2 h3 h4 h5
  have hc : ∀ x : BC, x ≠ .SYNC → (cls x = .W ↔ x ≠ .PERIODIC) := by
    intro x; cases x <;> simp [cls]
  rcases hv with rfl | rfl
  · simp only [axisBC, if_true, true_and, show ¬ ((-1 : Int) = 1) by decide, false_and, or_false]
    by_cases h0 : p = 0
    · simp only [h0, if_true, true_and]
      split_ifs with h
      · simp [cls, h.2]
      · exact hc _ h1
    · simp [h0, cls]
  · simp only [axisBC, if_true, true_and, show ¬ ((1 : Int) = -1) by decide, false_and, false_or,
      if_false]
    by_cases h0 : p = n - 1
    · simp only [h0, if_true, true_and]
      split_ifs with h
      · simp [cls, h.2]
      · exact hc _ h2
    · simp [h0, cls]

theorem corner_wall {c p : List Nat} {b : List (BC × BC)} {d : Direction} {acc : BC}
    (hb : ∀ e ∈ b, GoodBC e) (hg : InGrid p c) (hbl : b.length = c.length)
    (hl : d.length = c.length) (hd : Signs d) (hf : FirstDecides c p b d)
    (hacc : acc = .PERIODIC ∨ ∃ x ∈ d, x ≠ 0) :
    cls (corner c p b d acc) = .W ↔ ¬ NoWall c p b d := by
  induction hg generalizing b d acc with
  | nil =>
    cases d with
    | nil => simp at hacc; simp [corner, hacc, cls, NoWall]
    | cons _ _ => simp at hl
  | @cons p n ps ns hx hg ih =>
    cases b with
    | nil => simp at hbl
    | cons b bs =>
      cases d with
      | nil => simp at hl
      | cons v ds =>
        have ih' := fun acc hf h => ih (b := bs) (d := ds) (acc := acc)
          (fun e he => hb e (by simp [he])) (by simpa using hbl) (by simpa using hl)
          (fun z hz => hd z (by simp [hz])) hf h
        simp only [FirstDecides] at hf
        simp only [corner, NoWall]
        by_cases hv : v = 0
        · have hacc' : acc = .PERIODIC ∨ ∃ x ∈ ds, x ≠ 0 := by
            rcases hacc with h | ⟨x, hx, h⟩
            · exact .inl h
            · simp only [List.mem_cons] at hx
              rcases hx with rfl | hx
              · exact absurd hv h
              · exact .inr ⟨x, hx, h⟩
          subst hv
          simpa using ih' acc hf.2 hacc'
        · have hv' : v = -1 ∨ v = 1 := by have := hd v (by simp); omega
          have hw := axis_wall (hb b (by simp)) hx hv'
          rw [if_pos hv]
          by_cases hp : axisBC n p b v = .PERIODIC
          · rw [if_neg (by simpa using hp), ih' _ hf.2 (.inl rfl)]
            have : ¬ cls (axisBC n p b v) = .W := by rw [hp]; simp [cls]
            rw [hw, not_or] at this
            simp only [this.1, this.2, not_false_eq_true, true_and]
          · rw [if_pos hp]
            by_cases hs : axisBC n p b v = .SYNC
            · have hnw := hf.1 hv hs
              have : ¬ cls (axisBC n p b v) = .W := by rw [hs]; simp [cls]
              have h2 := this
              rw [hw, not_or] at h2
              simp only [this, h2.1, h2.2, hnw, not_false_eq_true, and_self, not_true_eq_false]
            · have hW : cls (axisBC n p b v) = .W := by
                generalize axisBC n p b v = z at *
                cases z <;> simp_all [cls]
              have h2 := hW
              rw [hw] at h2
              simp only [hW, true_iff]
              rintro ⟨a, b, _⟩
              exact h2.elim a b

/-- **C06 (partial).** When no axis on which the subdomain has a neighbour inside the grid is
followed by an axis on which it touches a wall in that direction (in particular in all directions
along one axis), data are sent in a direction exactly when that direction does not cross a
non-periodic wall.  Missing for the full statement: the order of the axes must not matter, but it
does, see `C06_counterexample`. -/
theorem C06_no_exchange_across_wall_partial (m : Meta) (dN : List (List Nat)) (h : Built m dN)
    (hb : GoodBCs m) (d : Direction) (hd : Signs d) (hl : d.length = dN.length)
    (hnz : ∃ x ∈ d, x ≠ 0) (i : Nat) (s : Subdomain) (hi : m.doms[i]? = some s)
    (hf : FirstDecides m.counts s.offsetNdomains m.bcs d) (a b : Option Nat)
    (hs : sendRecv m i d = .ok (a, b)) :
    a ≠ none ↔ NoWall m.counts s.offsetNdomains m.bcs d := by
  have hl' : d.length = m.counts.length := by rw [h.counts, hl]; simp [Decomp.counts]
  have hilt : i < m.doms.length := (List.getElem?_eq_some_iff.1 hi).1
  obtain ⟨p, hp, hg⟩ := h.at_of_lt hilt
  obtain ⟨jp, jm, _, _, _, _, he⟩ := sendRecv_eq m dN h hb d hd hl hnz i p hp
  have hsp : s.offsetNdomains = p := by
    obtain ⟨t, ht, _, htp⟩ := hp
    rw [hi] at ht; cases ht; exact htp
  rw [hsp] at hf ⊢
  rw [he] at hs
  simp only [Outcome.ok.injEq, Prod.mk.injEq] at hs
  have hw := corner_wall (acc := .INVALID) hb.2 hg hb.1 hl' hd hf (.inr hnz)
  rw [← hs.1]
  split
  · rename_i hc; rw [hw] at hc; simp [hc]
  · rename_i hc; rw [hw] at hc; simp only [not_not] at hc; simp [hc]

example : FirstDecides exMeta.counts [0, 0] exMeta.bcs [0, -1] ∧
    ¬ NoWall exMeta.counts [0, 0] exMeta.bcs [0, -1] := by
  simp [FirstDecides, NoWall, exMeta]

/-- a 2 × 2 decomposition with conducting walls on all four sides -/
def boxMeta : Meta where
  counts := [2, 2]
  doms := (createDomains 4 [[20, 20], [20, 20]]).getD []
  bcs := [(.CONDUCTOR, .CONDUCTOR), (.CONDUCTOR, .CONDUCTOR)]

/-- **C06 fails in general.** On a 2 × 2 decomposition with conducting walls everywhere the
subdomain at the lower left sends, in direction (+1, -1), to the subdomain at the upper right, i.e.
through the lower wall in x2 to the opposite wall; with the axes exchanged, in direction (-1, +1),
it does not send. -/
theorem C06_counterexample :
    GoodBCs boxMeta ∧
    sendRecv boxMeta 0 [1, -1] = .ok (some 3, none) ∧
    sendRecv boxMeta 3 [1, -1] = .ok (none, some 0) ∧
    (boxMeta.doms[0]?).map (·.offsetNdomains) = some [0, 0] ∧
    (boxMeta.doms[3]?).map (·.offsetNdomains) = some [1, 1] ∧
    ¬ NoWall boxMeta.counts [0, 0] boxMeta.bcs [1, -1] ∧
    sendRecv boxMeta 0 [-1, 1] = .ok (none, some 3) := by
  refine ⟨⟨rfl, by decide⟩, by decide +kernel, by decide +kernel, by decide +kernel,
    by decide +kernel, ?_, by decide +kernel⟩
  simp [NoWall, boxMeta]

end Entity.Topology
