import Verif.Model.Topology
import Verif.Lemmas.Tensor
import Verif.Props.Tiling

/-! Helper lemmas about neighbours and boundary conditions. -/

namespace Entity.Topology

open Entity Entity.Decomp Entity.Dir

/-- `d` has entries -1, 0, 1 only -/
def Signs (d : Direction) : Prop := ∀ x ∈ d, x = -1 ∨ x = 0 ∨ x = 1

theorem Signs.neg {d : Direction} (h : Signs d) : Signs (Dir.neg d) := by
  intro x hx
  simp only [Dir.neg, List.mem_map] at hx
  obtain ⟨y, hy, rfl⟩ := hx
  rcases h y hy with h | h | h <;> omega

theorem neg_neg' (d : Direction) : Dir.neg (Dir.neg d) = d := by simp [Dir.neg]

/-- `m` was made by `createDomains` from the per-axis sizes `dN`. -/
structure Built (m : Meta) (dN : List (List Nat)) : Prop where
  ne : ∀ d ∈ dN, d ≠ []
  counts : m.counts = Decomp.counts dN
  doms : createDomains (Decomp.counts dN).prod dN = some m.doms

section
variable {m : Meta} {dN : List (List Nat)}

theorem Built.doms_eq (h : Built m dN) : m.doms = (recTable dN).mapIdx mkSub := by
  have := createDomains_eq dN h.ne
  have h2 := h.doms
  rw [show (Decomp.counts dN).prod = (dN.map List.length).prod from rfl, this] at h2
  exact (Option.some.inj h2).symm

theorem forall2_dom_inGrid {dN : List (List Nat)} {r : List AxisRec}
    (h1 : List.Forall₂ (· ∈ ·) r (dN.map (axisRecs 0 0))) :
    InGrid (r.map (·.dom)) (Decomp.counts dN) := by
  induction dN generalizing r with
  | nil => cases h1; exact .nil
  | cons d dN ih =>
    simp only [List.map_cons] at h1
    cases h1 with
    | cons ha h1 =>
      have := axisRecs_bounds ha
      exact .cons (by show _ < _; simp only; omega) (ih h1)

theorem forall2_dom_ex {dN : List (List Nat)} {p : List Nat}
    (h1 : InGrid p (Decomp.counts dN)) :
    ∃ r, List.Forall₂ (· ∈ ·) r (dN.map (axisRecs 0 0)) ∧ r.map (·.dom) = p := by
  induction dN generalizing p with
  | nil => cases h1; exact ⟨[], .nil, rfl⟩
  | cons d dN ih =>
    simp only [Decomp.counts, List.map_cons] at h1
    cases h1 with
    | @cons x _ _ _ hx h1 =>
      obtain ⟨r, h2, h3⟩ := ih h1
      obtain ⟨a, ha, hb⟩ := axisRecs_dom_ex (o := 0) (k := 0) (d := d) (p := x) (Nat.zero_le _)
        (by omega)
      exact ⟨a :: r, .cons ha h2, by simp [hb, h3]⟩

theorem forall2_dom_inj {dN : List (List Nat)} {r s : List AxisRec}
    (h1 : List.Forall₂ (· ∈ ·) r (dN.map (axisRecs 0 0)))
    (h2 : List.Forall₂ (· ∈ ·) s (dN.map (axisRecs 0 0)))
    (h : r.map (·.dom) = s.map (·.dom)) : r = s := by
  induction dN generalizing r s with
  | nil => cases h1; cases h2; rfl
  | cons d dN ih =>
    simp only [List.map_cons] at h1 h2
    cases h1 with
    | cons ha h1 =>
      cases h2 with
      | cons hb h2 =>
        simp only [List.map_cons, List.cons.injEq] at h
        rw [axisRecs_dom_inj ha hb h.1, ih h1 h2 h.2]

/-- The subdomain with index `i` sits at position `p`. -/
def At (m : Meta) (i : Nat) (p : List Nat) : Prop :=
  ∃ s, m.doms[i]? = some s ∧ s.index = i ∧ s.offsetNdomains = p

theorem Built.at_of_lt (h : Built m dN) {i : Nat} (hi : i < m.doms.length) :
    ∃ p, At m i p ∧ InGrid p m.counts := by
  have hd := h.doms_eq
  have hi' : i < (recTable dN).length := by simpa [hd] using hi
  refine ⟨((recTable dN)[i]).map (·.dom), ⟨mkSub i (recTable dN)[i], ?_, rfl, rfl⟩, ?_⟩
  · simp [hd, List.getElem?_mapIdx, List.getElem?_eq_getElem hi']
  · rw [h.counts]
    exact forall2_dom_inGrid ((mem_tp _ _).1 (List.getElem_mem hi'))

theorem At.lt {i : Nat} {p : List Nat} (h : At m i p) : i < m.doms.length := by
  obtain ⟨s, hs, _⟩ := h
  exact (List.getElem?_eq_some_iff.1 hs).1

theorem At.unique {i : Nat} {p q : List Nat} (h : At m i p) (h' : At m i q) : p = q := by
  obtain ⟨s, hs, _, rfl⟩ := h
  obtain ⟨t, ht, _, rfl⟩ := h'
  rw [hs] at ht; cases ht; rfl

theorem Built.inGrid (h : Built m dN) {i : Nat} {p : List Nat} (hp : At m i p) :
    InGrid p m.counts := by
  obtain ⟨q, hq, hg⟩ := h.at_of_lt hp.lt
  rwa [hp.unique hq]

theorem Built.exists_at (h : Built m dN) {p : List Nat} (hp : InGrid p m.counts) :
    ∃ i, At m i p := by
  rw [h.counts] at hp
  obtain ⟨r, h1, h2⟩ := forall2_dom_ex hp
  obtain ⟨i, hi, hir⟩ := List.getElem_of_mem ((mem_tp _ _).2 h1)
  have hi' : i < (recTable dN).length := hi
  refine ⟨i, mkSub i r, ?_, rfl, h2⟩
  rw [h.doms_eq, List.getElem?_mapIdx, List.getElem?_eq_getElem hi']
  simp only [Option.map_some]
  congr 2

theorem Built.at_inj (h : Built m dN) {i j : Nat} {p : List Nat} (hi : At m i p)
    (hj : At m j p) : i = j := by
  obtain ⟨s, hs, _, hp⟩ := hi
  obtain ⟨t, ht, _, hq⟩ := hj
  rw [h.doms_eq, List.getElem?_mapIdx] at hs ht
  simp only [Option.map_eq_some_iff] at hs ht
  obtain ⟨a, ha, rfl⟩ := hs
  obtain ⟨b, hb, rfl⟩ := ht
  have hae := List.getElem?_eq_some_iff.1 ha
  have hbe := List.getElem?_eq_some_iff.1 hb
  have : a = b := by
    apply forall2_dom_inj (dN := dN)
    · exact (mem_tp _ _).1 (hae.2 ▸ List.getElem_mem hae.1)
    · exact (mem_tp _ _).1 (hbe.2 ▸ List.getElem_mem hbe.1)
    · exact hp.trans hq.symm
  subst this
  apply (recTable_nodup dN).getElem_inj_iff.1 (hae.2.trans hbe.2.symm)

theorem Built.offset2index (h : Built m dN) {i : Nat} {p : List Nat} (hp : At m i p) :
    offset2index m.doms p = some i := by
  unfold Topology.offset2index
  obtain ⟨s, hs, hsi, hsp⟩ := hp
  cases hf : m.doms.reverse.find? (fun s => s.offsetNdomains = p) with
  | none =>
    rw [List.find?_eq_none] at hf
    exact absurd hsp (by simpa using hf s (by simpa using List.mem_of_getElem? hs))
  | some t =>
    have ht1 := List.find?_some hf
    have ht2 := List.mem_of_find?_eq_some hf
    rw [List.mem_reverse] at ht2
    simp only [decide_eq_true_eq] at ht1
    obtain ⟨j, hj, hjt⟩ := List.getElem_of_mem ht2
    have hidx : t.index = j := by
      have := h.doms_eq
      rw [← hjt]
      simp [this, mkSub]
    have : j = i := h.at_inj (p := p)
      ⟨t, by rw [List.getElem?_eq_getElem hj, hjt], hidx, ht1⟩ ⟨s, hs, hsi, hsp⟩
    simp [hidx, this]

theorem nbrOffset_inGrid {cnt p : List Nat} {d : Direction} (hp : InGrid p cnt) (hd : Signs d)
    (hl : d.length = cnt.length) : InGrid (nbrOffset cnt p d) cnt := by
  induction hp generalizing d with
  | nil => cases d <;> simp [nbrOffset, InGrid]
  | @cons x n ps ns hx _ ih =>
    cases d with
    | nil => simp at hl
    | cons y ys =>
      simp only [nbrOffset]
      refine .cons ?_ (ih (fun z hz => hd z (by simp [hz])) (by simpa using hl))
      have := hd y (by simp)
      split
      · omega
      split
      · omega
      · rcases this with rfl | rfl | rfl <;> omega

theorem nbrOffset_neg {cnt p : List Nat} {d : Direction} (hp : InGrid p cnt) (hd : Signs d)
    (hl : d.length = cnt.length) : nbrOffset cnt (nbrOffset cnt p d) (neg d) = p := by
  induction hp generalizing d with
  | nil => cases d <;> simp [nbrOffset]
  | @cons x n ps ns hx _ ih =>
    cases d with
    | nil => simp at hl
    | cons y ys =>
      simp only [nbrOffset, neg, List.map_cons]
      have ih' := ih (d := ys) (fun z hz => hd z (by simp [hz])) (by simpa using hl)
      rw [neg] at ih'
      rw [ih']
      congr 1
      have := hd y (by simp)
      rcases this with rfl | rfl | rfl <;> simp <;> split_ifs <;> omega

theorem nbrOffset_length {cnt p : List Nat} {d : Direction} (hp : InGrid p cnt)
    (hl : d.length = cnt.length) : (nbrOffset cnt p d).length = cnt.length := by
  induction hp generalizing d with
  | nil => cases d <;> simp [nbrOffset]
  | cons _ _ ih =>
    cases d with
    | nil => simp at hl
    | cons y ys => simp [nbrOffset, ih (d := ys) (by simpa using hl)]

/-- neighbour index = the subdomain at the neighbour position -/
theorem Built.neighborIdx (h : Built m dN) {i : Nat} {p : List Nat} (hp : At m i p)
    {d : Direction} (hd : Signs d) (hl : d.length = m.counts.length) :
    ∃ j, neighborIdx m i d = .ok j ∧ At m j (nbrOffset m.counts p d) := by
  obtain ⟨j, hj⟩ := h.exists_at (nbrOffset_inGrid (h.inGrid hp) hd hl)
  refine ⟨j, ?_, hj⟩
  unfold Topology.neighborIdx
  obtain ⟨s, hs, _, rfl⟩ := hp
  have hlt := hj.lt
  simp only [hs]
  rw [h.offset2index hj]
  simp only [ge_iff_le]
  rw [if_neg (by omega)]

end

/-! ### Boundary conditions -/

/-- what `faceBC` gives on one axis -/
def axisBC (n p : Nat) (b : BC × BC) (v : Int) : BC :=
  let e := if v = -1 then (if p = 0 then b.1 else .SYNC) else (if p = n - 1 then b.2 else .SYNC)
  if n ≠ 1 ∧ e = .PERIODIC then .SYNC else e

/-- the corner loop expressed on the axes -/
def corner : List Nat → List Nat → List (BC × BC) → Direction → BC → BC
  | n :: ns, p :: ps, b :: bs, d :: ds, acc =>
    if d ≠ 0 then
      if axisBC n p b d ≠ .PERIODIC then axisBC n p b d else corner ns ps bs ds .PERIODIC
    else corner ns ps bs ds acc
  | _, _, _, _, acc => acc

theorem unit_eq (i k : Nat) (v : Int) :
    unit (i + (k + 1)) i v = List.replicate i 0 ++ v :: List.replicate k 0 := by
  unfold unit
  rw [List.replicate_add, List.set_append]
  simp [List.replicate_succ]

theorem edgeBC_app (c1 p1 : List Nat) (b1 : List (BC × BC)) (n : Nat) (c2 : List Nat)
    (p : Nat) (p2 : List Nat) (b : BC × BC) (b2 : List (BC × BC)) (v : Int) (rest : Direction)
    (hp : p1.length = c1.length) (hb : b1.length = c1.length) (hv : v = -1 ∨ v = 1) :
    edgeBC (c1 ++ n :: c2) (p1 ++ p :: p2) (b1 ++ b :: b2) (List.replicate c1.length 0 ++ v :: rest)
      = if v = -1 then (if p = 0 then b.1 else .SYNC) else (if p = n - 1 then b.2 else .SYNC) := by
  induction c1 generalizing p1 b1 with
  | nil =>
    cases p1 with
    | cons _ _ => simp at hp
    | nil =>
      cases b1 with
      | cons _ _ => simp at hb
      | nil => rcases hv with rfl | rfl <;> simp [edgeBC]
  | cons c c1 ih =>
    cases p1 with
    | nil => simp at hp
    | cons q p1 =>
      cases b1 with
      | nil => simp at hb
      | cons e b1 =>
        simp only [List.length_cons, List.replicate_succ, List.cons_append, edgeBC]
        rw [if_neg (by decide), if_neg (by decide)]
        exact ih p1 b1 (by simpa using hp) (by simpa using hb)

theorem nbrOffset_zeros (cnt p : List Nat) (k : Nat) (hk : cnt.length = k) (hp : p.length = k) :
    nbrOffset cnt p (List.replicate k 0) = p := by
  induction cnt generalizing p k with
  | nil => subst hk; simp at hp; simp [nbrOffset, hp]
  | cons n ns ih =>
    cases p with
    | nil => simp at hp; subst hp; simp at hk
    | cons q ps =>
      subst hk
      simp only [List.length_cons, List.replicate_succ, nbrOffset]
      rw [ih ps _ rfl (by simpa using hp)]
      simp

theorem nbrOffset_app (c1 p1 : List Nat) (n : Nat) (c2 : List Nat)
    (p : Nat) (p2 : List Nat) (v : Int) (hp : p1.length = c1.length) (h2 : p2.length = c2.length)
    (hv : v = -1 ∨ v = 1) (hpn : p < n) :
    nbrOffset (c1 ++ n :: c2) (p1 ++ p :: p2)
        (List.replicate c1.length 0 ++ v :: List.replicate c2.length 0) = p1 ++ p :: p2 ↔ n = 1 := by
  induction c1 generalizing p1 with
  | nil =>
    cases p1 with
    | cons _ _ => simp at hp
    | nil =>
      simp only [List.nil_append, List.length_nil, List.replicate_zero, nbrOffset]
      rw [nbrOffset_zeros _ _ _ rfl h2]
      simp only [List.cons.injEq, and_true]
      rcases hv with rfl | rfl <;> simp <;> split_ifs <;> omega
  | cons c c1 ih =>
    cases p1 with
    | nil => simp at hp
    | cons q p1 =>
      simp only [List.length_cons, List.replicate_succ, List.cons_append, nbrOffset]
      simp only [List.cons.injEq]
      rw [ih p1 (by simpa using hp)]
      simp

section
variable {m : Meta} {dN : List (List Nat)}

theorem signs_unit {i k : Nat} {v : Int} (hv : v = -1 ∨ v = 1) :
    Signs (List.replicate i 0 ++ v :: List.replicate k 0) := by
  intro x hx
  simp only [List.mem_append, List.mem_cons, List.mem_replicate] at hx
  rcases hx with ⟨_, rfl⟩ | rfl | ⟨_, rfl⟩ <;> omega

theorem Built.faceBC_unit (h : Built m dN) {i : Nat} {p1 : List Nat} {p : Nat} {p2 : List Nat}
    (hp : At m i (p1 ++ p :: p2)) {c1 : List Nat} {n : Nat} {c2 : List Nat}
    (hc : m.counts = c1 ++ n :: c2) {b1 b2 : List (BC × BC)} {b : BC × BC}
    (hb : m.bcs = b1 ++ b :: b2) (h1 : p1.length = c1.length) (h2 : p2.length = c2.length)
    (h3 : b1.length = c1.length) {v : Int} (hv : v = -1 ∨ v = 1) (hpn : p < n) :
    faceBC m i (List.replicate c1.length 0 ++ v :: List.replicate c2.length 0) =
      .ok (axisBC n p b v) := by
  obtain ⟨j, hj, hjat⟩ := h.neighborIdx hp (signs_unit hv)
    (d := List.replicate c1.length 0 ++ v :: List.replicate c2.length 0) (by simp [hc])
  have hji : j ≠ i ↔ n ≠ 1 := by
    rw [not_iff_not, ← nbrOffset_app c1 p1 n c2 p p2 v h1 h2 hv hpn, ← hc]
    constructor
    · intro e; subst e; exact hjat.unique hp
    · intro e; rw [e] at hjat; exact h.at_inj hjat hp
  unfold faceBC
  obtain ⟨s, hs, _, hsp⟩ := id hp
  simp only [hs]
  rw [hj, hsp, hc, hb, edgeBC_app c1 p1 b1 n c2 p p2 b b2 v _ h1 h3 hv]
  simp only [Outcome.bind_ok, Outcome.pure_eq, axisBC]
  simp only [hji]
  split_ifs <;> rfl

theorem firstNonPeriodic_eq (h : Built m dN) {i : Nat}
    (c1 c2 p1 p2 : List Nat) (b1 b2 : List (BC × BC)) (d : Direction) (acc : BC)
    (hc : m.counts = c1 ++ c2) (hp : At m i (p1 ++ p2)) (hb : m.bcs = b1 ++ b2)
    (h1 : p1.length = c1.length) (h2 : InGrid p2 c2)
    (h3 : b1.length = c1.length) (h4 : b2.length = c2.length) (hd : Signs d)
    (hl : d.length = c2.length) :
    firstNonPeriodic m i (assocOrthFrom m.counts.length c1.length d) acc =
      .ok (corner c2 p2 b2 d acc) := by
  induction h2 generalizing c1 p1 b1 b2 d acc with
  | nil =>
    cases d with
    | nil => simp [assocOrthFrom, firstNonPeriodic, corner]
    | cons _ _ => simp at hl
  | @cons p n ps ns hx hg ih =>
    cases d with
    | nil => simp at hl
    | cons v d =>
      cases b2 with
      | nil => simp at h4
      | cons b b2 =>
        have key := fun acc => ih (c1 ++ [n]) (p1 ++ [p]) (b1 ++ [b]) b2 d acc (by simp [hc])
          (by simpa using hp) (by simp [hb]) (by simp [h1]) (by simp [h3]) (by simpa using h4)
          (fun z hz => hd z (by simp [hz])) (by simpa using hl)
        simp only [List.length_append, List.length_cons, List.length_nil, Nat.zero_add] at key
        have hlen : ps.length = ns.length := List.Forall₂.length_eq hg
        simp only [assocOrthFrom, corner]
        by_cases hv : v = 0
        · simp [hv, key]
        · have hv' : v = -1 ∨ v = 1 := by have := hd v (by simp); omega
          rw [if_pos hv, if_pos hv]
          simp only [firstNonPeriodic]
          have hu : unit m.counts.length c1.length v =
              List.replicate c1.length 0 ++ v :: List.replicate ns.length 0 := by
            rw [hc, List.length_append, List.length_cons, unit_eq]
          rw [hu, h.faceBC_unit hp hc hb h1 hlen h3 hv' hx, key]
          simp only [Outcome.bind_ok, Outcome.pure_eq]
          split <;> rfl

theorem assocOrthFrom_nil {size i : Nat} {d : Direction} (h : assocOrthFrom size i d = []) :
    d = List.replicate d.length 0 := by
  induction d generalizing i with
  | nil => rfl
  | cons x xs ih =>
    simp only [assocOrthFrom] at h
    split at h
    · simp at h
    · rename_i hx
      simp only [ne_eq, not_not] at hx
      simp only [List.length_cons, List.replicate_succ, List.cons.injEq]
      exact ⟨hx, ih h⟩

theorem assocOrthFrom_single {size i : Nat} {d : Direction} {u : Direction}
    (hs : size = i + d.length) (h : assocOrthFrom size i d = [u]) :
    u = List.replicate i 0 ++ d := by
  induction d generalizing i with
  | nil => simp [assocOrthFrom] at h
  | cons x xs ih =>
    simp only [assocOrthFrom] at h
    split at h
    · simp only [List.cons.injEq] at h
      rw [← h.1, hs, List.length_cons, unit_eq]
      congr 2
      exact (assocOrthFrom_nil h.2).symm
    · rename_i hx
      simp only [ne_eq, not_not] at hx
      have := ih (i := i + 1) (by simp at hs; omega) h
      rw [this, hx, List.replicate_succ']
      simp

theorem firstNonPeriodic_single {i : Nat} {d : Direction} {acc b : BC}
    (h : firstNonPeriodic m i [d] acc = .ok b) : faceBC m i d = .ok b := by
  simp only [firstNonPeriodic] at h
  rw [Outcome.bind_eq_ok] at h
  obtain ⟨a, ha, h⟩ := h
  rw [ha]
  split at h
  · simpa using h
  · rename_i hx
    simp only [ne_eq, not_not] at hx
    simp only [Outcome.ok.injEq] at h
    rw [hx, h]

/-- value of the corner loop is a proper condition -/
theorem corner_ne_invalid {c p : List Nat} {b : List (BC × BC)} {d : Direction} {acc : BC}
    (hb : ∀ e ∈ b, e.1 ≠ .INVALID ∧ e.2 ≠ .INVALID) (hp : p.length = c.length)
    (hbl : b.length = c.length) (hl : d.length = c.length)
    (h : acc ≠ .INVALID ∨ ∃ x ∈ d, x ≠ 0) : corner c p b d acc ≠ .INVALID := by
  induction c generalizing p b d acc with
  | nil =>
    cases d with
    | nil => simpa [corner] using h
    | cons _ _ => simp at hl
  | cons n ns ih =>
    cases p with
    | nil => simp at hp
    | cons p ps =>
      cases b with
      | nil => simp at hbl
      | cons b bs =>
        cases d with
        | nil => simp at hl
        | cons v ds =>
          have ih' := fun acc h => ih (p := ps) (b := bs) (d := ds) (acc := acc)
            (fun e he => hb e (by simp [he])) (by simpa using hp) (by simpa using hbl)
            (by simpa using hl) h
          simp only [corner]
          by_cases hv : v = 0
          · simp only [hv, ne_eq, not_true_eq_false, if_false]
            apply ih'
            rcases h with h | ⟨x, hx, hx0⟩
            · exact .inl h
            · simp only [List.mem_cons] at hx
              rcases hx with rfl | hx
              · exact absurd hv hx0
              · exact .inr ⟨x, hx, hx0⟩
          · rw [if_pos hv]
            split
            · have := hb b (by simp)
              unfold axisBC
              simp only
              split_ifs <;> simp_all
            · exact ih' _ (.inl (by simp))

/-- The condition of a subdomain in any direction. -/
theorem Built.dirBC (h : Built m dN) {i : Nat} {p : List Nat} (hp : At m i p)
    {d : Direction} (hd : Signs d) (hl : d.length = m.counts.length)
    (hbl : m.bcs.length = m.counts.length)
    (hb : ∀ e ∈ m.bcs, e.1 ≠ .INVALID ∧ e.2 ≠ .INVALID) (hnz : ∃ x ∈ d, x ≠ 0) :
    dirBC m i d = .ok (corner m.counts p m.bcs d .INVALID) := by
  have hg := h.inGrid hp
  have key := firstNonPeriodic_eq h (i := i) [] m.counts [] p [] m.bcs d .INVALID rfl
    (by simpa using hp) rfl rfl hg rfl hbl hd hl
  simp only [List.length_nil] at key
  have hao : assocOrth d = assocOrthFrom m.counts.length 0 d := by rw [assocOrth, hl]
  unfold Topology.dirBC
  by_cases hone : (assocOrth d).length = 1
  · rw [if_pos hone]
    obtain ⟨u, hu⟩ := List.length_eq_one_iff.1 hone
    have hud : u = d := by
      have := assocOrthFrom_single (size := m.counts.length) (i := 0) (d := d) (u := u)
        (by omega) (by rw [← hao, hu])
      simpa using this
    rw [← hao, hu, hud] at key
    exact firstNonPeriodic_single key
  · rw [if_neg hone, hao, key]
    simp only [Outcome.bind_ok, Outcome.pure_eq]
    rw [if_neg]
    exact corner_ne_invalid hb (List.Forall₂.length_eq hg) hbl hl (.inr hnz)

end

/-! ### Symmetry of the conditions -/

/-- class of a condition: exchanged with another domain, with itself, or a wall -/
inductive Cls where | S | P | W deriving DecidableEq

def cls : BC → Cls
  | .SYNC => .S
  | .PERIODIC => .P
  | _ => .W

/-- What `GetBoundaryConditions` guarantees for the global conditions: no `SYNC`/`INVALID`, periodic
on both sides or on none. -/
def GoodBC (b : BC × BC) : Prop :=
  b.1 ≠ .SYNC ∧ b.2 ≠ .SYNC ∧ b.1 ≠ .INVALID ∧ b.2 ≠ .INVALID ∧ (b.1 = .PERIODIC ↔ b.2 = .PERIODIC)

instance (b : BC × BC) : Decidable (GoodBC b) := by unfold GoodBC; infer_instance

/-- neighbour position on one axis -/
def nbr1 (n p : Nat) (d : Int) : Nat :=
  if d = -1 ∧ p = 0 then n - 1 else if d = 1 ∧ p = n - 1 then 0 else ((p : Int) + d).toNat

theorem cls_axis_nbr {n p : Nat} {b : BC × BC} {v : Int} (hb : GoodBC b) (hp : p < n)
    (hv : v = -1 ∨ v = 1) : cls (axisBC n (nbr1 n p v) b (-v)) = cls (axisBC n p b v) := by
  obtain ⟨b1, b2⟩ := b
  obtain ⟨h1, h2, h3, h4, h5⟩ := hb
  simp only at h1 h2 h3 h4 h5
  have hcls : ∀ x y : BC, x ≠ .SYNC → y ≠ .SYNC → x ≠ .PERIODIC → y ≠ .PERIODIC →
      cls x = cls y := by
    intro x y; cases x <;> cases y <;> simp [cls]
  rcases hv with rfl | rfl
  · unfold axisBC nbr1
    by_cases hn : n = 1
    · subst hn
      obtain rfl : p = 0 := by omega
      simp
      by_cases hper : b1 = .PERIODIC
      · rw [hper, h5.1 hper]
      · exact hcls _ _ h2 h1 (fun h => hper (h5.2 h)) hper
    · by_cases hp0 : p = 0
      · subst hp0
        simp [hn]
        by_cases hper : b1 = .PERIODIC
        · simp [hper, h5.1 hper]
        · have : b2 ≠ .PERIODIC := fun h => hper (h5.2 h)
          simp [hper, this]
          exact hcls _ _ h2 h1 this hper
      · have e : ((p : Int) + -1).toNat = p - 1 := by omega
        have e2 : ¬ p - 1 = n - 1 := by omega
        simp only [hp0, and_false, if_false, e]
        simp [hn, e2]
  · unfold axisBC nbr1
    by_cases hn : n = 1
    · subst hn
      obtain rfl : p = 0 := by omega
      simp
      by_cases hper : b1 = .PERIODIC
      · rw [hper, h5.1 hper]
      · exact hcls _ _ h1 h2 hper (fun h => hper (h5.2 h))
    · by_cases hp0 : p = n - 1
      · subst hp0
        simp [hn]
        by_cases hper : b1 = .PERIODIC
        · simp [hper, h5.1 hper]
        · have : b2 ≠ .PERIODIC := fun h => hper (h5.2 h)
          simp [hper, this]
          exact hcls _ _ h1 h2 hper this
      · have : ((p : Int) + 1).toNat ≠ 0 := by omega
        simp [hn, hp0]

theorem periodic_axis_neg {n p : Nat} {b : BC × BC} {v : Int} (hb : GoodBC b) (hp : p < n)
    (hv : v = -1 ∨ v = 1) : axisBC n p b (-v) = .PERIODIC ↔ axisBC n p b v = .PERIODIC := by
  obtain ⟨b1, b2⟩ := b
  obtain ⟨h1, h2, h3, h4, h5⟩ := hb
  simp only at h1 h2 h3 h4 h5
  have hn : ∀ v, n ≠ 1 → axisBC n p (b1, b2) v ≠ .PERIODIC := by
    intro v hn; unfold axisBC; simp only [hn, ne_eq, not_false_eq_true, true_and]; split_ifs <;> simp_all
  by_cases hn1 : n = 1
  · subst hn1
    obtain rfl : p = 0 := by omega
    rcases hv with rfl | rfl <;> simp [axisBC, h5]
  · constructor <;> intro h <;> exact absurd h (hn _ hn1)

theorem periodic_axis_nbr {n p : Nat} {b : BC × BC} {v : Int} (hp : p < n)
    (hv : v = -1 ∨ v = 1) (h : axisBC n p b v = .PERIODIC) : nbr1 n p v = p := by
  have hn1 : n = 1 := by
    by_contra hn; revert h; unfold axisBC
    simp only [hn, ne_eq, not_false_eq_true, true_and]; split_ifs <;> simp_all
  subst hn1
  obtain rfl : p = 0 := by omega
  rcases hv with rfl | rfl <;> simp [nbr1]

theorem sync_axis_nbr {n p : Nat} {b : BC × BC} {v : Int} (hb : GoodBC b) (hp : p < n)
    (hv : v = -1 ∨ v = 1) (h : axisBC n p b v = .SYNC) : nbr1 n p v ≠ p := by
  have hn1 : n ≠ 1 := by
    rintro rfl
    obtain rfl : p = 0 := by omega
    rcases hv with rfl | rfl <;> simp [axisBC, hb.1, hb.2.1] at h
  unfold nbr1
  split
  · omega
  split
  · omega
  · omega

theorem cls_eq_P {b : BC} : cls b = .P ↔ b = .PERIODIC := by cases b <;> simp [cls]
theorem cls_eq_S {b : BC} : cls b = .S ↔ b = .SYNC := by cases b <;> simp [cls]

theorem cls_corner_nbr {c p : List Nat} {b : List (BC × BC)} {d : Direction} {acc acc' : BC}
    (hb : ∀ e ∈ b, GoodBC e) (hg : InGrid p c) (hbl : b.length = c.length)
    (hl : d.length = c.length) (hd : Signs d) (ha : cls acc = cls acc') :
    cls (corner c (nbrOffset c p d) b (neg d) acc') = cls (corner c p b d acc) := by
  induction hg generalizing b d acc acc' with
  | nil => simp [nbrOffset, corner, ha]
  | @cons p n ps ns hx hg ih =>
    cases b with
    | nil => simp at hbl
    | cons b bs =>
      cases d with
      | nil => simp at hl
      | cons v ds =>
        have ih' := fun acc acc' h => ih (b := bs) (d := ds) (acc := acc) (acc' := acc')
          (fun e he => hb e (by simp [he])) (by simpa using hbl) (by simpa using hl)
          (fun z hz => hd z (by simp [hz])) h
        simp only [neg] at ih'
        simp only [corner, nbrOffset, neg, List.map_cons]
        by_cases hv : v = 0
        · simp [hv, ih' _ _ ha]
        · have hv' : v = -1 ∨ v = 1 := by have := hd v (by simp); omega
          have hk := cls_axis_nbr (hb b (by simp)) hx hv'
          rw [nbr1] at hk
          have hper : (axisBC n (if v = -1 ∧ p = 0 then n - 1 else
              if v = 1 ∧ p = n - 1 then 0 else ((p : Int) + v).toNat) b (-v) = .PERIODIC) ↔
              axisBC n p b v = .PERIODIC := by rw [← cls_eq_P, ← cls_eq_P, hk]
          simp only [ne_eq, neg_eq_zero, hv, not_false_eq_true, if_true]
          by_cases hp : axisBC n p b v = .PERIODIC
          · rw [if_neg (by simpa using hper.2 hp), if_neg (by simpa using hp)]
            exact ih' _ _ rfl
          · rw [if_pos (fun h => hp (hper.1 h)), if_pos hp, hk]

theorem corner_periodic_neg {c p : List Nat} {b : List (BC × BC)} {d : Direction} {acc : BC}
    (hb : ∀ e ∈ b, GoodBC e) (hg : InGrid p c) (hbl : b.length = c.length)
    (hl : d.length = c.length) (hd : Signs d) :
    corner c p b (neg d) acc = .PERIODIC ↔ corner c p b d acc = .PERIODIC := by
  induction hg generalizing b d acc with
  | nil => simp [corner]
  | @cons p n ps ns hx hg ih =>
    cases b with
    | nil => simp at hbl
    | cons b bs =>
      cases d with
      | nil => simp at hl
      | cons v ds =>
        have ih' := fun acc => ih (b := bs) (d := ds) (acc := acc)
          (fun e he => hb e (by simp [he])) (by simpa using hbl) (by simpa using hl)
          (fun z hz => hd z (by simp [hz]))
        simp only [neg] at ih'
        simp only [corner, neg, List.map_cons]
        by_cases hv : v = 0
        · simp [hv, ih']
        · have hv' : v = -1 ∨ v = 1 := by have := hd v (by simp); omega
          have hk := periodic_axis_neg (hb b (by simp)) hx hv'
          simp only [ne_eq, neg_eq_zero, hv, not_false_eq_true, if_true]
          by_cases hp : axisBC n p b v = .PERIODIC
          · rw [if_neg (by simpa using hk.2 hp), if_neg (by simpa using hp)]
            exact ih' _
          · rw [if_pos (fun h => hp (hk.1 h)), if_pos hp]
            exact hk

theorem corner_periodic_nbr {c p : List Nat} {b : List (BC × BC)} {d : Direction} {acc : BC}
    (hg : InGrid p c) (hbl : b.length = c.length)
    (hl : d.length = c.length) (hd : Signs d) (h : corner c p b d acc = .PERIODIC) :
    nbrOffset c p d = p := by
  induction hg generalizing b d acc with
  | nil => simp [nbrOffset]
  | @cons p n ps ns hx hg ih =>
    cases b with
    | nil => simp at hbl
    | cons b bs =>
      cases d with
      | nil => simp at hl
      | cons v ds =>
        have ih' := fun acc h => ih (b := bs) (d := ds) (acc := acc)
          (by simpa using hbl) (by simpa using hl) (fun z hz => hd z (by simp [hz])) h
        simp only [corner] at h
        simp only [nbrOffset]
        by_cases hv : v = 0
        · simp only [hv, ne_eq, not_true_eq_false, if_false] at h
          simp [hv, ih' _ h]
        · have hv' : v = -1 ∨ v = 1 := by have := hd v (by simp); omega
          rw [if_pos hv] at h
          by_cases hp : axisBC n p b v = .PERIODIC
          · rw [if_neg (by simpa using hp)] at h
            rw [ih' _ h]
            have := periodic_axis_nbr hx hv' hp
            rw [nbr1] at this
            rw [this]
          · rw [if_pos hp] at h
            exact absurd h hp

theorem corner_sync_nbr {c p : List Nat} {b : List (BC × BC)} {d : Direction} {acc : BC}
    (hb : ∀ e ∈ b, GoodBC e) (hg : InGrid p c) (hbl : b.length = c.length)
    (hl : d.length = c.length) (hd : Signs d) (hacc : acc ≠ .SYNC)
    (h : corner c p b d acc = .SYNC) : nbrOffset c p d ≠ p := by
  induction hg generalizing b d acc with
  | nil => simp only [corner] at h; exact absurd h hacc
  | @cons p n ps ns hx hg ih =>
    cases b with
    | nil => simp at hbl
    | cons b bs =>
      cases d with
      | nil => simp at hl
      | cons v ds =>
        have ih' := fun acc ha h => ih (b := bs) (d := ds) (acc := acc)
          (fun e he => hb e (by simp [he]))
          (by simpa using hbl) (by simpa using hl) (fun z hz => hd z (by simp [hz])) ha h
        simp only [corner] at h
        simp only [nbrOffset, ne_eq, List.cons.injEq, not_and]
        by_cases hv : v = 0
        · simp only [hv, ne_eq, not_true_eq_false, if_false] at h
          intro _; exact ih' _ hacc h
        · have hv' : v = -1 ∨ v = 1 := by have := hd v (by simp); omega
          rw [if_pos hv] at h
          by_cases hp : axisBC n p b v = .PERIODIC
          · rw [if_neg (by simpa using hp)] at h
            intro _; exact ih' _ (by simp) h
          · rw [if_pos hp] at h
            intro h1
            exact absurd h1 (by
              have := sync_axis_nbr (hb b (by simp)) hx hv' h
              rwa [nbr1] at this)

end Entity.Topology
