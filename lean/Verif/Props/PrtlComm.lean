import Verif.Lemmas.PrtlRecv
import Verif.Props.Sync
import Mathlib.Tactic.Choose

/-!
# Exchange of particles between subdomains: C16 (nothing lost or duplicated), C17 (global position),
C21 (capacity)
-/

namespace Entity.Prtl

open Entity Entity.Dir Entity.Tags Entity.Topology

/-! ## Specification -/

/-- Displacement of the cell index along each axis for a particle that goes from subdomain `r` to
subdomain `t` in direction `d`: the size of `t` when it leaves downwards, minus the size of `r` when
it leaves upwards. -/
def displacement (m : Meta) (r t : Nat) (d : Direction) : List Int :=
  (List.range d.length).map fun a =>
    if d.getD a 0 = -1 then ((sizes m t).getD a 0 : Int)
    else if d.getD a 0 = 1 then -((sizes m r).getD a 0 : Int) else 0

/-- A particle with its cell and previous cell displaced, all else unchanged. -/
def View.move {R : Type} (v : View R) (by_ : List Int) : View R :=
  { v with
    cell := List.zipWith (· + ·) v.cell by_
    cellPrev := List.zipWith (· + ·) v.cellPrev by_ }

/-- The particles of a species marked to leave in direction `d`. -/
def leaving {R : Type} (k : Kind) (s : Store R) (d : Direction) : List (Prtl R) :=
  s.used.filter fun q => decide (dir2tag k.D d = .ok q.tag)

/-- To whom `r` sends in direction `d`. -/
def sendTo (m : Meta) (r : Nat) (d : Direction) : Option Nat :=
  match sendRecv m r d with
  | .ok (a, _) => a
  | _ => none

/-- What arrives at rank `r`: from every direction the particles marked by the subdomain that sends
to `r` in that direction, displaced. -/
def arrivals {R : Type} (m : Meta) (k : Kind) (st : Nat → Store R) (r : Nat) : List (View R) :=
  (allDirs k.D).flatMap fun d =>
    match recvFrom m r d with
    | none => []
    | some q => (leaving k (st q) d).map fun p => (k.view p).move (displacement m q r d)

/-- A particle that belongs to the simulation after the exchange: it is alive, or marked for a
direction in which there is a subdomain to take it. -/
def Wanted {R : Type} (m : Meta) (k : Kind) (r : Nat) (q : Prtl R) : Prop :=
  q.tag = 1 ∨ ∃ d ∈ allDirs k.D, dir2tag k.D d = .ok q.tag ∧ sendTo m r d ≠ none

instance {R : Type} (m : Meta) (k : Kind) (r : Nat) (q : Prtl R) : Decidable (Wanted m k r q) := by
  unfold Wanted; infer_instance

/-- The state of a species on all ranks before an exchange. -/
structure Ready {R : Type} (m : Meta) (k : Kind) (st : Nat → Store R) : Prop where
  npart : ∀ r < m.doms.length, (st r).npart ≤ (st r).maxnpart
  /-- every particle in use is dead, alive, or marked for a direction in which its subdomain has a
  neighbour to send to or (on the opposite side) one to receive from -/
  marked : ∀ r < m.doms.length, ∀ q ∈ (st r).used, q.tag = 0 ∨ q.tag = 1 ∨
    ∃ d ∈ allDirs k.D, dir2tag k.D d = .ok q.tag ∧ (sendTo m r d ≠ none ∨ recvFrom m r d ≠ none)
  /-- the payload arrays have the extents of the species -/
  payload : ∀ r < m.doms.length, ∀ q ∈ (st r).used, PldOk k q

/-- All kernels run every index once. -/
structure Scheds.Fair (S : Scheds) : Prop where
  count : S.count.Fair
  prep : S.prep.Fair
  pack : ∀ d, (S.pack d).Fair
  extract : S.extract.Fair

/-! ## Helpers -/

theorem forRanks_ok {α : Type} {f : Nat → Outcome α} {P : Nat → α → Prop} (n : Nat)
    (h : ∀ r < n, ∃ x, f r = .ok x ∧ P r x) :
    ∃ l, forRanks f n = .ok l ∧ l.length = n ∧ ∀ r < n, ∃ x, l[r]? = some x ∧ f r = .ok x ∧ P r x := by
  induction n with
  | zero => exact ⟨[], rfl, rfl, by omega⟩
  | succ n ih =>
    obtain ⟨l, h1, h2, h3⟩ := ih fun r hr => h r (by omega)
    obtain ⟨x, hx, hP⟩ := h n (by omega)
    refine ⟨l ++ [x], ?_, by simp [h2], ?_⟩
    · simp only [forRanks, h1, hx, Outcome.bind_ok, Outcome.pure_eq]
    · intro r hr
      by_cases hrn : r < n
      · obtain ⟨y, a, b⟩ := h3 r hrn
        exact ⟨y, by rw [List.getElem?_append_left (by omega), a], b⟩
      · have : r = n := by omega
        subst this
        exact ⟨x, by rw [List.getElem?_append_right (by omega), h2]; simp, hx, hP⟩

theorem dirsToComm_eq (m : Meta) (r : Nat) (ds : List Direction)
    (h : ∀ d ∈ ds, ∃ a b, sendRecv m r d = .ok (a, b)) :
    dirsToComm m r ds =
      .ok (ds.filter fun d => decide (¬ (sendTo m r d = none ∧ recvFrom m r d = none))) := by
  induction ds with
  | nil => rfl
  | cons d ds ih =>
    obtain ⟨a, b, e⟩ := h d (by simp)
    have hs : sendTo m r d = a := by unfold sendTo; rw [e]
    have hr : recvFrom m r d = b := by unfold recvFrom; rw [e]
    rw [dirsToComm, e, Outcome.bind_ok]
    simp only
    rw [ih fun x hx => h x (by simp [hx]), Outcome.bind_ok]
    by_cases hab : a = none ∧ b = none
    · rw [if_pos hab, List.filter_cons_of_neg (by rw [hs, hr]; simpa using hab)]; rfl
    · rw [if_neg hab, List.filter_cons_of_pos (by rw [hs, hr]; exact decide_eq_true hab)]; rfl

/-- shift along one axis -/
def shiftOf (m : Meta) (r a : Nat) (d : Direction) : Int :=
  match sendTo m r d with
  | none => 0
  | some t =>
    if d.getD a 0 = -1 then ((sizes m t).getD a 0 : Int)
    else if d.getD a 0 = 1 then -((sizes m r).getD a 0 : Int) else 0

theorem shiftTable_eq (m : Meta) (r a : Nat) (ds : List Direction)
    (h : ∀ d ∈ ds, ∃ a b, sendRecv m r d = .ok (a, b)) :
    shiftTable m r a ds = .ok (ds.map (shiftOf m r a)) := by
  induction ds with
  | nil => rfl
  | cons d ds ih =>
    obtain ⟨x, y, e⟩ := h d (by simp)
    have hs : sendTo m r d = x := by unfold sendTo; rw [e]
    rw [shiftTable, ih fun x hx => h x (by simp [hx])]
    have : shiftFor m r a d = .ok (shiftOf m r a d) := by
      unfold shiftFor shiftOf
      rw [hs, e]
      cases x with
      | none => rfl
      | some t => simp only [Outcome.bind_ok, Outcome.pure_eq]; split_ifs <;> rfl
    rw [this]; rfl

/-- The shift applied by the preparing kernel is the displacement. -/
theorem view_sent {R : Type} (m : Meta) (k : Kind) (h1 : 1 ≤ k.D) (h3 : k.D ≤ 3) (r t' : Nat)
    (d : Direction) (hd : d ∈ allDirs k.D) (t : Nat) (ht : dir2tag k.D d = .ok (t : Int))
    (hst : sendTo m r d = some t') (q : Prtl R) (hq : q.tag = t) :
    k.view (sent k.D ((allDirs k.D).map (shiftOf m r 0)) ((allDirs k.D).map (shiftOf m r 1))
      ((allDirs k.D).map (shiftOf m r 2)) q) = (k.view q).move (displacement m r t' d) := by
  obtain ⟨u, hu, hu2, hun, hud⟩ := dir2tag_mem h1 h3 hd
  rw [hu] at ht
  have hut : u = t := by simpa using ht
  subst hut
  have hdl : d.length = k.D := by
    have key : ∀ D ∈ [1, 2, 3], ∀ d ∈ allDirs D, d.length = D := by decide
    exact key k.D (by obtain ⟨D, _, _, _⟩ := k; simp only at h1 h3 ⊢; interval_cases D <;> simp) d hd
  have hidx : (q.tag - 2).toNat = u - 2 := by omega
  have hget : ∀ a, ((allDirs k.D).map (shiftOf m r a)).getD (u - 2) 0 = shiftOf m r a d := by
    intro a; rw [List.getD_eq_getElem?_getD, List.getElem?_map, hud]; rfl
  unfold sent
  rw [if_pos (by omega), hidx]
  unfold applyShift
  rw [hget, hget, hget]
  have hdisp : displacement m r t' d = (List.range k.D).map fun a => shiftOf m r a d := by
    unfold displacement shiftOf
    rw [hdl, hst]
  rw [hdisp]
  obtain ⟨D, c, nr, ni⟩ := k
  simp only at h1 h3
  interval_cases D <;> simp [Kind.view, View.move, List.range_succ]

theorem incoming_eq {R : Type} (k : Kind) (boxes : Nat → Outbox R)
    (recv : Direction → Option Nat) (Lf : Direction → List (Prtl R)) (ds : List Direction)
    (h : ∀ d ∈ ds, (recv d = none → Lf d = []) ∧ ∀ q, recv d = some q →
      (boxes q).message k d = .ok ((Lf d).length, flat ((Lf d).map (rowOf k)))) :
    incoming k boxes recv ds =
      .ok ((ds.map Lf).map fun L => (L.length, flat (L.map (rowOf k)))) := by
  induction ds with
  | nil => rfl
  | cons d ds ih =>
    have ih' := ih fun x hx => h x (by simp [hx])
    obtain ⟨ha, hb⟩ := h d (by simp)
    cases hr : recv d with
    | none => simp [incoming, hr, ih', ha hr, flat]
    | some q => simp [incoming, hr, ih', hb q hr]

section
variable {R : Type} [Inhabited R] {m : Meta} {dN : List (List Nat)} {k : Kind}

theorem partner (h : Built m dN) (hb : GoodBCs m) (hD : k.D = dN.length) (h1 : 1 ≤ k.D)
    (h3 : k.D ≤ 3) {d : Direction} (hd : d ∈ allDirs k.D) {r : Nat} (hr : r < m.doms.length) :
    sendRecv m r d = .ok (sendTo m r d, recvFrom m r d) ∧
    (∀ t, sendTo m r d = some t → t < m.doms.length) ∧
    (∀ t, recvFrom m r d = some t → t < m.doms.length) ∧
    (∀ t, t < m.doms.length → (sendTo m r d = some t ↔ recvFrom m t d = some r)) := by
  obtain ⟨hl, hs, hnz⟩ := ((C07_direction_tables k.D h1 h3).1 d).1 hd
  obtain ⟨c1, c2⟩ := C05_sends_match_receives m dN h hb d hs (by rw [hl, hD]) hnz
  have hok : ∀ i < m.doms.length, sendRecv m i d = .ok (sendTo m i d, recvFrom m i d) := by
    intro i hi
    obtain ⟨a, b, e, -⟩ := c1 i hi
    unfold sendTo recvFrom; rw [e]
  obtain ⟨a, b, e, e1, e2⟩ := c1 r hr
  have := hok r hr
  rw [e] at this
  simp only [Outcome.ok.injEq, Prod.mk.injEq] at this
  refine ⟨hok r hr, ?_, ?_, ?_⟩
  · rw [← this.1]; exact e1
  · rw [← this.2]; exact e2
  · intro t ht
    exact c2 r hr t ht _ _ _ _ (hok r hr) (hok t ht)

/-- one rank before it receives -/
theorem outboxOf_spec (h : Built m dN) (hb : GoodBCs m) (hD : k.D = dN.length) (h1 : 1 ≤ k.D)
    (h3 : k.D ≤ 3) (st : Nat → Store R) (hst : Ready m k st) (S : Nat → Scheds)
    (hS : ∀ r < m.doms.length, (S r).Fair) {r : Nat} (hr : r < m.doms.length) :
    ∃ o, outboxOf m k st S r = .ok o ∧
      OutboxOk k (st r) ((allDirs k.D).filter fun d =>
          decide (¬ (sendTo m r d = none ∧ recvFrom m r d = none)))
        ((allDirs k.D).map (shiftOf m r 0)) ((allDirs k.D).map (shiftOf m r 1))
        ((allDirs k.D).map (shiftOf m r 2)) o := by
  have hp : ∀ d ∈ allDirs k.D, ∃ a b, sendRecv m r d = .ok (a, b) := fun d hd =>
    ⟨_, _, (partner h hb hD h1 h3 hd hr).1⟩
  obtain ⟨-, hnd, -⟩ := C07_direction_tables k.D h1 h3
  have hnd : (allDirs k.D).Nodup := hnd
  obtain ⟨o, ho, hok⟩ := prepare_spec k h1 h3 (st r) (hst.npart r hr)
    ((allDirs k.D).filter fun d => decide (¬ (sendTo m r d = none ∧ recvFrom m r d = none)))
    (hnd.filter _) (fun d hd => List.mem_of_mem_filter hd) ((allDirs k.D).map (shiftOf m r 0))
    ((allDirs k.D).map (shiftOf m r 1)) ((allDirs k.D).map (shiftOf m r 2)) (S r)
    ((hS r hr).count _) ((hS r hr).prep _) (fun d n => (hS r hr).pack d n)
    (by
      intro q hq
      have hnt := ntags_eq h1 h3
      rcases hst.marked r hr q hq with e | e | ⟨d, hd, e, -⟩
      · omega
      · omega
      · obtain ⟨t, e2, e3, e4, -⟩ := dir2tag_mem h1 h3 hd
        rw [e2] at e
        have : (t : Int) = q.tag := by simpa using e
        omega)
    (hst.payload r hr)
  refine ⟨o, ?_, hok⟩
  unfold outboxOf
  rw [dirsToComm_eq m r _ hp, Outcome.bind_ok]
  simp only [shiftTable_eq m r _ _ hp, Outcome.bind_ok]
  exact ho

theorem flatMap_filter_nil {α β : Type} (l : List α) (p : α → Bool) (f : α → List β)
    (h : ∀ x ∈ l, p x = false → f x = []) : (l.filter p).flatMap f = l.flatMap f := by
  induction l with
  | nil => rfl
  | cons x xs ih =>
    have ih' := ih fun y hy => h y (by simp [hy])
    by_cases hx : p x = true
    · rw [List.filter_cons_of_pos hx, List.flatMap_cons, List.flatMap_cons, ih']
    · rw [List.filter_cons_of_neg hx, List.flatMap_cons, h x (by simp) (by simpa using hx), ih']
      rfl

/-- all messages are ready, and what they contain -/
theorem comm_ready (h : Built m dN) (hb : GoodBCs m) (hD : k.D = dN.length) (h1 : 1 ≤ k.D)
    (h3 : k.D ≤ 3) (st : Nat → Store R) (hst : Ready m k st) (S : Nat → Scheds)
    (hS : ∀ r < m.doms.length, (S r).Fair) :
    ∃ boxes, forRanks (outboxOf m k st S) m.doms.length = .ok boxes ∧
      ∀ r < m.doms.length, ∃ (dirs : List Direction) (Ls : List (List (Prtl R)))
          (sh1 sh2 sh3 : List Int),
        dirsToComm m r (allDirs k.D) = .ok dirs ∧
        (∀ p, p < (st r).npart → tagAt (st r).arr p = 1 ∨ tagAt (st r).arr p = 0 ∨
          ∃ d ∈ dirs, dir2tag k.D d = .ok (tagAt (st r).arr p)) ∧
        OutboxOk k (st r) dirs sh1 sh2 sh3 (boxes.getD r ⟨[], [], [], []⟩) ∧
        incoming k (fun q => boxes.getD q ⟨[], [], [], []⟩) (recvFrom m r) dirs =
          .ok (Ls.map fun L => (L.length, flat (L.map (rowOf k)))) ∧
        (∀ L ∈ Ls, ∀ q ∈ L, PldOk k q) ∧ (Ls.length = dirs.length) ∧
        (Ls.flatten.map k.view).Perm (arrivals m k st r) := by
  classical
  obtain ⟨boxes, hbx, hbl, hbs⟩ := forRanks_ok m.doms.length
    (fun r hr => outboxOf_spec h hb hD h1 h3 st hst S hS hr)
  refine ⟨boxes, hbx, ?_⟩
  have hbox : ∀ r < m.doms.length, OutboxOk k (st r) ((allDirs k.D).filter fun d =>
          decide (¬ (sendTo m r d = none ∧ recvFrom m r d = none)))
        ((allDirs k.D).map (shiftOf m r 0)) ((allDirs k.D).map (shiftOf m r 1))
        ((allDirs k.D).map (shiftOf m r 2)) (boxes.getD r ⟨[], [], [], []⟩) := by
    intro r hr
    obtain ⟨x, a, b, c⟩ := hbs r hr
    rw [List.getD_eq_getElem?_getD, a]; exact c
  -- the message of rank `q` in direction `d`
  have hmsg : ∀ q d, ∃ L : List (Prtl R), ∀ t, q < m.doms.length → d ∈ allDirs k.D →
      sendTo m q d = some t →
      (boxes.getD q ⟨[], [], [], []⟩).message k d = .ok (L.length, flat (L.map (rowOf k))) ∧
      (∀ x ∈ L, PldOk k x) ∧ (L.map k.view).Perm
        ((leaving k (st q) d).map fun p => (k.view p).move (displacement m q t d)) := by
    intro q d
    by_cases hc : q < m.doms.length ∧ d ∈ allDirs k.D ∧ sendTo m q d ≠ none
    · obtain ⟨hq, hd, hs⟩ := hc
      obtain ⟨t, L, m1, m2, m3, m4⟩ := (hbox q hq).message d (by
        rw [List.mem_filter]; exact ⟨hd, by simp [hs]⟩)
      refine ⟨L, fun t' _ _ hst' => ⟨m2, m4, ?_⟩⟩
      have e := m3.map k.view
      rw [List.map_map] at e
      refine e.trans ?_
      have hfl : leaving k (st q) d =
          ((st q).arr.take (st q).npart).filter fun q => decide (q.tag = (t : Int)) := by
        unfold leaving Store.used
        apply List.filter_congr
        intro x _
        rw [m1]
        simp only [Outcome.ok.injEq, decide_eq_decide]
        exact eq_comm
      rw [hfl]
      apply List.Perm.of_eq
      apply List.map_congr_left
      intro x hx
      have hxt := (List.mem_filter.1 hx).2
      simp only [decide_eq_true_eq] at hxt
      exact view_sent m k h1 h3 q t' d hd t m1 hst' x hxt
    · exact ⟨[], fun t a b c => absurd ⟨a, b, by simp [c]⟩ hc⟩
  choose Lf hLf using hmsg
  intro r hr
  have hp : ∀ d ∈ allDirs k.D, ∃ a b, sendRecv m r d = .ok (a, b) := fun d hd =>
    ⟨_, _, (partner h hb hD h1 h3 hd hr).1⟩
  set dirs := (allDirs k.D).filter fun d =>
    decide (¬ (sendTo m r d = none ∧ recvFrom m r d = none)) with hdirs
  set LL : Direction → List (Prtl R) := fun d => match recvFrom m r d with
    | none => []
    | some q => Lf q d with hLL
  have hmem : ∀ d ∈ dirs, d ∈ allDirs k.D := fun d hd => List.mem_of_mem_filter hd
  have hsend : ∀ d ∈ allDirs k.D, ∀ q, recvFrom m r d = some q →
      q < m.doms.length ∧ sendTo m q d = some r := by
    intro d hd q hq
    have hql := (partner h hb hD h1 h3 hd hr).2.2.1 q hq
    exact ⟨hql, ((partner h hb hD h1 h3 hd hql).2.2.2 r hr).2 hq⟩
  refine ⟨dirs, dirs.map LL, _, _, _, dirsToComm_eq m r _ hp, ?_, hbox r hr, ?_, ?_, by simp, ?_⟩
  · intro p hpn
    have hlt : p < (st r).arr.length := by
      have := hst.npart r hr; unfold Store.maxnpart at this; omega
    have hq : (st r).arr[p]? = some (st r).arr[p] := List.getElem?_eq_getElem hlt
    rw [tagAt_some hq]
    rcases hst.marked r hr ((st r).arr[p]) (by
      unfold Store.used
      rw [List.mem_take_iff_getElem]; exact ⟨p, by omega, rfl⟩) with e | e | ⟨d, hd, e1, e2⟩
    · exact Or.inr (Or.inl e)
    · exact Or.inl e
    · refine Or.inr (Or.inr ⟨d, ?_, e1⟩)
      rw [hdirs, List.mem_filter]
      exact ⟨hd, by simpa [not_and_or] using e2⟩
  · apply incoming_eq
    intro d hd
    simp only [hLL]
    refine ⟨fun hn => by rw [hn], fun q hq => ?_⟩
    obtain ⟨hql, hqs⟩ := hsend d (hmem d hd) q hq
    rw [hq]
    exact (hLf q d r hql (hmem d hd) hqs).1
  · intro L hL x hx
    obtain ⟨d, hd, rfl⟩ := List.mem_map.1 hL
    simp only [hLL] at hx
    cases hq : recvFrom m r d with
    | none => rw [hq] at hx; simp at hx
    | some q =>
      rw [hq] at hx
      obtain ⟨hql, hqs⟩ := hsend d (hmem d hd) q hq
      exact (hLf q d r hql (hmem d hd) hqs).2.1 x hx
  · have e1 : (dirs.map LL).flatten = (allDirs k.D).flatMap LL := by
      rw [← List.flatMap_def, hdirs]
      apply flatMap_filter_nil
      intro d _ hf
      simp only [decide_eq_false_iff_not, not_not] at hf
      simp only [hLL, hf.2]
    rw [e1, List.map_flatMap]
    unfold arrivals
    have : ∀ ds : List Direction, (∀ d ∈ ds, d ∈ allDirs k.D) →
        (ds.flatMap fun a => (LL a).map k.view).Perm (ds.flatMap fun d =>
          match recvFrom m r d with
          | none => []
          | some q => (leaving k (st q) d).map fun p => (k.view p).move (displacement m q r d)) := by
      intro ds hds
      induction ds with
      | nil => exact .refl _
      | cons d ds ih =>
        rw [List.flatMap_cons, List.flatMap_cons]
        refine List.Perm.append ?_ (ih fun x hx => hds x (by simp [hx]))
        simp only [hLL]
        cases hq : recvFrom m r d with
        | none => exact .refl _
        | some q =>
          obtain ⟨hql, hqs⟩ := hsend d (hds d (by simp)) q hq
          exact (hLf q d r hql (hds d (by simp)) hqs).2.2
    exact this _ fun d hd => hd

/-! ## C16 -/

/-- **C16 (one rank).** For every decomposition, every admissible set of boundary conditions, every
content of the species on every rank, and every schedule of the kernels: if the arrays can hold what
arrives, the exchange succeeds, and afterwards the live particles of every rank are exactly its
previously live ones, in the same slots with the same data, and the particles marked for it by its
neighbours, with all their data, displaced in cell index only; nothing else is left in use but dead
slots. -/
theorem C16_exchange (m : Meta) (dN : List (List Nat)) (h : Built m dN) (hb : GoodBCs m) (k : Kind)
    (hD : k.D = dN.length) (h1 : 1 ≤ k.D) (h3 : k.D ≤ 3) (st : List (Store R))
    (hst : Ready m k fun r => st.getD r ⟨[], 0⟩) (S : Nat → Scheds)
    (hS : ∀ r < m.doms.length, (S r).Fair)
    (hcap : ∀ r < m.doms.length, (st.getD r ⟨[], 0⟩).npart +
      (arrivals m k (fun r => st.getD r ⟨[], 0⟩) r).length < (st.getD r ⟨[], 0⟩).maxnpart) :
    ∃ st', communicateParticles m k st S = .ok st' ∧ st'.length = m.doms.length ∧
      ∀ r < m.doms.length, ∃ s', st'[r]? = some s' ∧
        s'.maxnpart = (st.getD r ⟨[], 0⟩).maxnpart ∧ s'.npart ≤ s'.maxnpart ∧
        (∀ p q, p < (st.getD r ⟨[], 0⟩).npart → (st.getD r ⟨[], 0⟩).arr[p]? = some q → q.tag = 1 →
          s'.arr[p]? = some q) ∧
        (∀ q ∈ s'.used, q.tag = 1 ∨ q.tag = 0) ∧
        (s'.live.map k.view).Perm ((st.getD r ⟨[], 0⟩).live.map k.view ++
          arrivals m k (fun r => st.getD r ⟨[], 0⟩) r) := by
  obtain ⟨boxes, hbx, hr⟩ := comm_ready h hb hD h1 h3 _ hst S hS
  obtain ⟨st', e1, e2, e3⟩ := forRanks_ok (f := fun r => do
      let dirs ← dirsToComm m r (allDirs k.D)
      let o := boxes.getD r ⟨[], [], [], []⟩
      let inc ← incoming k (fun q => boxes.getD q ⟨[], [], [], []⟩) (recvFrom m r) dirs
      receiveAll k (st.getD r ⟨[], 0⟩) o inc (S r)) (P := fun r s' =>
        s'.maxnpart = (st.getD r ⟨[], 0⟩).maxnpart ∧ s'.npart ≤ s'.maxnpart ∧
        (∀ p q, p < (st.getD r ⟨[], 0⟩).npart → (st.getD r ⟨[], 0⟩).arr[p]? = some q → q.tag = 1 →
          s'.arr[p]? = some q) ∧
        (∀ q ∈ s'.used, q.tag = 1 ∨ q.tag = 0) ∧
        (s'.live.map k.view).Perm ((st.getD r ⟨[], 0⟩).live.map k.view ++
          arrivals m k (fun r => st.getD r ⟨[], 0⟩) r)) m.doms.length (by
    intro r hrl
    obtain ⟨dirs, Ls, sh1, sh2, sh3, f1, f2, f3, f4, f5, f6, f7⟩ := hr r hrl
    have hlen : Ls.flatten.length = (arrivals m k (fun r => st.getD r ⟨[], 0⟩) r).length := by
      rw [← f7.length_eq, List.length_map]
    obtain ⟨s', g1, g2, g3, g4, g5, g6, g7⟩ := receive_spec k h1 h3 (st.getD r ⟨[], 0⟩)
      (hst.npart r hrl) dirs sh1 sh2 sh3 _ f3 (S r) (hS r hrl).extract f2 Ls _ rfl f5
      (Or.inr (by rw [hlen]; exact hcap r hrl))
    refine ⟨s', ?_, g2, g4, ?_, g6, g7.trans (List.Perm.append_left _ f7)⟩
    · rw [f1, Outcome.bind_ok]
      simp only
      rw [f4, Outcome.bind_ok]
      exact g1
    · intro p q hp hq ht
      rw [g5 p hp (by rw [tagAt_some hq, ht]), hq])
  refine ⟨st', ?_, e2, ?_⟩
  · unfold communicateParticles
    simp only
    rw [hbx, Outcome.bind_ok]
    exact e1
  · intro r hrl
    obtain ⟨s', a, -, b⟩ := e3 r hrl
    exact ⟨s', a, b⟩

/-! ### All ranks together -/

/-- Everything a particle carries apart from its cell indices. -/
def View.cargo {R : Type} (v : View R) : View R := { v with cell := [], cellPrev := [] }

theorem flatMap_swap {α β γ : Type} (l : List α) (l' : List β) (F : α → β → List γ) :
    (l.flatMap fun a => l'.flatMap fun b => F a b).Perm
      (l'.flatMap fun b => l.flatMap fun a => F a b) := by
  induction l' with
  | nil => simp
  | cons b l' ih =>
    simp only [List.flatMap_cons]
    refine (List.flatMap_append_perm l (fun a => F a b)
      (fun a => l'.flatMap fun b => F a b)).symm.trans ?_
    exact List.Perm.append_left _ ih

theorem flatMap_congr_perm {α β : Type} (l : List α) (f g : α → List β)
    (h : ∀ x ∈ l, (f x).Perm (g x)) : (l.flatMap f).Perm (l.flatMap g) := by
  induction l with
  | nil => exact .refl _
  | cons x xs ih =>
    rw [List.flatMap_cons, List.flatMap_cons]
    exact (h x (by simp)).append (ih fun y hy => h y (by simp [hy]))

theorem flatMap_cons_perm {α β : Type} [DecidableEq α] (ds : List α) (hnd : ds.Nodup) (d : α)
    (hd : d ∈ ds) (f g : α → List β) (x : β) (hx : f d = x :: g d)
    (ho : ∀ e ∈ ds, e ≠ d → f e = g e) : (ds.flatMap f).Perm (x :: ds.flatMap g) := by
  obtain ⟨a, b, rfl⟩ := List.append_of_mem hd
  rw [List.nodup_append] at hnd
  obtain ⟨n1, n2, n3⟩ := hnd
  rw [List.nodup_cons] at n2
  rw [List.flatMap_append, List.flatMap_append, List.flatMap_cons, List.flatMap_cons, hx]
  have ea : a.flatMap f = a.flatMap g := by
    rw [List.flatMap_def, List.flatMap_def]
    congr 1
    apply List.map_congr_left
    intro e he
    exact ho e (by simp [he]) (fun h => n3 e he d (by simp) h)
  have eb : b.flatMap f = b.flatMap g := by
    rw [List.flatMap_def, List.flatMap_def]
    congr 1
    apply List.map_congr_left
    intro e he
    exact ho e (by simp [he]) (fun h => n2.1 (h ▸ he))
  rw [ea, eb, List.cons_append]
  exact List.perm_middle

/-- particles in use: dead, alive, or leaving in exactly one direction -/
theorem used_split (h1 : 1 ≤ k.D) (h3 : k.D ≤ 3) (l : List (Prtl R))
    (hm : ∀ q ∈ l, q.tag = 0 ∨ q.tag = 1 ∨ ∃ d ∈ allDirs k.D, dir2tag k.D d = .ok q.tag) :
    (l.filter fun q => decide (q.tag ≠ 0)).Perm
      ((l.filter fun q => decide (q.tag = 1)) ++
        (allDirs k.D).flatMap fun d => l.filter fun q => decide (dir2tag k.D d = .ok q.tag)) := by
  have htag : ∀ d ∈ allDirs k.D, ∀ t, dir2tag k.D d = .ok t → t ≠ 0 ∧ t ≠ 1 := by
    intro d hd t ht
    obtain ⟨u, e, hu, -⟩ := dir2tag_mem h1 h3 hd
    rw [e] at ht
    have : (u : Int) = t := by simpa using ht
    omega
  obtain ⟨-, hnd, -⟩ := C07_direction_tables k.D h1 h3
  induction l with
  | nil => simp
  | cons q l ih =>
    have ih' := ih fun x hx => hm x (by simp [hx])
    rcases hm q (by simp) with e | e | ⟨d, hd, e⟩
    · have e2 : ∀ d ∈ allDirs k.D, (q :: l).filter (fun q => decide (dir2tag k.D d = .ok q.tag)) =
          l.filter fun q => decide (dir2tag k.D d = .ok q.tag) := by
        intro d hd
        rw [List.filter_cons_of_neg]
        simp only [decide_eq_true_eq]
        intro he
        exact (htag d hd _ he).1 e
      rw [List.filter_cons_of_neg (by simp [e]), List.filter_cons_of_neg (by simp [e])]
      rw [List.flatMap_def, List.map_congr_left e2, ← List.flatMap_def]
      exact ih'
    · have e2 : ∀ d ∈ allDirs k.D, (q :: l).filter (fun q => decide (dir2tag k.D d = .ok q.tag)) =
          l.filter fun q => decide (dir2tag k.D d = .ok q.tag) := by
        intro d hd
        rw [List.filter_cons_of_neg]
        simp only [decide_eq_true_eq]
        intro he
        exact (htag d hd _ he).2 e
      rw [List.filter_cons_of_pos (by simp [e]), List.filter_cons_of_pos (by simp [e])]
      rw [List.flatMap_def, List.map_congr_left e2, ← List.flatMap_def]
      exact ih'.cons q
    · have hq := htag d hd _ e
      rw [List.filter_cons_of_pos (by simp [hq.1]), List.filter_cons_of_neg (by simp [hq.2])]
      refine (ih'.cons q).trans (List.perm_middle.symm.trans (List.Perm.append_left _ ?_))
      refine (flatMap_cons_perm (allDirs k.D) hnd d hd _ _ q ?_ ?_).symm
      · rw [List.filter_cons_of_pos (by simp [e])]
      · intro x hx hne
        rw [List.filter_cons_of_neg]
        simp only [decide_eq_true_eq]
        intro he
        obtain ⟨u, f1, -, -, f2⟩ := dir2tag_mem h1 h3 hd
        obtain ⟨v, g1, -, -, g2⟩ := dir2tag_mem h1 h3 hx
        rw [f1] at e
        rw [g1, ← e] at he
        have : v = u := by simpa using he
        subst this
        rw [f2] at g2
        cases g2; exact hne rfl

theorem flatMap_congr' {α β : Type} (l : List α) (f g : α → List β)
    (h : ∀ x ∈ l, f x = g x) : l.flatMap f = l.flatMap g := by
  induction l with
  | nil => rfl
  | cons x l ih =>
    rw [List.flatMap_cons, List.flatMap_cons, h x (by simp), ih fun y hy => h y (by simp [hy])]

/-- Over all ranks together, whatever is unaffected by handing a particle over (`hg`) is the same, as
a multiset, for the live particles after the exchange and for the wanted ones before it. -/
theorem exchange_invariant {β : Type} (m : Meta) (dN : List (List Nat)) (h : Built m dN)
    (hb : GoodBCs m) (k : Kind) (hD : k.D = dN.length) (h1 : 1 ≤ k.D) (h3 : k.D ≤ 3)
    (st st' : List (Store R)) (hst : Ready m k fun r => st.getD r ⟨[], 0⟩) (S : Nat → Scheds)
    (hS : ∀ r < m.doms.length, (S r).Fair)
    (hcap : ∀ r < m.doms.length, (st.getD r ⟨[], 0⟩).npart +
      (arrivals m k (fun r => st.getD r ⟨[], 0⟩) r).length < (st.getD r ⟨[], 0⟩).maxnpart)
    (hrun : communicateParticles m k st S = .ok st') (g : Nat → View R → β)
    (hg : ∀ r t d, r < m.doms.length → d ∈ allDirs k.D → sendTo m r d = some t →
      ∀ p, g t ((k.view p).move (displacement m r t d)) = g r (k.view p)) :
    ((List.range m.doms.length).flatMap fun r =>
        (st'.getD r ⟨[], 0⟩).live.map fun q => g r (k.view q)).Perm
      ((List.range m.doms.length).flatMap fun r =>
        ((st.getD r ⟨[], 0⟩).used.filter fun q => decide (Wanted m k r q)).map
          fun q => g r (k.view q)) := by
  obtain ⟨st'', e1, e2, e3⟩ := C16_exchange m dN h hb k hD h1 h3 st hst S hS hcap
  rw [hrun] at e1
  cases e1
  set f : Nat → Store R := fun r => st.getD r ⟨[], 0⟩ with hf
  -- left-hand side
  have hL : ∀ r ∈ List.range m.doms.length,
      ((st'.getD r ⟨[], 0⟩).live.map fun q => g r (k.view q)).Perm
        ((f r).live.map (fun q => g r (k.view q)) ++ (arrivals m k f r).map (g r)) := by
    intro r hr
    rw [List.mem_range] at hr
    obtain ⟨s', a, -, -, -, -, b⟩ := e3 r hr
    rw [List.getD_eq_getElem?_getD, a, Option.getD_some]
    have := b.map (g r)
    rw [List.map_append, List.map_map, List.map_map] at this
    exact this
  refine (flatMap_congr_perm _ _ _ hL).trans ?_
  refine (List.flatMap_append_perm _ _ _).symm.trans ?_
  -- right-hand side
  have hR : ∀ r ∈ List.range m.doms.length,
      (((f r).used.filter fun q => decide (Wanted m k r q)).map fun q => g r (k.view q)).Perm
        ((f r).live.map (fun q => g r (k.view q)) ++
          (allDirs k.D).flatMap fun d => (if sendTo m r d = none then [] else
            leaving k (f r) d).map fun q => g r (k.view q)) := by
    intro r hr
    rw [List.mem_range] at hr
    have key := used_split h1 h3 ((f r).used.filter fun q => decide (Wanted m k r q)) (fun q hq => by
      have := of_decide_eq_true (List.mem_filter.1 hq).2
      rcases this with e | ⟨d, hd, e, -⟩
      · exact Or.inr (Or.inl e)
      · exact Or.inr (Or.inr ⟨d, hd, e⟩))
    have hnz : ∀ d ∈ allDirs k.D, ∀ q : Prtl R, dir2tag k.D d = .ok q.tag → q.tag ≠ 0 ∧ q.tag ≠ 1 := by
      intro d hd q e
      obtain ⟨u, e', hu, -⟩ := dir2tag_mem h1 h3 hd
      rw [e'] at e
      have : (u : Int) = q.tag := by simpa using e
      omega
    rw [List.filter_filter, List.filter_filter] at key
    have c1 : ((f r).used.filter fun q => decide (q.tag ≠ 0) && decide (Wanted m k r q)) =
        (f r).used.filter fun q => decide (Wanted m k r q) := by
      apply List.filter_congr
      intro q _
      by_cases hw : Wanted m k r q
      · have : q.tag ≠ 0 := by
          rcases hw with e | ⟨d, hd, e, -⟩
          · omega
          · exact (hnz d hd q e).1
        simp [hw, this]
      · simp [hw]
    have c2 : ((f r).used.filter fun q => decide (q.tag = 1) && decide (Wanted m k r q)) =
        (f r).live := by
      unfold Store.live
      apply List.filter_congr
      intro q _
      by_cases he : q.tag = 1
      · simp [he, Wanted]
      · simp [he]
    have c3 : ((allDirs k.D).flatMap fun d => ((f r).used.filter fun q =>
        decide (Wanted m k r q)).filter fun q => decide (dir2tag k.D d = .ok q.tag)) =
        (allDirs k.D).flatMap fun d => (if sendTo m r d = none then [] else leaving k (f r) d) := by
      apply flatMap_congr'
      intro d hd
      rw [List.filter_filter]
      by_cases hs : sendTo m r d = none
      · rw [if_pos hs, List.filter_eq_nil_iff]
        intro q _ hq
        simp only [Bool.and_eq_true, decide_eq_true_eq] at hq
        obtain ⟨e1, e | ⟨d', hd', e, hs'⟩⟩ := hq
        · exact (hnz d hd q e1).2 e
        · obtain ⟨u, f1, -, -, f2⟩ := dir2tag_mem h1 h3 hd
          obtain ⟨v, g1, -, -, g2⟩ := dir2tag_mem h1 h3 hd'
          rw [f1] at e1
          rw [g1, ← e1] at e
          have : v = u := by simpa using e
          subst this
          rw [f2] at g2
          cases g2
          exact hs' hs
      · rw [if_neg hs]
        unfold leaving
        apply List.filter_congr
        intro q _
        by_cases he : dir2tag k.D d = .ok q.tag
        · have hw : Wanted m k r q := Or.inr ⟨d, hd, he, hs⟩
          simp [he, hw]
        · simp [he]
    rw [c1, c2, c3] at key
    have := key.map fun q => g r (k.view q)
    rw [List.map_append, List.map_flatMap] at this
    exact this
  refine List.Perm.trans ?_ (flatMap_congr_perm _ _ _ hR).symm
  refine List.Perm.trans ?_ (List.flatMap_append_perm _ _ _)
  refine List.Perm.append_left _ ?_
  -- arrivals and departures, direction by direction
  have hA : ∀ r ∈ List.range m.doms.length,
      (arrivals m k f r).map (g r) = (allDirs k.D).flatMap fun d =>
      match recvFrom m r d with
      | none => []
      | some q => (leaving k (f q) d).map fun p => g q (k.view p) := by
    intro r hr
    rw [List.mem_range] at hr
    unfold arrivals
    rw [List.map_flatMap]
    apply flatMap_congr'
    intro d hd
    cases e : recvFrom m r d with
    | none => rfl
    | some q =>
      simp only
      rw [List.map_map]
      apply List.map_congr_left
      intro p _
      have hq := (partner h hb hD h1 h3 hd hr).2.2.1 q e
      exact hg q r d hq hd (((partner h hb hD h1 h3 hd hq).2.2.2 r hr).2 e) p
  rw [flatMap_congr' _ _ _ hA]
  refine (flatMap_swap _ _ _).trans (List.Perm.trans ?_ (flatMap_swap _ _ _))
  apply flatMap_congr_perm
  intro d hd
  -- one direction
  have q1 : ((List.range m.doms.length).flatMap fun r =>
      match recvFrom m r d with
      | none => []
      | some q => (leaving k (f q) d).map fun p => g q (k.view p)) =
      ((List.range m.doms.length).filterMap fun r =>
        if r < m.doms.length then recvFrom m r d else none).flatMap
          fun q => (leaving k (f q) d).map fun p => g q (k.view p) := by
    have : ∀ l : List Nat, (∀ r ∈ l, r < m.doms.length) → (l.flatMap fun r =>
      match recvFrom m r d with
      | none => []
      | some q => (leaving k (f q) d).map fun p => g q (k.view p)) =
      (l.filterMap fun r => if r < m.doms.length then recvFrom m r d else none).flatMap
          fun q => (leaving k (f q) d).map fun p => g q (k.view p) := by
      intro l hl
      induction l with
      | nil => rfl
      | cons r l ih =>
        rw [List.flatMap_cons, List.filterMap_cons, if_pos (hl r (by simp)),
          ih fun x hx => hl x (by simp [hx])]
        cases recvFrom m r d with
        | none => simp
        | some q => simp
    exact this _ fun r hr => List.mem_range.1 hr
  have q2 : ((List.range m.doms.length).flatMap fun q =>
      (if sendTo m q d = none then [] else leaving k (f q) d).map fun p => g q (k.view p)) =
      ((List.range m.doms.length).filter fun q => decide (sendTo m q d ≠ none)).flatMap
        fun q => (leaving k (f q) d).map fun p => g q (k.view p) := by
    rw [← flatMap_filter_nil _ (fun q => decide (sendTo m q d ≠ none)) (fun q =>
      (if sendTo m q d = none then [] else leaving k (f q) d).map fun p => g q (k.view p))]
    · apply flatMap_congr'
      intro q hq
      have := of_decide_eq_true (List.mem_filter.1 hq).2
      rw [if_neg this]
    · intro q _ hs
      have hs' : sendTo m q d = none := by simpa using hs
      rw [if_pos hs', List.map_nil]
  rw [q1, q2]
  apply List.Perm.flatMap_right
  rw [List.perm_ext_iff_of_nodup]
  · intro q
    simp only [List.mem_filterMap, List.mem_range, List.mem_filter, decide_eq_true_eq]
    constructor
    · rintro ⟨r, hr, he⟩
      rw [if_pos hr] at he
      have hq := (partner h hb hD h1 h3 hd hr).2.2.1 q he
      refine ⟨hq, ?_⟩
      rw [((partner h hb hD h1 h3 hd hq).2.2.2 r hr).2 he]; simp
    · rintro ⟨hq, he⟩
      obtain ⟨t, ht⟩ := Option.ne_none_iff_exists'.1 he
      have htl := (partner h hb hD h1 h3 hd hq).2.1 t ht
      exact ⟨t, htl, by rw [if_pos htl]; exact ((partner h hb hD h1 h3 hd hq).2.2.2 t htl).1 ht⟩
  · apply List.Nodup.filterMap _ List.nodup_range
    intro a a' b hb1 hb2
    split at hb1 <;> [skip; simp at hb1]
    split at hb2 <;> [skip; simp at hb2]
    rename_i ha ha'
    simp only [Option.mem_def] at hb1 hb2
    have hbl := (partner h hb hD h1 h3 hd ha).2.2.1 b hb1
    have g1 := ((partner h hb hD h1 h3 hd hbl).2.2.2 a ha).2 hb1
    have g2 := ((partner h hb hD h1 h3 hd hbl).2.2.2 a' ha').2 hb2
    rw [g1] at g2
    simpa using g2
  · exact List.nodup_range.filter _


/-- **C16 (all ranks).** Over all ranks together, the live particles after the exchange are exactly
those that were alive or marked for a direction in which there is a subdomain: none of them is lost,
none appears twice, each keeps its offsets, momentum, weight and payload; and particles marked for a
direction in which the box ends are gone. -/
theorem C16_no_loss_no_duplication (m : Meta) (dN : List (List Nat)) (h : Built m dN)
    (hb : GoodBCs m) (k : Kind) (hD : k.D = dN.length) (h1 : 1 ≤ k.D) (h3 : k.D ≤ 3)
    (st st' : List (Store R)) (hst : Ready m k fun r => st.getD r ⟨[], 0⟩) (S : Nat → Scheds)
    (hS : ∀ r < m.doms.length, (S r).Fair)
    (hcap : ∀ r < m.doms.length, (st.getD r ⟨[], 0⟩).npart +
      (arrivals m k (fun r => st.getD r ⟨[], 0⟩) r).length < (st.getD r ⟨[], 0⟩).maxnpart)
    (hrun : communicateParticles m k st S = .ok st') :
    ((List.range m.doms.length).flatMap fun r =>
        (st'.getD r ⟨[], 0⟩).live.map fun q => (k.view q).cargo).Perm
      ((List.range m.doms.length).flatMap fun r =>
        ((st.getD r ⟨[], 0⟩).used.filter fun q => decide (Wanted m k r q)).map
          fun q => (k.view q).cargo) :=
  exchange_invariant m dN h hb k hD h1 h3 st st' hst S hS hcap hrun
    (fun _ v => v.cargo) (fun _ _ _ _ _ _ _ => rfl)

end

/-! ## C17 -/

/-- Specification: cell `i` of subdomain `r` (relative to its corner) lies just outside it in
direction `d`, within one width of the neighbour `t`. -/
def LeftIn (m : Meta) (r t : Nat) (d : Direction) (i : List Int) : Prop :=
  i.length = d.length ∧ ∀ a < d.length,
    (d.getD a 0 = -1 → -((sizes m t).getD a 0 : Int) ≤ i.getD a 0 ∧ i.getD a 0 < 0) ∧
    (d.getD a 0 = 1 → ((sizes m r).getD a 0 : Int) ≤ i.getD a 0 ∧
      i.getD a 0 < (sizes m r).getD a 0 + (sizes m t).getD a 0) ∧
    (d.getD a 0 = 0 → 0 ≤ i.getD a 0 ∧ i.getD a 0 < (sizes m r).getD a 0)

/-- Global cell along axis `a`, on a grid of `N` cells whose ends are identified. -/
def globalCell (m : Meta) (r a N : Nat) (i : List Int) : Int :=
  match m.doms[r]? with
  | some s => ((s.offsetNcells.getD a 0 : Int) + i.getD a 0) % N
  | none => 0

/-- **C17.** A particle marked for direction `d` keeps its global cell, modulo the periodic extent
of the grid, and so does its previous cell; and its new cell index is inside its new subdomain
whenever it left the old one by less than a width of the neighbour. -/
theorem C17_global_position (m : Meta) (dN : List (List Nat)) (h : Built m dN) (hb : GoodBCs m)
    (hpos : ∀ l ∈ dN, ∀ x ∈ l, 0 < x) (D : Nat) (hD : D = dN.length) (h1 : 1 ≤ D) (h3 : D ≤ 3)
    (d : Direction) (hd : d ∈ allDirs D) (r t : Nat) (hr : r < m.doms.length)
    (ht : sendTo m r d = some t) (i : List Int) (hi : i.length = d.length) :
    (∀ a (ha : a < dN.length),
      globalCell m t a dN[a].sum (List.zipWith (· + ·) i (displacement m r t d)) =
        globalCell m r a dN[a].sum i) ∧
    (LeftIn m r t d i → ∀ a < D,
      0 ≤ (List.zipWith (· + ·) i (displacement m r t d)).getD a 0 ∧
      (List.zipWith (· + ·) i (displacement m r t d)).getD a 0 < (sizes m t).getD a 0) := by
  obtain ⟨hl, hs, hnz⟩ := ((C07_direction_tables D h1 h3).1 d).1 hd
  have hl' : d.length = dN.length := by omega
  obtain ⟨j, S, T, n1, n2, hS, hT, hadj⟩ := C04_neighbors m dN h hpos d hs hl' r hr
  obtain ⟨p, hp, hg⟩ := h.at_of_lt hr
  obtain ⟨jp, jm, m1, -, -, -, hse⟩ := sendRecv_eq m dN h hb d hs hl' hnz r p hp
  have hjt : j = t := by
    rw [n1] at m1
    cases m1
    unfold sendTo at ht
    rw [hse] at ht
    simp only at ht
    split at ht
    · simp at ht
    · simpa using ht
  subst hjt
  obtain ⟨RS, hRS, eS⟩ := h.getRec hS
  obtain ⟨RT, hRT, eT⟩ := h.getRec hT
  have lS : S.offsetNcells.length = dN.length ∧ S.ncells.length = dN.length := by
    subst eS; simp [Decomp.mkSub, hRS.len]
  have lT : T.offsetNcells.length = dN.length ∧ T.ncells.length = dN.length := by
    subst eT; simp [Decomp.mkSub, hRT.len]
  have szS : sizes m r = S.ncells := by unfold sizes; rw [hS]
  have szT : sizes m j = T.ncells := by unfold sizes; rw [hT]
  -- one axis
  have axis : ∀ a (ha : a < dN.length),
      AdjAxis dN[a].sum (d.getD a 0) (S.offsetNcells.getD a 0, S.ncells.getD a 0)
        (T.offsetNcells.getD a 0, T.ncells.getD a 0) := by
    intro a ha
    have g := List.forall₂_iff_get.1 hadj
    have := g.2 a (by simp [lS.1, lS.2, lT.1, lT.2]; exact ha) (by simp [hl']; exact ha)
    simp only [List.get_eq_getElem, List.getElem_zip, List.getElem_map] at this
    have gd : ∀ {α : Type} (l : List α) (x : α) (hl : a < l.length), l.getD a x = l[a] := by
      intro α l x hl; simp [List.getD_eq_getElem?_getD, hl]
    rw [gd d 0 (by omega), gd S.offsetNcells 0 (by omega), gd S.ncells 0 (by omega),
      gd T.offsetNcells 0 (by omega), gd T.ncells 0 (by omega)]
    exact this
  have hz : ∀ a, a < dN.length →
      (List.zipWith (· + ·) i (displacement m r j d)).getD a 0 = i.getD a 0 +
        (if d.getD a 0 = -1 then ((sizes m j).getD a 0 : Int)
         else if d.getD a 0 = 1 then -((sizes m r).getD a 0 : Int) else 0) := by
    intro a ha
    have hai : a < i.length := by omega
    have had : a < d.length := by omega
    rw [List.getD_eq_getElem?_getD, List.getElem?_zipWith, List.getElem?_eq_getElem hai]
    unfold displacement
    rw [List.getElem?_map, List.getElem?_range had]
    simp only [Option.map_some, Option.getD_some]
    rw [List.getD_eq_getElem?_getD (l := i), List.getElem?_eq_getElem hai]; rfl
  have hsgn : ∀ a, a < dN.length → d.getD a 0 = -1 ∨ d.getD a 0 = 0 ∨ d.getD a 0 = 1 := by
    intro a ha
    have had : a < d.length := by omega
    have e : d.getD a 0 = d[a] := by simp [List.getD_eq_getElem?_getD, had]
    rw [e]; exact hs _ (List.getElem_mem had)
  constructor
  · intro a ha
    unfold globalCell
    rw [hS, hT]
    simp only
    rw [hz a ha, szS, szT]
    obtain ⟨a0, a1, a2⟩ := axis a ha
    generalize S.offsetNcells.getD a 0 = so at *
    generalize S.ncells.getD a 0 = sn at *
    generalize T.offsetNcells.getD a 0 = to' at *
    generalize T.ncells.getD a 0 = tn at *
    generalize i.getD a 0 = x
    rcases hsgn a ha with e | e | e
    · rw [if_pos e]
      have := a2 e
      simp only at this
      have c : ((so : Int)) = ((to' : Int) + tn) % (dN[a].sum : Nat) := by
        rw [← this]; push_cast; rfl
      rw [c, Int.emod_add_emod]
      congr 1; ring
    · rw [if_neg (by omega), if_neg (by omega)]
      have := a0 e
      simp only [Prod.mk.injEq] at this
      rw [this.1]; congr 1; ring
    · rw [if_neg (by omega), if_pos e]
      have := a1 e
      simp only at this
      have c : ((to' : Int)) = ((so : Int) + sn) % (dN[a].sum : Nat) := by
        rw [← this]; push_cast; rfl
      rw [c, Int.emod_add_emod]
      congr 1; ring
  · rintro ⟨-, hin⟩ a ha
    rw [hz a (by omega)]
    obtain ⟨a0, a1, a2⟩ := axis a (by omega)
    obtain ⟨b1, b2, b3⟩ := hin a (by omega)
    rcases hsgn a (by omega) with e | e | e
    · have := b1 e; rw [if_pos e]; omega
    · have := b3 e; rw [if_neg (by omega), if_neg (by omega)]
      have := a0 e
      simp only [Prod.mk.injEq] at this
      rw [szS] at b3
      rw [szT, this.2]
      have := b3 e
      omega
    · have := b2 e; rw [if_neg (by omega), if_pos e]; omega

/-- The cell of a particle on the global grid, along every axis. -/
def globalCells (m : Meta) (dN : List (List Nat)) (r : Nat) (i : List Int) : List Int :=
  (List.range dN.length).map fun a => globalCell m r a (dN.getD a []).sum i

/-- **C17 (all ranks).** Over all ranks together, the live particles after the exchange are, with
their cell and previous cell on the (periodically identified) global grid and everything else they
carry, exactly those that were alive or marked for a direction in which there is a subdomain. -/
theorem C17_all_ranks {R : Type} [Inhabited R] (m : Meta) (dN : List (List Nat)) (h : Built m dN)
    (hb : GoodBCs m) (hpos : ∀ l ∈ dN, ∀ x ∈ l, 0 < x) (k : Kind) (hD : k.D = dN.length)
    (h1 : 1 ≤ k.D) (h3 : k.D ≤ 3)
    (st st' : List (Store R)) (hst : Ready m k fun r => st.getD r ⟨[], 0⟩) (S : Nat → Scheds)
    (hS : ∀ r < m.doms.length, (S r).Fair)
    (hcap : ∀ r < m.doms.length, (st.getD r ⟨[], 0⟩).npart +
      (arrivals m k (fun r => st.getD r ⟨[], 0⟩) r).length < (st.getD r ⟨[], 0⟩).maxnpart)
    (hrun : communicateParticles m k st S = .ok st') :
    ((List.range m.doms.length).flatMap fun r =>
        (st'.getD r ⟨[], 0⟩).live.map fun q => (globalCells m dN r (k.view q).cell,
          globalCells m dN r (k.view q).cellPrev, (k.view q).cargo)).Perm
      ((List.range m.doms.length).flatMap fun r =>
        ((st.getD r ⟨[], 0⟩).used.filter fun q => decide (Wanted m k r q)).map
          fun q => (globalCells m dN r (k.view q).cell,
            globalCells m dN r (k.view q).cellPrev, (k.view q).cargo)) := by
  refine exchange_invariant m dN h hb k hD h1 h3 st st' hst S hS hcap hrun
    (fun r v => (globalCells m dN r v.cell, globalCells m dN r v.cellPrev, v.cargo)) ?_
  intro r t d hr hd ht p
  have hdl : d.length = k.D := ((C07_direction_tables k.D h1 h3).1 d).1 hd |>.1
  have hlen : (k.view p).cell.length = d.length ∧ (k.view p).cellPrev.length = d.length := by
    simp only [Kind.view, List.length_take, List.length_cons, List.length_nil, hdl]; omega
  have key : ∀ i : List Int, i.length = d.length →
      globalCells m dN t (List.zipWith (· + ·) i (displacement m r t d)) = globalCells m dN r i := by
    intro i hi
    unfold globalCells
    apply List.map_congr_left
    intro a ha
    have ha' := List.mem_range.1 ha
    have := (C17_global_position m dN h hb hpos k.D hD h1 h3 d hd r t hr ht i hi).1 a ha'
    rw [List.getD_eq_getElem?_getD, List.getElem?_eq_getElem ha', Option.getD_some]
    exact this
  simp only [Prod.mk.injEq]
  exact ⟨key _ hlen.1, key _ hlen.2, rfl⟩

/-! ## C21, the exchange -/

section
variable {R : Type} [Inhabited R] {m : Meta} {dN : List (List Nat)} {k : Kind}

theorem forRanks_err {α : Type} {f : Nat → Outcome α} (n : Nat) (h : ∀ r < n, f r ≠ .ub)
    (he : ∃ r < n, f r = .err) : forRanks f n = .err := by
  induction n with
  | zero => obtain ⟨r, hr, _⟩ := he; omega
  | succ n ih =>
    have hno : ∀ n', (∀ r < n', f r ≠ .ub) → forRanks f n' ≠ .ub := by
      intro n'
      induction n' with
      | zero => intro _; simp [forRanks]
      | succ n' ih' =>
        intro h'
        have a := ih' fun r hr => h' r (by omega)
        have b := h' n' (by omega)
        simp only [forRanks]
        cases hq : forRanks f n' with
        | ok l => cases hf : f n' with
          | ok x => simp
          | err => simp
          | ub => exact absurd hf b
        | err => simp
        | ub => exact absurd hq a
    by_cases hx : ∃ r < n, f r = .err
    · simp only [forRanks]
      rw [ih (fun r hr => h r (by omega)) hx]; rfl
    · have hn : f n = .err := by
        obtain ⟨r, hr, hf⟩ := he
        by_cases hrn : r < n
        · exact absurd ⟨r, hrn, hf⟩ hx
        · have : r = n := by omega
          subst this; exact hf
      simp only [forRanks]
      have := hno n fun r hr => h r (by omega)
      cases hq : forRanks f n with
      | ok l => simp [hn]
      | err => rfl
      | ub => exact absurd hq this

/-- **C21 (exchange).** If what arrives at some communicating rank does not fit (the code asks for at
least one spare slot), the exchange raises an error before any particle is written; whatever
arrives, and under every schedule, no array is ever accessed out of bounds. -/
theorem C21_exchange_capacity (m : Meta) (dN : List (List Nat)) (h : Built m dN) (hb : GoodBCs m)
    (k : Kind) (hD : k.D = dN.length) (h1 : 1 ≤ k.D) (h3 : k.D ≤ 3) (st : List (Store R))
    (hst : Ready m k fun r => st.getD r ⟨[], 0⟩) (S : Nat → Scheds)
    (hS : ∀ r < m.doms.length, (S r).Fair) :
    communicateParticles m k st S ≠ .ub ∧
    ((∃ r < m.doms.length, arrivals m k (fun r => st.getD r ⟨[], 0⟩) r ≠ [] ∧
      (st.getD r ⟨[], 0⟩).maxnpart ≤ (st.getD r ⟨[], 0⟩).npart +
        (arrivals m k (fun r => st.getD r ⟨[], 0⟩) r).length) →
      communicateParticles m k st S = .err) := by
  obtain ⟨boxes, hbx, hr⟩ := comm_ready h hb hD h1 h3 _ hst S hS
  set f : Nat → Outcome (Store R) := fun r => do
      let dirs ← dirsToComm m r (allDirs k.D)
      let o := boxes.getD r ⟨[], [], [], []⟩
      let inc ← incoming k (fun q => boxes.getD q ⟨[], [], [], []⟩) (recvFrom m r) dirs
      receiveAll k (st.getD r ⟨[], 0⟩) o inc (S r) with hf
  have hcomm : communicateParticles m k st S = forRanks f m.doms.length := by
    unfold communicateParticles
    simp only
    rw [hbx, Outcome.bind_ok]
  have hrank : ∀ r < m.doms.length, f r ≠ .ub ∧
      (arrivals m k (fun r => st.getD r ⟨[], 0⟩) r ≠ [] →
        (st.getD r ⟨[], 0⟩).maxnpart ≤ (st.getD r ⟨[], 0⟩).npart +
          (arrivals m k (fun r => st.getD r ⟨[], 0⟩) r).length → f r = .err) := by
    intro r hrl
    obtain ⟨dirs, Ls, sh1, sh2, sh3, f1, f2, f3, f4, f5, f6, f7⟩ := hr r hrl
    have hlen : Ls.flatten.length = (arrivals m k (fun r => st.getD r ⟨[], 0⟩) r).length := by
      rw [← f7.length_eq, List.length_map]
    have hfr : f r = receiveAll k (st.getD r ⟨[], 0⟩) (boxes.getD r ⟨[], [], [], []⟩)
        (Ls.map fun L => (L.length, flat (L.map (rowOf k)))) (S r) := by
      simp only [hf]
      rw [f1, Outcome.bind_ok, f4, Outcome.bind_ok]
    have herr : Ls ≠ [] → (st.getD r ⟨[], 0⟩).maxnpart ≤ (st.getD r ⟨[], 0⟩).npart +
        Ls.flatten.length → f r = .err := by
      intro hne hcap
      rw [hfr]
      unfold receiveAll
      have : countsFit (st.getD r ⟨[], 0⟩).npart (st.getD r ⟨[], 0⟩).maxnpart 0
          ((Ls.map fun L => (L.length, flat (L.map (rowOf k)))).map (·.1)) = false := by
        rw [Bool.eq_false_iff, ne_eq, countsFit_iff]
        rw [List.map_map]
        have hs : (List.map ((fun x => x.1) ∘ fun L => (L.length, flat (L.map (rowOf k)))) Ls).sum =
            Ls.flatten.length := by rw [List.length_flatten]; rfl
        rw [hs]
        rintro (e | e)
        · exact hne (by simpa using e)
        · omega
      rw [this]; rfl
    constructor
    · by_cases hfit : Ls = [] ∨ (st.getD r ⟨[], 0⟩).npart + Ls.flatten.length <
          (st.getD r ⟨[], 0⟩).maxnpart
      · obtain ⟨s', g1, -⟩ := receive_spec k h1 h3 (st.getD r ⟨[], 0⟩)
          (hst.npart r hrl) dirs sh1 sh2 sh3 _ f3 (S r) (hS r hrl).extract f2 Ls _ rfl f5 hfit
        rw [hfr, g1]; simp
      · push Not at hfit
        rw [herr hfit.1 hfit.2]; simp
    · intro hne hcap
      apply herr
      · rintro rfl
        simp only [List.flatten_nil, List.map_nil] at f7
        exact hne f7.nil_eq.symm
      · omega
  constructor
  · rw [hcomm]
    by_cases he : ∃ r < m.doms.length, f r = .err
    · rw [forRanks_err _ (fun r hr => (hrank r hr).1) he]; simp
    · push Not at he
      obtain ⟨l, hl, -⟩ := forRanks_ok (f := f) (P := fun _ _ => True) m.doms.length (by
        intro r hr
        have a := (hrank r hr).1
        have b := he r hr
        cases hx : f r with
        | ok x => exact ⟨x, rfl, trivial⟩
        | err => exact absurd hx b
        | ub => exact absurd hx a)
      rw [hl]; simp
  · rintro ⟨r, hrl, a, b⟩
    rw [hcomm]
    exact forRanks_err _ (fun r hr => (hrank r hr).1) ⟨r, hrl, (hrank r hrl).2 a b⟩

end

/-! ## A case that meets the hypotheses -/

/-- Two subdomains of 5 and 6 cells along x1, periodic, 7 along x2 (`perMeta`): rank 0 has one dead,
one particle leaving through the corner (-1, -1), one leaving upwards in x1; rank 1 one live and one
leaving in x1 upwards. -/
def exK : Kind := ⟨2, false, 0, 1⟩

/-- a particle with cell, tag and an integer payload to recognise it by -/
def mkQ (i1 i2 : Int) (id : Nat) (tag : Int) : Prtl Int :=
  ⟨i1, i1, i2, i2, 0, 0, 0, 0, 0, 0, 0, 0, 0, 0, 0, 1, 0, [], [id], tag⟩

/-- the species on the two ranks -/
def exSt : List (Store Int) :=
  [⟨[mkQ 2 2 1 0, mkQ (-1) (-1) 2 2, mkQ 5 3 3 8, mkQ 0 0 0 0, mkQ 0 0 0 0], 3⟩,
   ⟨[mkQ 1 1 4 1, mkQ 6 6 5 8, mkQ 0 0 0 0, mkQ 0 0 0 0, mkQ 0 0 0 0], 2⟩]

/-- kernels run backwards -/
def exSch : Scheds :=
  ⟨fun n => (List.range n).reverse, fun n => (List.range n).reverse,
   fun _ n => (List.range n).reverse, fun n => (List.range n).reverse⟩

theorem exSch_fair : exSch.Fair :=
  ⟨fun _ => List.reverse_perm _, fun _ => List.reverse_perm _, fun _ _ => List.reverse_perm _,
   fun _ => List.reverse_perm _⟩

theorem exSt_ready : Ready perMeta exK fun r => exSt.getD r ⟨[], 0⟩ := by
  constructor
  · decide +kernel
  · decide +kernel
  · unfold PldOk; decide +kernel

example : Built perMeta [[5, 6], [7]] ∧ GoodBCs perMeta ∧ exK.D = 2 ∧
    Ready perMeta exK (fun r => exSt.getD r ⟨[], 0⟩) ∧ exSch.Fair ∧
    (∀ r < 2, (exSt.getD r ⟨[], 0⟩).npart +
      (arrivals perMeta exK (fun r => exSt.getD r ⟨[], 0⟩) r).length <
        (exSt.getD r ⟨[], 0⟩).maxnpart) :=
  ⟨perMeta_built, AllPeriodic.good ⟨rfl, by decide⟩, rfl, exSt_ready, exSch_fair, by decide +kernel⟩

/-- What the exchange does to it: id and cell of the live particles. -/
example : (match communicateParticles perMeta exK exSt (fun _ => exSch) with
      | .ok l => l.map fun s => s.live.map fun q => (q.pld_i, q.i1, q.i2)
      | _ => []) =
    [[([5], 0, 6)], [([4], 1, 1), ([2], 5, 6), ([3], 0, 3)]] := by decide +kernel

/-- C17 on it: the particle at (-1, -1) of rank 0 has left within a width of rank 1. -/
example : sendTo perMeta 0 [-1, -1] = some 1 ∧ LeftIn perMeta 0 1 [-1, -1] [-1, -1] ∧
    displacement perMeta 0 1 [-1, -1] = [6, 7] := by
  refine ⟨by decide +kernel, ⟨rfl, by decide +kernel⟩, by decide +kernel⟩

/-- The same with arrays too small for what arrives at rank 1. -/
example : (match communicateParticles perMeta exK
    [exSt.getD 0 ⟨[], 0⟩, ⟨(exSt.getD 1 ⟨[], 0⟩).arr.take 3, 2⟩] (fun _ => exSch) with
      | .err => true | _ => false) = true := by
  decide +kernel

end Entity.Prtl
