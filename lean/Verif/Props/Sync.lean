import Verif.Props.Halo

/-!
# C15: current synchronisation
-/

namespace Entity.Topology

open Entity Entity.Decomp Entity.Dir

/-! ## Specification -/

/-- Direction from which a contribution stored in cell `j` of some subdomain reaches cell `i`: per
axis `1` if it comes from lower ghost cells of the subdomain above, `-1` if from upper ghost cells
of the subdomain below, `0` if the index is the same. -/
def stepDir (i j : List Int) : Direction :=
  List.zipWith (fun x y => if y < x then 1 else if x < y then -1 else 0) i j

/-- All boundaries of the box are periodic. -/
def AllPeriodic (m : Meta) : Prop :=
  m.bcs.length = m.counts.length ∧ ∀ b ∈ m.bcs, b = (.PERIODIC, .PERIODIC)

variable {m : Meta} {dN : List (List Nat)}

/-! ## Lemmas -/

theorem AllPeriodic.good (h : AllPeriodic m) : GoodBCs m :=
  ⟨h.1, fun b hb => by rw [h.2 b hb]; decide⟩

theorem corner_periodic {c p : List Nat} {b : List (BC × BC)} {d : Direction} {acc : BC}
    (hb : ∀ e ∈ b, e = (.PERIODIC, .PERIODIC)) :
    corner c p b d acc = acc ∨ corner c p b d acc = .PERIODIC ∨ corner c p b d acc = .SYNC := by
  fun_induction corner c p b d acc with
  | case1 n ns p ps b bs d ds acc h1 h2 =>
    have := hb b (by simp)
    subst this
    right; right
    revert h2
    unfold axisBC
    simp only
    split_ifs <;> simp
  | case2 n ns p ps b bs d ds acc h1 h2 ih =>
    have := ih (fun e he => hb e (by simp [he]))
    tauto
  | case3 n ns p ps b bs d ds acc h1 ih =>
    exact ih (fun e he => hb e (by simp [he]))
  | case4 => left; rfl

theorem isWall_zero (r : Nat) {e : Direction} (he : ∀ x ∈ e, x = 0) : ¬ IsWall m r e := by
  have h0 : ∀ (e : Direction) k n, (∀ x ∈ e, x = 0) → assocOrthFrom n k e = [] := by
    intro e
    induction e with
    | nil => simp [assocOrthFrom]
    | cons x xs ih =>
      intro k n h
      simp only [assocOrthFrom, h x (by simp), ne_eq, not_true_eq_false, if_false]
      exact ih _ _ (fun y hy => h y (by simp [hy]))
  rintro ⟨b, hb, _⟩
  simp [dirBC, assocOrth, h0 e 0 e.length he, firstNonPeriodic] at hb

theorem not_wall_periodic (h : Built m dN) (hp : AllPeriodic m) {r : Nat} (hr : r < m.doms.length)
    {e : Direction} (hs : Signs e) (hl : e.length = dN.length) : ¬ IsWall m r e := by
  by_cases hz : ∀ x ∈ e, x = 0
  · exact isWall_zero r hz
  · push Not at hz
    obtain ⟨R, hR⟩ := h.getRec_lt hr
    rintro ⟨b, hb, h1, h2⟩
    have hl' : e.length = m.counts.length := by rw [h.counts]; simpa [Decomp.counts] using hl
    have hbi : ∀ e ∈ m.bcs, e.1 ≠ .INVALID ∧ e.2 ≠ .INVALID := by
      intro e he; rw [hp.2 e he]; decide
    rw [h.dirBC hR.at hs hl' hp.1 hbi hz] at hb
    have hni := corner_ne_invalid (acc := .INVALID) (d := e) (p := R.map (·.dom)) hbi
      (h.inGrid hR.at).length_eq hp.1 hl' (.inr hz)
    rcases corner_periodic (c := m.counts) (p := R.map (·.dom)) (d := e) (acc := .INVALID) hp.2
      with h3 | h3 | h3
    · exact hni h3
    · rw [h3] at hb; cases hb; exact h1 rfl
    · rw [h3] at hb; cases hb; exact h2 rfl

/-- the cell whose value is added in direction `d` -/
def contrib (m : Meta) (ng r : Nat) (i : List Int) (d : Direction) : Option (Nat × List Int) :=
  match sendRecv m r d with
  | .ok (_, some q) =>
    if inSlice (recvSlice true ng (sizes m r) d) i then
      some (q, srcCell (sendSlice true ng (sizes m q) d) (recvSlice true ng (sizes m r) d) i)
    else none
  | _ => none

/-- value of an optional cell -/
def valueAt {α : Type} [Zero α] (F : Fields α) : Option (Nat × List Int) → α
  | some c => F c.1 c.2
  | none => 0

theorem syncRound_eq {α : Type} [AddCommMonoid α] (h : Built m dN) (hg : GoodBCs m) (ng : Nat)
    (F B : Fields α) {d : Direction} (hd : IsDirection dN.length d) :
    syncRound m ng F B d = .ok (fun r i => B r i + valueAt F (contrib m ng r i d)) := by
  unfold syncRound
  rw [if_pos (roundOk_true h hg hd)]
  congr 1
  funext r i
  unfold contrib
  rcases sendRecv m r d with ⟨a, _ | q⟩ | _ | _
  · simp [valueAt]
  · by_cases hs : inSlice (recvSlice true ng (sizes m r) d) i = true
    · simp [valueAt, hs]
    · simp [valueAt, hs]
  · simp [valueAt]
  · simp [valueAt]

theorem foldSync_eq {α : Type} [AddCommMonoid α] (h : Built m dN) (hg : GoodBCs m) (ng : Nat)
    (F B : Fields α) (ds : List Direction) (hds : ∀ d ∈ ds, IsDirection dN.length d) :
    foldRounds (syncRound m ng F) B ds =
      .ok (fun r i => B r i + (ds.map (fun d => valueAt F (contrib m ng r i d))).sum) := by
  induction ds generalizing B with
  | nil => simp [foldRounds]
  | cons d ds ih =>
    rw [foldRounds, syncRound_eq h hg ng F B (hds d (by simp)), Outcome.bind_ok,
      ih _ (fun x hx => hds x (by simp [hx]))]
    simp [add_assoc]

theorem sum_filterMap {α β γ : Type} [AddCommMonoid α] (l : List β) (f : β → Option γ)
    (g : γ → α) (v : Option γ → α) (h1 : ∀ c, v (some c) = g c) (h0 : v none = 0) :
    (l.map (fun b => v (f b))).sum = ((l.filterMap f).map g).sum := by
  induction l with
  | nil => simp
  | cons b l ih =>
    cases hb : f b with
    | none => simp [hb, ih, h0]
    | some c => simp [hb, ih, h1]

theorem nodup_filterMap {β γ : Type} {l : List β} {f : β → Option γ} (h : l.Nodup)
    (hi : ∀ a ∈ l, ∀ b ∈ l, ∀ c, f a = some c → f b = some c → a = b) : (l.filterMap f).Nodup := by
  induction l with
  | nil => simp
  | cons b l ih =>
    rw [List.nodup_cons] at h
    have ih' := ih h.2 (fun x hx y hy => hi x (by simp [hx]) y (by simp [hy]))
    cases hb : f b with
    | none => simpa [hb] using ih'
    | some c =>
      rw [List.filterMap_cons_some hb, List.nodup_cons]
      refine ⟨fun hm => ?_, ih'⟩
      obtain ⟨x, hx, hxc⟩ := List.mem_filterMap.1 hm
      exact h.1 (hi b (by simp) x (by simp [hx]) c hb hxc ▸ hx)

/-- what a contribution looks like -/
theorem contrib_sound (h : Built m dN) (hg : GoodBCs m) {ng : Nat} (hw : Wide dN ng) {r : Nat}
    {i : List Int} (hi : Active m ng r i) {d : Direction} (hd : IsDirection dN.length d) {q : Nat}
    {j : List Int} (hc : contrib m ng r i d = some (q, j)) :
    InArray m ng q j ∧ globalPos m (dN.map List.sum) ng r i =
      globalPos m (dN.map List.sum) ng q j ∧ stepDir i j = neg d ∧ ¬ IsWall m r (neg d) := by
  obtain ⟨s, hs, _⟩ := id hi
  obtain ⟨R, hr, _⟩ := h.getRec hs
  obtain ⟨a, b, q', Q, hq, hn, hb, he⟩ := recv_spec h hg hd hr
  have hwall : IsWall m r (neg d) → cls b = .W := by
    rintro ⟨b', hb', h⟩; rw [hb] at hb'; cases hb'; exact cls_wall.2 h
  unfold contrib at hc
  rw [he] at hc
  by_cases hcb : cls b = .W
  · simp [hcb] at hc
  simp only [if_neg hcb] at hc
  split at hc
  · rename_i hsl
    simp only [Option.some.injEq, Prod.mk.injEq] at hc
    obtain ⟨rfl, hj⟩ := hc
    obtain ⟨hil, hia⟩ := (active_iff hr ng i).1 hi
    have hjl : j.length = dN.length := by rw [← hj]; exact srcCell_length hr hq true ng hd.1 hil
    have hsl := (inSlice_recv hr true ng hd.1 hil).1 hsl
    have hl := hr.len; have hl' := hq.len; have hdl := hd.1
    have key : ∀ a (h : a < dN.length) (h1 : a < R.length) (h2 : a < Q.length) (h3 : a < i.length)
        (h4 : a < j.length) (h5 : a < d.length), (0 ≤ j[a] ∧ j[a] < Q[a].n + 2 * ng) ∧
        ((R[a].off : Int) + i[a] - ng) % (dN[a].sum : Int) =
            ((Q[a].off : Int) + j[a] - ng) % (dN[a].sum : Int) ∧
        (-d[a] = 1 → j[a] < i[a]) ∧ (-d[a] = 0 → j[a] = i[a]) ∧ (-d[a] = -1 → i[a] < j[a]) := by
      intro a h h1 h2 h3 h4 hda
      have hnd : a < (neg d).length := by simp [neg]; omega
      have e1 := hn a h h1 h2 hnd
      have hsg := hd.2.1 d[a] (List.getElem_mem hda)
      have e2 := hsl a h h1 hda h3
      have := sync_axis (wide_pos hw h) (hr.mem a h h1) (hq.mem a h h2) (rec_wide hw hq h2).2
        (e := (neg d)[a]) (by rw [neg_getElem hnd hda]; omega) e1 (x := i[a]) (y := j[a])
        (hia a h1 h3) (by rw [neg_getElem hnd hda, Int.neg_neg]; exact e2)
        (by
          rw [neg_getElem hnd hda, Int.neg_neg]
          subst hj
          exact srcCell_get hr hq true ng a h4 h1 h2 hda h3)
      rw [neg_getElem hnd hda] at this
      exact this
    refine ⟨(inArray_iff hq ng j).2 ⟨hjl, fun a h1 h2 => ?_⟩, ?_, ?_, fun hh => hcb (hwall hh)⟩
    · exact (key a (by omega) (by omega) h1 (by omega) h2 (by omega)).1
    · rw [globalPos_eq_iff hr hq ng hil hjl]
      exact fun a h h1 h2 h3 h4 => (key a h h1 h2 h3 h4 (by omega)).2.1
    · apply List.ext_getElem
      · simp [stepDir, neg, hil, hjl, hdl]
      · intro a h1 h2
        have h5 : a < d.length := by simpa [neg] using h2
        obtain ⟨_, _, k1, k2, k3⟩ := key a (by omega) (by omega) (by omega) (by omega) (by omega) h5
        have hsg := hd.2.1 d[a] (List.getElem_mem h5)
        rw [neg_getElem h2 h5]
        simp only [stepDir, List.getElem_zipWith]
        rcases hsg with hh | hh | hh
        · rw [if_pos (k1 (by omega))]; omega
        · rw [k2 (by omega)]; simp [hh]
        · have := k3 (by omega)
          rw [if_neg (by omega), if_pos this]; omega
  · cases hc

/-- every array cell at the position of an active cell contributes to it -/
theorem contrib_complete (h : Built m dN) (hg : GoodBCs m) {ng : Nat} (hw : Wide dN ng) {r : Nat}
    {i : List Int} (hi : Active m ng r i) {q : Nat} {j : List Int} (hj : InArray m ng q j)
    (hp : globalPos m (dN.map List.sum) ng r i = globalPos m (dN.map List.sum) ng q j)
    (hnw : ¬ IsWall m r (stepDir i j)) :
    (q, j) = (r, i) ∨ ∃ d, IsDirection dN.length d ∧ contrib m ng r i d = some (q, j) := by
  obtain ⟨s, hs, _⟩ := id hi
  obtain ⟨R, hr, _⟩ := h.getRec hs
  obtain ⟨t, ht, _⟩ := id hj
  obtain ⟨Q, hq, _⟩ := h.getRec ht
  obtain ⟨hil, hia⟩ := (active_iff hr ng i).1 hi
  obtain ⟨hjl, hja⟩ := (inArray_iff hq ng j).1 hj
  have hl := hr.len; have hl' := hq.len
  have hp := (globalPos_eq_iff hr hq ng hil hjl).1 hp
  have key : ∀ a (h : a < dN.length) (h1 : a < R.length) (h2 : a < Q.length) (h3 : a < i.length)
      (h4 : a < j.length), ∃ e : Int, (e = -1 ∨ e = 0 ∨ e = 1) ∧
      Q[a].dom = nbr1 dN[a].length R[a].dom e ∧
      ((recvRange true ng R[a].n (-e)).1 ≤ i[a] ∧ i[a] < (recvRange true ng R[a].n (-e)).2) ∧
      j[a] = i[a] - (recvRange true ng R[a].n (-e)).1 + (sendRange true ng Q[a].n (-e)).1 :=
    fun a h h1 h2 h3 h4 => sync_axis_surj (hw _ (List.getElem_mem h)) (hr.mem a h h1)
      (hq.mem a h h2) (hia a h1 h3) (hja a h2 h4) (hp a h h1 h2 h3 h4)
  -- assemble the direction
  let e : Direction := (List.finRange dN.length).map fun a =>
    (key a.1 a.2 (by omega) (by omega) (by omega) (by omega)).choose
  have hel : e.length = dN.length := by simp [e]
  have hea : ∀ a (h : a < dN.length) (h1 : a < R.length) (h2 : a < Q.length) (h3 : a < i.length)
      (h4 : a < j.length) (h5 : a < e.length), (e[a] = -1 ∨ e[a] = 0 ∨ e[a] = 1) ∧
      Q[a].dom = nbr1 dN[a].length R[a].dom e[a] ∧
      ((recvRange true ng R[a].n (-e[a])).1 ≤ i[a] ∧
        i[a] < (recvRange true ng R[a].n (-e[a])).2) ∧
      j[a] = i[a] - (recvRange true ng R[a].n (-e[a])).1 + (sendRange true ng Q[a].n (-e[a])).1 := by
    intro a h h1 h2 h3 h4 h5
    have := (key a h h1 h2 h3 h4).choose_spec
    simpa [e] using this
  clear_value e
  have hsg : Signs e := by
    intro x hx
    obtain ⟨a, ha, rfl⟩ := List.getElem_of_mem hx
    exact (hea a (by omega) (by omega) (by omega) (by omega) (by omega) ha).1
  have hnb : Nbr dN R Q e := fun a h h1 h2 h5 => (hea a h h1 h2 (by omega) (by omega) h5).2.1
  by_cases hz : ∃ x ∈ e, x ≠ 0
  · right
    have hd : IsDirection dN.length (neg e) := by
      obtain ⟨x, hx, h0⟩ := hz
      exact ⟨by simpa [neg] using hel, hsg.neg, -x, by simpa [neg] using hx, by omega⟩
    refine ⟨neg e, hd, ?_⟩
    obtain ⟨a, b, q', Q', hq', hn', hb, he⟩ := recv_spec h hg hd hr
    rw [neg_neg'] at hn' hb
    have hqq : q' = q := by
      have a1 := h.at_of_nbr hr hq' hel hn'
      have a2 := h.at_of_nbr hr hq hel hnb
      exact h.at_inj a1 a2
    subst hqq
    have hsl : inSlice (recvSlice true ng (sizes m r) (neg e)) i = true := by
      rw [inSlice_recv hr true ng hd.1 hil]
      intro a h0 h1 h2 h3
      rw [neg_getElem h2 (by omega)]
      exact (hea a h0 h1 (by omega) h3 (by omega) (by omega)).2.2.1
    have hjs : srcCell (sendSlice true ng (sizes m q') (neg e))
        (recvSlice true ng (sizes m r) (neg e)) i = j := by
      have hlen := srcCell_length hr hq true ng hd.1 hil
      apply List.ext_getElem (by rw [hlen, hjl])
      intro a h1 h2
      have h3 : a < (neg e).length := by rw [hd.1]; omega
      rw [srcCell_get hr hq true ng a h1 (by omega) (by omega) h3 (by omega),
        neg_getElem h3 (by omega)]
      exact (hea a (by omega) (by omega) (by omega) (by omega) h2 (by omega)).2.2.2.symm
    have hcb : cls b ≠ .W := by
      intro hcb
      apply hnw
      have hst : stepDir i j = e := by
        · apply List.ext_getElem
          · simp [stepDir, hil, hjl, hel]
          · intro a h1 h2
            obtain ⟨k0, k1, k2, k3⟩ := hea a (by omega) (by omega) (by omega) (by omega) (by omega) h2
            have := sync_axis (wide_pos hw (a := a) (by omega)) (hr.mem a (by omega) (by omega))
              (hq.mem a (by omega) (by omega)) (rec_wide hw hq (by omega)).2 k0 k1
              (hia a (by omega) (by omega)) k2 k3
            obtain ⟨_, _, l1, l2, l3⟩ := this
            simp only [stepDir, List.getElem_zipWith]
            rcases k0 with hh | hh | hh
            · have := l3 hh
              rw [if_neg (by omega), if_pos this, hh]
            · rw [l2 hh]; simp [hh]
            · rw [if_pos (l1 hh), hh]
      rw [hst]
      exact ⟨b, hb, cls_wall.1 hcb⟩
    unfold contrib
    rw [he]
    simp only [if_neg hcb, hsl, if_true, hjs]
  · left
    push Not at hz
    have h0 : ∀ a (h : a < e.length), e[a] = 0 := fun a h => hz _ (List.getElem_mem h)
    have hRQ : R = Q := List.ext_getElem (by omega) fun a h1 h2 => by
      have h5 : a < e.length := by omega
      have := (hea a (by omega) h1 h2 (by omega) (by omega) h5).2.1
      apply axisRecs_dom_inj (hr.mem a (by omega) h1) (hq.mem a (by omega) h2)
      rw [this, h0 a h5]; simp [nbr1]
    subst hRQ
    have := h.rec_inj hr hq
    subst this
    congr 1
    refine List.ext_getElem (by omega) fun a h1 h2 => ?_
    have h5 : a < e.length := by omega
    obtain ⟨_, _, _, k3⟩ := hea a (by omega) (by omega) (by omega) h2 h1 h5
    rw [k3, h0 a h5]; simp [recvRange, sendRange]

theorem stepDir_self {i : List Int} : ∀ x ∈ stepDir i i, x = 0 := by
  intro x hx
  obtain ⟨a, ha, rfl⟩ := List.getElem_of_mem hx
  simp [stepDir]

/-! ## C15 -/

/-- **C15.** In 1, 2 and 3 dimensions, for every decomposition in which no subdomain is narrower than
the ghost depth, every admissible set of boundary conditions and every deposited field: the
synchronisation succeeds; ghost cells keep their values; and each active cell ends up with the sum,
each taken exactly once, of the values in all array cells (active and ghost, of all subdomains) at
its position in the global periodic box, except those that would have to come in through a wall. -/
theorem C15_sync_sum {α : Type} [AddCommMonoid α] (h : Built m dN) (hg : GoodBCs m)
    (h1 : 1 ≤ dN.length) (h3 : dN.length ≤ 3) {ng : Nat} (hw : Wide dN ng) (F : Fields α) :
    ∃ G, synchronizeFields m ng F = .ok G ∧
      (∀ r i, InArray m ng r i → ¬ Active m ng r i → G r i = F r i) ∧
      (∀ r i, Active m ng r i → ∃ S : Finset (Nat × List Int),
        (∀ q j, (q, j) ∈ S ↔ InArray m ng q j ∧ globalPos m (dN.map List.sum) ng q j =
          globalPos m (dN.map List.sum) ng r i ∧ ¬ IsWall m r (stepDir i j)) ∧
        G r i = ∑ c ∈ S, F c.1 c.2) := by
  have hcl : m.counts.length = dN.length := by rw [h.counts]; simp [Decomp.counts]
  obtain ⟨t1, t2, _⟩ := C07_direction_tables dN.length h1 h3
  have hf := foldSync_eq h hg ng F (fun _ _ => 0) (allDirs dN.length) (fun d hd => (t1 d).1 hd)
  have hact : ∀ r i, m.doms[r]? ≠ none →
      (inSlice ((sizes m r).map (fun (n : Nat) => ((ng : Int), (ng : Int) + n))) i = true ↔
      Active m ng r i) := by
    intro r i hr
    obtain ⟨s, hs⟩ := Option.ne_none_iff_exists'.1 hr
    obtain ⟨R, hr, _⟩ := h.getRec hs
    rw [inSlice_iff, active_iff hr, hr.sizes]
    simp only [List.length_map, List.getElem_map]
    have hl := hr.len
    constructor
    · rintro ⟨k1, k2⟩; exact ⟨by omega, k2⟩
    · rintro ⟨k1, k2⟩; exact ⟨by omega, k2⟩
  refine ⟨fun r i => if inSlice ((sizes m r).map (fun (n : Nat) => ((ng : Int), (ng : Int) + n))) i
      then F r i + (((allDirs dN.length).map (fun d => valueAt F (contrib m ng r i d))).sum)
      else F r i, ?_, ?_, ?_⟩
  · unfold synchronizeFields
    rw [hcl, hf]; simp
  · rintro r i ⟨s, hs, _⟩ hna
    simp only
    rw [if_neg (fun hc => hna ((hact r i (by simp [hs])).1 hc))]
  · intro r i hi
    obtain ⟨s, hs, _⟩ := id hi
    simp only
    rw [if_pos ((hact r i (by simp [hs])).2 hi)]
    have hnd : ((r, i) :: (allDirs dN.length).filterMap (contrib m ng r i)).Nodup := by
      rw [List.nodup_cons]
      constructor
      · intro hm
        obtain ⟨d, hd, hc⟩ := List.mem_filterMap.1 hm
        have hd := (t1 d).1 hd
        obtain ⟨_, _, k, _⟩ := contrib_sound h hg hw hi hd hc
        obtain ⟨x, hx, hx0⟩ := hd.2.2
        have := stepDir_self (i := i) (-x) (by rw [k]; simpa [neg] using hx)
        omega
      · apply nodup_filterMap t2
        intro d hd d' hd' c hc hc'
        obtain ⟨_, _, k, _⟩ := contrib_sound h hg hw hi ((t1 d).1 hd) hc
        obtain ⟨_, _, k', _⟩ := contrib_sound h hg hw hi ((t1 d').1 hd') hc'
        rw [← neg_neg' d, ← neg_neg' d', ← k, ← k']
    refine ⟨((r, i) :: (allDirs dN.length).filterMap (contrib m ng r i)).toFinset, ?_, ?_⟩
    · intro q j
      rw [List.mem_toFinset, List.mem_cons, List.mem_filterMap]
      constructor
      · rintro (he | ⟨d, hd, hc⟩)
        · cases he
          exact ⟨active_inArray hi, rfl, isWall_zero r stepDir_self⟩
        · obtain ⟨k1, k2, k3, k4⟩ := contrib_sound h hg hw hi ((t1 d).1 hd) hc
          exact ⟨k1, k2.symm, k3 ▸ k4⟩
      · rintro ⟨k1, k2, k3⟩
        rcases contrib_complete h hg hw hi k1 k2.symm k3 with he | ⟨d, hd, hc⟩
        · exact .inl he
        · exact .inr ⟨d, (t1 d).2 hd, hc⟩
    · rw [List.sum_toFinset _ hnd, List.map_cons, List.sum_cons,
        sum_filterMap _ _ (fun c : Nat × List Int => F c.1 c.2) (valueAt F) (fun _ => rfl) rfl]

theorem exists_arrayCells (h : Built m dN) (ng : Nat) :
    ∃ T : Finset (Nat × List Int), ∀ q j, (q, j) ∈ T ↔ InArray m ng q j := by
  refine ⟨((List.range m.doms.length).flatMap fun r =>
    (tensorProduct ((sizes m r).map fun k => (List.range (k + 2 * ng)).map Int.ofNat)).map
      (Prod.mk r)).toFinset, fun q j => ?_⟩
  simp only [List.mem_toFinset, List.mem_flatMap, List.mem_range, List.mem_map, Prod.mk.injEq,
    mem_tp, List.forall₂_map_right_iff]
  constructor
  · rintro ⟨r, hr, i, hi, rfl, rfl⟩
    obtain ⟨R, hR⟩ := h.getRec_lt hr
    refine ⟨_, hR.dom, ?_⟩
    rw [hR.sizes] at hi
    refine (List.Forall₂.flip hi).imp ?_
    rintro n x ⟨y, hy, rfl⟩
    simp only [Int.ofNat_eq_natCast]; omega
  · rintro ⟨s, hs, hf⟩
    refine ⟨q, (List.getElem?_eq_some_iff.1 hs).1, j, ?_, rfl, rfl⟩
    obtain ⟨R, hR, rfl⟩ := h.getRec hs
    rw [hR.sizes]
    refine (List.Forall₂.flip hf).imp ?_
    rintro x n ⟨h1, h2⟩
    exact ⟨x.toNat, by omega, by simp only [Int.ofNat_eq_natCast]; omega⟩

theorem inArray_lt {ng r : Nat} {i : List Int} (h : InArray m ng r i) : r < m.doms.length := by
  obtain ⟨s, hs, _⟩ := h
  exact (List.getElem?_eq_some_iff.1 hs).1

theorem exists_image (h : Built m dN) (hp : AllPeriodic m) (h1 : 1 ≤ dN.length)
    (h3 : dN.length ≤ 3) {ng : Nat} (hw : Wide dN ng) {q : Nat} {j : List Int}
    (hj : InArray m ng q j) : ∃ c : Nat × List Int, Active m ng c.1 c.2 ∧
      globalPos m (dN.map List.sum) ng q j = globalPos m (dN.map List.sum) ng c.1 c.2 := by
  by_cases ha : Active m ng q j
  · exact ⟨(q, j), ha, rfl⟩
  · obtain ⟨G, _, _, _, hG⟩ := C14_halo_exchange h hp.good h1 h3 hw (fun _ _ => ())
    obtain ⟨R, hR⟩ := h.getRec_lt (inArray_lt hj)
    obtain ⟨hjl, _⟩ := (inArray_iff hR ng j).1 hj
    obtain ⟨hsl, hsa⟩ := sideOf_get hR ng hjl
    have hl := hR.len
    have hsg : Signs (sideOf m ng q j) := by
      intro x hx
      obtain ⟨a, ha, rfl⟩ := List.getElem_of_mem hx
      rw [hsa a ha (by omega) (by omega)]; split_ifs <;> simp
    obtain ⟨c, ⟨⟨k1, k2⟩, _⟩, _⟩ := hG q j hj ha (not_wall_periodic h hp (inArray_lt hj) hsg hsl)
    exact ⟨c, k1, k2⟩

/-- **C15 (conservation).** On a periodic box: the total of a deposited field over all active cells
after the synchronisation equals its total over all cells, active and ghost, before it. -/
theorem C15_sync_conserves {α : Type} [AddCommMonoid α] (h : Built m dN) (hp : AllPeriodic m)
    (h1 : 1 ≤ dN.length) (h3 : dN.length ≤ 3) {ng : Nat} (hw : Wide dN ng) (F : Fields α) :
    ∃ G, synchronizeFields m ng F = .ok G ∧ ∃ A T : Finset (Nat × List Int),
      (∀ q j, (q, j) ∈ A ↔ Active m ng q j) ∧ (∀ q j, (q, j) ∈ T ↔ InArray m ng q j) ∧
      ∑ c ∈ A, G c.1 c.2 = ∑ c ∈ T, F c.1 c.2 := by
  classical
  obtain ⟨G, hG, _, hs⟩ := C15_sync_sum h hp.good h1 h3 hw F
  obtain ⟨T, hT⟩ := exists_arrayCells h ng
  refine ⟨G, hG, T.filter (fun c => Active m ng c.1 c.2), T, fun q j => ?_, hT, ?_⟩
  · rw [Finset.mem_filter, hT]
    exact ⟨fun h => h.2, fun h => ⟨active_inArray h, h⟩⟩
  have him : ∀ c : Nat × List Int, ∃ b : Nat × List Int, c ∈ T → (Active m ng b.1 b.2 ∧
      globalPos m (dN.map List.sum) ng c.1 c.2 = globalPos m (dN.map List.sum) ng b.1 b.2) := by
    intro c
    by_cases hc : c ∈ T
    · obtain ⟨b, hb⟩ := exists_image h hp h1 h3 hw ((hT c.1 c.2).1 hc)
      exact ⟨b, fun _ => hb⟩
    · exact ⟨c, fun h => absurd h hc⟩
  choose img himg using him
  rw [← Finset.sum_fiberwise_of_maps_to (s := T) (t := T.filter (fun c => Active m ng c.1 c.2))
    (g := img)]
  · apply Finset.sum_congr rfl
    intro b hb
    rw [Finset.mem_filter] at hb
    obtain ⟨S, hS, hsum⟩ := hs b.1 b.2 hb.2
    rw [hsum]
    apply Finset.sum_congr _ (fun _ _ => rfl)
    ext ⟨q, j⟩
    rw [hS, Finset.mem_filter, hT]
    constructor
    · rintro ⟨k1, k2, _⟩
      refine ⟨k1, ?_⟩
      obtain ⟨l1, l2⟩ := himg (q, j) ((hT q j).2 k1)
      obtain ⟨e1, e2⟩ := active_image_unique h l1 hb.2 (l2.symm.trans k2)
      exact Prod.ext e1 e2
    · rintro ⟨k1, k2⟩
      obtain ⟨l1, l2⟩ := himg (q, j) ((hT q j).2 k1)
      rw [k2] at l2
      refine ⟨k1, l2, ?_⟩
      obtain ⟨R, hR⟩ := h.getRec_lt (inArray_lt (active_inArray hb.2))
      obtain ⟨Q, hQ⟩ := h.getRec_lt (inArray_lt k1)
      have hl := ((active_iff hR ng b.2).1 hb.2).1
      have hl' := ((inArray_iff hQ ng j).1 k1).1
      refine not_wall_periodic h hp hR.lt ?_ (by simp [stepDir, hl, hl'])
      intro x hx
      obtain ⟨a, ha, rfl⟩ := List.getElem_of_mem hx
      simp only [stepDir, List.getElem_zipWith]
      split_ifs <;> simp
  · intro c hc
    obtain ⟨k1, _⟩ := himg c hc
    rw [Finset.mem_filter]
    exact ⟨(hT _ _).2 (active_inArray k1), k1⟩

/-! ## Concrete cases -/

/-- two by one subdomains on a periodic box -/
def perMeta : Meta where
  counts := [2, 1]
  doms := (createDomains 2 [[5, 6], [7]]).getD []
  bcs := [(.PERIODIC, .PERIODIC), (.PERIODIC, .PERIODIC)]

theorem perMeta_built : Built perMeta [[5, 6], [7]] := ⟨by decide, rfl, by decide +kernel⟩

/-- The hypotheses of C14 and C15 hold for a periodic 2 × 1 decomposition … -/
example : Built perMeta [[5, 6], [7]] ∧ AllPeriodic perMeta ∧ Wide [[5, 6], [7]] 2 :=
  ⟨perMeta_built, ⟨rfl, by decide⟩, by unfold Wide; decide⟩

/-- … and for the 2 × 3 decomposition with walls in x2. -/
example : Built exMeta [[20, 20], [21, 20, 20]] ∧ GoodBCs exMeta ∧
    Wide [[20, 20], [21, 20, 20]] 2 :=
  ⟨exMeta_built, ⟨rfl, by decide⟩, by unfold Wide; decide⟩

/-- Look up one cell of a result. -/
def cellOf {α : Type} (x : Outcome (Fields α)) (r : Nat) (i : List Int) : Option α :=
  match x with
  | .ok G => some (G r i)
  | _ => none

/-- The corner ghost cell (1, 9) of subdomain 0 receives the value of cell (7, 2): the last active
column and the first active row of subdomain 1. -/
example : cellOf (communicateFields perMeta 2 (fun r i => (r, i))) 0 [1, 9] =
    some (1, [7, 2]) := by decide +kernel

/-- The active corner cell (2, 2) of subdomain 0 collects its own value and three ghost values. -/
example : cellOf (synchronizeFields perMeta 2
    (fun r i => if r = 1 ∧ i = [8, 9] ∨ r = 1 ∧ i = [8, 2] ∨ r = 0 ∧ i = [2, 9] then (1 : Nat)
      else 0)) 0 [2, 2] = some 3 := by decide +kernel

/-- **C14 fails for subdomains narrower than the ghost depth.**  The decomposition accepts
subdomains of 5 cells, but interpolation order 11 needs 7 ghost cells: with two subdomains of 5
cells, ghost cell 0 of subdomain 0 is filled from cell 5 of subdomain 1, itself a ghost cell
(the active cells are 7 to 11). -/
theorem C14_narrow_counterexample :
    let m : Meta := ⟨[2], (createDomains 2 [[5, 5]]).getD [], [(.PERIODIC, .PERIODIC)]⟩
    cellOf (communicateFields m 7 (fun r i => (r, i))) 0 [0] = some (1, [5]) ∧
    ¬ Active m 7 1 [5] := by
  refine ⟨by decide +kernel, ?_⟩
  rintro ⟨s, hs, hf⟩
  have : s = ⟨1, [1], [5], [5]⟩ := by
    have h : (⟨1, [1], [5], [5]⟩ : Subdomain) = s := by
      have h2 : (createDomains 2 [[5, 5]]).getD [] =
          [⟨0, [0], [0], [5]⟩, ⟨1, [1], [5], [5]⟩] := by decide +kernel
      rw [h2] at hs; simpa using hs
    exact h.symm
  subst this
  cases hf with
  | cons h _ => omega

end Entity.Topology
