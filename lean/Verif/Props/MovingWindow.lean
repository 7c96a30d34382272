import Verif.Model.MovingWindow
import Verif.Props.PrtlComm
import Mathlib.Algebra.BigOperators.Group.List.Basic
import Mathlib.Algebra.Field.Rat
import Mathlib.Tactic.Ring

/-!
# C56: moving window
-/

namespace Entity.Window

open Entity Entity.Dir Entity.Tags Entity.Topology Entity.Prtl

/-! ## Specification -/

/-- Every cell of the arrays that is not beyond a wall holds the value of the active cell with the
same position in the global box. -/
def Synced {α : Type} (m : Meta) (dN : List (List Nat)) (ng : Nat) (F : Fields α) : Prop :=
  ∀ r i q j, InArray m ng r i → ¬ IsWall m r (sideOf m ng r i) → Active m ng q j →
    globalPos m (dN.map List.sum) ng r i = globalPos m (dN.map List.sum) ng q j → F r i = F q j

/-- `i` displaced by `s` cells along axis `o`. -/
def ahead (o : Nat) (s : Int) (i : List Int) : List Int :=
  (List.range i.length).map fun a => if a = o then i.getD a 0 + s else i.getD a 0

/-- The direction "down along axis `o`". -/
def lowDir (D o : Nat) : Direction := (List.range D).map fun a => if a = o then -1 else 0

/-- A species before the window moves: every particle in use is dead, or alive and inside its
subdomain. -/
structure Settled {R : Type} (m : Meta) (k : Kind) (st : Nat → Store R) : Prop where
  npart : ∀ r < m.doms.length, (st r).npart ≤ (st r).maxnpart
  tags : ∀ r < m.doms.length, ∀ q ∈ (st r).used, q.tag = 0 ∨ q.tag = 1
  inside : ∀ r < m.doms.length, ∀ q ∈ (st r).live, ∀ a < k.D,
    0 ≤ (k.view q).cell.getD a 0 ∧ (k.view q).cell.getD a 0 < (sizes m r).getD a 0
  payload : ∀ r < m.doms.length, ∀ q ∈ (st r).used, PldOk k q

/-- The live particles of `r` that the new window leaves behind the low side of the subdomain. -/
def behind {R : Type} (k : Kind) (o : Nat) (s : Int) (st : Store R) : List (Prtl R) :=
  st.live.filter fun q => decide ((k.view q).cell.getD o 0 < s)

/-- The particle stays in the simulation: it is still in its subdomain, or there is a subdomain
below. -/
def Stays {R : Type} (m : Meta) (k : Kind) (o : Nat) (s : Int) (r : Nat) (q : Prtl R) : Prop :=
  s ≤ (k.view q).cell.getD o 0 ∨ sendTo m r (lowDir k.D o) ≠ none

instance {R : Type} (m : Meta) (k : Kind) (o : Nat) (s : Int) (r : Nat) (q : Prtl R) :
    Decidable (Stays m k o s r q) := by unfold Stays; infer_instance

variable {m : Meta} {dN : List (List Nat)}

/-! ## Fields -/

theorem shiftIdx_eq (o : Nat) (s : Int) (i : List Int) : shiftIdx o s i = ahead o s i := by
  unfold shiftIdx ahead
  apply List.ext_getElem
  · simp
  · intro a h1 h2
    simp only [List.length_modify] at h1
    simp only [List.getElem_modify, List.getElem_map, List.getElem_range, List.getD_eq_getElem?_getD,
      List.getElem?_eq_getElem h1, Option.getD_some]
    by_cases h : o = a
    · subst h; simp
    · simp [h, Ne.symm h]

theorem ahead_length (o : Nat) (s : Int) (i : List Int) : (ahead o s i).length = i.length := by
  simp [ahead]

theorem ahead_get (o : Nat) (s : Int) (i : List Int) {a : Nat} (h : a < (ahead o s i).length)
    (h' : a < i.length) : (ahead o s i)[a] = if a = o then i[a] + s else i[a] := by
  simp [ahead, h']

/-- **C56 (fields).** In 1, 2 and 3 dimensions, for every decomposition with subdomains at least as
wide as the ghost zone, all admissible boundary conditions, every synchronised field and every shift
by at most the number of ghost cells: moving the window succeeds; every active cell then holds what
was in the active cell, on whatever subdomain, that is `s` cells ahead of it in the global box, unless
that lies beyond a wall, in which case it holds what was in that ghost cell; and the field is
synchronised again.  Missing from the claim: larger shifts (`C56_counterexample`), and cells entering
through a wall get whatever the ghost cells held. -/
theorem C56_fields_partial {α : Type} (h : Built m dN) (hg : GoodBCs m) (h1 : 1 ≤ dN.length)
    (h3 : dN.length ≤ 3) {ng : Nat} (hw : Wide dN ng) {o : Nat} (ho : o < dN.length) {s : Int}
    (hs0 : 0 ≤ s) (hs : s ≤ ng) (F : Fields α) (hF : Synced m dN ng F) :
    ∃ G, moveFields m ng o s F = .ok G ∧
      (∀ r i q j, Active m ng r i → ¬ IsWall m r (sideOf m ng r (ahead o s i)) → Active m ng q j →
        globalPos m (dN.map List.sum) ng r (ahead o s i) = globalPos m (dN.map List.sum) ng q j →
        G r i = F q j) ∧
      (∀ r i, Active m ng r i → IsWall m r (sideOf m ng r (ahead o s i)) →
        G r i = F r (ahead o s i)) ∧
      Synced m dN ng G := by
  have hcl : m.counts.length = dN.length := by rw [h.counts]; simp [Decomp.counts]
  have hall : (List.range m.doms.length).all (fun r =>
      decide (0 ≤ s ∧ s ≤ (sizes m r).getD o 0 + 2 * ng)) = true := by
    simp only [List.all_eq_true, decide_eq_true_eq]
    intro r _
    have : (0 : Int) ≤ ((sizes m r).getD o 0 : Nat) := by omega
    omega
  set G₁ : Fields α := fun r i =>
      if inSlice (shiftRange ng (sizes m r) o s) i then F r (shiftIdx o s i) else F r i with hG₁
  have hshift : shiftFields m ng o s F = .ok G₁ := by
    unfold shiftFields; rw [if_pos hall]
  obtain ⟨G, hG, ha, hwl, hgh⟩ := C14_halo_exchange h hg h1 h3 hw G₁
  have hAct : ∀ r i, Active m ng r i → G₁ r i = F r (ahead o s i) ∧ InArray m ng r (ahead o s i) := by
    intro r i hi
    obtain ⟨sd, hsd, _⟩ := id hi
    obtain ⟨R, hr, _⟩ := h.getRec hsd
    obtain ⟨hil, hia⟩ := (active_iff hr ng i).1 hi
    have hRl := hr.len
    constructor
    · rw [hG₁]
      beta_reduce
      rw [if_pos, shiftIdx_eq]
      rw [inSlice_iff]
      refine ⟨by rw [hr.sizes]; simp [shiftRange, hil, hRl], ?_⟩
      intro a h1 h2
      have := hia a (by omega) h2
      simp only [shiftRange, hr.sizes, List.getElem_mapIdx, List.getElem_map]
      split_ifs <;> simp only <;> omega
    · rw [inArray_iff hr]
      refine ⟨by rw [ahead_length, hil], fun a h1 h2 => ?_⟩
      rw [ahead_get o s i h2 (by rw [ahead_length] at h2; exact h2)]
      have := hia a h1 (by rw [ahead_length] at h2; exact h2)
      split_ifs <;> omega
  refine ⟨G, ?_, ?_, ?_, ?_⟩
  · unfold moveFields
    rw [if_pos (by omega), hshift, Outcome.bind_ok, hG]
  · intro r i q j hi hnw hj hp
    rw [ha r i hi, (hAct r i hi).1]
    exact hF _ _ _ _ (hAct r i hi).2 hnw hj hp
  · intro r i hi _
    rw [ha r i hi, (hAct r i hi).1]
  · intro r i q j hi hnw hj hp
    by_cases hact : Active m ng r i
    · obtain ⟨rfl, rfl⟩ := active_image_unique h hact hj hp
      rfl
    · obtain ⟨⟨q', j'⟩, ⟨⟨hc1, hc2⟩, hc3⟩, hu⟩ := hgh r i hi hact hnw
      obtain ⟨rfl, rfl⟩ := active_image_unique h hc1 hj (hc2.symm.trans hp)
      rw [hc3, ha _ _ hj]

/-! ## Particles -/

section prtls

variable {R : Type}

/-- the tag a particle gets -/
def newTag (D : Nat) (n : List Nat) (q : Prtl R) : Int :=
  match sendTag q.tag (leftFlags D n q) with
  | .ok t => t
  | _ => 0

/-- the particle after the two kernels -/
def moved (D : Nat) (n : List Nat) (o : Nat) (s : Int) (q : Prtl R) : Prtl R :=
  { shiftPrtl o s q with tag := newTag D n (shiftPrtl o s q) }

theorem leftFlags_length {D : Nat} (h3 : D ≤ 3) {n : List Nat} (hn : n.length = D) (q : Prtl R) :
    (leftFlags D n q).length = D := by
  simp [leftFlags, hn]; omega

theorem leftFlags_get {D : Nat} (h3 : D ≤ 3) {n : List Nat} (hn : n.length = D) (q : Prtl R)
    {a : Nat} (ha : a < D) : (leftFlags D n q)[a]? =
      some (decide ([q.i1, q.i2, q.i3].getD a 0 < 0), decide ((n.getD a 0 : Int) ≤ [q.i1, q.i2, q.i3].getD a 0)) := by
  have h3' : a < 3 := by omega
  have hn' : a < n.length := by omega
  simp only [leftFlags, List.getElem?_take, ha, if_true, List.getElem?_zipWith,
    List.getElem?_eq_getElem hn', List.getD_eq_getElem?_getD, Option.getD_some]
  interval_cases a <;> simp

theorem leftFlags_ne {D : Nat} (h3 : D ≤ 3) {n : List Nat} (hn : n.length = D) (q : Prtl R) :
    ∀ x ∈ leftFlags D n q, ¬ (x.1 = true ∧ x.2 = true) := by
  intro x hx
  obtain ⟨a, ha, rfl⟩ := List.getElem_of_mem hx
  have ha' : a < D := by rwa [leftFlags_length h3 hn] at ha
  have := leftFlags_get h3 hn q ha'
  rw [List.getElem?_eq_getElem ha, Option.some.injEq] at this
  rw [this]
  simp only [decide_eq_true_eq]
  omega

theorem retag_moved {D : Nat} (h1 : 1 ≤ D) (h3 : D ≤ 3) {n : List Nat} (hn : n.length = D) (o : Nat)
    (s : Int) (q : Prtl R) : retag D n (shiftPrtl o s q) = .ok (moved D n o s q) := by
  unfold retag moved newTag
  have hl := leftFlags_length h3 hn (shiftPrtl o s q)
  obtain ⟨t, ht⟩ : ∃ t, sendTag (shiftPrtl o s q).tag (leftFlags D n (shiftPrtl o s q)) = .ok t := by
    generalize leftFlags D n (shiftPrtl o s q) = l at hl
    match l, hl with
    | [], hl => simp at hl; omega
    | [(a, b)], _ => exact ⟨_, rfl⟩
    | [(a, b), (c, d)], _ => exact ⟨_, rfl⟩
    | [(a, b), (c, d), (e, f)], _ => exact ⟨_, rfl⟩
    | _ :: _ :: _ :: _ :: _, hl => simp at hl; omega
  rw [ht, Outcome.bind_ok]
  rfl

theorem mapM_outcome {α β : Type} {f : α → Outcome β} {g : α → β} {l : List α}
    (h : ∀ a ∈ l, f a = .ok (g a)) : l.mapM f = .ok (l.map g) := by
  induction l with
  | nil => rfl
  | cons x l ih =>
    rw [List.mapM_cons, h x (by simp), Outcome.bind_ok, ih (fun a ha => h a (by simp [ha])),
      Outcome.bind_ok]
    rfl

theorem moveStore_mpi {D : Nat} (h1 : 1 ≤ D) (h3 : D ≤ 3) {n : List Nat} (hn : n.length = D)
    (o : Nat) (s : Int) (st : Store R) :
    moveStore true D n o s st =
      .ok { st with arr := st.used.map (moved D n o s) ++ st.arr.drop st.npart } := by
  unfold moveStore
  rw [mapM_outcome (g := moved D n o s), Outcome.bind_ok]
  · rfl
  · intro q _
    simp only [if_true]
    exact retag_moved h1 h3 hn o s q

theorem view_moved (k : Kind) (h3 : k.D ≤ 3) (n : List Nat) {o : Nat} (ho : o < k.D) (s : Int)
    (q : Prtl R) : k.view (moved k.D n o s q) =
      { k.view q with cell := ahead o (-s) (k.view q).cell } := by
  obtain ⟨D, c, nr, ni⟩ := k
  simp only at h3 ho
  obtain rfl | rfl | rfl : o = 0 ∨ o = 1 ∨ o = 2 := by omega
  · obtain rfl | rfl | rfl : D = 1 ∨ D = 2 ∨ D = 3 := by omega
    all_goals simp [Kind.view, moved, shiftPrtl, ahead, List.range_succ, sub_eq_add_neg]
  · obtain rfl | rfl : D = 2 ∨ D = 3 := by omega
    all_goals simp [Kind.view, moved, shiftPrtl, ahead, List.range_succ, sub_eq_add_neg]
  · obtain rfl : D = 3 := by omega
    simp [Kind.view, moved, shiftPrtl, ahead, List.range_succ, sub_eq_add_neg]

theorem pld_moved {k : Kind} (D : Nat) (n : List Nat) (o : Nat) (s : Int) {q : Prtl R}
    (h : PldOk k q) : PldOk k (moved D n o s q) := by
  unfold moved shiftPrtl; split <;> exact h

theorem lowDir_mem {D o : Nat} (h1 : 1 ≤ D) (h3 : D ≤ 3) (ho : o < D) : lowDir D o ∈ allDirs D := by
  have : ∀ D ∈ [1, 2, 3], ∀ o < D, lowDir D o ∈ allDirs D := by decide +kernel
  exact this D (by simp; omega) o ho

/-- what tag a settled particle gets -/
theorem moved_tag {k : Kind} (h1 : 1 ≤ k.D) (h3 : k.D ≤ 3) {n : List Nat} (hn : n.length = k.D)
    {o : Nat} (ho : o < k.D) {s : Int} (hs : 0 ≤ s) {q : Prtl R} :
    (q.tag = 0 → (moved k.D n o s q).tag = 0) ∧
    (q.tag = 1 → (∀ a < k.D, 0 ≤ (k.view q).cell.getD a 0 ∧
        (k.view q).cell.getD a 0 < (n.getD a 0 : Nat)) →
      (s ≤ (k.view q).cell.getD o 0 → (moved k.D n o s q).tag = 1) ∧
      ((k.view q).cell.getD o 0 < s → dir2tag k.D (lowDir k.D o) = .ok (moved k.D n o s q).tag ∧
        (moved k.D n o s q).tag ≠ 0 ∧ (moved k.D n o s q).tag ≠ 1)) := by
  have hl := leftFlags_length h3 hn (shiftPrtl o s q)
  obtain ⟨c1, c2, c3⟩ := C08_send_tag k.D h1 h3 (leftFlags k.D n (shiftPrtl o s q)) hl
    (leftFlags_ne h3 hn _)
  have htag : (shiftPrtl o s q).tag = q.tag := by unfold shiftPrtl; split <;> rfl
  have hmt : (moved k.D n o s q).tag = match sendTag q.tag (leftFlags k.D n (shiftPrtl o s q)) with
      | .ok t => t
      | _ => 0 := by
    show newTag _ _ _ = _
    unfold newTag
    rw [htag]
  refine ⟨fun h0 => ?_, fun h1' hin => ?_⟩
  · rw [hmt, h0, show (0 : Int) = dead from rfl, c1]
  · have hcell : ∀ a, a < k.D → [(shiftPrtl o s q).i1, (shiftPrtl o s q).i2, (shiftPrtl o s q).i3].getD a 0
        = (k.view q).cell.getD a 0 - (if a = o then s else 0) := by
      intro a ha
      have e := congrArg (fun v => v.cell.getD a 0) (view_moved k h3 n ho s q)
      have hlen : (k.view q).cell.length = k.D := by simp [Kind.view]; omega
      have e2 : (ahead o (-s) (k.view q).cell).getD a 0 =
          (k.view q).cell.getD a 0 - (if a = o then s else 0) := by
        have g1 : a < (ahead o (-s) (k.view q).cell).length := by rw [ahead_length]; omega
        have g2 : a < (k.view q).cell.length := by omega
        rw [List.getD_eq_getElem?_getD, List.getElem?_eq_getElem g1, Option.getD_some,
          ahead_get o (-s) _ g1 g2, List.getD_eq_getElem?_getD, List.getElem?_eq_getElem g2,
          Option.getD_some]
        split_ifs <;> omega
      rw [← e2]
      beta_reduce at e
      simp only at e
      rw [← e]
      simp only [Kind.view, moved, List.getD_eq_getElem?_getD, List.getElem?_take, if_pos ha]
    have hdir : ∀ a, a < k.D → (leaveDir (leftFlags k.D n (shiftPrtl o s q))).getD a 0 =
        if a = o ∧ (k.view q).cell.getD o 0 < s then -1 else 0 := by
      intro a ha
      have := leftFlags_get h3 hn (shiftPrtl o s q) ha
      rw [hcell a ha] at this
      simp only [leaveDir, List.getD_eq_getElem?_getD, List.getElem?_map] at this ⊢
      rw [this]
      obtain ⟨b1, b2⟩ := hin a ha
      simp only [List.getD_eq_getElem?_getD] at b1 b2
      simp only [Option.map_some, Option.getD_some, decide_eq_true_eq]
      by_cases hao : a = o
      · subst hao
        simp only [if_true, true_and]
        by_cases hlt : ((k.view q).cell[a]?.getD 0) < s
        · rw [if_pos (by omega), if_pos hlt]
        · rw [if_neg (by omega), if_neg (by omega), if_neg hlt]
      · simp only [if_neg hao, hao, false_and, if_false]
        rw [if_neg (by omega), if_neg (by omega)]
    have hld : (leaveDir (leftFlags k.D n (shiftPrtl o s q))).length = k.D := by
      simp [leaveDir, hl]
    constructor
    · intro hge
      have hz : ∀ x ∈ leaveDir (leftFlags k.D n (shiftPrtl o s q)), x = 0 := by
        intro x hx
        obtain ⟨a, ha, rfl⟩ := List.getElem_of_mem hx
        have := hdir a (by omega)
        rw [List.getD_eq_getElem?_getD, List.getElem?_eq_getElem ha, Option.getD_some,
          if_neg (by omega)] at this
        exact this
      rw [hmt, h1', show (1 : Int) = alive from rfl, c2 hz]
    · intro hlt
      have heq : leaveDir (leftFlags k.D n (shiftPrtl o s q)) = lowDir k.D o := by
        apply List.ext_getElem
        · simp [hld, lowDir]
        · intro a g1 g2
          have := hdir a (by omega)
          rw [List.getD_eq_getElem?_getD, List.getElem?_eq_getElem g1, Option.getD_some] at this
          rw [this]
          simp only [hlt, and_true, lowDir, List.getElem_map, List.getElem_range]
      obtain ⟨c, e1, e2, e3, e4, -⟩ := c3 ⟨-1, by
        rw [heq]; simp only [lowDir, List.mem_map, List.mem_range]; exact ⟨o, ho, by simp⟩, by simp⟩
      have : (moved k.D n o s q).tag = c := by rw [hmt, h1', show (1 : Int) = alive from rfl, e1]
      rw [this]
      exact ⟨heq ▸ e4, e2, e3⟩

/-- what the kernels do, on all ranks -/
theorem forRanks_pure {α : Type} {f : Nat → Outcome α} {g : Nat → α} (n : Nat)
    (h : ∀ r < n, f r = .ok (g r)) : forRanks f n = .ok ((List.range n).map g) := by
  induction n with
  | zero => rfl
  | succ n ih =>
    rw [forRanks, ih (fun r hr => h r (by omega)), Outcome.bind_ok, h n (by omega), Outcome.bind_ok,
      List.range_succ, List.map_append]
    rfl

/-- the species on rank `r` after the two kernels -/
def movedStore (m : Meta) (k : Kind) (o : Nat) (s : Int) (st : List (Store R)) (r : Nat) : Store R :=
  { st.getD r ⟨[], 0⟩ with
    arr := (st.getD r ⟨[], 0⟩).used.map (moved k.D (sizes m r) o s) ++
      (st.getD r ⟨[], 0⟩).arr.drop (st.getD r ⟨[], 0⟩).npart }

theorem moveParticles_mpi [Inhabited R] (h : Built m dN) {k : Kind} (hD : k.D = dN.length)
    (h1 : 1 ≤ k.D) (h3 : k.D ≤ 3) {o : Nat} (ho : o < k.D) (s : Int) (st : List (Store R))
    (S : Nat → Scheds) : moveParticles true m k o s st S =
      communicateParticles m k ((List.range m.doms.length).map (movedStore m k o s st)) S := by
  unfold moveParticles
  rw [if_pos ho, forRanks_pure (g := movedStore m k o s st), Outcome.bind_ok, if_pos rfl]
  intro r hr
  obtain ⟨Rr, hRr⟩ := h.getRec_lt hr
  rw [moveStore_mpi h1 h3 (by rw [hRr.sizes]; simp [hRr.len, hD])]
  rfl

theorem movedStore_getD (m : Meta) (k : Kind) (o : Nat) (s : Int) (st : List (Store R)) {r : Nat}
    (hr : r < m.doms.length) :
    ((List.range m.doms.length).map (movedStore m k o s st)).getD r ⟨[], 0⟩ =
      movedStore m k o s st r := by
  simp [hr]

theorem movedStore_used (m : Meta) (k : Kind) (o : Nat) (s : Int) (st : List (Store R)) {r : Nat}
    (hn : (st.getD r ⟨[], 0⟩).npart ≤ (st.getD r ⟨[], 0⟩).maxnpart) :
    (movedStore m k o s st r).used =
      (st.getD r ⟨[], 0⟩).used.map (moved k.D (sizes m r) o s) := by
  unfold Store.used movedStore
  simp only
  have : (List.map (moved k.D (sizes m r) o s) (st.getD r ⟨[], 0⟩).used).length =
      (st.getD r ⟨[], 0⟩).npart := by
    simp only [List.length_map, Store.used, List.length_take]
    unfold Store.maxnpart at hn
    omega
  rw [List.take_append_of_le_length (by omega), List.take_of_length_le (by omega)]
  rfl

theorem mem_live_iff {st : Store R} {q : Prtl R} : q ∈ st.live ↔ q ∈ st.used ∧ q.tag = 1 := by
  simp [Store.live]

/-- the tags the kernels assign to a settled species -/
theorem settled_tag {k : Kind} (h : Built m dN) (hD : k.D = dN.length) (h1 : 1 ≤ k.D)
    (h3 : k.D ≤ 3) {o : Nat} (ho : o < k.D) {s : Int} (hs : 0 ≤ s) {st : Nat → Store R}
    (hst : Settled m k st) {r : Nat} (hr : r < m.doms.length) {q : Prtl R} (hq : q ∈ (st r).used) :
    (q.tag = 0 ∧ (moved k.D (sizes m r) o s q).tag = 0) ∨
    (q.tag = 1 ∧ s ≤ (k.view q).cell.getD o 0 ∧ (moved k.D (sizes m r) o s q).tag = 1) ∨
    (q.tag = 1 ∧ (k.view q).cell.getD o 0 < s ∧
      dir2tag k.D (lowDir k.D o) = .ok (moved k.D (sizes m r) o s q).tag ∧
      (moved k.D (sizes m r) o s q).tag ≠ 0 ∧ (moved k.D (sizes m r) o s q).tag ≠ 1) := by
  obtain ⟨Rr, hRr⟩ := h.getRec_lt hr
  have hn : (sizes m r).length = k.D := by rw [hRr.sizes]; simp [hRr.len, hD]
  obtain ⟨t1, t2⟩ := moved_tag h1 h3 hn ho hs (q := q)
  rcases hst.tags r hr q hq with e | e
  · exact .inl ⟨e, t1 e⟩
  · obtain ⟨t3, t4⟩ := t2 e (hst.inside r hr q (mem_live_iff.2 ⟨hq, e⟩))
    rcases Int.lt_or_le ((k.view q).cell.getD o 0) s with g | g
    · exact .inr (.inr ⟨e, g, t4 g⟩)
    · exact .inr (.inl ⟨e, g, t3 g⟩)

theorem movedStore_ready {k : Kind} (h : Built m dN) (hD : k.D = dN.length) (h1 : 1 ≤ k.D)
    (h3 : k.D ≤ 3) {o : Nat} (ho : o < k.D) {s : Int} (hs : 0 ≤ s) {st : List (Store R)}
    (hst : Settled m k fun r => st.getD r ⟨[], 0⟩)
    (hcomm : ∀ r < m.doms.length, behind k o s (st.getD r ⟨[], 0⟩) ≠ [] →
      sendTo m r (lowDir k.D o) ≠ none ∨ recvFrom m r (lowDir k.D o) ≠ none) :
    Ready m k fun r =>
      ((List.range m.doms.length).map (movedStore m k o s st)).getD r ⟨[], 0⟩ := by
  constructor
  · intro r hr
    beta_reduce
    rw [movedStore_getD m k o s st hr]
    have := hst.npart r hr
    beta_reduce at this
    simp only [movedStore, Store.maxnpart, List.length_append, List.length_map, Store.used,
      List.length_take, List.length_drop] at this ⊢
    omega
  · intro r hr q hq
    beta_reduce at hq
    rw [movedStore_getD m k o s st hr, movedStore_used m k o s st (hst.npart r hr),
      List.mem_map] at hq
    obtain ⟨p, hp, rfl⟩ := hq
    rcases settled_tag h hD h1 h3 ho hs hst hr hp with ⟨-, g⟩ | ⟨-, -, g⟩ | ⟨g0, g1, g2, -⟩
    · exact .inl g
    · exact .inr (.inl g)
    · refine .inr (.inr ⟨_, lowDir_mem h1 h3 ho, g2, hcomm r hr ?_⟩)
      apply List.ne_nil_of_mem (a := p)
      simp only [behind, List.mem_filter, decide_eq_true_eq]
      exact ⟨mem_live_iff.2 ⟨hp, g0⟩, g1⟩
  · intro r hr q hq
    beta_reduce at hq
    rw [movedStore_getD m k o s st hr, movedStore_used m k o s st (hst.npart r hr),
      List.mem_map] at hq
    obtain ⟨p, hp, rfl⟩ := hq
    exact pld_moved _ _ _ _ (hst.payload r hr p hp)

/-- who is marked for which direction after the kernels -/
theorem movedStore_leaving {k : Kind} (h : Built m dN) (hD : k.D = dN.length) (h1 : 1 ≤ k.D)
    (h3 : k.D ≤ 3) {o : Nat} (ho : o < k.D) {s : Int} (hs : 0 ≤ s) {st : List (Store R)}
    (hst : Settled m k fun r => st.getD r ⟨[], 0⟩) {r : Nat} (hr : r < m.doms.length)
    {d : Direction} (hd : d ∈ allDirs k.D) :
    leaving k (movedStore m k o s st r) d = if d = lowDir k.D o then
      (behind k o s (st.getD r ⟨[], 0⟩)).map (moved k.D (sizes m r) o s) else [] := by
  obtain ⟨i1, -, i3⟩ := C08_codes_inverse k.D h1 h3
  obtain ⟨c, e1, -, e2, e3⟩ := i1 d hd
  unfold leaving
  rw [movedStore_used m k o s st (hst.npart r hr), List.filter_map, behind, Store.live,
    List.filter_filter]
  split_ifs with hdl
  · subst hdl
    congr 1
    apply List.filter_congr
    intro q hq
    simp only [Function.comp_apply, e1, Outcome.ok.injEq,
      ← Bool.decide_and, decide_eq_decide]
    rcases settled_tag h hD h1 h3 ho hs hst hr hq with ⟨g0, g⟩ | ⟨g0, g1, g⟩ | ⟨g0, g1, g2, -⟩
    · rw [g, g0]; simp; exact e2
    · rw [g, g0]; constructor
      · intro e; exact absurd e e3
      · rintro ⟨e, -⟩; omega
    · rw [e1, Outcome.ok.injEq] at g2
      simp [g0, g1, g2]
      exact g1
  · rw [List.map_eq_nil_iff, List.filter_eq_nil_iff]
    intro q hq
    simp only [Function.comp_apply, decide_eq_true_eq, e1, Outcome.ok.injEq]
    rcases settled_tag h hD h1 h3 ho hs hst hr hq with ⟨g0, g⟩ | ⟨g0, g1, g⟩ | ⟨g0, g1, g2, -⟩
    · rw [g]; exact e2
    · rw [g]; exact e3
    · intro e
      exact hdl (i3 _ _ _ e1 (e ▸ g2))

/-- what arrives on a rank -/
theorem movedStore_arrivals {k : Kind} (h : Built m dN) (hb : GoodBCs m) (hD : k.D = dN.length)
    (h1 : 1 ≤ k.D) (h3 : k.D ≤ 3) {o : Nat} (ho : o < k.D) {s : Int} (hs : 0 ≤ s)
    {st : List (Store R)} (hst : Settled m k fun r => st.getD r ⟨[], 0⟩) {r : Nat}
    (hr : r < m.doms.length) :
    (∀ q, recvFrom m r (lowDir k.D o) = some q → arrivals m k (fun r =>
      ((List.range m.doms.length).map (movedStore m k o s st)).getD r ⟨[], 0⟩) r =
      (behind k o s (st.getD q ⟨[], 0⟩)).map fun p =>
        (k.view (moved k.D (sizes m q) o s p)).move (displacement m q r (lowDir k.D o))) ∧
    (recvFrom m r (lowDir k.D o) = none → arrivals m k (fun r =>
      ((List.range m.doms.length).map (movedStore m k o s st)).getD r ⟨[], 0⟩) r = []) := by
  obtain ⟨-, hnd, -⟩ := C07_direction_tables k.D h1 h3
  have hmem := lowDir_mem h1 h3 ho
  have hone : ∀ (l : List Direction) (f : Direction → List (View R)), l.Nodup → lowDir k.D o ∈ l →
      (∀ d ∈ l, d ≠ lowDir k.D o → f d = []) → l.flatMap f = f (lowDir k.D o) := by
    intro l f hl hm hf
    induction l with
    | nil => simp at hm
    | cons x l ih =>
      rw [List.flatMap_cons]
      rw [List.nodup_cons] at hl
      by_cases hx : x = lowDir k.D o
      · subst hx
        have : l.flatMap f = [] := by
          rw [List.flatMap_eq_nil_iff]
          intro d hd
          exact hf d (by simp [hd]) (fun e => hl.1 (e ▸ hd))
        rw [this, List.append_nil]
      · rw [hf x (by simp) hx, List.nil_append]
        exact ih hl.2 (by simpa [Ne.symm hx] using hm) fun d hd => hf d (by simp [hd])
  have hpart : ∀ d ∈ allDirs k.D, ∀ q, recvFrom m r d = some q → q < m.doms.length :=
    fun d hd q hq => (partner h hb hD h1 h3 hd hr).2.2.1 q hq
  have harr : arrivals m k (fun r =>
      ((List.range m.doms.length).map (movedStore m k o s st)).getD r ⟨[], 0⟩) r =
      match recvFrom m r (lowDir k.D o) with
      | none => []
      | some q => (leaving k (movedStore m k o s st q) (lowDir k.D o)).map fun p =>
        (k.view p).move (displacement m q r (lowDir k.D o)) := by
    unfold arrivals
    rw [hone _ _ hnd hmem]
    · cases hq : recvFrom m r (lowDir k.D o) with
      | none => rfl
      | some q =>
        simp only
        rw [movedStore_getD m k o s st (hpart _ hmem q hq)]
    · intro d hd hne
      cases hq : recvFrom m r d with
      | none => rfl
      | some q =>
        simp only
        rw [movedStore_getD m k o s st (hpart _ hd q hq),
          movedStore_leaving h hD h1 h3 ho hs hst (hpart _ hd q hq) hd, if_neg hne]
        rfl
  constructor
  · intro q hq
    rw [harr, hq]
    simp only
    rw [movedStore_leaving h hD h1 h3 ho hs hst (hpart _ hmem q hq) hmem, if_pos rfl, List.map_map]
    rfl
  · intro hq
    rw [harr, hq]

/-- Who enters a subdomain from above when the window moves. -/
def entering (m : Meta) (k : Kind) (o : Nat) (s : Int) (st : List (Store R)) (r : Nat) : Nat :=
  match recvFrom m r (lowDir k.D o) with
  | none => 0
  | some q => (behind k o s (st.getD q ⟨[], 0⟩)).length

theorem ahead_getD (o : Nat) (s : Int) (i : List Int) {a : Nat} (h : a < i.length) :
    (ahead o s i).getD a 0 = if a = o then i.getD a 0 + s else i.getD a 0 := by
  have g1 : a < (ahead o s i).length := by rw [ahead_length]; omega
  rw [List.getD_eq_getElem?_getD, List.getElem?_eq_getElem g1, Option.getD_some,
    ahead_get o s _ g1 h, List.getD_eq_getElem?_getD, List.getElem?_eq_getElem h, Option.getD_some]

/-- **C56 (particles, build with MPI).** For every decomposition and admissible boundary conditions,
every settled species, every schedule, every shift by at most the width of the narrowest subdomain
along the axis, if the arrays can take what enters and every subdomain that leaves particles behind
communicates along the axis at all: moving the window succeeds; over all ranks together the live
particles are exactly the old ones, displaced by `-s` cells along the axis in the global box and
otherwise unchanged, except those left behind the low wall of the box, which are gone; and every
live particle is inside its subdomain.  The previous cell is kept, not displaced.  Missing from the
claim: a box with walls and a single subdomain along the axis, and builds without MPI
(`C56_zombie_counterexample`, `C56_serial_counterexample`). -/
theorem C56_particles_partial [Inhabited R] (h : Built m dN) (hb : GoodBCs m)
    (hpos : ∀ l ∈ dN, ∀ x ∈ l, 0 < x) (k : Kind) (hD : k.D = dN.length) (h1 : 1 ≤ k.D)
    (h3 : k.D ≤ 3) {o : Nat} (ho : o < k.D) {s : Int} (hs : 0 ≤ s)
    (hw : ∀ r < m.doms.length, s ≤ (sizes m r).getD o 0) (st : List (Store R))
    (hst : Settled m k fun r => st.getD r ⟨[], 0⟩) (S : Nat → Scheds)
    (hS : ∀ r < m.doms.length, (S r).Fair)
    (hcomm : ∀ r < m.doms.length, behind k o s (st.getD r ⟨[], 0⟩) ≠ [] →
      sendTo m r (lowDir k.D o) ≠ none ∨ recvFrom m r (lowDir k.D o) ≠ none)
    (hcap : ∀ r < m.doms.length, (st.getD r ⟨[], 0⟩).npart + entering m k o s st r <
      (st.getD r ⟨[], 0⟩).maxnpart) :
    ∃ st', moveParticles true m k o s st S = .ok st' ∧
      ((List.range m.doms.length).flatMap fun r =>
        (st'.getD r ⟨[], 0⟩).live.map fun q => (globalCells m dN r (k.view q).cell,
          globalCells m dN r (k.view q).cellPrev, (k.view q).cargo)).Perm
      ((List.range m.doms.length).flatMap fun r =>
        ((st.getD r ⟨[], 0⟩).live.filter fun q => decide (Stays m k o s r q)).map
          fun q => (globalCells m dN r (ahead o (-s) (k.view q).cell),
            globalCells m dN r (k.view q).cellPrev, (k.view q).cargo)) ∧
      (∀ r < m.doms.length, ∀ q ∈ (st'.getD r ⟨[], 0⟩).live, ∀ a < k.D,
        0 ≤ (k.view q).cell.getD a 0 ∧ (k.view q).cell.getD a 0 < (sizes m r).getD a 0) := by
  have hready := movedStore_ready h hD h1 h3 ho hs hst hcomm
  have hmem := lowDir_mem h1 h3 ho
  have hcap' : ∀ r < m.doms.length,
      (((List.range m.doms.length).map (movedStore m k o s st)).getD r ⟨[], 0⟩).npart +
      (arrivals m k (fun r =>
        ((List.range m.doms.length).map (movedStore m k o s st)).getD r ⟨[], 0⟩) r).length <
      (((List.range m.doms.length).map (movedStore m k o s st)).getD r ⟨[], 0⟩).maxnpart := by
    intro r hr
    obtain ⟨a1, a2⟩ := movedStore_arrivals h hb hD h1 h3 ho hs hst hr
    have e := hcap r hr
    have hn := hst.npart r hr
    have emax : (movedStore m k o s st r).maxnpart = (st.getD r ⟨[], 0⟩).maxnpart := by
      beta_reduce at hn
      simp only [movedStore, Store.maxnpart, List.length_append, List.length_map, Store.used,
        List.length_take, List.length_drop] at hn ⊢
      omega
    rw [movedStore_getD m k o s st hr, emax, show (movedStore m k o s st r).npart =
      (st.getD r ⟨[], 0⟩).npart from rfl]
    unfold entering at e
    cases hq : recvFrom m r (lowDir k.D o) with
    | none => rw [a2 hq]; rw [hq] at e; exact e
    | some q =>
      rw [a1 q hq, List.length_map]
      rw [hq] at e; exact e
  obtain ⟨st', hrun, hlen, hrank⟩ := C16_exchange m dN h hb k hD h1 h3 _ hready S hS hcap'
  have hall := C17_all_ranks m dN h hb hpos k hD h1 h3 _ st' hready S hS hcap' hrun
  obtain ⟨i1, -, i3⟩ := C08_codes_inverse k.D h1 h3
  have hclen : ∀ q : Prtl R, (k.view q).cell.length = k.D := by
    intro q; simp [Kind.view]; omega
  refine ⟨st', ?_, ?_, ?_⟩
  · rw [moveParticles_mpi h hD h1 h3 ho]; exact hrun
  · refine hall.trans (List.Perm.of_eq ?_)
    apply flatMap_congr'
    intro r hr
    rw [List.mem_range] at hr
    beta_reduce
    rw [movedStore_getD m k o s st hr, movedStore_used m k o s st (hst.npart r hr), List.filter_map,
      List.map_map, Store.live, List.filter_filter]
    have hf : (st.getD r ⟨[], 0⟩).used.filter
        ((fun q => decide (Wanted m k r q)) ∘ moved k.D (sizes m r) o s) =
        (st.getD r ⟨[], 0⟩).used.filter
          (fun a => decide (Stays m k o s r a) && decide (a.tag = 1)) := by
      apply List.filter_congr
      intro q hq
      simp only [Function.comp_apply, ← Bool.decide_and, decide_eq_decide]
      unfold Wanted Stays
      rcases settled_tag h hD h1 h3 ho hs hst hr hq with ⟨g0, g⟩ | ⟨g0, g1, g⟩ | ⟨g0, g1, g2, g3, g4⟩
      · rw [g, g0]
        constructor
        · rintro (e | ⟨d, hd, e, -⟩)
          · omega
          · obtain ⟨c, c1, -, c2, -⟩ := i1 d hd
            rw [c1, Outcome.ok.injEq] at e
            exact absurd e c2
        · rintro ⟨-, e⟩; omega
      · rw [g, g0]
        simp only [true_or, and_true, true_iff]
        exact .inl g1
      · constructor
        · rintro (e | ⟨d, hd, e, e'⟩)
          · exact absurd e g4
          · rw [i3 _ _ _ e g2] at e'
            exact ⟨.inr e', g0⟩
        · rintro ⟨e | e, -⟩
          · omega
          · exact .inr ⟨_, hmem, g2, e⟩
    rw [hf]
    apply List.map_congr_left
    intro q _
    simp only [Function.comp_apply]
    rw [view_moved k h3 _ ho s q]
    rfl
  · intro r hr q hq a ha
    obtain ⟨s', hs', -, -, -, -, hperm⟩ := hrank r hr
    have es : st'.getD r ⟨[], 0⟩ = s' := by rw [List.getD_eq_getElem?_getD, hs']; rfl
    rw [es] at hq
    have hv := hperm.mem_iff.1 (List.mem_map_of_mem (f := k.view) hq)
    rw [List.mem_append, movedStore_getD m k o s st hr] at hv
    rcases hv with hv | hv
    · obtain ⟨p, hp, hpe⟩ := List.mem_map.1 hv
      rw [mem_live_iff, movedStore_used m k o s st (hst.npart r hr)] at hp
      obtain ⟨hp1, hp2⟩ := hp
      obtain ⟨p', hp', rfl⟩ := List.mem_map.1 hp1
      rw [← hpe, view_moved k h3 _ ho s p']
      simp only
      rw [ahead_getD _ _ _ (by rw [hclen]; exact ha)]
      rcases settled_tag h hD h1 h3 ho hs hst hr hp' with ⟨g0, g⟩ | ⟨g0, g1, g⟩ | ⟨g0, g1, g2, g3, g4⟩
      · omega
      · have := hst.inside r hr p' (mem_live_iff.2 ⟨hp', g0⟩) a ha
        split_ifs with hao
        · subst hao; omega
        · exact this
      · exact absurd hp2 g4
    · obtain ⟨a1, a2⟩ := movedStore_arrivals h hb hD h1 h3 ho hs hst hr
      cases hqr : recvFrom m r (lowDir k.D o) with
      | none => rw [a2 hqr] at hv; simp at hv
      | some t =>
        rw [a1 t hqr] at hv
        obtain ⟨p, hp, hpe⟩ := List.mem_map.1 hv
        have ht : t < m.doms.length := (partner h hb hD h1 h3 hmem hr).2.2.1 t hqr
        have hsend : sendTo m t (lowDir k.D o) = some r :=
          ((partner h hb hD h1 h3 hmem ht).2.2.2 r hr).2 hqr
        simp only [behind, List.mem_filter, decide_eq_true_eq] at hp
        have hin := hst.inside t ht p hp.1
        rw [view_moved k h3 _ ho s p] at hpe
        rw [← hpe]
        refine (C17_global_position m dN h hb hpos k.D hD h1 h3 _ hmem t r ht hsend
          (ahead o (-s) (k.view p).cell) ?_).2 ?_ a ha
        · rw [ahead_length, hclen]; simp [lowDir]
        · refine ⟨?_, ?_⟩
          · rw [ahead_length, hclen]; simp [lowDir]
          · intro b hbb
            have hb' : b < k.D := by simpa [lowDir] using hbb
            have e1 : (lowDir k.D o).getD b 0 = if b = o then -1 else 0 := by
              simp [lowDir, hb']
            have e2 := hin b hb'
            rw [e1, ahead_getD _ _ _ (by rw [hclen]; exact hb')]
            by_cases hbo : b = o
            · subst hbo
              have := hw r hr
              have := hp.2
              simp only [if_true]
              refine ⟨fun _ => by omega, fun e => by omega, fun e => by omega⟩
            · simp only [if_neg hbo]
              refine ⟨fun e => by omega, fun e => by omega, fun _ => e2⟩

end prtls

/-! ## Extents -/

/-- **C56 (extents).** A shift by zero cells is an error; otherwise the extents of the box and of all
subdomains move by `s` cells along the axis and not along the others, so that what is at cell index
`i` before, with any offset `x` inside the cell, is at the same physical position as what is at
`i - s` after, both in the box and in every subdomain. -/
theorem C56_extents {K : Type} [Field K] (dx : K) (o : Nat) (s : Int)
    (box : List (K × K)) (subs : List (List (K × K))) :
    (s = 0 → shiftByCells dx o s (box, subs) = .err) ∧
    (s ≠ 0 → ∃ box' subs', shiftByCells dx o s (box, subs) = .ok (box', subs') ∧
      subs'.length = subs.length ∧
      ∀ e e', (e, e') ∈ (box :: subs).zip (box' :: subs') →
        e'.length = e.length ∧ ∀ (a : Nat) (x y x' y' : K), e[a]? = some (x, y) → e'[a]? = some (x', y') →
          (a ≠ o → x' = x ∧ y' = y) ∧
          (a = o → y' - x' = y - x ∧
            ∀ (i : Int) (f : K), x' + (((i - s : Int) : K) + f) * dx = x + ((i : K) + f) * dx)) := by
  refine ⟨fun h => by simp [shiftByCells, h], fun h =>
    ⟨shiftExtent dx o s box, subs.map (shiftExtent dx o s), by simp [shiftByCells, h], by simp, ?_⟩⟩
  intro e e' he
  have : e' = shiftExtent dx o s e := by
    rw [show shiftExtent dx o s box :: subs.map (shiftExtent dx o s) =
      (box :: subs).map (shiftExtent dx o s) from rfl] at he
    obtain ⟨i, hi, hh⟩ := List.getElem_of_mem he
    simp only [List.getElem_zip, List.getElem_map, Prod.mk.injEq] at hh
    rw [← hh.2, hh.1]
  subst this
  refine ⟨by simp [shiftExtent], ?_⟩
  intro a x y x' y' hx hx'
  simp only [shiftExtent, List.getElem?_modify, hx, Option.map_eq_map, Option.map_some] at hx'
  constructor
  · intro hne
    rw [if_neg (Ne.symm hne)] at hx'
    simp only [Option.some.injEq, Prod.mk.injEq] at hx'
    exact ⟨hx'.1.symm, hx'.2.symm⟩
  · intro heq
    rw [if_pos heq.symm] at hx'
    simp only [Option.some.injEq, Prod.mk.injEq] at hx'
    rw [← hx'.1, ← hx'.2]
    refine ⟨by ring, fun i f => ?_⟩
    push_cast
    ring

/-! ## Where the claim fails -/

/-- **C56 fails for shifts beyond the ghost zone.**  Nothing checks the shift against the number of
ghost cells.  On a periodic box of 11 × 7 cells in two pieces with two ghost cells, a shift by three
cells along x1 of the field "position in the box" leaves the last active cell of the first subdomain
with its own old value instead of that of the cell three ahead, which is an active cell of the second
subdomain. -/
theorem C56_counterexample :
    Built perMeta [[5, 6], [7]] ∧ AllPeriodic perMeta ∧ Wide [[5, 6], [7]] 2 ∧
    Synced perMeta [[5, 6], [7]] 2 (fun r i => globalPos perMeta [11, 7] 2 r i) ∧
    Active perMeta 2 0 [6, 2] ∧ Active perMeta 2 1 [4, 2] ∧
    globalPos perMeta [11, 7] 2 0 (ahead 0 3 [6, 2]) = globalPos perMeta [11, 7] 2 1 [4, 2] ∧
    cellOf (moveFields perMeta 2 0 3 (fun r i => globalPos perMeta [11, 7] 2 r i)) 0 [6, 2] =
      some (some [4, 0]) ∧
    globalPos perMeta [11, 7] 2 1 [4, 2] = some [7, 0] := by
  refine ⟨perMeta_built, ⟨rfl, by decide⟩, by unfold Wide; decide, ?_, ?_, ?_, by decide +kernel,
    by decide +kernel, by decide +kernel⟩
  · intro r i q j _ _ _ h; exact h
  · exact ⟨_, rfl, by decide +kernel⟩
  · exact ⟨_, rfl, by decide +kernel⟩

/-- a box with walls in one piece -/
def wallMeta : Meta where
  counts := [1, 1]
  doms := (Decomp.createDomains 1 [[6], [7]]).getD []
  bcs := [(.CONDUCTOR, .CONDUCTOR), (.PERIODIC, .PERIODIC)]

/-- two particles, one in the first column of cells and one in the fourth -/
def wallSt : List (Store Int) :=
  [⟨[mkQ 0 3 1 1, mkQ 3 3 2 1, mkQ 0 0 0 0, mkQ 0 0 0 0], 2⟩]

/-- **C56, particles left behind a wall, one subdomain along the axis.**  The window moves by one
cell; the particle left behind keeps the mark "leaving downwards" for good: it is neither alive nor
dead, and since the subdomain does not communicate in that direction no exchange will ever remove
it. -/
theorem C56_zombie_counterexample :
    Built wallMeta [[6], [7]] ∧ GoodBCs wallMeta ∧
    Settled wallMeta exK (fun r => wallSt.getD r ⟨[], 0⟩) ∧
    (match moveParticles true wallMeta exK 0 1 wallSt (fun _ => exSch) with
      | .ok l => l.map fun s => s.used.map fun q => (q.pld_i, q.i1, q.tag)
      | _ => []) = [[([1], -1, 3), ([2], 2, 1)]] ∧
    sendTo wallMeta 0 [-1, 0] = none ∧ recvFrom wallMeta 0 [-1, 0] = none := by
  refine ⟨⟨by decide, rfl, by decide +kernel⟩, ⟨rfl, by decide⟩, ⟨by decide +kernel,
    by decide +kernel, by decide +kernel, by unfold PldOk; decide +kernel⟩, by decide +kernel,
    by decide +kernel, by decide +kernel⟩

/-- **C56, build without MPI.**  The same box: the particle left behind stays alive with the cell
index -1 outside of the box. -/
theorem C56_serial_counterexample :
    (match moveParticles false wallMeta exK 0 1 wallSt (fun _ => exSch) with
      | .ok l => l.map fun s => s.live.map fun q => (q.pld_i, q.i1)
      | _ => []) = [[([1], -1), ([2], 2)]] := by
  decide +kernel

/-! ## Concrete cases -/

/-- The hypotheses of `C56_fields_partial`. -/
example : Built perMeta [[5, 6], [7]] ∧ GoodBCs perMeta ∧ Wide [[5, 6], [7]] 2 ∧
    Synced perMeta [[5, 6], [7]] 2 (fun r i => globalPos perMeta [11, 7] 2 r i) :=
  ⟨perMeta_built, AllPeriodic.good ⟨rfl, by decide⟩, by unfold Wide; decide,
    fun _ _ _ _ _ _ _ h => h⟩

/-- The last active cell of the second subdomain gets what was two ahead, in the first subdomain. -/
example : cellOf (moveFields perMeta 2 0 2 (fun r i => globalPos perMeta [11, 7] 2 r i)) 1 [7, 4] =
    some (some [1, 2]) := by decide +kernel

/-- particles on the periodic box -/
def winSt : List (Store Int) :=
  [⟨[mkQ 1 2 1 1, mkQ 4 6 2 1, mkQ 9 9 3 0, mkQ 0 0 0 0, mkQ 0 0 0 0], 3⟩,
   ⟨[mkQ 0 1 4 1, mkQ 5 6 5 1, mkQ 0 0 0 0, mkQ 0 0 0 0, mkQ 0 0 0 0], 2⟩]

/-- The hypotheses of `C56_particles_partial`. -/
example : Built perMeta [[5, 6], [7]] ∧ GoodBCs perMeta ∧ exK.D = 2 ∧
    (∀ r < 2, (2 : Int) ≤ (sizes perMeta r).getD 0 0) ∧
    Settled perMeta exK (fun r => winSt.getD r ⟨[], 0⟩) ∧ exSch.Fair ∧
    (∀ r < 2, sendTo perMeta r (lowDir exK.D 0) ≠ none) ∧
    (∀ r < 2, (winSt.getD r ⟨[], 0⟩).npart + entering perMeta exK 0 2 winSt r <
      (winSt.getD r ⟨[], 0⟩).maxnpart) :=
  ⟨perMeta_built, AllPeriodic.good ⟨rfl, by decide⟩, rfl, by decide +kernel,
    ⟨by decide +kernel, by decide +kernel, by decide +kernel, by unfold PldOk; decide +kernel⟩,
    exSch_fair, by decide +kernel, by decide +kernel⟩

/-- Moving by two cells hands one particle over each way. -/
example : (match moveParticles true perMeta exK 0 2 winSt (fun _ => exSch) with
      | .ok l => l.map fun s => s.live.map fun q => (q.pld_i, q.i1, q.i2)
      | _ => []) = [[([2], 2, 6), ([4], 3, 1)], [([1], 5, 2), ([5], 3, 6)]] := by decide +kernel

example : (match shiftByCells (1 / 2 : ℚ) 0 3 ([(0, 5), (-1, 1)], [[(0, 2), (-1, 1)], [(2, 5), (-1, 1)]]) with
      | .ok p => decide (p = ([(3 / 2, 13 / 2), (-1, 1)],
          [[(3 / 2, 7 / 2), (-1, 1)], [(7 / 2, 13 / 2), (-1, 1)]]))
      | _ => false) = true := by
  decide +kernel

end Entity.Window
