import Verif.Lemmas.PrtlOutbox
import Verif.Props.Prtl

/-! # Lemmas about receiving particles -/

namespace Entity.Prtl

open Entity Entity.Dir Entity.Tags

theorem countsFit_iff (n M tot : Nat) (ns : List Nat) :
    countsFit n M tot ns = true ↔ (ns = [] ∨ n + (tot + ns.sum) < M) := by
  induction ns generalizing tot with
  | nil => simp [countsFit]
  | cons x xs ih =>
    simp only [countsFit, Bool.and_eq_true, decide_eq_true_eq, ih, List.sum_cons, reduceCtorEq,
      false_or]
    constructor
    · rintro ⟨h1, h2 | h2⟩
      · subst h2; simpa using h1
      · omega
    · intro h; exact ⟨by omega, Or.inr (by omega)⟩

/-- live view of slot `j` -/
def liveAt {R : Type} (k : Kind) (arr : List (Prtl R)) (j : Nat) : Option (View R) :=
  arr[j]?.bind fun q => if q.tag = 1 then some (k.view q) else none

theorem live_views {R : Type} (k : Kind) (s : Store R) :
    s.live.map k.view = (List.range s.npart).filterMap (liveAt k s.arr) := by
  unfold Store.live Store.used
  rw [take_eq_filterMap]
  induction List.range s.npart with
  | nil => rfl
  | cons p ps ih =>
    rw [List.filterMap_cons, List.filterMap_cons, ← ih]
    unfold liveAt
    cases h : s.arr[p]? with
    | none => simp
    | some q =>
      by_cases ht : q.tag = 1 <;> simp [ht]

theorem filterMap_range_view {α β : Type} (L : List α) (f : α → β) (M : Nat) (hM : L.length ≤ M)
    (g : Nat → Option β) (h1 : ∀ p (hp : p < L.length), g p = some (f L[p]))
    (h2 : ∀ p, L.length ≤ p → p < M → g p = none) :
    (List.range M).filterMap g = L.map f := by
  obtain ⟨e, rfl⟩ : ∃ e, M = L.length + e := ⟨M - L.length, by omega⟩
  rw [List.range_add, List.filterMap_append]
  have hz : (List.map (fun x => L.length + x) (List.range e)).filterMap g = [] := by
    rw [List.filterMap_eq_nil_iff]
    intro p hp
    obtain ⟨x, hx, rfl⟩ := List.mem_map.1 hp
    rw [List.mem_range] at hx
    exact h2 _ (by omega) (by omega)
  rw [hz, List.append_nil]
  have hz2 : (List.range L.length).filterMap g =
      (List.range L.length).filterMap (fun p => (L[p]?).map f) := by
    apply List.filterMap_congr
    intro p hp
    rw [List.mem_range] at hp
    rw [h1 p hp, List.getElem?_eq_getElem hp]; rfl
  rw [hz2]
  have := take_eq_filterMap L L.length
  rw [List.take_length] at this
  conv_rhs => rw [this, List.map_filterMap]

/-- A rank receives. -/
theorem receive_spec {R : Type} [Inhabited R] (k : Kind) (h1 : 1 ≤ k.D) (h3 : k.D ≤ 3)
    (s : Store R) (hn : s.npart ≤ s.maxnpart) (dirs : List Direction) (sh1 sh2 sh3 : List Int)
    (o : Outbox R) (ho : OutboxOk k s dirs sh1 sh2 sh3 o) (S : Scheds)
    (hS : ∀ n, (S.extract n).Perm (List.range n))
    (hfree : ∀ p, p < s.npart → tagAt s.arr p = 1 ∨ tagAt s.arr p = 0 ∨
      ∃ d ∈ dirs, dir2tag k.D d = .ok (tagAt s.arr p))
    (Ls : List (List (Prtl R))) (inc : List (Nat × Buffers R))
    (hinc : inc = Ls.map fun L => (L.length, flat (L.map (rowOf k))))
    (hok : ∀ L ∈ Ls, ∀ q ∈ L, PldOk k q)
    (hfit : Ls = [] ∨ s.npart + Ls.flatten.length < s.maxnpart) :
    ∃ s', receiveAll k s o inc S = .ok s' ∧ s'.maxnpart = s.maxnpart ∧ s.npart ≤ s'.npart ∧
      s'.npart ≤ s'.maxnpart ∧
      (∀ p, p < s.npart → tagAt s.arr p = 1 → s'.arr[p]? = s.arr[p]?) ∧
      (∀ q ∈ s'.used, q.tag = 1 ∨ q.tag = 0) ∧
      (s'.live.map k.view).Perm (s.live.map k.view ++ Ls.flatten.map k.view) := by
  set L := Ls.flatten with hL
  set H := o.out.length with hH
  have hnr : (inc.map (·.1)).sum = L.length := by
    subst hinc; rw [hL, List.length_flatten, List.map_map]; rfl
  have hcf : countsFit s.npart s.maxnpart 0 (inc.map (·.1)) = true := by
    rw [countsFit_iff, hnr]
    rcases hfit with h | h
    · left; subst hinc; simp [h]
    · right; omega
  have hcap : L.length = 0 ∨ s.npart + L.length < s.maxnpart := by
    rcases hfit with h | h
    · left; rw [hL, h]; rfl
    · exact Or.inr h
  unfold Store.maxnpart at hn hcap
  have hHn : H ≤ s.npart := by
    have hsub : o.out.Subperm (List.range s.npart) := by
      apply List.subperm_of_subset ho.out_nodup
      intro x hx
      rw [List.mem_range]; exact ((ho.out_mem x).1 hx).1
    simpa using hsub.length_le
  -- the received rows
  obtain ⟨rows0, hr0, hr0ok, hempty⟩ := empty_flat (R := R) k L.length
  have hrow : ∀ r ∈ L.map (rowOf k), RowOk k r := by
    intro r hr
    obtain ⟨q, hq, rfl⟩ := List.mem_map.1 hr
    obtain ⟨L', hL', hq'⟩ := List.mem_flatten.1 hq
    exact rowOf_ok k h1 h3 (hok L' hL' q hq')
  have hfl : (Ls.map (List.map (rowOf k))).flatten = L.map (rowOf k) := by
    rw [hL, List.map_flatten]
  have hrecv := receive_fold k inc (Ls.map (List.map (rowOf k)))
    (by subst hinc; rw [List.map_map]; apply List.map_congr_left; intro x _; simp)
    (by
      intro x hx r hr
      obtain ⟨L', hL', rfl⟩ := List.mem_map.1 hx
      obtain ⟨q, hq, rfl⟩ := List.mem_map.1 hr
      exact rowOf_ok k h1 h3 (hok L' hL' q hq))
    [] rows0 (by simp) hr0ok (by rw [hfl, List.length_map, hr0])
  rw [hfl] at hrecv
  simp only [List.nil_append, List.length_nil] at hrecv
  -- extraction
  have hperm := hS L.length
  have hmem : ∀ p ∈ S.extract L.length, p < L.length := fun p hp => by
    simpa using (hperm.mem_iff (a := p)).1 hp
  set G : Nat → Nat := fun p => if p ≥ o.out.length then s.npart + p - o.out.length
    else o.out.getD p 0 with hG
  have hGlo : ∀ p (hp : p < H), G p = o.out[p] := by
    intro p hp
    simp only [hG]
    rw [if_neg (by omega), List.getD_eq_getElem?_getD, List.getElem?_eq_getElem hp]; rfl
  have hGhi : ∀ p, H ≤ p → G p = s.npart + p - H := by
    intro p hp; simp only [hG]; rw [if_pos hp]
  have hGlt : ∀ p (hp : p < H), G p < s.npart ∧ tagAt s.arr (G p) ≠ 1 := by
    intro p hp
    rw [hGlo p hp]
    exact (ho.out_mem _).1 (List.getElem_mem hp)
  have hGinj : ∀ p p', G p = G p' → p = p' := by
    intro p p' he
    by_cases a : p < H <;> by_cases b : p' < H
    · rw [hGlo p a, hGlo p' b] at he
      exact (List.Nodup.getElem_inj_iff ho.out_nodup).1 he
    · have := hGlt p a; rw [he, hGhi p' (by omega)] at this; omega
    · have := hGlt p' b; rw [← he, hGhi p (by omega)] at this; omega
    · rw [hGhi p (by omega), hGhi p' (by omega)] at he; omega
  obtain ⟨arr', e1, e2, e3, e4⟩ := extract_fold k h1 h3 o.out s.npart (L.map (rowOf k))
    (fun p => L[p]?.getD default) (S.extract L.length) o.arr G hG hrow
    (hperm.nodup_iff.2 List.nodup_range)
    (fun p hp => by simp [hmem p hp])
    (fun p hp => by
      simp only [List.getElem?_eq_getElem (hmem p hp), Option.getD_some]
      obtain ⟨L', hL', hq'⟩ := List.mem_flatten.1 (List.getElem_mem (hmem p hp))
      exact hok L' hL' _ hq')
    (fun p hp => by
      have := hmem p hp
      rw [ho.len]
      by_cases a : p < H
      · have := hGlt p a; omega
      · rw [hGhi p (by omega)]; omega)
    (fun p _ p' _ h => hGinj p p' h)
  -- the new count
  set n' := s.npart + (L.length - H) with hn'
  have hn'le : n' ≤ arr'.length := by rw [e2, ho.len]; omega
  refine ⟨⟨arr', n'⟩, ?_, ?_, ?_, ?_, ?_, ?_, ?_⟩
  · unfold receiveAll
    rw [hcf]
    simp only [Bool.not_true, Bool.false_eq_true, if_false]
    rw [hnr, hempty, hrecv, Outcome.bind_ok]
    simp only
    rw [e1, Outcome.bind_ok]
    by_cases hgt : L.length > H
    · rw [if_pos hgt]
      unfold setNpart Store.maxnpart
      simp only
      rw [if_neg (by omega), show s.npart + L.length - o.out.length = n' by omega]
    · rw [if_neg hgt, show n' = s.npart by omega]; rfl
  · simp only [Store.maxnpart]; rw [e2, ho.len]
  · simp only; omega
  · exact hn'le
  · intro p hp ht
    simp only
    rw [e4 p, ho.keep p (Or.inr ht)]
    intro x _ he
    by_cases a : x < H
    · have := hGlt x a; rw [he] at this; exact this.2 ht
    · rw [hGhi x (by omega)] at he; omega
  all_goals
    -- what is in every slot
    have hslot : ∀ p, p < L.length → ∃ q, arr'[G p]? = some q ∧ q.tag = 1 ∧
        (∀ hp : p < L.length, k.view q = k.view L[p]) := by
      intro p hp
      obtain ⟨q, hq⟩ := e3 p (by rw [hperm.mem_iff]; simpa using hp)
      refine ⟨_, hq, rfl, fun _ => ?_⟩
      rw [view_copy k h1 h3]
      simp [hp]
    have hhole : ∀ p, L.length ≤ p → p < H → ∃ q, arr'[G p]? = some q ∧ q.tag = 0 := by
      intro p hp hpH
      obtain ⟨a, b⟩ := hGlt p hpH
      rw [e4 (G p) fun x hx he => by have := hmem x hx; have := hGinj _ _ he; omega]
      rcases hfree _ a with h | h
      · exact absurd h b
      · exact ho.freed _ a b h
    have halive : ∀ p, p < s.npart → tagAt s.arr p = 1 → arr'[p]? = s.arr[p]? := by
      intro p hp ht
      rw [e4 p, ho.keep p (Or.inr ht)]
      intro x _ he
      by_cases a : x < H
      · have := hGlt x a; rw [he] at this; exact this.2 ht
      · rw [hGhi x (by omega)] at he; omega
    -- every slot in use is one that was alive or one of the list
    have hcov : ∀ j, j < n' ↔ (j ∈ (List.range s.npart).filter
        (fun p => decide (tagAt s.arr p = 1)) ∨ j ∈ (List.range (max L.length H)).map G) := by
      intro j
      simp only [List.mem_filter, List.mem_range, decide_eq_true_eq, List.mem_map]
      constructor
      · intro hj
        by_cases hjn : j < s.npart
        · by_cases ht : tagAt s.arr j = 1
          · exact Or.inl ⟨hjn, ht⟩
          · obtain ⟨i, hi, hie⟩ := List.getElem_of_mem ((ho.out_mem j).2 ⟨hjn, ht⟩)
            exact Or.inr ⟨i, by omega, by rw [hGlo i hi, hie]⟩
        · refine Or.inr ⟨j - s.npart + H, by omega, ?_⟩
          rw [hGhi _ (by omega)]; omega
      · rintro (⟨h, -⟩ | ⟨i, hi, rfl⟩)
        · omega
        · by_cases a : i < H
          · have := hGlt i a; omega
          · rw [hGhi i (by omega)]; omega
  · intro q hq
    simp only [Store.used] at hq
    rw [List.mem_take_iff_getElem] at hq
    obtain ⟨j, hj, rfl⟩ := hq
    have hjn : j < n' := by omega
    have hjl : j < arr'.length := by omega
    have hje : arr'[j]? = some arr'[j] := List.getElem?_eq_getElem hjl
    rcases (hcov j).1 hjn with h | h
    · simp only [List.mem_filter, List.mem_range, decide_eq_true_eq] at h
      rw [halive j h.1 h.2] at hje
      left; rw [← h.2, tagAt_some hje]
    · obtain ⟨i, hi, rfl⟩ := List.mem_map.1 h
      rw [List.mem_range] at hi
      by_cases hiL : i < L.length
      · obtain ⟨q, a, b, -⟩ := hslot i hiL
        rw [hje] at a; cases a; exact Or.inl b
      · obtain ⟨q, a, b⟩ := hhole i (by omega) (by omega)
        rw [hje] at a; cases a; exact Or.inr b
  · rw [live_views, live_views]
    simp only
    have hp1 : (List.range n').Perm ((List.range s.npart).filter
        (fun p => decide (tagAt s.arr p = 1)) ++ (List.range (max L.length H)).map G) := by
      rw [List.perm_ext_iff_of_nodup List.nodup_range]
      · intro j
        rw [List.mem_range, hcov j, List.mem_append]
      · rw [List.nodup_append]
        refine ⟨List.nodup_range.filter _, ?_, ?_⟩
        · exact List.Nodup.map (fun a b h => hGinj a b h) List.nodup_range
        · rintro a ha b hb rfl
          simp only [List.mem_filter, List.mem_range, decide_eq_true_eq] at ha
          obtain ⟨i, hi, rfl⟩ := List.mem_map.1 hb
          by_cases a' : i < H
          · exact (hGlt i a').2 ha.2
          · rw [hGhi i (by omega)] at ha; omega
    refine (hp1.filterMap _).trans ?_
    rw [List.filterMap_append]
    apply List.Perm.append
    · apply List.Perm.of_eq
      rw [List.filterMap_filter]
      apply List.filterMap_congr
      intro p hp
      rw [List.mem_range] at hp
      by_cases ht : tagAt s.arr p = 1
      · simp only [ht, decide_true, if_true, liveAt, halive p hp ht]
      · rw [if_neg (by simpa using ht)]
        have hq : s.arr[p]? = some (s.arr[p]'(by omega)) := List.getElem?_eq_getElem _
        rw [tagAt_some hq] at ht
        unfold liveAt
        rw [hq]; simp [ht]
    · apply List.Perm.of_eq
      rw [List.filterMap_map]
      apply filterMap_range_view L k.view (max L.length H) (by omega)
      · intro p hp
        obtain ⟨q, a, b, c⟩ := hslot p hp
        simp only [Function.comp, liveAt, a, Option.bind_some, b, if_true]
        rw [c hp]
      · intro p hp hpM
        obtain ⟨q, a, b⟩ := hhole p hp (by omega)
        simp only [Function.comp, liveAt, a, Option.bind_some, b]
        rfl

end Entity.Prtl
