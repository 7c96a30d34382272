import Verif.Model.PrtlComm
import Mathlib.Algebra.BigOperators.Group.List.Basic
import Mathlib.Data.List.Count
import Mathlib.Data.List.Perm.Basic
import Mathlib.Data.List.Range
import Mathlib.Algebra.Order.BigOperators.Group.List

/-! # Lemmas about schedules, counters and buffers -/

namespace Entity.Prtl

open Entity Entity.Dir Entity.Tags

instance : LawfulMonad Outcome := LawfulMonad.mk'
  (id_map := fun x => by cases x <;> rfl)
  (pure_bind := fun _ _ => rfl)
  (bind_assoc := fun x _ _ => by cases x <;> rfl)

/-- Tag of entry `p` (only used for entries that exist). -/
def tagAt {R : Type} (arr : List (Prtl R)) (p : Nat) : Int :=
  match arr[p]? with
  | some q => q.tag
  | none => 0

theorem tagAt_some {R : Type} {arr : List (Prtl R)} {p : Nat} {q : Prtl R}
    (h : arr[p]? = some q) : tagAt arr p = q.tag := by simp [tagAt, h]

/-- Number of indices of `σ` with tag `t`. -/
def cnt {R : Type} (arr : List (Prtl R)) (σ : List Nat) (t : Int) : Nat :=
  σ.countP (fun p => decide (tagAt arr p = t))

/-! ## Counting -/

theorem count_fold {R : Type} (s : Store R) (nt : Nat) (σ : List Nat)
    (h : ∀ p ∈ σ, ∃ q, s.arr[p]? = some q ∧ 0 ≤ q.tag ∧ q.tag < nt) (acc : List Nat)
    (hacc : acc.length = nt) :
    ∃ v, σ.foldlM (countTagBody s nt) acc = .ok v ∧ v.length = nt ∧
      (∀ t : Nat, t < nt → (t : Int) ≠ 1 → v.getD t 0 = acc.getD t 0 + cnt s.arr σ t) ∧
      v.getD 1 0 = acc.getD 1 0 := by
  induction σ generalizing acc with
  | nil => exact ⟨acc, rfl, hacc, by simp [cnt], rfl⟩
  | cons p ps ih =>
    obtain ⟨q, hq, h0, h1⟩ := h p (by simp)
    have hps := fun x hx => h x (List.mem_cons_of_mem _ hx)
    rw [List.foldlM_cons]
    have hbody : countTagBody s nt acc p = .ok (if q.tag ≠ alive then
        acc.modify q.tag.toNat (· + 1) else acc) := by
      simp only [countTagBody, hq]
      rw [if_neg (by push Not; exact ⟨h0, h1⟩)]
      split <;> rfl
    rw [hbody, Outcome.bind_ok]
    obtain ⟨v, hv, hl, hc, h1'⟩ := ih hps
      (if q.tag ≠ alive then acc.modify q.tag.toNat (· + 1) else acc) (by split <;> simp [hacc])
    refine ⟨v, hv, hl, fun t ht ht1 => ?_, ?_⟩
    · rw [hc t ht ht1]
      simp only [cnt, List.countP_cons, tagAt_some hq, decide_eq_true_eq]
      by_cases ha : q.tag = alive
      · rw [if_neg (by simpa using ha), if_neg (by rw [ha]; simp only [alive]; omega)]; rfl
      · rw [if_pos ha]
        simp only [List.getD_eq_getElem?_getD, List.getElem?_modify]
        by_cases hqt : q.tag = t
        · have h2 : q.tag.toNat = t := by omega
          rw [if_pos hqt, h2, List.getElem?_eq_getElem (by omega)]
          simp; omega
        · have h2 : q.tag.toNat ≠ t := by omega
          simp [hqt, h2]
    · rw [h1']
      by_cases ha : q.tag = alive
      · rw [if_neg (by simpa using ha)]
      · rw [if_pos ha]
        have h2 : q.tag.toNat ≠ 1 := by simp only [alive] at ha; omega
        simp [List.getD_eq_getElem?_getD, List.getElem?_modify, h2]

theorem count_fold_err {R : Type} (s : Store R) (nt : Nat) (σ : List Nat)
    (hin : ∀ p ∈ σ, p < s.arr.length)
    (h : ∃ p ∈ σ, ∃ q, s.arr[p]? = some q ∧ (q.tag < 0 ∨ q.tag ≥ nt)) (acc : List Nat) :
    σ.foldlM (countTagBody s nt) acc = .err := by
  induction σ generalizing acc with
  | nil => simp at h
  | cons p ps ih =>
    rw [List.foldlM_cons]
    obtain ⟨q, hq⟩ : ∃ q, s.arr[p]? = some q := ⟨_, List.getElem?_eq_getElem (hin p (by simp))⟩
    by_cases hb : q.tag < 0 ∨ q.tag ≥ nt
    · simp [countTagBody, hq, hb]
    · obtain ⟨p', hp', q', hq', hb'⟩ := h
      have hp2 : p' ∈ ps := by
        rcases List.mem_cons.1 hp' with rfl | h
        · rw [hq] at hq'; cases hq'; exact absurd hb' hb
        · exact h
      have : ∃ a, countTagBody s nt acc p = .ok a := by
        simp only [countTagBody, hq, if_neg hb]
        split <;> exact ⟨_, rfl⟩
      obtain ⟨a, ha⟩ := this
      rw [ha, Outcome.bind_ok]
      exact ih (fun x hx => hin x (List.mem_cons_of_mem _ hx)) ⟨p', hp2, q', hq', hb'⟩ a

theorem cnt_perm {R : Type} {arr : List (Prtl R)} {σ τ : List Nat} (h : σ.Perm τ) (t : Int) :
    cnt arr σ t = cnt arr τ t := h.countP_eq _

/-- Counts over all tags add up to the number of indices. -/
theorem cnt_sum {R : Type} (arr : List (Prtl R)) (nt : Nat) (σ : List Nat)
    (h : ∀ p ∈ σ, 0 ≤ tagAt arr p ∧ tagAt arr p < nt) :
    ((List.range nt).map fun t : Nat => cnt arr σ t).sum = σ.length := by
  induction σ with
  | nil => simp [cnt]
  | cons p ps ih =>
    have h2 := ih (fun x hx => h x (List.mem_cons_of_mem _ hx))
    obtain ⟨h3, h4⟩ := h p (by simp)
    have : ∀ t : Nat, cnt arr (p :: ps) t = cnt arr ps t + (if tagAt arr p = t then 1 else 0) := by
      intro t; simp [cnt, List.countP_cons]
    simp only [this, List.sum_map_add, h2, List.length_cons]
    congr 1
    obtain ⟨k, hk⟩ : ∃ k : Nat, tagAt arr p = k := ⟨_, (Int.toNat_of_nonneg h3).symm⟩
    rw [hk] at h4 ⊢
    have h5 : k < nt := by omega
    simp only [Int.natCast_inj]
    clear * - h5
    induction nt with
    | zero => omega
    | succ n ih =>
      rw [List.range_succ, List.map_append, List.sum_append]
      by_cases hkn : k = n
      · subst hkn
        have : (List.range k).map (fun t => if k = t then 1 else 0) = List.replicate k 0 := by
          rw [List.eq_replicate_iff]
          refine ⟨by simp, fun x hx => ?_⟩
          simp only [List.mem_map, List.mem_range] at hx
          obtain ⟨a, ha, rfl⟩ := hx
          rw [if_neg (by omega)]
        simp [this]
      · rw [ih (by omega)]; simp [hkn]

theorem take_eq_filterMap {α : Type} (arr : List α) (n : Nat) :
    arr.take n = (List.range n).filterMap (fun p => arr[p]?) := by
  induction n with
  | zero => simp
  | succ n ih =>
    rw [List.range_succ, List.filterMap_append, ← ih, List.take_succ]
    cases h : arr[n]? <;> simp [h]

theorem cnt_range {R : Type} (arr : List (Prtl R)) {n : Nat} (hn : n ≤ arr.length) (t : Int) :
    cnt arr (List.range n) t = (arr.take n).countP (fun q => decide (q.tag = t)) := by
  rw [take_eq_filterMap]
  have : ∀ l : List Nat, (∀ p ∈ l, p < arr.length) → cnt arr l t =
      (l.filterMap (fun p => arr[p]?)).countP (fun q => decide (q.tag = t)) := by
    intro l hl
    induction l with
    | nil => rfl
    | cons p ps ih =>
      have hp := hl p (by simp)
      have h1 : arr[p]? = some arr[p] := List.getElem?_eq_getElem hp
      have ih' := ih fun x hx => hl x (List.mem_cons_of_mem _ hx)
      simp only [cnt] at ih' ⊢
      rw [List.countP_cons, ih', List.filterMap_cons, h1, tagAt_some h1, List.countP_cons]
  exact this _ (fun p hp => by simp at hp; omega)

theorem sum_split (f : Nat → Nat) (n : Nat) :
    ((List.range (n + 2)).map f).sum = f 0 + f 1 + ((List.range n).map fun t => f (t + 2)).sum := by
  induction n with
  | zero => simp [List.range_succ]
  | succ n ih =>
    rw [show n + 1 + 2 = (n + 2) + 1 from rfl, List.range_succ, List.map_append, List.sum_append,
      ih, List.range_succ, List.map_append, List.sum_append]
    simp; omega

theorem eq_map_range {v : List Nat} {n : Nat} (h : v.length = n) :
    v = (List.range n).map fun t => v.getD t 0 := by
  apply List.ext_getElem
  · simp [h]
  · intro i h1 h2
    simp [List.getD_eq_getElem?_getD, List.getElem?_eq_getElem h1]

theorem sum_set_one {v : List Nat} (h : 2 ≤ v.length) (x : Nat) :
    (v.set 1 x).sum + v.getD 1 0 = v.sum + x := by
  match v, h with
  | a :: b :: l, _ => simp [List.set, List.getD]; omega

/-- Result of counting: exact counts of all tags, alive included. -/
theorem nparts_spec {R : Type} {s : Store R} (hn : s.npart ≤ s.arr.length) {D : Nat} (hD : 1 ≤ D)
    {σ : Sched} (hσ : (σ s.npart).Perm (List.range s.npart))
    (ht : ∀ q ∈ s.arr.take s.npart, 0 ≤ q.tag ∧ q.tag < ntags D) :
    ∃ vec, npartsPerTagAndOffsets s D σ =
        .ok (vec, (List.range (ntags D - 3)).map (tagOffset vec)) ∧ vec.length = ntags D ∧
      (∀ t : Nat, t < ntags D → vec.getD t 0 = cnt s.arr (σ s.npart) t) := by
  have hnt : 4 ≤ ntags D := by
    have : 3 ^ 1 ≤ 3 ^ D := Nat.pow_le_pow_right (by decide) hD
    unfold ntags; omega
  have hσm : ∀ p ∈ σ s.npart, p < s.npart := fun p hp => by
    simpa using (hσ.mem_iff (a := p)).1 hp
  have hq : ∀ p ∈ σ s.npart, ∃ q, s.arr[p]? = some q ∧ 0 ≤ q.tag ∧ q.tag < (ntags D : Nat) := by
    intro p hp
    have hlt : p < s.arr.length := by have := hσm p hp; omega
    refine ⟨s.arr[p], List.getElem?_eq_getElem hlt, ht _ ?_⟩
    rw [List.mem_take_iff_getElem]
    exact ⟨p, by have := hσm p hp; omega, rfl⟩
  obtain ⟨v, hv, hl, hc, h1⟩ := count_fold s (ntags D) (σ s.npart) hq
    (List.replicate (ntags D) 0) (by simp)
  have hrep : ∀ t, (List.replicate (ntags D) 0).getD t 0 = 0 := by
    intro t; simp [List.getD_eq_getElem?_getD, List.getElem?_replicate]; split <;> rfl
  rw [hrep] at h1
  have hsumσ := cnt_sum s.arr (ntags D) (σ s.npart) (fun p hp => by
    obtain ⟨q, h2, h3, h4⟩ := hq p hp
    rw [tagAt_some h2]; exact ⟨h3, h4⟩)
  rw [hσ.length_eq, List.length_range] at hsumσ
  have hsumv : v.sum + cnt s.arr (σ s.npart) 1 = s.npart := by
    obtain ⟨n, hn'⟩ : ∃ n, ntags D = n + 2 := ⟨ntags D - 2, by omega⟩
    rw [hn', sum_split] at hsumσ
    rw [eq_map_range hl, hn', sum_split]
    have e : (List.range n).map (fun t => v.getD (t + 2) 0) =
        (List.range n).map (fun t => cnt s.arr (σ s.npart) ((t + 2 : Nat) : Int)) := by
      apply List.map_congr_left
      intro t ht'
      rw [List.mem_range] at ht'
      rw [hc (t + 2) (by omega) (by omega), hrep]; omega
    rw [e, h1, hc 0 (by omega) (by decide), hrep]
    have z : ((0 : Nat) : Int) = 0 := rfl
    have o : ((1 : Nat) : Int) = 1 := rfl
    simp only [z, o] at hsumσ ⊢
    omega
  refine ⟨v.set 1 (s.npart - (v.sum - v.getD 1 0)), ?_, by simp [hl], ?_⟩
  · simp only [npartsPerTagAndOffsets, hv, Outcome.bind_ok, Outcome.pure_eq]
  · intro t ht'
    by_cases h : t = 1
    · subst h
      rw [List.getD_eq_getElem?_getD, List.getElem?_set_self (by omega), Option.getD_some, h1]
      push_cast
      omega
    · rw [List.getD_eq_getElem?_getD, List.getElem?_set_ne (by omega),
        ← List.getD_eq_getElem?_getD, hc t ht' (by omega), hrep]; omega

theorem tagOffset_eq (vec : List Nat) (t : Nat) :
    tagOffset vec t = ((List.range (t + 1)).map fun j => vec.getD (j + 2) 0).sum := by
  induction t with
  | zero => simp [tagOffset]
  | succ t ih =>
    rw [tagOffset, ih, List.range_succ (n := t + 1), List.map_append, List.sum_append]
    rw [List.map_singleton, List.sum_singleton, Nat.add_comm]

end Entity.Prtl
