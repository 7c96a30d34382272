import Verif.Model.VecPot
import Mathlib.Algebra.BigOperators.Fin
import Mathlib.Algebra.BigOperators.Intervals
import Mathlib.Data.List.Nodup
import Mathlib.Algebra.Order.Field.Rat
import Mathlib.Tactic.Ring

/-!
# C67: the vector potential is the running integral of the flux
-/

namespace Entity.VecPot

open Finset

variable {K : Type} [Field K]

/-! ## Specification -/

/-- The running integral of the flux through a column of the whole grid, up to and including row `J`:
trapezoidal terms of `sqrt(h) B`, from the row below the grid. -/
def runningIntegral (h : K → K) (B : Int → K) (J : Nat) : K :=
  ∑ k ∈ range (J + 1), 1/2 * (h ((k : K) - 1/2) * B ((k : Int) - 1) + h ((k : K) + 1/2) * B (k : Int))

/-- The subdomains tile a grid of `n1` by `n2` blocks: block `(c, m)` is on rank `m * n1 + c`, is not
empty, and begins at column `o1 c` and row `o2 m`; its field (including the row of ghost cells below it)
and its metric are those of the whole grid. -/
structure Split (g : Grid) (o1 o2 : Nat → Nat) (h : Nat → Nat → K → K) (B : Nat → Nat → Int → K)
    (hg : Nat → K → K) (Bg : Nat → Int → K) : Prop where
  first : o2 0 = 0
  next : ∀ m c, m < g.n2 → c < g.n1 → o2 (m + 1) = o2 m + g.nx2 (m * g.n1 + c)
  rows : ∀ m c, m < g.n2 → c < g.n1 → 0 < g.nx2 (m * g.n1 + c)
  cols : ∀ m c, m < g.n2 → c < g.n1 → g.nx1 (m * g.n1 + c) = g.nx1 c
  field : ∀ m c, m < g.n2 → c < g.n1 → ∀ i < g.nx1 c, ∀ k : Int, -1 ≤ k →
    k < g.nx2 (m * g.n1 + c) → B (m * g.n1 + c) i k = Bg (o1 c + i) (o2 m + k)
  metric : ∀ m c, m < g.n2 → c < g.n1 → ∀ i < g.nx1 c, ∀ x : K,
    h (m * g.n1 + c) i x = hg (o1 c + i) (o2 m + x)

/-! ## Lemmas -/

theorem local_eq (h : K → K) (B : Int → K) (j : Nat) :
    local_ h B j = ∑ k ∈ range (j + 1), term h B k := by
  unfold local_
  have : ∀ n, (List.range n).foldl (fun A3 k => A3 + term h B k) 0 = ∑ k ∈ range n, term h B k := by
    intro n
    induction n with
    | zero => rfl
    | succ n ih => rw [List.range_succ, List.foldl_append, ih, sum_range_succ]; rfl
  exact this _

theorem rank_inj {n1 m c m' c' : Nat} (hc : c < n1) (hc' : c' < n1)
    (h : m * n1 + c = m' * n1 + c') : m = m' ∧ c = c' := by
  have h0 : 0 < n1 := by omega
  have e1 : (m * n1 + c) / n1 = m := by
    rw [Nat.add_comm, Nat.add_mul_div_right _ _ h0, Nat.div_eq_of_lt hc, Nat.zero_add]
  have e2 : (m' * n1 + c') / n1 = m' := by
    rw [Nat.add_comm, Nat.add_mul_div_right _ _ h0, Nat.div_eq_of_lt hc', Nat.zero_add]
  have : m = m' := by rw [← e1, ← e2, h]
  subst this
  exact ⟨rfl, by omega⟩

theorem mem_loop {g : Grid} {it : Nat × Nat} :
    it ∈ loop g ↔ 1 ≤ it.1 ∧ it.1 < g.n2 ∧ it.2 < g.n1 := by
  obtain ⟨m, c⟩ := it
  simp only [loop, List.mem_flatMap, List.mem_filter, List.mem_range, decide_eq_true_eq,
    List.mem_map, Prod.mk.injEq]
  constructor
  · rintro ⟨a, ⟨h1, h2⟩, b, h3, rfl, rfl⟩; exact ⟨h2, h1, h3⟩
  · rintro ⟨h1, h2, h3⟩; exact ⟨m, ⟨h2, h1⟩, c, h3, rfl, rfl⟩

theorem loop_nodup (g : Grid) : (loop g).Nodup := by
  unfold loop
  rw [List.nodup_flatMap]
  constructor
  · intro m _
    exact List.Nodup.map (fun a b h => by simpa using h) List.nodup_range
  · apply List.Pairwise.filter
    apply List.Nodup.pairwise_of_forall_ne List.nodup_range
    intro a _ b _ hne x hx hy
    obtain ⟨_, _, rfl⟩ := List.mem_map.mp hx
    obtain ⟨_, _, h⟩ := List.mem_map.mp hy
    exact hne (Prod.mk.inj h).1.symm

theorem pair_sublist (g : Grid) {m c : Nat} (h1 : 1 ≤ m) (h2 : m + 1 < g.n2) (hc : c < g.n1) :
    List.Sublist [(m, c), (m + 1, c)] (loop g) := by
  unfold loop
  have e : List.Sublist [m, m + 1] ((List.range g.n2).filter (fun m => decide (1 ≤ m))) := by
    have : List.Sublist [m, m + 1] (List.range g.n2) := by
      refine List.Sublist.trans ?_ (List.range_sublist.mpr (show m + 2 ≤ g.n2 by omega))
      rw [List.range_succ, List.range_succ, List.append_assoc]
      exact List.sublist_append_right _ _
    have := this.filter (fun m => decide (1 ≤ m))
    simpa [h1] using this
  have hm : ∀ m : Nat, List.Sublist [(m, c)] ((List.range g.n1).map fun nr1 => (m, nr1)) := by
    intro m
    exact List.singleton_sublist.mpr (List.mem_map.mpr ⟨c, List.mem_range.mpr hc, rfl⟩)
  refine List.Sublist.trans ?_ (e.flatMap _)
  simp only [List.flatMap_cons, List.flatMap_nil, List.append_nil]
  exact (hm m).append (hm (m + 1))

theorem before_of_sublist {α : Type} {a b : α} {L1 L2 : List α} (hn : (L1 ++ b :: L2).Nodup)
    (h : List.Sublist [a, b] (L1 ++ b :: L2)) : a ∈ L1 := by
  obtain ⟨l1, l2, he, h1, h2⟩ := List.sublist_append_iff.mp h
  rcases l1 with _ | ⟨x, l1⟩
  · exfalso
    rw [List.nil_append] at he
    subst he
    have hb : b ∉ L2 := (List.nodup_cons.mp (List.nodup_append.mp hn).2.1).1
    rcases List.sublist_cons_iff.mp h2 with h2 | ⟨r, he, h2⟩
    · exact hb (h2.subset (by simp))
    · rw [List.cons.injEq] at he
      exact hb (h2.subset (by rw [← he.2]; simp))
  · rw [List.cons_append, List.cons.injEq] at he
    exact h1.subset (by rw [he.1]; simp)

/-- In an execution a rank has received before it sends. -/
theorem received_before {g : Grid} {L1 L2 : List (Nat × Nat)} {m c : Nat}
    (hL : Execution g (L1 ++ (m + 1, c) :: L2)) (h1 : 1 ≤ m) : (m, c) ∈ L1 := by
  have hmem : (m + 1, c) ∈ loop g := hL.1.mem_iff.mp (by simp)
  obtain ⟨-, h2, hc⟩ := mem_loop.mp hmem
  have hsub := (pair_sublist g h1 h2 hc).filter (takesPart g (m * g.n1 + c))
  rw [← hL.2] at hsub
  have : [(m, c), (m + 1, c)].filter (takesPart g (m * g.n1 + c)) = [(m, c), (m + 1, c)] := by
    simp [takesPart]
  rw [this] at hsub
  exact before_of_sublist (hL.1.nodup_iff.mpr (loop_nodup g)) (hsub.trans List.filter_sublist)

variable {g : Grid} {o1 o2 : Nat → Nat} {h : Nat → Nat → K → K} {B : Nat → Nat → Int → K}
  {hg : Nat → K → K} {Bg : Nat → Int → K}

theorem sum_shift (f : Nat → K) (a b : Nat) :
    ∑ k ∈ range (a + b), f k = ∑ k ∈ range a, f k + ∑ k ∈ range b, f (a + k) :=
  sum_range_add f a b

theorem local_global (hs : Split g o1 o2 h B hg Bg) {m c : Nat} (hm : m < g.n2) (hc : c < g.n1)
    {i : Nat} (hi : i < g.nx1 c) {j : Nat} (hj : j < g.nx2 (m * g.n1 + c)) :
    local_ (h (m * g.n1 + c) i) (B (m * g.n1 + c) i) j =
      ∑ k ∈ range (j + 1), term (hg (o1 c + i)) (Bg (o1 c + i)) (o2 m + k) := by
  rw [local_eq]
  refine sum_congr rfl fun k hk => ?_
  have hk : k < j + 1 := mem_range.mp hk
  unfold term
  rw [hs.field m c hm hc i hi _ (by omega) (by omega), hs.field m c hm hc i hi _ (by omega) (by omega),
    hs.metric m c hm hc i hi, hs.metric m c hm hc i hi]
  congr 2
  · congr 2
    · push_cast; ring
    · push_cast; ring
  · congr 2
    push_cast; ring

/-! ## C67 -/

/-- **C67**: whatever the decomposition, and in whatever order the messages pass, the vector potential in
every active cell is the running integral of the flux through the column of the whole grid. -/
theorem C67_running_integral (hs : Split g o1 o2 h B hg Bg) {L : List (Nat × Nat)}
    (hL : Execution g L) (buf : Buf K) (m c : Nat) (hm : m < g.n2) (hc : c < g.n1) (i : Nat)
    (hi : i < g.nx1 (m * g.n1 + c)) (j : Nat) (hj : j < g.nx2 (m * g.n1 + c)) :
    vectorPotential g h B L buf (m * g.n1 + c) i j =
      runningIntegral (hg (o1 c + i)) (Bg (o1 c + i)) (o2 m + j) := by
  set T : Nat → Nat → Nat → K := fun c i k => term (hg (o1 c + i)) (Bg (o1 c + i)) k with hT
  have key : ∀ L1 L2, L = L1 ++ L2 → ∀ m c, m < g.n2 → c < g.n1 → ∀ i < g.nx1 c,
      ∀ j < g.nx2 (m * g.n1 + c),
      communicate g L1 (compute g h B buf) (m * g.n1 + c) i j =
        if m = 0 ∨ (m, c) ∈ L1 then ∑ k ∈ range (o2 m + j + 1), T c i k
        else ∑ k ∈ range (j + 1), T c i (o2 m + k) := by
    intro L1
    induction L1 using List.reverseRecOn with
    | nil =>
      intro L2 _ m c hm hc i hi j hj
      unfold communicate compute
      rw [List.foldl_nil, hs.cols m c hm hc, if_pos ⟨hi, hj⟩, local_global hs hm hc hi hj]
      by_cases h0 : m = 0
      · subst h0; simp [hs.first, hT]
      · simp [h0, hT]
    | append_singleton L1 it ih =>
      intro L2 hL2 m c hm hc i hi j hj
      have ih := ih (it :: L2) (by rw [hL2]; simp)
      have hmem : it ∈ loop g := hL.1.mem_iff.mp (by rw [hL2]; simp)
      have hnd : L.Nodup := hL.1.nodup_iff.mpr (loop_nodup g)
      obtain ⟨q, d⟩ := it
      obtain ⟨hq1, hq2, hd⟩ := mem_loop.mp hmem
      dsimp only at hq1 hq2 hd
      unfold communicate
      rw [List.foldl_append, List.foldl_cons, List.foldl_nil]
      change message g (communicate g L1 (compute g h B buf)) (q, d) (m * g.n1 + c) i j = _
      unfold message
      dsimp only
      rw [hs.cols m c hm hc]
      by_cases he : m * g.n1 + c = q * g.n1 + d
      · obtain ⟨rfl, rfl⟩ := rank_inj hc hd he
        rw [if_pos ⟨rfl, hi, hj⟩, if_pos (.inr (by simp)), ih m c hm hc i hi j hj,
          ih (m - 1) c (by omega) hc i hi _ (by have := hs.rows (m - 1) c (by omega) hc; omega)]
        have hnot : (m, c) ∉ L1 := by
          rw [hL2, List.append_assoc] at hnd
          intro hin
          exact (List.nodup_append.mp hnd).2.2 _ hin _ (by simp) rfl
        have hdone : m - 1 = 0 ∨ (m - 1, c) ∈ L1 := by
          by_cases h1 : m - 1 = 0
          · exact .inl h1
          · right
            apply received_before (g := g) (L2 := L2) (m := m - 1) _ (by omega)
            rw [Nat.sub_add_cancel hq1]
            rw [hL2] at hL
            simpa using hL
        rw [if_neg (by rintro (h0 | h0); · omega
                       · exact hnot h0), if_pos hdone]
        have hr := hs.rows (m - 1) c (by omega) hc
        have ho := hs.next (m - 1) c (by omega) hc
        rw [Nat.sub_add_cancel hq1] at ho
        rw [show o2 (m - 1) + (g.nx2 ((m - 1) * g.n1 + c) - 1) + 1 = o2 m by omega,
          show o2 m + j + 1 = o2 m + (j + 1) by omega, sum_shift (fun k => T c i k), add_comm]
      · rw [if_neg (fun h => he h.1), ih m c hm hc i hi j hj]
        have : (m, c) ∈ L1 ++ [(q, d)] ↔ (m, c) ∈ L1 := by
          simp only [List.mem_append, List.mem_singleton, Prod.mk.injEq]
          constructor
          · rintro (h | ⟨rfl, rfl⟩)
            · exact h
            · exact absurd rfl he
          · exact .inl
        simp only [this]
  have hi' : i < g.nx1 c := by rw [hs.cols m c hm hc] at hi; exact hi
  unfold vectorPotential runningIntegral
  rw [key L [] (by simp) m c hm hc i hi' j hj]
  have : m = 0 ∨ (m, c) ∈ L := by
    by_cases h0 : m = 0
    · exact .inl h0
    · exact .inr (hL.1.mem_iff.mpr (mem_loop.mpr ⟨by dsimp only; omega, hm, hc⟩))
  rw [if_pos this]
  rfl

/-- **C67**, no deadlock: if so far every rank has seen an initial part of its own sequence of messages,
and a message is missing, then there is one that can pass next. -/
theorem C67_no_deadlock (g : Grid) (L : List (Nat × Nat))
    (hp : ∀ r, L.filter (takesPart g r) <+: (loop g).filter (takesPart g r))
    (hm : ∃ it ∈ loop g, it ∉ L) :
    ∃ it ∈ loop g, it ∉ L ∧
      ∀ r, (L ++ [it]).filter (takesPart g r) <+: (loop g).filter (takesPart g r) := by
  -- the first missing message of the loop
  have hsplit : ∀ l : List (Nat × Nat), (∃ it ∈ l, it ∉ L) →
      ∃ A x C, l = A ++ x :: C ∧ (∀ y ∈ A, y ∈ L) ∧ x ∉ L := by
    intro l
    induction l with
    | nil => simp
    | cons a l ih =>
      intro h
      by_cases ha : a ∈ L
      · obtain ⟨it, hit, hn⟩ := h
        have : it ∈ l := by
          rcases List.mem_cons.mp hit with rfl | h
          · exact absurd ha hn
          · exact h
        obtain ⟨A, x, C, rfl, hA, hx⟩ := ih ⟨it, this, hn⟩
        refine ⟨a :: A, x, C, rfl, ?_, hx⟩
        intro y hy
        rcases List.mem_cons.mp hy with rfl | hy
        · exact ha
        · exact hA y hy
      · exact ⟨[], a, l, rfl, by simp, ha⟩
  obtain ⟨A, x, C, hl, hA, hx⟩ := hsplit _ hm
  refine ⟨x, by rw [hl]; simp, hx, fun r => ?_⟩
  have hpr := hp r
  have hnd := loop_nodup g
  rw [hl] at hpr hnd ⊢
  rw [List.filter_append]
  by_cases ht : takesPart g r x = true
  · have e : (A ++ x :: C).filter (takesPart g r) =
        A.filter (takesPart g r) ++ x :: C.filter (takesPart g r) := by
      rw [List.filter_append, List.filter_cons_of_pos ht]
    rw [e] at hpr ⊢
    rw [List.filter_cons_of_pos ht, List.filter_nil]
    -- the part seen so far is exactly the part of `A`
    have hxn : x ∉ L.filter (takesPart g r) := fun h => hx (List.mem_filter.mp h).1
    have hAsub : ∀ y ∈ A.filter (takesPart g r), y ∈ L.filter (takesPart g r) := by
      intro y hy
      obtain ⟨h1, h2⟩ := List.mem_filter.mp hy
      exact List.mem_filter.mpr ⟨hA y h1, h2⟩
    have hndF : (A.filter (takesPart g r) ++ x :: C.filter (takesPart g r)).Nodup := by
      rw [← e]; exact hnd.filter _
    have : L.filter (takesPart g r) = A.filter (takesPart g r) := by
      generalize L.filter (takesPart g r) = P at hpr hxn hAsub
      generalize A.filter (takesPart g r) = Q at hpr hAsub hndF
      generalize C.filter (takesPart g r) = R at hpr hndF
      obtain ⟨S, hS⟩ := hpr
      rcases List.append_eq_append_iff.mp hS with ⟨a', ha, hb⟩ | ⟨c', ha, hb⟩
      · -- Q = P ++ a'
        rcases a' with _ | ⟨y, a'⟩
        · simpa using ha.symm
        · exfalso
          have hy : y ∈ P := hAsub y (by rw [ha]; simp)
          have : Q.Nodup := (List.nodup_append.mp hndF).1
          rw [ha] at this
          exact (List.nodup_append.mp this).2.2 y hy y (by simp) rfl
      · -- P = Q ++ c'
        rcases c' with _ | ⟨y, c'⟩
        · simpa using ha
        · exfalso
          rw [List.cons_append, List.cons.injEq] at hb
          exact hxn (by rw [ha, hb.1]; simp)
    rw [this]
    exact ⟨C.filter (takesPart g r), by simp⟩
  · rw [List.filter_cons_of_neg ht, List.filter_nil, List.append_nil]
    exact hpr

/-! ## Cases -/

/-- Two columns and three rows of subdomains of one by two cells; the messages of the two columns are
interleaved differently from the loop. -/
def exGrid : Grid where
  n1 := 2
  n2 := 3
  nx1 := fun _ => 1
  nx2 := fun _ => 2

example : Execution exGrid [(1, 1), (2, 1), (1, 0), (2, 0)] := by
  refine ⟨by decide, fun r => ?_⟩
  by_cases h : r < 6
  · revert r; decide
  · have : ∀ it ∈ loop exGrid, takesPart exGrid r it = false := by
      have hl : loop exGrid = [(1, 0), (1, 1), (2, 0), (2, 1)] := by decide
      intro it hit
      rw [hl] at hit
      simp only [List.mem_cons, List.not_mem_nil, or_false] at hit
      rcases hit with rfl | rfl | rfl | rfl <;>
        (rw [Bool.eq_false_iff]; intro e
         rcases (Bool.or_eq_true _ _).mp e with e | e <;> have e := of_decide_eq_true e <;>
           simp only [exGrid] at e <;> omega)
    have hl : loop exGrid = [(1, 0), (1, 1), (2, 0), (2, 1)] := by decide
    rw [hl] at this ⊢
    simp only [List.mem_cons, List.not_mem_nil, or_false, forall_eq_or_imp, forall_eq] at this
    simp [List.filter, this]

example : Split (K := ℚ) exGrid (fun c => c) (fun m => 2 * m)
    (fun r i x => ((r % 2 : Nat) : ℚ) + i + ((2 * (r / 2) : Nat) + x))
    (fun r i k => 7 * ((r % 2 + i : Nat) : ℚ) + (((2 * (r / 2) : Nat) + k : Int) : ℚ))
    (fun c x => c + x) (fun c k => 7 * c + (k : ℚ)) := by
  have e1 : ∀ m c, c < 2 → (m * 2 + c) % 2 = c := by intros; omega
  have e2 : ∀ m c, c < 2 → (m * 2 + c) / 2 = m := by intros; omega
  refine ⟨rfl, fun m c _ _ => by simp [exGrid]; omega, fun m c _ _ => by simp [exGrid],
    fun _ _ _ _ => rfl, ?_, ?_⟩
  · intro m c _ hc i _ k _ _
    simp only [exGrid] at hc ⊢
    rw [e1 m c hc, e2 m c hc]
  · intro m c _ hc i _ x
    simp only [exGrid] at hc ⊢
    rw [e1 m c hc, e2 m c hc]
    push_cast; ring

end Entity.VecPot
