import Verif.Model.Tuning
import Mathlib.Algebra.Order.BigOperators.Group.List
import Mathlib.Algebra.BigOperators.Group.List.Basic
import Mathlib.Tactic.Linarith
import Mathlib.Tactic.Ring

/-!
# C168: number of processes that write

`nodes` is the number of processes on each node.
-/

namespace Entity.Tuning

open Entity

/-- **C168, exactly for uniform nodes.** All processes ask for the requested number of writing processes on each node,
times the number of nodes, exactly if all nodes carry the same number of processes. -/
theorem C168_uniform_partial (nodes : List Nat) (hn : ∀ l ∈ nodes, 0 < l) (perNode : Int) (hp : 0 < perNode)
    (hov : nodes.length * perNode < 2 ^ 31) :
    (∀ l ∈ nodes, totalAggregators perNode nodes.sum l = .ok (nodes.length * perNode)) ↔
      ∀ l ∈ nodes, ∀ l' ∈ nodes, l = l' := by
  have key : ∀ l ∈ nodes, totalAggregators perNode nodes.sum l = .ok (nodes.length * perNode) ↔
      nodes.sum / l = nodes.length := by
    intro l hl
    have l0 := hn l hl
    have k0 : 0 < nodes.length := List.length_pos_of_mem hl
    have q0 : 0 < nodes.sum / l := Nat.div_pos (List.single_le_sum (fun _ _ => Nat.zero_le _) l hl) l0
    have one : ∀ k : Nat, 0 < k → max 1 ((k : Int) * perNode) = k * perNode := by
      intro k hk
      have h1 : (1 : Int) ≤ k := by exact_mod_cast hk
      rw [max_eq_right]
      nlinarith
    unfold totalAggregators
    rw [if_neg (by omega)]
    simp only [if_pos l0]
    constructor
    · intro h
      split at h
      · rw [one _ q0] at h
        injection h with h
        have := Int.eq_of_mul_eq_mul_right hp.ne' h
        exact_mod_cast this
      · cases h
    · intro h
      rw [h, if_pos hov, one _ k0]
  constructor
  · intro h
    by_contra hc
    push Not at hc
    obtain ⟨x, hx, y, hy, hxy⟩ := hc
    obtain ⟨m, hm, hmax⟩ : ∃ m ∈ nodes, ∀ l ∈ nodes, l ≤ m := by
      have : ∀ L : List Nat, L ≠ [] → ∃ m ∈ L, ∀ l ∈ L, l ≤ m := by
        intro L
        induction L with
        | nil => simp
        | cons a L ih =>
          intro _
          by_cases e : L = []
          · subst e; exact ⟨a, by simp, by simp⟩
          · obtain ⟨m, hm, h⟩ := ih e
            by_cases c : a ≤ m
            · refine ⟨m, by simp [hm], fun l hl => ?_⟩
              rcases List.mem_cons.1 hl with rfl | hl
              · exact c
              · exact h l hl
            · refine ⟨a, by simp, fun l hl => ?_⟩
              rcases List.mem_cons.1 hl with rfl | hl
              · exact le_rfl
              · exact (h l hl).trans (by omega)
      exact this nodes (List.ne_nil_of_mem hx)
    have hq := (key m hm).1 (h m hm)
    have hs : nodes.length * m ≤ nodes.sum := by
      rw [← hq]
      exact Nat.div_mul_le_self _ _
    have hlt : nodes.sum < nodes.length * m := by
      have : ∃ z ∈ nodes, z < m := by
        by_contra hcc
        push Not at hcc
        have := hcc x hx
        have := hcc y hy
        have := hmax x hx
        have := hmax y hy
        omega
      have h2 : nodes.sum < (nodes.map (fun _ => m)).sum := by
        have := List.sum_lt_sum (l := nodes) (fun a => a) (fun _ => m) hmax this
        simpa using this
      simpa using h2
    omega
  · intro h l hl
    rw [key l hl]
    have : nodes = List.replicate nodes.length l := List.eq_replicate_iff.2 ⟨rfl, fun b hb => h b hb l hl⟩
    rw [this]
    simp [hn l hl]

/-- Three nodes with four processes each, two writing processes per node. -/
example : ∀ l ∈ [4, 4, 4], totalAggregators 2 ([4, 4, 4] : List Nat).sum l = .ok 6 := by
  have := (C168_uniform_partial [4, 4, 4] (by decide) 2 (by decide) (by decide)).2 (by decide)
  simpa using this

/-- **C168, processes disagree.** Nine processes on nodes with 4, 4 and 1: with one writing process per node, those of
the full nodes ask for 2 in all and the last one asks for 9, in a call all of them must make with the same
arguments. -/
theorem C168_counterexample :
    totalAggregators 1 ([4, 4, 1] : List Nat).sum 4 = .ok 2 ∧ totalAggregators 1 ([4, 4, 1] : List Nat).sum 1 = .ok 9 := by
  decide

/-- **C168, settings.** On nodes with the same number of processes all processes pass the same settings to the
writer; with the default of 0 they do on any nodes, the number passed being 0, which stands for the default of the library. -/
theorem C168_settings (engine : String) (nodes : List Nat) (perNode : Int)
    (chunk shm : Nat) (h : perNode ≤ 0 ∨ ∀ l ∈ nodes, ∀ l' ∈ nodes, l = l') (l l' : Nat) (hl : l ∈ nodes)
    (hl' : l' ∈ nodes) :
    settings engine perNode chunk shm nodes.sum l = settings engine perNode chunk shm nodes.sum l' ∧
    (perNode ≤ 0 → engine = "bp5" ∨ engine = "bpfile" →
      ∃ s, settings engine perNode chunk shm nodes.sum l = .ok s ∧ ("NumAggregators", "0") ∈ s ∧ ("NumSubFiles", "0") ∈ s) := by
  refine ⟨?_, ?_⟩
  · rcases h with h | h
    · simp [settings, totalAggregators, h]
    · rw [h l hl l' hl']
  · intro hp he
    refine ⟨_, by
      unfold settings totalAggregators
      rw [if_neg (by rcases he with rfl | rfl <;> simp), if_pos hp], ?_, ?_⟩
    · simp only [List.mem_cons]; exact Or.inr (Or.inl rfl)
    · simp only [List.mem_cons]; exact Or.inr (Or.inr (Or.inl rfl))

end Entity.Tuning
