import Verif.Props.Directions

/-!
# C174: comparison and hash of directions
-/

namespace Entity.Dir

open Entity

theorem hash_finite : ∀ D, 1 ≤ D → D ≤ 3 →
    (∀ d ∈ signVectors D, ∃ k ∈ (List.range 108).map (fun (n : Nat) => (n : Int) - 1), hash d = .ok k) ∧
    ∀ d ∈ signVectors D, ∀ d' ∈ signVectors D, hash d = hash d' → d = d' := by
  intro D h1 h2
  obtain rfl | rfl | rfl : D = 1 ∨ D = 2 ∨ D = 3 := by omega
  all_goals decide +kernel

/-- **C174**, hash: it exists, fits in a short integer, and tells any two directions apart. -/
theorem C174_hash (D : Nat) (h1 : 1 ≤ D) (h2 : D ≤ 3) (d d' : Direction) (hd : IsDirection D d)
    (hd' : IsDirection D d') :
    (∃ k : Int, hash d = .ok k ∧ -2 ^ 15 ≤ k ∧ k < 2 ^ 15) ∧ (hash d = hash d' ↔ d = d') := by
  have m := (mem_signVectors D d).2 ⟨hd.1, hd.2.1⟩
  have m' := (mem_signVectors D d').2 ⟨hd'.1, hd'.2.1⟩
  obtain ⟨hk, hi⟩ := hash_finite D h1 h2
  refine ⟨?_, fun h => hi d m d' m' h, fun h => by rw [h]⟩
  obtain ⟨k, hr, hk⟩ := hk d m
  obtain ⟨n, hn, rfl⟩ := List.mem_map.1 hr
  have := List.mem_range.1 hn
  exact ⟨_, hk, by omega, by omega⟩

/-- **C174**, comparison: defined for vectors with `D` entries, and true exactly for equal ones. -/
theorem C174_equality (D : Nat) (d d' : Direction) (h : d.length = D) (h' : d'.length = D) :
    ∃ b, eqUpTo D d d' = some b ∧ (b = true ↔ d = d') := by
  induction D generalizing d d' with
  | zero =>
    rw [List.length_eq_zero_iff.1 h, List.length_eq_zero_iff.1 h']
    exact ⟨true, rfl, by simp⟩
  | succ n ih =>
    match d, d', h, h' with
    | x :: xs, y :: ys, h, h' =>
      by_cases e : x = y
      · obtain ⟨b, hb, hi⟩ := ih xs ys (by simpa using h) (by simpa using h')
        exact ⟨b, by simp [eqUpTo, e, hb], by simp [e, hi]⟩
      · exact ⟨false, by simp [eqUpTo, e], by simp [e]⟩

/-- Non-vacuity: two directions of equal sum. -/
example : IsDirection 3 [1, -1, 0] ∧ IsDirection 3 [0, 0, 1] ∧ hash [1, -1, 0] = .ok 10 ∧
    eqUpTo 3 [1, -1, 0] [1, -1, 1] = some false := by
  refine ⟨⟨rfl, by decide, by decide⟩, ⟨rfl, by decide, by decide⟩, by decide, by decide⟩

end Entity.Dir
