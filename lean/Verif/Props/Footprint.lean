import Verif.Model.Footprint
import Verif.Spec.Footprint
import Mathlib.Tactic.Ring
import Mathlib.Tactic.Linarith
import Mathlib.Tactic.NormNum
import Mathlib.Tactic.FieldSimp

/-!
# C170: the memory shown in the report of a subdomain
-/

namespace Entity.Footprint

theorem fields_footprint {real D ng : Nat} {gr : Bool} {res : List Nat} (hD : D ∈ [1, 2, 3])
    (hl : res.length = D) (hgr : gr = true → D ≠ 1) (hr : ∀ r ∈ res, r + 2 * ng < 2 ^ 32)
    (hb : fieldBytes real ng gr res < 2 ^ 64) :
    (mkFields D ng gr res).footprint real D = fieldBytes real ng gr res := by
  have hn : (res.take D).map (fun r => (r + 2 * ng) % 2 ^ 32) = res.map (· + 2 * ng) := by
    rw [List.take_of_length_le (by omega)]
    exact List.map_congr_left fun r h => Nat.mod_eq_of_lt (hr r h)
  rw [FieldArrays.footprint, ← Nat.mod_eq_of_lt hb]
  congr 1
  simp only [mkFields, hn, fieldBytes]
  simp only [List.mem_cons, List.not_mem_nil, or_false] at hD
  rcases hD with rfl | rfl | rfl
  · match res, hl with
    | [a], _ =>
      cases gr
      · simp [times, perCell, List.range_succ]; ring
      · exact absurd rfl (hgr rfl)
  · match res, hl with
    | [a, b], _ => cases gr <;> simp [times, perCell, List.range_succ] <;> ring
  · match res, hl with
    | [a, b, c], _ => cases gr <;> simp [times, perCell, List.range_succ] <;> ring

theorem prtls_footprint {real D n npldR npldI : Nat} {cartesian : Bool} (hD : D ∈ [1, 2, 3])
    (hb : n * perParticle real D cartesian npldR npldI < 2 ^ 64) :
    (mkPrtls D cartesian n npldR npldI).footprint real = n * perParticle real D cartesian npldR npldI := by
  rw [PrtlArrays.footprint, ← Nat.mod_eq_of_lt hb]
  congr 1
  have e1 : ∀ k m : Nat, k * (if m > 0 then (n, m) else (0, 0)).1 * (if m > 0 then (n, m) else (0, 0)).2 =
      k * n * m := by
    intro k m
    rcases Nat.eq_zero_or_pos m with rfl | h
    · simp
    · simp [h]
  simp only [mkPrtls, e1, perParticle]
  simp only [List.mem_cons, List.not_mem_nil, or_false] at hD
  rcases hD with rfl | rfl | rfl <;> cases cartesian <;> simp <;> ring

theorem human_shows (b : Nat) : Shows (humanReadable b) b := by
  have h0 : (0 : ℚ) ≤ b := Nat.cast_nonneg b
  unfold humanReadable
  simp only [units, List.length_cons, List.length_nil, Nat.zero_add, Nat.add_one_sub_one, reduceUnit]
  split_ifs with a1 a2 a3 a4 <;> simp only [Shows, unitBytes, List.getD_cons_zero, List.getD_cons_succ] <;>
    refine ⟨?_, ?_, ?_⟩ <;> first
    | (right; trivial)
    | (left; linarith)
    | (push_cast; ring)

/-- **C170.**  The report of a subdomain has one line for the fields and one for each species, in order, and each of them
shows the number of bytes that its arrays need — all of them, and not more — in a unit that suits it.  (General relativity
needs at least two dimensions; the sizes fit into 32 bits and the bytes into 64 bits.) -/
theorem C170_report {real D ng : Nat} {gr cartesian : Bool} {res : List Nat} {sps : List Species}
    (hD : D ∈ [1, 2, 3]) (hl : res.length = D) (hgr : gr = true → D ≠ 1)
    (hr : ∀ r ∈ res, r + 2 * ng < 2 ^ 32) (hf : fieldBytes real ng gr res < 2 ^ 64)
    (hs : ∀ s ∈ sps, s.maxnpart * perParticle real D cartesian s.npldR s.npldI < 2 ^ 64) :
    ∃ f fs, memoryReport real D ng gr cartesian res sps = ("Fields", f) :: fs ∧
      Shows f (fieldBytes real ng gr res) ∧
      List.Forall₂ (fun (s : Species) (l : String × ℚ × String) =>
        l.1 = s!"Species #{s.index} ({s.label})" ∧
        Shows l.2 (s.maxnpart * perParticle real D cartesian s.npldR s.npldI)) sps fs := by
  refine ⟨_, _, rfl, ?_, ?_⟩
  · rw [fields_footprint hD hl hgr hr hf]; exact human_shows _
  · rw [List.forall₂_map_right_iff, List.forall₂_same]
    intro s h
    rw [prtls_footprint hD (hs s h)]
    exact ⟨rfl, human_shows _⟩

/-- **C170 (what a figure says).**  A figure with its unit determines the number of bytes. -/
theorem C170_unambiguous {b b' : Nat} (h : humanReadable b = humanReadable b') : b = b' := by
  have h1 := (human_shows b).1
  have h2 := (human_shows b').1
  rw [h, h2] at h1
  exact_mod_cast h1.symm

/-- **C170 (very large grids).**  A side of 2³² - 4 cells with two ghost cells on both sides wraps around to nothing: no field
is stored, and the report shows that. -/
theorem C170_counterexample : memoryReport 4 1 2 false true [2 ^ 32 - 4] [] = [("Fields", 0, "B")] ∧
    fieldBytes 4 2 false [2 ^ 32 - 4] = 72 * 2 ^ 32 := by decide +kernel

/-- A polar grid of 1020 by 508 cells in single precision, with two species. -/
example : memoryReport 4 2 2 true false [1020, 508] [⟨1, "e-", 1000000, 0, 0⟩, ⟨2, "e+", 1000, 2, 3⟩] =
    [("Fields", 66, "MB"), ("Species #1 (e-)", 54000000 / 1024 ^ 2, "MB"),
      ("Species #2 (e+)", 74000 / 1024, "KB")] := by decide +kernel

example : fieldBytes 4 2 true [1020, 508] < 2 ^ 64 ∧ 1000000 * perParticle 4 2 false 0 0 = 54000000 ∧
    1000 * perParticle 4 2 false 2 3 = 74000 := by decide +kernel

end Entity.Footprint
