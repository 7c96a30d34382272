import Verif.Spec.FieldBC
import Verif.Lemmas.FieldBC
import Verif.Lemmas.FieldSolver

/-!
# Faraday's law at a conducting wall
-/

namespace Entity.FieldBC
open Entity Entity.Kernel Entity.Ranks Entity.FieldSolver
variable {K : Type} [Field K]

/-- What the condition on the electric field says about the first cells on both sides. -/
private theorem wall_e {M : Mesh} {o : Nat} {m : Mem K}
    (hC : Conducting M o M.iMin true false 1 0 m) {c : Nat} (hc : c < 3) (hco : c ≠ o) {t : List Int}
    (ht : Across M o t) : m ⟨0, c, t.set o M.iMin⟩ = 0 ∧
      m ⟨0, c, t.set o (M.iMin + -1)⟩ = -m ⟨0, c, t.set o (M.iMin + 1)⟩ := by
  obtain ⟨h1, h2⟩ := ((hC t ht).1 rfl).1 c hc hco
  exact ⟨h1, h2 1 le_rfl le_rfl⟩

/-- With the condition on the electric field in place, Faraday's law does not change the normal magnetic
field on the wall. -/
theorem faraday_wall {M : Mesh} {o : Nat} (ho : o < M.n.length) (hd : M.n.length ≤ 3)
    (hng : 2 ≤ M.ng) {m m' : Mem K} (hC : Conducting M o M.iMin true false 1 0 m) {dT dx : K}
    {c : Coeffs K} (h : Launch (box (M.n.map fun (n : Nat) => ((M.ng : Int), (M.ng : Int) + n)))
      (atCell (faraday M.n.length dT dx c)) m m') {t : List Int} (ht : t.length = M.n.length)
    (hto : t.getD o 0 = M.iMin) : m' ⟨0, o + 3, t⟩ = m ⟨0, o + 3, t⟩ := by
  have hD : M.n.length ∈ [1, 2, 3] := by
    simp only [List.mem_cons, List.not_mem_nil, or_false]; omega
  have hcl : ∀ u ∈ box (M.n.map fun (n : Nat) => ((M.ng : Int), (M.ng : Int) + n)),
      u.length = M.n.length := fun u hu => by
    have := (mem_box_iff.mp hu).1; simpa using this
  have hL := launch_result (local_atCell (D := M.n.length) (wr := selB)
    (f := fun _ => faraday M.n.length dT dx c)
    (fun u hu => ⟨hcl u hu, faraday_own hD dT dx c⟩)) h
  rw [hL]
  simp only [result]
  split
  swap
  · rfl
  rename_i hmem
  have hb := (mem_box_iff.mp hmem).2
  clear h hL hmem hcl hD
  obtain ⟨ng, n⟩ := M
  simp only [Mesh.iMin] at *
  rcases n with _ | ⟨n1, _ | ⟨n2, _ | ⟨n3, _ | ⟨_, _⟩⟩⟩⟩
  · simp at ho
  · obtain ⟨i1, rfl⟩ : ∃ x, t = [x] := List.length_eq_one_iff.mp ht
    obtain rfl : o = 0 := by simpa using ho
    simp [atCell, faraday, faraday1, solverCoeffs, runBody, store, plusEq, ebL, eb, Loc.at, Em.toNat]
  · obtain ⟨i1, i2, rfl⟩ : ∃ x y, t = [x, y] := List.length_eq_two.mp ht
    have b0 := hb 0 (by simp)
    have b1 := hb 1 (by simp)
    simp only [List.map_cons, List.map_nil, List.getD_cons_zero, List.getD_cons_succ] at b0 b1
    have hw : ∀ (x y : Int), 0 ≤ x → x < n1 + 2 * ng → 0 ≤ y → y < n2 + 2 * ng →
        Across ⟨ng, [n1, n2]⟩ o [x, y] := by
      intro x y h1 h2 h3 h4
      refine ⟨rfl, fun d hd _ => ?_⟩
      rcases d with _ | _ | d
      · exact ⟨h1, h2⟩
      · exact ⟨h3, h4⟩
      · simp at hd
    obtain rfl | rfl : o = 0 ∨ o = 1 := by simp at ho; omega
    · simp only [List.getD_cons_zero] at hto
      subst hto
      have z := fun (j : Int) (h1 : (-1 : Int) ≤ j) (h2 : j ≤ 2) =>
        wall_e hC (c := 2) (by decide) (by decide)
          (hw ng (i2 + j) (by omega) (by omega) (by omega) (by omega))
      simp only [Mesh.iMin, List.set_cons_zero] at z
      have z0 := z 0 (by decide) (by decide)
      have z1 := z 1 (by decide) (by decide)
      have z2 := z 2 (by decide) (by decide)
      have zm := z (-1) (by decide) (by decide)
      simp only [add_zero] at z0
      simp [atCell, faraday, faraday2, solverCoeffs, runBody, store, plusEq, ebL, eb, Loc.at, Em.toNat,
        eval_at, z0, z1, z2, zm]
      right; ring
    · simp only [List.getD_cons_succ, List.getD_cons_zero] at hto
      subst hto
      have z := fun (j : Int) (h1 : (-1 : Int) ≤ j) (h2 : j ≤ 2) =>
        wall_e hC (c := 2) (by decide) (by decide)
          (hw (i1 + j) ng (by omega) (by omega) (by omega) (by omega))
      simp only [Mesh.iMin, List.set_cons_zero, List.set_cons_succ] at z
      have z0 := z 0 (by decide) (by decide)
      have z1 := z 1 (by decide) (by decide)
      have z2 := z 2 (by decide) (by decide)
      have zm := z (-1) (by decide) (by decide)
      simp only [add_zero] at z0
      simp [atCell, faraday, faraday2, solverCoeffs, runBody, store, plusEq, ebL, eb, Loc.at, Em.toNat,
        eval_at, z0, z1, z2, zm]
      right; ring
  · obtain ⟨i1, i2, i3, rfl⟩ : ∃ x y z, t = [x, y, z] := List.length_eq_three.mp ht
    have b0 := hb 0 (by simp)
    have b1 := hb 1 (by simp)
    have b2 := hb 2 (by simp)
    simp only [List.map_cons, List.map_nil, List.getD_cons_zero, List.getD_cons_succ] at b0 b1 b2
    have hw : ∀ (x y z : Int), 0 ≤ x → x < n1 + 2 * ng → 0 ≤ y → y < n2 + 2 * ng →
        0 ≤ z → z < n3 + 2 * ng → Across ⟨ng, [n1, n2, n3]⟩ o [x, y, z] := by
      intro x y z h1 h2 h3 h4 h5 h6
      refine ⟨rfl, fun d hd _ => ?_⟩
      rcases d with _ | _ | _ | d
      · exact ⟨h1, h2⟩
      · exact ⟨h3, h4⟩
      · exact ⟨h5, h6⟩
      · simp at hd; omega
    obtain rfl | rfl | rfl : o = 0 ∨ o = 1 ∨ o = 2 := by simp at ho; omega
    · simp only [List.getD_cons_zero, List.getD_cons_succ] at hto
      subst hto
      have z := fun (c : Nat) (hc : c < 3) (hco : c ≠ 0) (j k : Int) (h1 : (-1 : Int) ≤ j) (h2 : j ≤ 2)
          (h3 : (-1 : Int) ≤ k) (h4 : k ≤ 2) =>
        wall_e hC hc hco
          (hw ng (i2 + j) (i3 + k) (by omega) (by omega) (by omega) (by omega) (by omega) (by omega))
      simp only [Mesh.iMin, List.set_cons_zero, List.set_cons_succ] at z
      have z100 := z 1 (by decide) (by decide) (0) (0) (by decide) (by decide) (by decide) (by decide)
      have z101 := z 1 (by decide) (by decide) (0) (1) (by decide) (by decide) (by decide) (by decide)
      have z102 := z 1 (by decide) (by decide) (0) (2) (by decide) (by decide) (by decide) (by decide)
      have z10m1 := z 1 (by decide) (by decide) (0) (-1) (by decide) (by decide) (by decide) (by decide)
      have z110 := z 1 (by decide) (by decide) (1) (0) (by decide) (by decide) (by decide) (by decide)
      have z120 := z 1 (by decide) (by decide) (2) (0) (by decide) (by decide) (by decide) (by decide)
      have z1m10 := z 1 (by decide) (by decide) (-1) (0) (by decide) (by decide) (by decide) (by decide)
      have z111 := z 1 (by decide) (by decide) (1) (1) (by decide) (by decide) (by decide) (by decide)
      have z1m11 := z 1 (by decide) (by decide) (-1) (1) (by decide) (by decide) (by decide) (by decide)
      have z11m1 := z 1 (by decide) (by decide) (1) (-1) (by decide) (by decide) (by decide) (by decide)
      have z200 := z 2 (by decide) (by decide) (0) (0) (by decide) (by decide) (by decide) (by decide)
      have z201 := z 2 (by decide) (by decide) (0) (1) (by decide) (by decide) (by decide) (by decide)
      have z202 := z 2 (by decide) (by decide) (0) (2) (by decide) (by decide) (by decide) (by decide)
      have z20m1 := z 2 (by decide) (by decide) (0) (-1) (by decide) (by decide) (by decide) (by decide)
      have z210 := z 2 (by decide) (by decide) (1) (0) (by decide) (by decide) (by decide) (by decide)
      have z220 := z 2 (by decide) (by decide) (2) (0) (by decide) (by decide) (by decide) (by decide)
      have z2m10 := z 2 (by decide) (by decide) (-1) (0) (by decide) (by decide) (by decide) (by decide)
      have z211 := z 2 (by decide) (by decide) (1) (1) (by decide) (by decide) (by decide) (by decide)
      have z2m11 := z 2 (by decide) (by decide) (-1) (1) (by decide) (by decide) (by decide) (by decide)
      have z21m1 := z 2 (by decide) (by decide) (1) (-1) (by decide) (by decide) (by decide) (by decide)
      simp only [add_zero] at z100 z101 z102 z10m1 z110 z120 z1m10 z111 z1m11 z11m1 z200 z201 z202 z20m1 z210 z220 z2m10 z211 z2m11 z21m1
      simp [atCell, faraday, faraday3, solverCoeffs, runBody, store, plusEq, ebL, eb, Loc.at, Em.toNat,
        eval_at, z100, z101, z102, z10m1, z110, z120, z1m10, z111, z1m11, z11m1, z200, z201, z202, z20m1, z210, z220, z2m10, z211, z2m11, z21m1]
      right; ring
    · simp only [List.getD_cons_zero, List.getD_cons_succ] at hto
      subst hto
      have z := fun (c : Nat) (hc : c < 3) (hco : c ≠ 1) (j k : Int) (h1 : (-1 : Int) ≤ j) (h2 : j ≤ 2)
          (h3 : (-1 : Int) ≤ k) (h4 : k ≤ 2) =>
        wall_e hC hc hco
          (hw (i1 + j) ng (i3 + k) (by omega) (by omega) (by omega) (by omega) (by omega) (by omega))
      simp only [Mesh.iMin, List.set_cons_zero, List.set_cons_succ] at z
      have z000 := z 0 (by decide) (by decide) (0) (0) (by decide) (by decide) (by decide) (by decide)
      have z001 := z 0 (by decide) (by decide) (0) (1) (by decide) (by decide) (by decide) (by decide)
      have z002 := z 0 (by decide) (by decide) (0) (2) (by decide) (by decide) (by decide) (by decide)
      have z00m1 := z 0 (by decide) (by decide) (0) (-1) (by decide) (by decide) (by decide) (by decide)
      have z010 := z 0 (by decide) (by decide) (1) (0) (by decide) (by decide) (by decide) (by decide)
      have z020 := z 0 (by decide) (by decide) (2) (0) (by decide) (by decide) (by decide) (by decide)
      have z0m10 := z 0 (by decide) (by decide) (-1) (0) (by decide) (by decide) (by decide) (by decide)
      have z011 := z 0 (by decide) (by decide) (1) (1) (by decide) (by decide) (by decide) (by decide)
      have z0m11 := z 0 (by decide) (by decide) (-1) (1) (by decide) (by decide) (by decide) (by decide)
      have z01m1 := z 0 (by decide) (by decide) (1) (-1) (by decide) (by decide) (by decide) (by decide)
      have z200 := z 2 (by decide) (by decide) (0) (0) (by decide) (by decide) (by decide) (by decide)
      have z201 := z 2 (by decide) (by decide) (0) (1) (by decide) (by decide) (by decide) (by decide)
      have z202 := z 2 (by decide) (by decide) (0) (2) (by decide) (by decide) (by decide) (by decide)
      have z20m1 := z 2 (by decide) (by decide) (0) (-1) (by decide) (by decide) (by decide) (by decide)
      have z210 := z 2 (by decide) (by decide) (1) (0) (by decide) (by decide) (by decide) (by decide)
      have z220 := z 2 (by decide) (by decide) (2) (0) (by decide) (by decide) (by decide) (by decide)
      have z2m10 := z 2 (by decide) (by decide) (-1) (0) (by decide) (by decide) (by decide) (by decide)
      have z211 := z 2 (by decide) (by decide) (1) (1) (by decide) (by decide) (by decide) (by decide)
      have z2m11 := z 2 (by decide) (by decide) (-1) (1) (by decide) (by decide) (by decide) (by decide)
      have z21m1 := z 2 (by decide) (by decide) (1) (-1) (by decide) (by decide) (by decide) (by decide)
      simp only [add_zero] at z000 z001 z002 z00m1 z010 z020 z0m10 z011 z0m11 z01m1 z200 z201 z202 z20m1 z210 z220 z2m10 z211 z2m11 z21m1
      simp [atCell, faraday, faraday3, solverCoeffs, runBody, store, plusEq, ebL, eb, Loc.at, Em.toNat,
        eval_at, z000, z001, z002, z00m1, z010, z020, z0m10, z011, z0m11, z01m1, z200, z201, z202, z20m1, z210, z220, z2m10, z211, z2m11, z21m1]
      right; ring
    · simp only [List.getD_cons_zero, List.getD_cons_succ] at hto
      subst hto
      have z := fun (c : Nat) (hc : c < 3) (hco : c ≠ 2) (j k : Int) (h1 : (-1 : Int) ≤ j) (h2 : j ≤ 2)
          (h3 : (-1 : Int) ≤ k) (h4 : k ≤ 2) =>
        wall_e hC hc hco
          (hw (i1 + j) (i2 + k) ng (by omega) (by omega) (by omega) (by omega) (by omega) (by omega))
      simp only [Mesh.iMin, List.set_cons_zero, List.set_cons_succ] at z
      have z000 := z 0 (by decide) (by decide) (0) (0) (by decide) (by decide) (by decide) (by decide)
      have z001 := z 0 (by decide) (by decide) (0) (1) (by decide) (by decide) (by decide) (by decide)
      have z002 := z 0 (by decide) (by decide) (0) (2) (by decide) (by decide) (by decide) (by decide)
      have z00m1 := z 0 (by decide) (by decide) (0) (-1) (by decide) (by decide) (by decide) (by decide)
      have z010 := z 0 (by decide) (by decide) (1) (0) (by decide) (by decide) (by decide) (by decide)
      have z020 := z 0 (by decide) (by decide) (2) (0) (by decide) (by decide) (by decide) (by decide)
      have z0m10 := z 0 (by decide) (by decide) (-1) (0) (by decide) (by decide) (by decide) (by decide)
      have z011 := z 0 (by decide) (by decide) (1) (1) (by decide) (by decide) (by decide) (by decide)
      have z0m11 := z 0 (by decide) (by decide) (-1) (1) (by decide) (by decide) (by decide) (by decide)
      have z01m1 := z 0 (by decide) (by decide) (1) (-1) (by decide) (by decide) (by decide) (by decide)
      have z100 := z 1 (by decide) (by decide) (0) (0) (by decide) (by decide) (by decide) (by decide)
      have z101 := z 1 (by decide) (by decide) (0) (1) (by decide) (by decide) (by decide) (by decide)
      have z102 := z 1 (by decide) (by decide) (0) (2) (by decide) (by decide) (by decide) (by decide)
      have z10m1 := z 1 (by decide) (by decide) (0) (-1) (by decide) (by decide) (by decide) (by decide)
      have z110 := z 1 (by decide) (by decide) (1) (0) (by decide) (by decide) (by decide) (by decide)
      have z120 := z 1 (by decide) (by decide) (2) (0) (by decide) (by decide) (by decide) (by decide)
      have z1m10 := z 1 (by decide) (by decide) (-1) (0) (by decide) (by decide) (by decide) (by decide)
      have z111 := z 1 (by decide) (by decide) (1) (1) (by decide) (by decide) (by decide) (by decide)
      have z1m11 := z 1 (by decide) (by decide) (-1) (1) (by decide) (by decide) (by decide) (by decide)
      have z11m1 := z 1 (by decide) (by decide) (1) (-1) (by decide) (by decide) (by decide) (by decide)
      simp only [add_zero] at z000 z001 z002 z00m1 z010 z020 z0m10 z011 z0m11 z01m1 z100 z101 z102 z10m1 z110 z120 z1m10 z111 z1m11 z11m1
      simp [atCell, faraday, faraday3, solverCoeffs, runBody, store, plusEq, ebL, eb, Loc.at, Em.toNat,
        eval_at, z000, z001, z002, z00m1, z010, z020, z0m10, z011, z0m11, z01m1, z100, z101, z102, z10m1, z110, z120, z1m10, z111, z1m11, z11m1]
      right; ring
  · simp at hd; omega

end Entity.FieldBC
