import Verif.Lemmas.Reshape

/-!
# C166: a window can be moved as often as one likes
-/

namespace Entity.Startup

open Entity Entity.Decomp Entity.Float

/-- **C166, exact arithmetic.** Start a simulation with cubic cells on any decomposition and shift the window
any number of times, along any axes, forwards or backwards.  No check ever fails; the box and every subdomain
have moved by the number of cells shifted in total, keeping their sizes; and the meshes are those of a
simulation started on the moved box. -/
theorem C166_exact (eps : ℚ) (f : Bool) (s : ℚ) (hs : s ≠ 0) (dx : ℚ) (box : List Axis) (hc : Cubic dx box)
    (dN : List (List Nat))
    (hd : List.Forall₂ (fun (a : Axis) (d : List Nat) => d.sum = a.n ∧ d ≠ [] ∧ ∀ m ∈ d, 0 < m) box dN)
    (ts : List (Nat × Int)) (ht : ∀ t ∈ ts, t.1 < box.length ∧ t.2 ≠ 0) :
    ∃ ms ms', (exact eps f s).startMeshes box dN = .ok ms ∧ (exact eps f s).runShifts ts ms = .ok ms' ∧
      (exact eps f s).startMeshes (moveBox dx (total ts) box) dN = .ok ms' ∧
      ms' = ms.map (moveBox dx (total ts)) := by
  obtain ⟨ms, ms', a, b, c, d, _⟩ := exact_moves eps f s hs dx box hc dN hd ts ht
  exact ⟨ms, ms', a, b, c, d⟩

/-- **C166, floating-point numbers.** If cell size and corner of the box are multiples of one power of two,
nothing is rounded as long as the window stays where the multiples have at most `p` binary digits: no check
fails, and the box and all subdomains move by exactly the cells shifted.
Missing: other boxes, where each shift changes the cell size a little until the simulation is aborted
(`C166_counterexample`) or, in one dimension, goes on with other cells (`C166_counterexample_line`). -/
theorem C166_dyadic_partial {F : Fmt} (hF : F.Ok) (f : Bool) {s : ℚ} (h1 : 1 ≤ s) (h2 : s ≤ 2) (e : Int)
    (he : F.emin ≤ e - 1) (dx : ℚ) (hdx : Multiple e dx) (box : List Axis) (hc : Cubic dx box)
    (hbox : ∀ a ∈ box, Multiple e a.xmin ∧ a.n ≤ 2 ^ F.p ∧ a.n * dx ≤ 2 ^ (F.p + e)) (dN : List (List Nat))
    (hd : List.Forall₂ (fun (a : Axis) (d : List Nat) => d.sum = a.n ∧ d ≠ [] ∧ ∀ m ∈ d, 0 < m) box dN)
    (ts : List (Nat × Int))
    (ht : ∀ t ∈ ts, t.1 < box.length ∧ t.2 ≠ 0 ∧ |t.2| ≤ 2 ^ F.p ∧ |t.2 * dx| ≤ 2 ^ (F.p + e))
    (hr : ∀ k, ∀ a ∈ moveBox dx (total (ts.take k)) box, |a.xmin| ≤ 2 ^ (F.p + e) ∧ |a.xmax| ≤ 2 ^ (F.p + e)) :
    ∃ ms ms', (Startup.float F f s).startMeshes box dN = .ok ms ∧
      (Startup.float F f s).runShifts ts ms = .ok ms' ∧
      (Startup.float F f s).startMeshes (moveBox dx (total ts) box) dN = .ok ms' ∧
      ms' = ms.map (moveBox dx (total ts)) := by
  obtain ⟨ms, ms', a, b, c, d, _⟩ := dyadic_moves hF f h1 h2 e he dx hdx box hc hbox dN hd ts ht hr
  exact ⟨ms, ms', a, b, c, d⟩

/-- Two shifts of a plane box of 12 × 8 cells of size 1/4 on 2 × 1 processes. -/
example : ∃ ms ms', (Startup.float b32 true (3 / 2)).startMeshes [⟨0, 3, 12⟩, ⟨-1, 1, 8⟩] [[7, 5], [8]] = .ok ms ∧
    (Startup.float b32 true (3 / 2)).runShifts [(0, 2), (1, -3), (0, 2)] ms = .ok ms' ∧
    (Startup.float b32 true (3 / 2)).startMeshes [⟨1, 4, 12⟩, ⟨-7 / 4, 1 / 4, 8⟩] [[7, 5], [8]] = .ok ms' ∧
    ms' = ms.map (moveBox (1 / 4) (total [(0, 2), (1, -3), (0, 2)])) := by
  have hm : moveBox (1 / 4) (total [(0, 2), (1, -3), (0, 2)]) [⟨0, 3, 12⟩, ⟨-1, 1, 8⟩] =
      [⟨1, 4, 12⟩, ⟨-7 / 4, 1 / 4, 8⟩] := by decide +kernel
  rw [← hm]
  have hw : (2 : ℚ) ^ ((b32.p : Int) + -2) = 4194304 := by norm_num [b32]
  refine C166_dyadic_partial b32_ok true (by norm_num) (by norm_num) (-2) (by decide) (1 / 4)
    ⟨1, by norm_num⟩ _ ?_ ?_ _ ?_ _ ?_ ?_
  · exact ⟨by norm_num, by simp, by simp; norm_num⟩
  · intro a ha
    rw [hw]
    simp only [List.mem_cons, List.not_mem_nil, or_false] at ha
    rcases ha with rfl | rfl
    · exact ⟨⟨0, by norm_num⟩, by decide, by norm_num⟩
    · exact ⟨⟨-4, by norm_num⟩, by decide, by norm_num⟩
  · exact .cons ⟨rfl, by simp, by decide⟩ (.cons ⟨rfl, by simp, by decide⟩ .nil)
  · intro t h
    rw [hw]
    simp only [List.mem_cons, List.not_mem_nil, or_false] at h
    rcases h with rfl | rfl | rfl <;> exact ⟨by decide, by decide, by decide, by norm_num⟩
  · intro k
    rw [hw]
    match k with
    | 0 => decide +kernel
    | 1 => decide +kernel
    | 2 => decide +kernel
    | k + 3 => rw [List.take_of_length_le (by simp)]; decide +kernel

/-- `C166_exact` in three dimensions. -/
example : ∃ ms ms', (exact 0 false 2).startMeshes [⟨0, 1, 10⟩, ⟨0, 1, 10⟩, ⟨1, 3, 20⟩] [[5, 5], [10], [6, 14]] = .ok ms ∧
    (exact 0 false 2).runShifts (List.replicate 1000 (2, 3)) ms = .ok ms' ∧
    ms' = ms.map (moveBox (1 / 10) (total (List.replicate 1000 (2, 3)))) := by
  obtain ⟨ms, ms', a, b, _, c⟩ := C166_exact 0 false 2 (by norm_num) (1 / 10)
    [⟨0, 1, 10⟩, ⟨0, 1, 10⟩, ⟨1, 3, 20⟩] ⟨by norm_num, by simp, by simp; norm_num⟩ [[5, 5], [10], [6, 14]]
    (.cons ⟨rfl, by simp, by decide⟩ (.cons ⟨rfl, by simp, by decide⟩ (.cons ⟨rfl, by simp, by decide⟩ .nil)))
    (List.replicate 1000 (2, 3)) (by
      intro t h
      rw [(List.mem_replicate.1 h).2]
      exact ⟨by decide, by decide⟩)
  exact ⟨ms, ms', a, b, c⟩

set_option maxRecDepth 100000 in
/-- **C166, aborted.** Single precision: a box of 10 × 10 cells on [60, 61] × [0, 1], on two processes, starts
and makes 17 shifts by two cells; the 18th raises an error, although the same cells have only moved by three and a half
box lengths. -/
theorem C166_counterexample :
    ∃ ms ms', (Startup.float b32 false (3 / 2)).startMeshes [⟨60, 61, 10⟩, ⟨0, 1, 10⟩] [[5, 5], [10]] = .ok ms ∧
      (Startup.float b32 false (3 / 2)).runShifts (List.replicate 17 (0, 2)) ms = .ok ms' ∧
      (Startup.float b32 false (3 / 2)).runShifts (List.replicate 18 (0, 2)) ms = .err := by
  have h : (match (Startup.float b32 false (3 / 2)).startMeshes [⟨60, 61, 10⟩, ⟨0, 1, 10⟩] [[5, 5], [10]] with
    | .ok ms => (match (Startup.float b32 false (3 / 2)).runShifts (List.replicate 17 (0, 2)) ms with
        | .ok _ => true | _ => false) &&
      decide ((Startup.float b32 false (3 / 2)).runShifts (List.replicate 18 (0, 2)) ms = .err)
    | _ => false) = true := by decide +kernel
  split at h
  · rename_i ms hm
    rw [Bool.and_eq_true, decide_eq_true_eq] at h
    obtain ⟨h1, h2⟩ := h
    split at h1
    · rename_i ms' hm'
      exact ⟨ms, ms', hm, hm', h2⟩
    · cases h1
  · cases h

/-- The test of `C166_counterexample_line` as a computation. -/
def lineTest (A : Arith) (a : Axis) (d : List Nat) (k : Nat) : Bool :=
  match A.startMeshes [a] [d] with
  | .ok ms =>
    match A.runShifts (List.replicate k (0, 2)) ms with
    | .ok ms' => decide (∃ t ∈ ms.zip ms', ∃ x ∈ t.1, ∃ y ∈ t.2, A.almostEqual (A.cell y) (A.cell x) = false)
    | _ => false
  | _ => false

set_option maxRecDepth 100000 in
/-- **C166, other cells.** In one dimension nothing is checked: the same axis can be shifted 18 times, but then a
mesh has cells of another size, the difference exceeding the tolerance of all checks. -/
theorem C166_counterexample_line :
    ∃ ms ms', (Startup.float b32 false 1).startMeshes [⟨60, 61, 10⟩] [[5, 5]] = .ok ms ∧
      (Startup.float b32 false 1).runShifts (List.replicate 18 (0, 2)) ms = .ok ms' ∧
      ∃ t ∈ ms.zip ms', ∃ x ∈ t.1, ∃ y ∈ t.2,
        (Startup.float b32 false 1).almostEqual ((Startup.float b32 false 1).cell y)
          ((Startup.float b32 false 1).cell x) = false := by
  have h : lineTest (Startup.float b32 false 1) ⟨60, 61, 10⟩ [5, 5] 18 = true := by decide +kernel
  unfold lineTest at h
  split at h
  · rename_i ms hm
    split at h
    · rename_i ms' hm'
      exact ⟨ms, ms', hm, hm', of_decide_eq_true h⟩
    · cases h
  · cases h

end Entity.Startup
