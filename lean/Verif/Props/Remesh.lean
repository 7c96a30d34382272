import Verif.Lemmas.Reshape

/-!
# C167: a moving window after a restart
-/

namespace Entity.Startup

open Entity Entity.Decomp Entity.Float

/-- **C167, exact arithmetic.** Start a simulation with cubic cells on any decomposition, shift the window in any
way, write a checkpoint and restart with the box of the input file, in which the window has not moved.  The
box and all subdomains have the places where they were, and all later shifts act as without the interruption. -/
theorem C167_exact (eps : ℚ) (f : Bool) (s : ℚ) (hs : s ≠ 0) (dx : ℚ) (box : List Axis) (hc : Cubic dx box)
    (dN : List (List Nat))
    (hd : List.Forall₂ (fun (a : Axis) (d : List Nat) => d.sum = a.n ∧ d ≠ [] ∧ ∀ m ∈ d, 0 < m) box dN)
    (ts : List (Nat × Int)) (ht : ∀ t ∈ ts, t.1 < box.length ∧ t.2 ≠ 0)
    (big : ℚ) (hbig : ∀ b ∈ moveBox dx (total ts) box, b.xmin ≤ big ∧ -big ≤ b.xmax) :
    ∃ ms ms', (exact eps f s).startMeshes box dN = .ok ms ∧ (exact eps f s).runShifts ts ms = .ok ms' ∧
      (exact eps f s).restore big box ms'.tail = .ok ms' ∧
      ∀ us, (exact eps f s).runShifts (ts ++ us) ms = (exact eps f s).runShifts us ms' := by
  obtain ⟨ms, ms', a, b, _, _, c⟩ := exact_moves eps f s hs dx box hc dN hd ts ht
  exact ⟨ms, ms', a, b, c big hbig, fun us => run_append _ ts us ms ms' b⟩

/-- **C167, floating-point numbers.** The same for boxes on multiples of a power of two.
Missing: other boxes, for which the box changes at the restart (`C167_counterexample`) and a simulation that
was running may not restart (`C167_counterexample_refused`). -/
theorem C167_dyadic_partial {F : Fmt} (hF : F.Ok) (f : Bool) {s : ℚ} (h1 : 1 ≤ s) (h2 : s ≤ 2) (e : Int)
    (he : F.emin ≤ e - 1) (dx : ℚ) (hdx : Multiple e dx) (box : List Axis) (hc : Cubic dx box)
    (hbox : ∀ a ∈ box, Multiple e a.xmin ∧ a.n ≤ 2 ^ F.p ∧ a.n * dx ≤ 2 ^ (F.p + e)) (dN : List (List Nat))
    (hd : List.Forall₂ (fun (a : Axis) (d : List Nat) => d.sum = a.n ∧ d ≠ [] ∧ ∀ m ∈ d, 0 < m) box dN)
    (ts : List (Nat × Int))
    (ht : ∀ t ∈ ts, t.1 < box.length ∧ t.2 ≠ 0 ∧ |t.2| ≤ 2 ^ F.p ∧ |t.2 * dx| ≤ 2 ^ (F.p + e))
    (hr : ∀ k, ∀ a ∈ moveBox dx (total (ts.take k)) box, |a.xmin| ≤ 2 ^ (F.p + e) ∧ |a.xmax| ≤ 2 ^ (F.p + e))
    (big : ℚ) (hbig : ∀ b ∈ moveBox dx (total ts) box, b.xmin ≤ big ∧ -big ≤ b.xmax) :
    ∃ ms ms', (Startup.float F f s).startMeshes box dN = .ok ms ∧ (Startup.float F f s).runShifts ts ms = .ok ms' ∧
      (Startup.float F f s).restore big box ms'.tail = .ok ms' ∧
      ∀ us, (Startup.float F f s).runShifts (ts ++ us) ms = (Startup.float F f s).runShifts us ms' := by
  obtain ⟨ms, ms', a, b, _, _, c⟩ := dyadic_moves hF f h1 h2 e he dx hdx box hc hbox dN hd ts ht hr
  exact ⟨ms, ms', a, b, c big hbig, fun us => run_append _ ts us ms ms' b⟩

/-- A box of 12 × 8 cells on 2 × 2 processes, restarted after two shifts, in exact arithmetic. -/
example : ∃ ms ms', (exact 0 false 2).startMeshes [⟨0, 3 / 5, 12⟩, ⟨1, 7 / 5, 8⟩] [[7, 5], [4, 4]] = .ok ms ∧
    (exact 0 false 2).runShifts [(0, 2), (1, -3)] ms = .ok ms' ∧
    (exact 0 false 2).restore (2 ^ 100) [⟨0, 3 / 5, 12⟩, ⟨1, 7 / 5, 8⟩] ms'.tail = .ok ms' := by
  obtain ⟨ms, ms', a, b, c, _⟩ := C167_exact 0 false 2 (by norm_num) (1 / 20)
    [⟨0, 3 / 5, 12⟩, ⟨1, 7 / 5, 8⟩] ⟨by norm_num, by simp, by simp; norm_num⟩ [[7, 5], [4, 4]]
    (.cons ⟨rfl, by simp, by decide⟩ (.cons ⟨rfl, by simp, by decide⟩ .nil)) [(0, 2), (1, -3)] (by decide)
    (2 ^ 100) (by decide +kernel)
  exact ⟨ms, ms', a, b, c⟩

/-- In single precision, with cells of size 1/4. -/
example : ∃ ms ms', (Startup.float b32 true (3 / 2)).startMeshes [⟨0, 3, 12⟩, ⟨-1, 1, 8⟩] [[7, 5], [8]] = .ok ms ∧
    (Startup.float b32 true (3 / 2)).runShifts [(0, 2), (1, -3)] ms = .ok ms' ∧
    (Startup.float b32 true (3 / 2)).restore (2 ^ 100) [⟨0, 3, 12⟩, ⟨-1, 1, 8⟩] ms'.tail = .ok ms' := by
  have hw : (2 : ℚ) ^ ((b32.p : Int) + -2) = 4194304 := by norm_num [b32]
  obtain ⟨ms, ms', a, b, c, _⟩ := C167_dyadic_partial b32_ok true (s := 3 / 2) (by norm_num) (by norm_num) (-2)
    (by decide) (1 / 4) ⟨1, by norm_num⟩ [⟨0, 3, 12⟩, ⟨-1, 1, 8⟩] ⟨by norm_num, by simp, by simp; norm_num⟩ (by
      intro a ha
      rw [hw]
      simp only [List.mem_cons, List.not_mem_nil, or_false] at ha
      rcases ha with rfl | rfl
      · exact ⟨⟨0, by norm_num⟩, by decide, by norm_num⟩
      · exact ⟨⟨-4, by norm_num⟩, by decide, by norm_num⟩) [[7, 5], [8]]
    (.cons ⟨rfl, by simp, by decide⟩ (.cons ⟨rfl, by simp, by decide⟩ .nil)) [(0, 2), (1, -3)] (by
      intro t h
      rw [hw]
      simp only [List.mem_cons, List.not_mem_nil, or_false] at h
      rcases h with rfl | rfl <;> exact ⟨by decide, by decide, by decide, by norm_num⟩) (by
      intro k
      rw [hw]
      match k with
      | 0 => decide +kernel
      | 1 => decide +kernel
      | k + 2 => rw [List.take_of_length_le (by simp)]; decide +kernel) (2 ^ 100) (by decide +kernel)
  exact ⟨ms, ms', a, b, c⟩

/-- **C167, another box.** Single precision, 41 cells on [0, 1], one process, no shift at all: the box of the
restarted simulation ends before 1. -/
theorem C167_counterexample :
    ∃ ms ms' a, (Startup.float b32 false 1).startMeshes [⟨0, 1, 41⟩] [[41]] = .ok ms ∧
      (Startup.float b32 false 1).restore (2 ^ 127) [⟨0, 1, 41⟩] ms.tail = .ok ([a] :: ms') ∧ a.xmax < 1 := by
  have h : (match (Startup.float b32 false 1).startMeshes [⟨0, 1, 41⟩] [[41]] with
    | .ok ms => (match (Startup.float b32 false 1).restore (2 ^ 127) [⟨0, 1, 41⟩] ms.tail with
        | .ok ([a] :: _) => decide (a.xmax < 1)
        | _ => false)
    | _ => false) = true := by decide +kernel
  split at h
  · rename_i ms hm
    split at h
    · rename_i a ms' hm'
      exact ⟨ms, ms', a, hm, hm', of_decide_eq_true h⟩
    · cases h
  · cases h

set_option maxRecDepth 100000 in
/-- **C167, refused.** Single precision, 12 × 12 cells on [7, 8] × [0, 1], three processes, 17 shifts by two
cells: the simulation runs, and could be shifted further, but cannot be restarted, since the extents of its subdomains, put
together, are not a box of cubic cells. -/
theorem C167_counterexample_refused :
    ∃ ms ms' ms'', (Startup.float b32 false (3 / 2)).startMeshes [⟨7, 8, 12⟩, ⟨0, 1, 12⟩] [[4, 4, 4], [12]] = .ok ms ∧
      (Startup.float b32 false (3 / 2)).runShifts (List.replicate 17 (0, 2)) ms = .ok ms' ∧
      (Startup.float b32 false (3 / 2)).runShifts [(0, 2)] ms' = .ok ms'' ∧
      (Startup.float b32 false (3 / 2)).restore (2 ^ 127) [⟨7, 8, 12⟩, ⟨0, 1, 12⟩] ms'.tail = .err := by
  have h : (match (Startup.float b32 false (3 / 2)).startMeshes [⟨7, 8, 12⟩, ⟨0, 1, 12⟩] [[4, 4, 4], [12]] with
    | .ok ms => (match (Startup.float b32 false (3 / 2)).runShifts (List.replicate 17 (0, 2)) ms with
        | .ok ms' => (match (Startup.float b32 false (3 / 2)).runShifts [(0, 2)] ms' with
          | .ok _ => decide ((Startup.float b32 false (3 / 2)).restore (2 ^ 127) [⟨7, 8, 12⟩, ⟨0, 1, 12⟩]
              ms'.tail = .err)
          | _ => false)
        | _ => false)
    | _ => false) = true := by decide +kernel
  split at h
  · rename_i ms hm
    split at h
    · rename_i ms' hm'
      split at h
      · rename_i ms'' hm''
        exact ⟨ms, ms', ms'', hm, hm', hm'', of_decide_eq_true h⟩
      · cases h
    · cases h
  · cases h

end Entity.Startup
