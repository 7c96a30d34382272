import Verif.Lemmas.EsirkepovDiv
import Mathlib.Data.List.Forall2

/-!
# C33: the deposit stays inside the allocated arrays
-/

namespace Entity.Deposit

open Entity Entity.Push Entity.Shapes Entity.Tags

variable {K : Type} [Field K] [LinearOrder K] [IsStrictOrderedRing K]

/-! ## Specification -/

/-- Number of ghost cells for a shape order (global.h:130-136). -/
def nGhosts (O : Nat) : Nat := if O = 0 then 2 else (O + 1) / 2 + 1

/-- Right end of the positions covered by `C33_deposit_in_bounds_partial`: one cell outside the box
for odd orders and for the zigzag scheme, half a cell for even orders. -/
def reach (O n : Nat) : K := if O = 0 ∨ O % 2 = 1 then (n : K) + 1 else (n : K) + 1/2

/-- Both positions along an axis lie between one cell left of the box and `reach`. -/
structure Within (O n : Nat) (a : Ax K) : Prop where
  fit : FitAx a
  o1 : -1 ≤ xOld a
  n1 : -1 ≤ xNew a
  o2 : xOld a < reach O n
  n2 : xNew a < reach O n

/-! ## Axes -/

theorem Within.zz {n : Nat} {a : Ax K} (h : Within 0 n a) :
    (0 ≤ a.iPrev + 2 ∧ a.iPrev + 2 + 1 < n + 4) ∧ (0 ≤ a.i + 2 ∧ a.i + 2 + 1 < n + 4) := by
  obtain ⟨⟨p0, p1, n0, n1, -⟩, o1, l1, o2, l2⟩ := h
  simp only [reach, xOld, xNew, true_or, if_true] at o1 l1 o2 l2
  have b1 : (-2 : K) ≤ a.iPrev := by linarith
  have b2 : (-2 : K) ≤ a.i := by linarith
  have b3 : (a.iPrev : K) < n + 1 := by linarith
  have b4 : (a.i : K) < n + 1 := by linarith
  have c1 : (-2 : Int) ≤ a.iPrev := by exact_mod_cast b1
  have c2 : (-2 : Int) ≤ a.i := by exact_mod_cast b2
  have c3 : a.iPrev < n + 1 := by exact_mod_cast b3
  have c4 : a.i < n + 1 := by exact_mod_cast b4
  omega

theorem Within.es {O n : Nat} {a : Ax K} (h : Within O n a) (h1 : 1 ≤ O) (h2 : O ≤ 11) :
    ∃ m M iS fS, forDeposit O a.iPrev a.dxPrev a.i a.dx = .ok (m, M, iS, fS) ∧
      ∀ j : Nat, j < (M + (nGhosts O : Int) - (m + nGhosts O)).toNat + 1 →
        0 ≤ m + nGhosts O + j ∧ m + nGhosts O + j < (n + 2 * nGhosts O : Nat) := by
  obtain ⟨m, M, iS, fS, e, hM, W, u, l⟩ := h.fit.window O h1 h2
  refine ⟨m, M, iS, fS, e, ?_⟩
  obtain ⟨-, o1, l1, o2, l2⟩ := h
  have hmin : -1 ≤ min (xOld a) (xNew a) := le_min o1 l1
  have hmax : max (xOld a) (xNew a) < reach O n := max_lt o2 l2
  have hO : O = 2 * (O / 2) + O % 2 := by omega
  set h := O / 2 with hh
  have hOK : (O : K) = 2 * h + (O % 2 : Nat) := by exact_mod_cast hO
  have hg : nGhosts O = (O + 1) / 2 + 1 := by simp [nGhosts]; omega
  have lo : (-(3 : K) - O) / 2 ≤ m := by linarith
  have hi : (M : K) < reach O n + ((O : K) + 1) / 2 := by push_cast at u; linarith
  have lo' : -3 - (O : Int) ≤ 2 * m := by
    have : (-(3 : K) - O) ≤ 2 * m := by linarith
    exact_mod_cast this
  have hi' : M < n + (nGhosts O : Int) := by
    by_cases ho : O % 2 = 1
    · rw [reach, if_pos (Or.inr ho)] at hi
      have : (2 : K) * M < 2 * n + 3 + O := by linarith
      have : 2 * M < 2 * n + 3 + O := by exact_mod_cast this
      omega
    · rw [reach, if_neg (by omega)] at hi
      have : (2 : K) * M < 2 * n + 2 + O := by linarith
      have : 2 * M < 2 * n + 2 + O := by exact_mod_cast this
      omega
  intro j hj
  omega

/-! ## Particles -/

theorem zigzag_in {n : List Nat} {p : DPrtl K} (h : List.Forall₂ (Within 0) n p.ax)
    (charge dt : K) {us : List (Upd K)} (hu : depositOne 0 2 charge dt p = .ok us) :
    ∀ u ∈ us, inArray (n.map (· + 4)) u.idx = true := by
  unfold depositOne at hu
  split at hu
  · simp only [Outcome.ok.injEq] at hu; subst hu; simp
  rcases hax : p.ax with _ | ⟨a, _ | ⟨b, _ | ⟨c, _ | ⟨e, r⟩⟩⟩⟩ <;> rw [hax] at hu h <;>
    simp only [reduceCtorEq, Outcome.ok.injEq] at hu <;> subst hu
  · cases h with
    | cons ha hn => cases hn; have := ha.zz; simp [zigzag1, zzAxis, inArray]; omega
  · cases h with
    | cons ha h => cases h with
      | cons hb hn =>
        cases hn; have := ha.zz; have := hb.zz; simp [zigzag2, zzAxis, inArray]; omega
  · cases h with
    | cons ha h => cases h with
      | cons hb h => cases h with
        | cons hc hn =>
          cases hn; have := ha.zz; have := hb.zz; have := hc.zz
          simp [zigzag3, zzAxis, inArray]; omega

theorem esirkepov_in {O : Nat} (h1 : 1 ≤ O) (h2 : O ≤ 11) {n : List Nat} {p : DPrtl K}
    (h : List.Forall₂ (Within O) n p.ax)
    (charge dt : K) {us : List (Upd K)} (hu : depositOne O (nGhosts O) charge dt p = .ok us) :
    ∀ u ∈ us, inArray (n.map (· + 2 * nGhosts O)) u.idx = true := by
  unfold depositOne at hu
  split at hu
  · simp only [Outcome.ok.injEq] at hu; subst hu; simp
  obtain ⟨O, rfl⟩ : ∃ k, O = k + 1 := ⟨O - 1, by omega⟩
  rcases hax : p.ax with _ | ⟨a, _ | ⟨b, _ | ⟨c, _ | ⟨e, r⟩⟩⟩⟩ <;> rw [hax] at hu h <;>
    simp only [reduceCtorEq] at hu
  · cases h with
    | cons ha hn =>
      cases hn
      obtain ⟨m, M, iS, fS, e, B⟩ := ha.es h1 h2
      simp only [esirkepov1, e, Outcome.bind_ok, Outcome.pure_eq, Outcome.ok.injEq] at hu
      subst hu
      intro u hu
      simp only [List.mem_append, List.mem_map, List.mem_range] at hu
      rcases hu with (⟨i, hi, rfl⟩ | ⟨i, hi, rfl⟩) | ⟨i, hi, rfl⟩ <;>
        simp only [inArray, List.map_cons, List.map_nil, Bool.and_true, Bool.and_eq_true,
          decide_eq_true_eq] <;> exact B i (by omega)
  · cases h with
    | cons ha h => cases h with
      | cons hb hn =>
        cases hn
        obtain ⟨m, M, iS, fS, e, B⟩ := ha.es h1 h2
        obtain ⟨m', M', iS', fS', e', B'⟩ := hb.es h1 h2
        simp only [esirkepov2, e, e', Outcome.bind_ok, Outcome.pure_eq, Outcome.ok.injEq] at hu
        subst hu
        intro u hu
        simp only [List.mem_append, List.mem_map, List.mem_range, List.mem_flatMap] at hu
        rcases hu with (⟨i, hi, j, hj, rfl⟩ | ⟨i, hi, j, hj, rfl⟩) | ⟨i, hi, j, hj, rfl⟩ <;>
          simp only [inArray, List.map_cons, List.map_nil, Bool.and_true, Bool.and_eq_true,
            decide_eq_true_eq] <;> exact ⟨B i (by omega), B' j (by omega)⟩
  · cases h with
    | cons ha h => cases h with
      | cons hb h => cases h with
        | cons hc hn =>
          cases hn
          obtain ⟨m, M, iS, fS, e, B⟩ := ha.es h1 h2
          obtain ⟨m', M', iS', fS', e', B'⟩ := hb.es h1 h2
          obtain ⟨m'', M'', iS'', fS'', e'', B''⟩ := hc.es h1 h2
          simp only [esirkepov3, e, e', e'', Outcome.bind_ok, Outcome.pure_eq, Outcome.ok.injEq]
            at hu
          subst hu
          intro u hu
          simp only [List.mem_append, List.mem_map, List.mem_range, List.mem_flatMap] at hu
          rcases hu with (⟨i, hi, j, hj, k, hk, rfl⟩ | ⟨i, hi, j, hj, k, hk, rfl⟩) |
              ⟨i, hi, j, hj, k, hk, rfl⟩ <;>
            simp only [inArray, List.map_cons, List.map_nil, Bool.and_true, Bool.and_eq_true,
              decide_eq_true_eq] <;> exact ⟨B i (by omega), B' j (by omega), B'' k (by omega)⟩

theorem defined_one {O : Nat} (h2 : O ≤ 11) {NG : Int} {n : List Nat} (hn : n.length ∈ [1, 2, 3])
    {p : DPrtl K} (h : List.Forall₂ (Within O) n p.ax) (charge dt : K) :
    ∃ us, depositOne O NG charge dt p = .ok us := by
  unfold depositOne
  split
  · exact ⟨_, rfl⟩
  have hl := h.length_eq
  rcases hax : p.ax with _ | ⟨a, _ | ⟨b, _ | ⟨c, _ | ⟨e, r⟩⟩⟩⟩ <;> rw [hax] at h hl <;>
    simp only [List.length_cons, List.length_nil] at hl <;>
    (first | (rw [hl] at hn; simp at hn; done) | skip) <;> cases O
  · exact ⟨_, rfl⟩
  · cases h with
    | cons ha _ =>
      obtain ⟨m, M, iS, fS, e, -⟩ := ha.es (by omega) h2
      simp only [esirkepov1, e, Outcome.bind_ok]; exact ⟨_, rfl⟩
  · exact ⟨_, rfl⟩
  · cases h with
    | cons ha h => cases h with
      | cons hb _ =>
        obtain ⟨m, M, iS, fS, e, -⟩ := ha.es (by omega) h2
        obtain ⟨m', M', iS', fS', e', -⟩ := hb.es (by omega) h2
        simp only [esirkepov2, e, e', Outcome.bind_ok]; exact ⟨_, rfl⟩
  · exact ⟨_, rfl⟩
  · cases h with
    | cons ha h => cases h with
      | cons hb h => cases h with
        | cons hc _ =>
          obtain ⟨m, M, iS, fS, e, -⟩ := ha.es (by omega) h2
          obtain ⟨m', M', iS', fS', e', -⟩ := hb.es (by omega) h2
          obtain ⟨m'', M'', iS'', fS'', e'', -⟩ := hc.es (by omega) h2
          simp only [esirkepov3, e, e', e'', Outcome.bind_ok]; exact ⟨_, rfl⟩

/-! ## C33 -/

/-- **C33** (deposit), orders 0 ... 11, one to three dimensions: if both positions of every particle
lie in the box or at most one cell outside it — at even orders at most half a cell above it — the
kernel runs without touching memory outside the arrays, in whatever order the additions are carried
out.  Missing: even orders for positions between `n + 1/2` and `n + 1`, where the statement is false
(`C33_even_order_counterexample`). -/
theorem C33_deposit_in_bounds_partial (O : Nat) (h2 : O ≤ 11) (n : List Nat)
    (hn : n.length ∈ [1, 2, 3]) (charge dt : K) (ps : List (DPrtl K))
    (h : ∀ p ∈ ps, p.tag = dead ∨ List.Forall₂ (Within O) n p.ax) :
    ∃ us, depositAll O (nGhosts O) charge dt ps = .ok us ∧
      ∀ vs, vs.Perm us → ∀ J, ∃ J', applyAll (n.map (· + 2 * nGhosts O)) vs J = .ok J' := by
  have key : ∃ us, depositAll O (nGhosts O) charge dt ps = .ok us ∧
      ∀ u ∈ us, inArray (n.map (· + 2 * nGhosts O)) u.idx = true := by
    induction ps with
    | nil => exact ⟨[], rfl, by simp⟩
    | cons p ps ih =>
      obtain ⟨us, e, b⟩ := ih (fun q hq => h q (List.mem_cons_of_mem _ hq))
      rcases h p List.mem_cons_self with hd | hp
      · exact ⟨us, by simp [depositAll, depositOne, e, hd], b⟩
      obtain ⟨vs, e'⟩ := defined_one (NG := nGhosts O) h2 hn hp charge dt
      refine ⟨vs ++ us, by simp [depositAll, e, e'], ?_⟩
      intro u hu
      rcases List.mem_append.mp hu with hu | hu
      · rcases Nat.eq_zero_or_pos O with rfl | hO
        · exact zigzag_in hp charge dt e' u hu
        · exact esirkepov_in hO h2 hp charge dt e' u hu
      · exact b u hu
  obtain ⟨us, e, b⟩ := key
  exact ⟨us, e, fun vs hv J => applyAll_defined (fun u hu => b u (hv.mem_iff.mp hu))⟩

/-- An update outside the array makes the run undefined. -/
theorem applyAll_ub {nAll : List Nat} {us : List (Upd K)} {u : Upd K} (hu : u ∈ us)
    (hi : inArray nAll u.idx = false) {J : Cur K} : applyAll nAll us J = .ub := by
  induction us generalizing J with
  | nil => simp at hu
  | cons v us ih =>
    simp only [applyAll, List.foldlM_cons, applyUpd]
    by_cases hv : inArray nAll v.idx = true
    · rw [if_pos hv, Outcome.bind_ok]
      rcases List.mem_cons.mp hu with rfl | hu
      · rw [hi] at hv; cases hv
      · exact ih hu
    · rw [if_neg hv, Outcome.bind_ub]

/-- A particle leaving a box of four cells. -/
def leaver : DPrtl ℚ := ⟨[⟨4, 3, 3/4, 9/10, 0⟩], 1, 1, 1, alive⟩

/-- **C33 is false at even orders**: with order 2 and four cells, a particle that moves from
`3.9` to `4.75` — less than one cell, to less than one cell outside the box — makes the kernel add
to an element outside the array (index 8 of 8 cells). -/
theorem C33_even_order_counterexample : ∃ (p : DPrtl ℚ) (us : List (Upd ℚ)),
    (∃ a, p.ax = [a] ∧ FitAx a ∧ -1 ≤ xOld a ∧ xOld a < 4 ∧ -1 ≤ xNew a ∧ xNew a < 4 + 1) ∧
    depositAll 2 (nGhosts 2) 1 1 [p] = .ok us ∧
    ∀ J, applyAll [4 + 2 * nGhosts 2] us J = .ub := by
  have hc : (match depositAll 2 (nGhosts 2) 1 1 [leaver] with
      | .ok us => us.any (fun u => !inArray [4 + 2 * nGhosts 2] u.idx)
      | _ => false) = true := by decide +kernel
  cases hd : depositAll 2 (nGhosts 2) 1 1 [leaver] with
  | ub => rw [hd] at hc; simp at hc
  | err => rw [hd] at hc; simp at hc
  | ok us =>
    rw [hd] at hc
    refine ⟨leaver, us, ⟨_, rfl, ⟨?_, ?_, ?_, ?_, ?_⟩, ?_⟩, hd, ?_⟩
    · norm_num
    · norm_num
    · norm_num
    · norm_num
    · rw [abs_lt]; constructor <;> norm_num
    · simp only [xOld, xNew]; norm_num
    · simp only [List.any_eq_true, Bool.not_eq_true'] at hc
      obtain ⟨u, hu, hi⟩ := hc
      exact fun J => applyAll_ub hu hi

/-- A case meeting the hypotheses of `C33_deposit_in_bounds_partial`: order 3, two dimensions, a
particle that leaves the box of 6 by 5 cells. -/
example : List.Forall₂ (Within (K := ℚ) 3) [6, 5]
    [⟨6, 5, 1/4, 3/4, 0⟩, ⟨-1, 0, 1/2, 1/4, 0⟩] := by
  refine .cons ⟨⟨?_, ?_, ?_, ?_, ?_⟩, ?_, ?_, ?_, ?_⟩ (.cons ⟨⟨?_, ?_, ?_, ?_, ?_⟩, ?_, ?_, ?_, ?_⟩
    .nil) <;> simp only [xOld, xNew, reach] <;> (try rw [abs_lt]) <;> norm_num

end Entity.Deposit
