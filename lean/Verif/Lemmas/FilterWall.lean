import Verif.Spec.FilterWall
import Verif.Props.Kernels
import Mathlib.Tactic.Ring

/-! Lemmas for C169: the bodies of the Cartesian filter at and next to a conducting wall. -/

namespace Entity.Filter

set_option linter.unusedSimpArgs false

open Entity.Kernel Entity.FieldSolver

variable {K : Type} [Field K]

theorem eval_add (m : Mem K) (a b : Ex K) : (a + b).eval m = a.eval m + b.eval m := rfl
theorem eval_mul (m : Mem K) (a b : Ex K) : (a * b).eval m = a.eval m * b.eval m := rfl
theorem eval_inv (m : Mem K) (k : Nat) : (inv k : Ex K).eval m = 1 / (k : K) := rfl
theorem eval_threeQuarters (m : Mem K) : (threeQuarters : Ex K).eval m = 3 * (1 / 4) := rfl
theorem eval_bf (m : Mem K) (k : Nat) (o : List Int) : (bf k o : Ex K).eval m = m ⟨2, k, o⟩ := rfl

omit [Field K] in
theorem at_buffer (M : Mem K) (t o : List Int) {k : Nat} (hk : k < 3) :
    copyToBuffer M ((Loc.mk 2 k o).at t) = M ⟨1, k, List.zipWith (· + ·) t o⟩ := by
  simp [copyToBuffer, Loc.at, hk]

omit [Field K] in
theorem at_current (M : Mem K) (t o : List Int) (k : Nat) :
    copyToBuffer M ((Loc.mk 1 k o).at t) = M ⟨1, k, List.zipWith (· + ·) t o⟩ := by
  simp [copyToBuffer, Loc.at]

theorem atWall_wall {c : Cfg} {a : Nat} {upper : Bool} (h : WallAt c a upper) :
    c.atWall a (wallLayer c a upper) = true := by
  cases upper <;> simp_all [WallAt, wallLayer, Cfg.atWall, Cfg.imin, Cfg.imax]

theorem atWall_next {c : Cfg} {a : Nat} {upper : Bool} (h : WallAt c a upper) :
    c.atWall a (nextLayer c a upper) = false := by
  cases upper <;> simp_all [WallAt, nextLayer, Cfg.atWall, Cfg.imin, Cfg.imax] <;> omega

theorem nextWall_next {c : Cfg} {a : Nat} {upper : Bool} (h : WallAt c a upper) :
    c.nextWall a (nextLayer c a upper) = true := by
  cases upper <;> simp_all [WallAt, nextLayer, Cfg.nextWall, Cfg.imin, Cfg.imax]

theorem side_wall {c : Cfg} {a : Nat} {upper : Bool} (h : WallAt c a upper) :
    c.side a = if upper then -1 else 1 := by
  cases upper <;> simp_all [WallAt, Cfg.side]

theorem off_others {c : Cfg} {a : Nat} {t : List Int} (h : OffOthers c a t) {b : Nat} (hb : b ≠ a)
    {i : Int} (hi : t[b]? = some i) : c.atWall b i = false ∧ c.nextWall b i = false := by
  obtain ⟨h1, h2⟩ := h b hb i hi
  simp only [wallLayer, nextLayer, if_true, Bool.false_eq_true, if_false] at h1 h2
  rcases hc : c.cond b with ⟨p, q⟩
  rw [hc] at h1 h2
  cases p <;> cases q <;> simp_all [Cfg.atWall, Cfg.nextWall, Cfg.imin, Cfg.imax]

/-- Evaluates a body of the filter and one pass of the filter along each axis. -/
local macro "wall_eval" "[" hs:Lean.Parser.Tactic.simpLemma,* "]" : tactic => `(tactic| (
  simp [filterCart, filter1, filter2, filter3, f2I1, f2I2, f3I1I2, f3I1I3, f3I2I3, runBody, store,
    arr, here, eval_add, eval_mul, eval_inv, eval_threeQuarters, eval_bf, at_buffer, at_current,
    smoothAll, smooth, List.range_succ, mirrored, without, wallLayer, nextLayer, $hs,*]
  try split_ifs
  all_goals first | done | (exfalso; omega) | ring_nf))

set_option maxHeartbeats 4000000 in
theorem wall_normal [CharZero K] {c : Cfg} {D : Nat} (hD : D ∈ [1, 2, 3]) {a : Nat}
    (ha : a < D) {upper : Bool} (hw : WallAt c a upper) (M : Mem K) {t : List Int}
    (hl : t.length = D) (hn : OffOthers c a t)
    (hta : t[a]? = some (wallLayer c a upper) ∨ t[a]? = some (nextLayer c a upper)) :
    runBody (filterCart c t) (fun l => copyToBuffer M (l.at t)) ⟨1, a, here D⟩ =
      smoothAll D (mirrored a upper (wallLayer c a upper) fun q => M ⟨1, a, q⟩) t := by
  have A := atWall_wall hw
  have B := atWall_next hw
  have C := nextWall_next hw
  have S := side_wall hw
  simp only [List.mem_cons, List.not_mem_nil, or_false] at hD
  rcases hD with rfl | rfl | rfl
  · match t, hl with
    | [x], _ =>
      obtain rfl : a = 0 := by omega
      · cases upper <;> simp only [List.getElem?_cons_zero, List.getElem?_cons_succ,
          Option.some.injEq, wallLayer, nextLayer, Bool.false_eq_true, if_false, if_true]
          at hta A B C S <;> rcases hta with rfl | rfl
        all_goals wall_eval [A, B, C, S]
  · match t, hl with
    | [x, y], _ =>
      obtain rfl | rfl : a = 0 ∨ a = 1 := by omega
      · cases upper <;> simp only [List.getElem?_cons_zero, List.getElem?_cons_succ,
          Option.some.injEq, wallLayer, nextLayer, Bool.false_eq_true, if_false, if_true]
          at hta A B C S <;> rcases hta with rfl | rfl
        all_goals wall_eval [A, B, C, S]
      · have h0 := off_others hn (b := 0) (by decide) (i := x) rfl
        cases upper <;> simp only [List.getElem?_cons_zero, List.getElem?_cons_succ,
          Option.some.injEq, wallLayer, nextLayer, Bool.false_eq_true, if_false, if_true]
          at hta A B C S <;> rcases hta with rfl | rfl
        all_goals wall_eval [A, B, C, S, h0.1, h0.2]
  · match t, hl with
    | [x, y, z], _ =>
      obtain rfl | rfl | rfl : a = 0 ∨ a = 1 ∨ a = 2 := by omega
      · cases upper <;> simp only [List.getElem?_cons_zero, List.getElem?_cons_succ,
          Option.some.injEq, wallLayer, nextLayer, Bool.false_eq_true, if_false, if_true]
          at hta A B C S <;> rcases hta with rfl | rfl
        all_goals wall_eval [A, B, C, S]
      · have h0 := off_others hn (b := 0) (by decide) (i := x) rfl
        cases upper <;> simp only [List.getElem?_cons_zero, List.getElem?_cons_succ,
          Option.some.injEq, wallLayer, nextLayer, Bool.false_eq_true, if_false, if_true]
          at hta A B C S <;> rcases hta with rfl | rfl
        all_goals wall_eval [A, B, C, S, h0.1, h0.2]
      · have h0 := off_others hn (b := 0) (by decide) (i := x) rfl
        have h1 := off_others hn (b := 1) (by decide) (i := y) rfl
        cases upper <;> simp only [List.getElem?_cons_zero, List.getElem?_cons_succ,
          Option.some.injEq, wallLayer, nextLayer, Bool.false_eq_true, if_false, if_true]
          at hta A B C S <;> rcases hta with rfl | rfl
        all_goals wall_eval [A, B, C, S, h0.1, h0.2, h1.1, h1.2]

set_option maxHeartbeats 4000000 in
theorem wall_tangential [CharZero K] {c : Cfg} {D : Nat} (hD : D ∈ [1, 2, 3]) {a : Nat}
    (ha : a < D) {upper : Bool} (hw : WallAt c a upper) (M : Mem K) {t : List Int}
    (hl : t.length = D) (hn : OffOthers c a t)
    (hta : t[a]? = some (wallLayer c a upper)) {k : Nat} (hk : k < 3) (hka : k ≠ a) :
    runBody (filterCart c t) (fun l => copyToBuffer M (l.at t)) ⟨1, k, here D⟩ = M ⟨1, k, t⟩ := by
  have A := atWall_wall hw
  have B := atWall_next hw
  have C := nextWall_next hw
  have S := side_wall hw
  simp only [List.mem_cons, List.not_mem_nil, or_false] at hD
  rcases hD with rfl | rfl | rfl
  · match t, hl with
    | [x], _ =>
      obtain rfl : a = 0 := by omega
      · cases upper <;> simp only [List.getElem?_cons_zero, List.getElem?_cons_succ,
          Option.some.injEq, wallLayer, nextLayer, Bool.false_eq_true, if_false, if_true]
          at hta A B C S <;> subst hta
        all_goals
          obtain rfl | rfl : k = 1 ∨ k = 2 := by omega
          all_goals wall_eval [A, B, C, S]
  · match t, hl with
    | [x, y], _ =>
      obtain rfl | rfl : a = 0 ∨ a = 1 := by omega
      · cases upper <;> simp only [List.getElem?_cons_zero, List.getElem?_cons_succ,
          Option.some.injEq, wallLayer, nextLayer, Bool.false_eq_true, if_false, if_true]
          at hta A B C S <;> subst hta
        all_goals
          obtain rfl | rfl : k = 1 ∨ k = 2 := by omega
          all_goals wall_eval [A, B, C, S]
      · have h0 := off_others hn (b := 0) (by decide) (i := x) rfl
        cases upper <;> simp only [List.getElem?_cons_zero, List.getElem?_cons_succ,
          Option.some.injEq, wallLayer, nextLayer, Bool.false_eq_true, if_false, if_true]
          at hta A B C S <;> subst hta
        all_goals
          obtain rfl | rfl : k = 0 ∨ k = 2 := by omega
          all_goals wall_eval [A, B, C, S, h0.1, h0.2]
  · match t, hl with
    | [x, y, z], _ =>
      obtain rfl | rfl | rfl : a = 0 ∨ a = 1 ∨ a = 2 := by omega
      · cases upper <;> simp only [List.getElem?_cons_zero, List.getElem?_cons_succ,
          Option.some.injEq, wallLayer, nextLayer, Bool.false_eq_true, if_false, if_true]
          at hta A B C S <;> subst hta
        all_goals
          obtain rfl | rfl : k = 1 ∨ k = 2 := by omega
          all_goals wall_eval [A, B, C, S]
      · have h0 := off_others hn (b := 0) (by decide) (i := x) rfl
        cases upper <;> simp only [List.getElem?_cons_zero, List.getElem?_cons_succ,
          Option.some.injEq, wallLayer, nextLayer, Bool.false_eq_true, if_false, if_true]
          at hta A B C S <;> subst hta
        all_goals
          obtain rfl | rfl : k = 0 ∨ k = 2 := by omega
          all_goals wall_eval [A, B, C, S, h0.1, h0.2]
      · have h0 := off_others hn (b := 0) (by decide) (i := x) rfl
        have h1 := off_others hn (b := 1) (by decide) (i := y) rfl
        cases upper <;> simp only [List.getElem?_cons_zero, List.getElem?_cons_succ,
          Option.some.injEq, wallLayer, nextLayer, Bool.false_eq_true, if_false, if_true]
          at hta A B C S <;> subst hta
        all_goals
          obtain rfl | rfl : k = 0 ∨ k = 1 := by omega
          all_goals wall_eval [A, B, C, S, h0.1, h0.2, h1.1, h1.2]

set_option maxHeartbeats 4000000 in
theorem wall_next [CharZero K] {c : Cfg} {D : Nat} (hD : D ∈ [1, 2, 3]) {a : Nat}
    (ha : a < D) {upper : Bool} (hw : WallAt c a upper) (M : Mem K) {t : List Int}
    (hl : t.length = D) (hn : OffOthers c a t)
    (hta : t[a]? = some (nextLayer c a upper)) {k : Nat} (hk : k < 3) (hka : k ≠ a) :
    runBody (filterCart c t) (fun l => copyToBuffer M (l.at t)) ⟨1, k, here D⟩ =
      smoothAll D (without a (wallLayer c a upper) fun q => M ⟨1, k, q⟩) t := by
  have A := atWall_wall hw
  have B := atWall_next hw
  have C := nextWall_next hw
  have S := side_wall hw
  simp only [List.mem_cons, List.not_mem_nil, or_false] at hD
  rcases hD with rfl | rfl | rfl
  · match t, hl with
    | [x], _ =>
      obtain rfl : a = 0 := by omega
      · cases upper <;> simp only [List.getElem?_cons_zero, List.getElem?_cons_succ,
          Option.some.injEq, wallLayer, nextLayer, Bool.false_eq_true, if_false, if_true]
          at hta A B C S <;> subst hta
        all_goals
          obtain rfl | rfl : k = 1 ∨ k = 2 := by omega
          all_goals wall_eval [A, B, C, S]
  · match t, hl with
    | [x, y], _ =>
      obtain rfl | rfl : a = 0 ∨ a = 1 := by omega
      · cases upper <;> simp only [List.getElem?_cons_zero, List.getElem?_cons_succ,
          Option.some.injEq, wallLayer, nextLayer, Bool.false_eq_true, if_false, if_true]
          at hta A B C S <;> subst hta
        all_goals
          obtain rfl | rfl : k = 1 ∨ k = 2 := by omega
          all_goals wall_eval [A, B, C, S]
      · have h0 := off_others hn (b := 0) (by decide) (i := x) rfl
        cases upper <;> simp only [List.getElem?_cons_zero, List.getElem?_cons_succ,
          Option.some.injEq, wallLayer, nextLayer, Bool.false_eq_true, if_false, if_true]
          at hta A B C S <;> subst hta
        all_goals
          obtain rfl | rfl : k = 0 ∨ k = 2 := by omega
          all_goals wall_eval [A, B, C, S, h0.1, h0.2]
  · match t, hl with
    | [x, y, z], _ =>
      obtain rfl | rfl | rfl : a = 0 ∨ a = 1 ∨ a = 2 := by omega
      · cases upper <;> simp only [List.getElem?_cons_zero, List.getElem?_cons_succ,
          Option.some.injEq, wallLayer, nextLayer, Bool.false_eq_true, if_false, if_true]
          at hta A B C S <;> subst hta
        all_goals
          obtain rfl | rfl : k = 1 ∨ k = 2 := by omega
          all_goals wall_eval [A, B, C, S]
      · have h0 := off_others hn (b := 0) (by decide) (i := x) rfl
        cases upper <;> simp only [List.getElem?_cons_zero, List.getElem?_cons_succ,
          Option.some.injEq, wallLayer, nextLayer, Bool.false_eq_true, if_false, if_true]
          at hta A B C S <;> subst hta
        all_goals
          obtain rfl | rfl : k = 0 ∨ k = 2 := by omega
          all_goals wall_eval [A, B, C, S, h0.1, h0.2]
      · have h0 := off_others hn (b := 0) (by decide) (i := x) rfl
        have h1 := off_others hn (b := 1) (by decide) (i := y) rfl
        cases upper <;> simp only [List.getElem?_cons_zero, List.getElem?_cons_succ,
          Option.some.injEq, wallLayer, nextLayer, Bool.false_eq_true, if_false, if_true]
          at hta A B C S <;> subst hta
        all_goals
          obtain rfl | rfl : k = 0 ∨ k = 1 := by omega
          all_goals wall_eval [A, B, C, S, h0.1, h0.2, h1.1, h1.2]

end Entity.Filter
