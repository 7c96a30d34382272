import Verif.Props.Inject

/-!
# C57: the columns that the user gives are those that are injected
-/

namespace Entity.Inject

open Entity Entity.Prtl

variable {K : Type} [Field K] [LinearOrder K] [IsStrictOrderedRing K]

theorem copyFromVector_ok {data : Col → Option (List K)} {n : Nat} {c : Col} {v : List K} :
    copyFromVector data n c = .ok v ↔ data c = some v ∧ v.length = n := by
  unfold copyFromVector
  cases h : data c with
  | none => simp
  | some w =>
    by_cases hw : w.length = n
    · simp only [Outcome.errorIf, hw, ne_eq, not_true_eq_false, decide_false]
      show (Outcome.ok w = Outcome.ok v) ↔ _
      constructor
      · intro e; cases e; exact ⟨rfl, hw⟩
      · rintro ⟨e, _⟩; cases e; rfl
    · simp only [Outcome.errorIf, hw, ne_eq, not_false_eq_true, decide_true]
      constructor
      · intro e; cases e
      · rintro ⟨e, h'⟩; cases e; exact absurd h' hw

theorem bind_ok_iff {α β : Type} {x : Outcome α} {f : α → Outcome β} {b : β} :
    (x >>= f) = .ok b ↔ ∃ a, x = .ok a ∧ f a = .ok b := by
  cases x with
  | ok a => exact ⟨fun h => ⟨a, rfl, h⟩, fun ⟨_, h, h'⟩ => by cases h; exact h'⟩
  | err => exact ⟨fun h => (by cases h), fun ⟨_, h, _⟩ => by cases h⟩
  | ub => exact ⟨fun h => (by cases h), fun ⟨_, h, _⟩ => by cases h⟩

theorem mapM_cols {data : Col → Option (List K)} {n : Nat} (l : List Col) {x : List (List K)} :
    l.mapM (copyFromVector data n) = .ok x ↔
      List.Forall₂ (fun c v => data c = some v ∧ v.length = n) l x := by
  induction l generalizing x with
  | nil =>
    rw [List.mapM_nil, List.forall₂_nil_left_iff]
    exact ⟨fun h => by cases h; rfl, fun h => by rw [h]; rfl⟩
  | cons c l ih =>
    rw [List.mapM_cons, bind_ok_iff, List.forall₂_cons_left_iff]
    constructor
    · rintro ⟨v, hv, h⟩
      obtain ⟨w, hw, h⟩ := bind_ok_iff.1 h
      cases h
      exact ⟨v, w, copyFromVector_ok.1 hv, ih.1 hw, rfl⟩
    · rintro ⟨v, w, hv, hw, rfl⟩
      exact ⟨v, copyFromVector_ok.2 hv, bind_ok_iff.2 ⟨w, ih.2 hw, rfl⟩⟩

/-- **C57, columns.**  In 1, 2 and 3 dimensions a list is accepted only if it gives positions along all axes
and all three velocities, as many as there are first coordinates, and likewise the angle where there is one
and weights where they are used; particle `p` then has the `p`-th entry of every column. -/
theorem C57_columns (k : Kind) (h3 : k.D ≤ 3) (data : Col → Option (List K))
    (useWeights : Bool) (dt : GData K) (h : globalData k data useWeights = .ok dt) :
    data .ux1 = some dt.ux1 ∧ data .ux2 = some dt.ux2 ∧ data .ux3 = some dt.ux3 ∧
    dt.ux2.length = dt.ux1.length ∧ dt.ux3.length = dt.ux1.length ∧
    (k.hasPhi = true → data .phi = some dt.phi ∧ dt.phi.length = dt.ux1.length) ∧
    (useWeights = true → data .weights = some dt.wei ∧ dt.wei.length = dt.ux1.length) ∧
    ∀ a (ha : a < k.D), ∃ col, data ([Col.x1, Col.x2, Col.x3][a]'(by simp; omega)) = some col ∧
      col.length = dt.ux1.length ∧ ∀ p, dt.pos p a = col.getD p 0 := by
  unfold globalData at h
  obtain ⟨x1, e0, h⟩ := bind_ok_iff.1 h
  obtain ⟨x, ex, h⟩ := bind_ok_iff.1 h
  obtain ⟨u1, e1, h⟩ := bind_ok_iff.1 h
  obtain ⟨u2, e2, h⟩ := bind_ok_iff.1 h
  obtain ⟨u3, e3, h⟩ := bind_ok_iff.1 h
  obtain ⟨w, ew, h⟩ := bind_ok_iff.1 h
  obtain ⟨f, ef, h⟩ := bind_ok_iff.1 h
  cases h
  have e1 := copyFromVector_ok.1 e1
  have e2 := copyFromVector_ok.1 e2
  have e3 := copyFromVector_ok.1 e3
  refine ⟨e1.1, e2.1, e3.1, by rw [e2.2, e1.2], by rw [e3.2, e1.2], fun hp => ?_, fun hw => ?_, ?_⟩
  · rw [copyIf, if_pos hp] at ef
    have := copyFromVector_ok.1 ef
    exact ⟨this.1, by rw [this.2, e1.2]⟩
  · rw [copyIf, if_pos hw] at ew
    have := copyFromVector_ok.1 ew
    exact ⟨this.1, by rw [this.2, e1.2]⟩
  · intro a ha
    have hF := (mapM_cols _).1 ex
    have hl : x.length = k.D := by
      rw [← hF.length_eq, posCols, List.length_take]; simp; omega
    have hc : a < (posCols k.D).length := by rw [hF.length_eq, hl]; exact ha
    have := List.forall₂_iff_get.1 hF
    have := this.2 a hc (by rw [hl]; exact ha)
    refine ⟨x[a]'(by rw [hl]; exact ha), ?_, by rw [e1.2]; exact this.2, fun p => ?_⟩
    · refine Eq.trans ?_ this.1
      congr 1
      simp [posCols]
    · unfold GData.pos
      rw [show x.getD a [] = x[a]'(by rw [hl]; exact ha) by
        simp [hl, ha]]

/-- Non-vacuity: two particles in two dimensions. -/
example : ∃ dt, globalData ⟨2, false, 0, 0⟩ (fun c => match c with
      | .phi => none
      | .weights => some [5]
      | _ => some [(1 : ℚ), 2]) false = .ok dt ∧ dt.pos 1 1 = 2 := ⟨_, rfl, rfl⟩

end Entity.Inject
