import Verif.Model.BoundaryInput
import Mathlib.Tactic.Common
import Mathlib.Data.List.Forall2
import Mathlib.Order.Basic

/-!
# C13: boundary conditions read from the input file
-/

namespace Entity.BoundaryInput

open Entity Entity.Enums

theorem mapAxes_ok {f : List String → Outcome (Nat × Nat)} {bs : List (List String)}
    {r : List (Nat × Nat)} (h : mapAxes f bs = .ok r) :
    List.Forall₂ (fun b x => f b = .ok x) bs r := by
  induction bs generalizing r with
  | nil => simp [mapAxes] at h; subst h; exact .nil
  | cons b bs ih =>
    simp only [mapAxes, Outcome.bind_eq_ok, Outcome.pure_eq, Outcome.ok.injEq] at h
    obtain ⟨x, hx, xs, hxs, rfl⟩ := h
    exact .cons hx (ih hxs)

theorem cartesianAxis_ok {e : EnumTable} {bc : List String} {v w : Nat}
    (h : cartesianAxis e bc = .ok (v, w)) :
    (∃ s, bc = [s] ∧ pick e s = .ok PERIODIC ∧ v = PERIODIC ∧ w = PERIODIC) ∨
    (∃ s t, bc = [s, t] ∧ pick e s = .ok v ∧ pick e t = .ok w ∧ v ≠ PERIODIC ∧ w ≠ PERIODIC) := by
  unfold cartesianAxis at h
  split at h
  · cases h
  · rename_i s
    simp only [Outcome.bind_eq_ok] at h
    obtain ⟨a, ha, h⟩ := h
    split at h
    · cases h
    · rename_i hp
      have : a = PERIODIC := by by_contra hc; exact hp hc
      subst this
      injection h with h; injection h with h1 h2
      exact .inl ⟨s, rfl, ha, h1.symm, h2.symm⟩
  · rename_i s t
    simp only [Outcome.bind_eq_ok] at h
    obtain ⟨a, ha, h⟩ := h
    split at h
    · cases h
    · rename_i hp
      simp only [Outcome.bind_eq_ok] at h
      obtain ⟨b, hb, h⟩ := h
      split at h
      · cases h
      · rename_i hq
        injection h with h; injection h with h1 h2
        subst h1 h2
        exact .inr ⟨s, t, rfl, ha, hb, hp, hq⟩
  · cases h

theorem cartesian_ok {dim : Nat} {flds prtl : List (List String)} {r : Result}
    (h : cartesian dim flds prtl = .ok r) :
    flds.length = dim ∧ prtl.length = dim ∧ 1 ≤ dim ∧ dim ≤ 3 ∧
    atmosphereOnce flds = .ok () ∧ atmosphereOnce prtl = .ok () ∧
    List.Forall₂ (fun b x => cartesianAxis fldsBC b = .ok x) flds r.1 ∧
    List.Forall₂ (fun b x => cartesianAxis prtlBC b = .ok x) prtl r.2 := by
  unfold cartesian at h
  split at h
  · cases h
  simp only [Outcome.bind_eq_ok] at h
  obtain ⟨⟨⟩, ha, h⟩ := h
  split at h
  · cases h
  simp only [Outcome.bind_eq_ok] at h
  obtain ⟨⟨⟩, hb, h⟩ := h
  split at h
  · cases h
  split at h
  · cases h
  simp only [Outcome.bind_eq_ok, Outcome.pure_eq, Outcome.ok.injEq] at h
  obtain ⟨f, hf, p, hp, rfl⟩ := h
  refine ⟨by omega, by omega, by omega, by omega, ha, hb, mapAxes_ok hf, mapAxes_ok hp⟩

/-- How often the value `code` occurs on the boundaries of a list of axes. -/
def occurrences (code : Nat) (axes : List (Nat × Nat)) : Nat :=
  (axes.flatMap (fun x => [x.1, x.2])).count code

theorem atm_count {e : EnumTable} {code : Nat}
    (hcode : ∀ s, pick e s = .ok code → s = "atmosphere") (hne : code ≠ PERIODIC)
    {bs : List (List String)} {r : List (Nat × Nat)}
    (h : List.Forall₂ (fun b x => cartesianAxis e b = .ok x) bs r) :
    occurrences code r ≤ (bs.flatten.filter (· = "atmosphere")).length := by
  induction h with
  | nil => simp [occurrences]
  | @cons b x bs r hx _ ih =>
    obtain ⟨v, w⟩ := x
    simp only [occurrences, List.flatMap_cons, List.count_append, List.flatten_cons,
      List.filter_append, List.length_append] at ih ⊢
    refine Nat.add_le_add ?_ ih
    rcases cartesianAxis_ok hx with ⟨s, rfl, _, rfl, rfl⟩ | ⟨s, t, rfl, hs, ht, _, _⟩
    · simp [Ne.symm hne]
    · have key : ∀ (u : String) (c : Nat), pick e u = .ok c →
          (if c = code then 1 else 0) ≤ (if u = "atmosphere" then 1 else 0) := by
        intro u c hu
        by_cases hc : c = code
        · subst hc
          rw [hcode u hu]; simp
        · simp [hc]
      have h1 := key s v hs
      have h2 := key t w ht
      have e1 : List.count code [v, w] =
          (if w = code then 1 else 0) + (if v = code then 1 else 0) := by
        simp only [List.count_cons, List.count_nil, beq_iff_eq]; omega
      have e2 : (List.filter (fun x => decide (x = "atmosphere")) [s, t]).length =
          (if t = "atmosphere" then 1 else 0) + (if s = "atmosphere" then 1 else 0) := by
        simp only [List.filter_cons, List.filter_nil]
        by_cases a : s = "atmosphere" <;> by_cases b : t = "atmosphere" <;> simp [a, b]
      rw [e1, e2]; omega

theorem pick_eq_atmosphere_flds (s : String) (h : pick fldsBC s = .ok 4) : s = "atmosphere" := by
  simp only [pick, fldsBC, pickFrom] at h
  repeat' split at h
  all_goals first | (symm; assumption) | (simp at h)

theorem pick_eq_atmosphere_prtl (s : String) (h : pick prtlBC s = .ok 3) : s = "atmosphere" := by
  simp only [pick, prtlBC, pickFrom] at h
  repeat' split at h
  all_goals first | (symm; assumption) | (simp at h)

/-- **C13** (partial: the code does not compare fields with particles, see
`C13_fields_particles_counterexample`).  For all lists of strings: if parsing of Cartesian boundary
conditions succeeds then there is one pair of conditions per dimension, for fields and for
particles; each axis is periodic on both sides or on neither; and among the field conditions at
most one boundary is an atmosphere (code 4), likewise among the particle conditions (code 3). -/
theorem C13_two_sided_partial {dim : Nat} {flds prtl : List (List String)} {r : Result}
    (h : cartesian dim flds prtl = .ok r) :
    r.1.length = dim ∧ r.2.length = dim ∧
    (∀ x ∈ r.1, x.1 = PERIODIC ↔ x.2 = PERIODIC) ∧
    (∀ x ∈ r.2, x.1 = PERIODIC ↔ x.2 = PERIODIC) ∧
    occurrences 4 r.1 ≤ 1 ∧ occurrences 3 r.2 ≤ 1 := by
  obtain ⟨hf, hp, _, _, haf, hap, hF, hP⟩ := cartesian_ok h
  have two : ∀ {e : EnumTable} {bs : List (List String)} {r : List (Nat × Nat)},
      List.Forall₂ (fun b x => cartesianAxis e b = .ok x) bs r →
      ∀ x ∈ r, x.1 = PERIODIC ↔ x.2 = PERIODIC := by
    intro e bs r hb
    induction hb with
    | nil => simp
    | @cons b x bs r hx _ ih =>
      intro y hy
      rcases List.mem_cons.mp hy with rfl | hy
      · obtain ⟨v, w⟩ := y
        rcases cartesianAxis_ok hx with ⟨s, _, _, rfl, rfl⟩ | ⟨s, t, _, _, _, a, b⟩
        · simp
        · simp [a, b]
      · exact ih y hy
  have atm : ∀ {bs : List (List String)}, atmosphereOnce bs = .ok () →
      (bs.flatten.filter (· = "atmosphere")).length ≤ 1 := by
    intro bs hb
    unfold atmosphereOnce at hb
    split at hb
    · cases hb
    · omega
  exact ⟨hF.length_eq ▸ hf, hP.length_eq ▸ hp, two hF, two hP,
    Nat.le_trans (atm_count pick_eq_atmosphere_flds (by decide) hF) (atm haf),
    Nat.le_trans (atm_count pick_eq_atmosphere_prtl (by decide) hP) (atm hap)⟩

/-- A case with a periodic axis, walls and an atmosphere is parsed. -/
example : cartesian 2 [["periodic"], ["atmosphere", "match"]] [["periodic"], ["atmosphere", "absorb"]]
    = .ok ([(1, 1), (4, 2)], [(1, 1), (3, 2)]) := by decide

/-- A list naming periodic on one side only, or twice, is rejected. -/
example : cartesian 1 [["periodic", "match"]] [["absorb", "absorb"]] = .err ∧
    cartesian 1 [["periodic", "periodic"]] [["periodic"]] = .err := by decide

/-- **C13 fails** as stated: fields may be periodic along an axis where particles are not. -/
theorem C13_fields_particles_counterexample :
    ∃ flds prtl r, cartesian 1 flds prtl = .ok r ∧
      ∃ x ∈ r.1.zip r.2, x.1.1 = PERIODIC ∧ x.2.1 ≠ PERIODIC :=
  ⟨[["periodic"]], [["absorb", "absorb"]], ([(1, 1)], [(2, 2)]), by decide, by decide⟩

/-- The value that the code reserves for internal boundaries between subdomains, `SYNC`, can be
given in the input file as a condition of the outer boundary. -/
theorem C13_sync_accepted_counterexample :
    ∃ r, cartesian 1 [["sync", "match"]] [["absorb", "absorb"]] = .ok r ∧
      ∃ x ∈ r.1, x.1 = 9 := ⟨([(9, 2)], [(2, 2)]), by decide, by decide⟩

/-- In spherical coordinates with the special-relativistic engine a radial boundary can be made
periodic on one side only. -/
theorem C13_spherical_counterexample :
    ∃ r, sphericalSR 2 [["periodic", "match"]] [["absorb", "absorb"]] = .ok r ∧
      ∃ x ∈ r.1, x.1 = PERIODIC ∧ x.2 ≠ PERIODIC := ⟨([(1, 2), (7, 7)], [(2, 2), (7, 7)]),
        by decide, by decide⟩

/-- For the general-relativistic engine the polar boundaries are the axis, the inner radial
boundary is the horizon and the azimuth is periodic, whatever the input. -/
theorem C13_spherical_gr {dim : Nat} {flds prtl : List (List String)} {r : Result}
    (h : sphericalGR dim flds prtl = .ok r) :
    ∃ a b, (dim = 2 ∧ r = ([(6, a), (7, 7)], [(6, b), (7, 7)])) ∨
      (dim = 3 ∧ r = ([(6, a), (7, 7), (1, 1)], [(6, b), (7, 7), (1, 1)])) := by
  unfold sphericalGR at h
  split at h
  · cases h
  simp only [Outcome.bind_eq_ok] at h
  obtain ⟨_, _, h⟩ := h
  split at h
  · cases h
  simp only [Outcome.bind_eq_ok] at h
  obtain ⟨_, _, h⟩ := h
  split at h
  · cases h
  split at h
  · cases h
  split at h
  · simp only [Outcome.bind_eq_ok] at h
    obtain ⟨a, _, b, _, h⟩ := h
    refine ⟨a, b, ?_⟩
    by_cases h3 : dim = 3
    · subst h3; right; simpa [PERIODIC, eq_comm] using h
    · by_cases h2 : dim = 2
      · subst h2; left; simpa [PERIODIC, eq_comm] using h
      · simp [h3, Ne.symm h2] at h
  · cases h

example : sphericalGR 3 [["match"]] [["absorb"]] =
    .ok ([(6, 2), (7, 7), (1, 1)], [(6, 2), (7, 7), (1, 1)]) := by decide

end Entity.BoundaryInput
