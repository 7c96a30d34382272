import Verif.Spec.OutputInput
import Mathlib.Tactic.Linarith

/-!
# Lemmas about the output parameters
-/

namespace Entity.OutIn

open Entity Entity.Outcome Entity.Schedule

/-- A tracker follows a schedule; `l` is the time of the last output. -/
def Tr (s : Sched) (l : Option ℚ) (t : Tracker) : Prop :=
  t.initialized = true ∧ t.pending = false ∧
  match s with
  | .every n => t.useTime = false ∧ t.interval = n ∧ n ≠ 0
  | .after T => t.useTime = true ∧ t.intervalTime = T ∧
    match l with
    | none => t.last < 0
    | some x => 0 ≤ x ∧ t.last = x

theorem tr_step {s : Sched} {l : Option ℚ} {t : Tracker} (h : Tr s l t) (q : Query) (hq : 0 ≤ q.time) :
    ∃ b l' t', shouldWrite t q = .ok (b, t') ∧ Tr s l' t' ∧
      ∀ qs, answers s l (q :: qs) = b :: answers s l' qs := by
  obtain ⟨h1, h2, h3⟩ := h
  cases s with
  | every n =>
    obtain ⟨h3, h4, h5⟩ := h3
    refine ⟨decide (n ∣ q.step), l, t, ?_, ⟨h1, h2, h3, h4, h5⟩, fun qs => rfl⟩
    simp only [shouldWrite, h1, h2, h3, h4, h5, Bool.true_eq_false, Bool.false_eq_true, false_and, if_false,
      Nat.dvd_iff_mod_eq_zero]
    rfl
  | after T =>
    obtain ⟨h3, h4, h5⟩ := h3
    cases l with
    | none =>
      refine ⟨true, some q.time, { t with last := q.time }, ?_, ⟨h1, h2, h3, h4, hq, rfl⟩, fun qs => rfl⟩
      simp only [shouldWrite, h1, h2, h3, Bool.true_eq_false, Bool.false_eq_true, false_and, if_false, if_true,
        h5, true_or]
    | some x =>
      obtain ⟨h5, h6⟩ := h5
      have h7 : ¬ t.last < 0 := by rw [h6]; linarith
      by_cases c : T ≤ q.time - x
      · refine ⟨true, some q.time, { t with last := q.time }, ?_, ⟨h1, h2, h3, h4, hq, rfl⟩, fun qs => ?_⟩
        · simp only [shouldWrite, h1, h2, h3, h4, h6, Bool.true_eq_false, Bool.false_eq_true, false_and,
            if_false, if_true, c, or_true]
        · simp only [answers, if_pos c]
      · refine ⟨false, some x, t, ?_, ⟨h1, h2, h3, h4, h5, h6⟩, fun qs => ?_⟩
        · rw [h6] at h7
          simp only [shouldWrite, h1, h2, h3, h4, h6, Bool.true_eq_false, Bool.false_eq_true, false_and,
            if_false, if_true, c, h7, or_self]
        · simp only [answers, if_neg c]

/-- The tracker made from a schedule. -/
theorem tr_init {n : Nat} {T start : ℚ} {t : Tracker} (h : init n T [] start = .ok t)
    (h0 : schedOf n T ≠ .every 0) : Tr (schedOf n T) none t := by
  have ht : t = ⟨true, n, T, decide (0 < T), false, 0, -1⟩ := by
    rw [init, if_pos (Or.inl rfl)] at h
    injection h with h
    exact h.symm
  subst ht
  refine ⟨rfl, rfl, ?_⟩
  by_cases c : 0 < T
  · rw [schedOf, if_pos c]
    exact ⟨decide_eq_true c, rfl, show (-1 : ℚ) < 0 by norm_num⟩
  · rw [schedOf, if_neg c] at h0 ⊢
    exact ⟨decide_eq_false c, rfl, fun e => h0 (by rw [e])⟩

/-- One kind of output. -/
theorem due_step {w : Writer} {c : Cat} {s : Cat → Sched} {l : Cat → Option ℚ}
    (h : ∀ c, c ≠ .stats → (w.prm c).enable = true → Tr (s c) (l c) (w.tracker c)) (hc : c ≠ .stats)
    (q : Query) (hq : 0 ≤ q.time) :
    ∃ (b : Bool) (w' : Writer) (l' : Cat → Option ℚ), due w c q = .ok (b, w') ∧ w'.prm = w.prm ∧ w'.format = w.format ∧
      (∀ c, c ≠ .stats → (w.prm c).enable = true → Tr (s c) (l' c) (w'.tracker c)) ∧
      (∀ c', c' ≠ c → l' c' = l c') ∧
      (b = true → (w.prm c).enable = true) ∧
      (((w.prm c).enable = true) → ∀ qs, answers (s c) (l c) (q :: qs) = b :: answers (s c) (l' c) qs) := by
  by_cases he : (w.prm c).enable = true
  · obtain ⟨b, lc, t', e1, e2, e3⟩ := tr_step (h c hc he) q hq
    refine ⟨b, { w with tracker := fun c' => if c' = c then t' else w.tracker c' },
      fun c' => if c' = c then lc else l c', ?_, rfl, rfl, ?_, ?_, fun _ => he, ?_⟩
    · unfold due
      rw [if_pos he, e1]
      rfl
    · intro c' h1 h2
      by_cases hcc : c' = c
      · subst hcc
        simpa using e2
      · simpa [hcc] using h c' h1 h2
    · intro c' hcc
      simp [hcc]
    · intro _ qs
      simpa using e3 qs
  · refine ⟨false, w, l, ?_, rfl, rfl, h, fun _ _ => rfl, fun hb => by simp at hb, fun hb => absurd hb he⟩
    unfold due
    rw [if_neg he]

/-- All steps. -/
theorem writes_steps (qs : List Query) (hq : ∀ q ∈ qs, 0 ≤ q.time) (s : Cat → Sched) :
    ∀ (w : Writer) (l : Cat → Option ℚ), w.format ≠ "disabled" →
    (∀ c, c ≠ .stats → (w.prm c).enable = true → Tr (s c) (l c) (w.tracker c)) →
    ∃ out, writes w qs = .ok out ∧
      (∀ c, c ≠ .stats → out.map (fun r => decide (c ∈ r.1)) =
        (answers (s c) (l c) qs).map ((w.prm c).enable && ·)) ∧
      (∀ r ∈ out, .stats ∉ r.1 ∧ r.1.Nodup ∧ (r.2 = true ↔ r.1 ≠ [])) := by
  induction qs with
  | nil =>
    intro w l _ _
    refine ⟨[], rfl, fun c _ => ?_, by simp⟩
    cases s c <;> cases l c <;> rfl
  | cons q qs ih =>
    intro w l hf h
    have hq0 := hq q (by simp)
    obtain ⟨f, w1, l1, a1, a2, a3, a4, a5, a6, a7⟩ := due_step h (c := .fields) (by simp) q hq0
    have h1 : ∀ c, c ≠ .stats → (w1.prm c).enable = true → Tr (s c) (l1 c) (w1.tracker c) := by
      rw [a2]; exact a4
    obtain ⟨p, w2, l2, b1, b2, b3, b4, b5, b6, b7⟩ := due_step h1 (c := .particles) (by simp) q hq0
    have h2 : ∀ c, c ≠ .stats → (w2.prm c).enable = true → Tr (s c) (l2 c) (w2.tracker c) := by
      rw [b2]; exact b4
    obtain ⟨e, w3, l3, c1, c2, c3, c4, c5, c6, c7⟩ := due_step h2 (c := .spectra) (by simp) q hq0
    have h3 : ∀ c, c ≠ .stats → (w3.prm c).enable = true → Tr (s c) (l3 c) (w3.tracker c) := by
      rw [c2]; exact c4
    have hp : w3.prm = w.prm := by rw [c2, b2, a2]
    have hfmt : w3.format ≠ "disabled" := by rw [c3, b3, a3]; exact hf
    obtain ⟨out, o1, o2, o3⟩ := ih (fun q h => hq q (by simp [h])) w3 l3 hfmt h3
    rw [hp] at o2
    rw [b2, a2] at c6 c7
    rw [a2] at b6 b7
    have hw : ∃ r, write w q = .ok (r, w3) ∧ r.1 = (if f then [Cat.fields] else []) ++
        (if p then [Cat.particles] else []) ++ (if e then [Cat.spectra] else []) ∧
        (r.2 = true ↔ r.1 ≠ []) := by
      unfold write
      simp only [a1, bind_ok, b1, c1]
      cases f <;> cases p <;> cases e <;> simp [hfmt, pure_eq]
    obtain ⟨r, r1, r2, r3⟩ := hw
    refine ⟨r :: out, ?_, ?_, ?_⟩
    · unfold writes
      rw [r1, bind_ok]
      simp only [o1, bind_ok, pure_eq]
    · have key : ∀ (c : Cat) (b : Bool), decide (c ∈ r.1) = b → (b = true → (w.prm c).enable = true) →
          ((w.prm c).enable = true → ∀ qs, answers (s c) (l c) (q :: qs) = b :: answers (s c) (l3 c) qs) →
          c ≠ .stats →
          decide (c ∈ r.1) :: out.map (fun r => decide (c ∈ r.1)) =
            (answers (s c) (l c) (q :: qs)).map ((w.prm c).enable && ·) := by
        intro c b k1 k2 k3 k4
        by_cases he : (w.prm c).enable = true
        · rw [k3 he qs, k1, o2 c k4]
          simp [he]
        · have hb : b = false := by
            cases b
            · rfl
            · exact absurd (k2 rfl) he
          have he' : (w.prm c).enable = false := by simpa using he
          rw [k1, o2 c k4, hb]
          simp only [he', Bool.false_and]
          have len : ∀ (s : Sched) (l : Option ℚ) (qs : List Query), (answers s l qs).length = qs.length := by
            intro s l qs
            induction qs generalizing l with
            | nil => cases s <;> cases l <;> rfl
            | cons q qs ih =>
              cases s <;> cases l <;> simp only [answers, List.length_cons, ih]
              split <;> simp [ih]
          rw [List.map_const', List.map_const', len, len]
          simp [List.replicate_succ]
      intro c hc
      rw [List.map_cons]
      cases c with
      | fields =>
        refine key _ f ?_ a6 (fun he qs => ?_) hc
        · rw [r2]; cases f <;> cases p <;> cases e <;> simp
        · rw [c5 .fields (by simp), b5 .fields (by simp)]; exact a7 he qs
      | particles =>
        refine key _ p ?_ b6 (fun he qs => ?_) hc
        · rw [r2]; cases f <;> cases p <;> cases e <;> simp
        · rw [c5 .particles (by simp), ← a5 .particles (by simp)]; exact b7 he qs
      | spectra =>
        refine key _ e ?_ c6 (fun he qs => ?_) hc
        · rw [r2]; cases f <;> cases p <;> cases e <;> simp
        · rw [← a5 .spectra (by simp), ← b5 .spectra (by simp)]; exact c7 he qs
      | stats => exact absurd rfl hc
    · intro r' hr
      rcases List.mem_cons.1 hr with rfl | hr
      · refine ⟨?_, ?_, r3⟩ <;> rw [r2] <;> cases f <;> cases p <;> cases e <;> simp
      · exact o3 r' hr

end Entity.OutIn
