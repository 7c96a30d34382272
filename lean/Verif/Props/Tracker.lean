import Verif.Model.Tracker
import Mathlib.Tactic.Linarith
import Mathlib.Tactic.NormNum

/-!
# Properties C44, C45: when output and checkpoints are written
-/

namespace Entity.Schedule

open Entity Entity.Outcome

/-- The tracker can answer: it has a step interval or a time interval. -/
def Usable (t : Tracker) : Prop := t.initialized = true ∧ (t.useTime = true ∨ 0 < t.interval)

theorem shouldWrite_usable {t : Tracker} (h : Usable t) (q : Query) :
    ∃ b t', shouldWrite t q = .ok (b, t') ∧ Usable t' ∧ t'.useTime = t.useTime ∧
      t'.interval = t.interval ∧ t'.intervalTime = t.intervalTime := by
  obtain ⟨h1, h2⟩ := h
  unfold shouldWrite
  rw [if_neg (by simp [h1])]
  split_ifs with a b c d
  · exact ⟨_, _, rfl, ⟨h1, h2⟩, rfl, rfl, rfl⟩
  · exact ⟨_, _, rfl, ⟨h1, h2⟩, rfl, rfl, rfl⟩
  · exact ⟨_, _, rfl, ⟨h1, h2⟩, rfl, rfl, rfl⟩
  · rcases h2 with h2 | h2
    · exact absurd h2 b
    · omega
  · exact ⟨_, _, rfl, ⟨h1, h2⟩, rfl, rfl, rfl⟩

/-- Every history is answered. -/
theorem ask_usable {t : Tracker} (h : Usable t) (qs : List Query) :
    ∃ out t', ask t qs = .ok (out, t') ∧ out.length = qs.length := by
  induction qs generalizing t with
  | nil => exact ⟨[], t, rfl, rfl⟩
  | cons q qs ih =>
    obtain ⟨b, t1, e1, u1, _⟩ := shouldWrite_usable h q
    obtain ⟨out, t2, e2, l2⟩ := ih u1
    exact ⟨b :: out, t2, by simp [ask, e1, e2], by simp [l2]⟩

theorem ask_cons {t t1 : Tracker} {q : Query} {b : Bool} (h : shouldWrite t q = .ok (b, t1))
    (qs : List Query) : ask t (q :: qs) = (ask t1 qs >>= fun r => .ok (b :: r.1, r.2)) := by
  simp [ask, h]

/-! ## Step intervals -/

/-- **C44 (step interval).** Without wall-clock limit and time interval, the answers to any sequence
of queries are: yes exactly at the multiples of the interval. -/
theorem C44_step_interval {n : Nat} (hn : 0 < n) {T start : ℚ} (hT : T ≤ 0) {t : Tracker}
    (h : init n T [] start = .ok t) (qs : List Query) :
    ∃ t', ask t qs = .ok (qs.map (fun q => decide (n ∣ q.step)), t') := by
  have ht : t = ⟨true, n, T, decide (0 < T), false, 0, -1⟩ := by
    rw [init, if_pos (Or.inl rfl)] at h
    injection h with h
    exact h.symm
  have key : ∀ q, shouldWrite t q = .ok (decide (n ∣ q.step), t) := by
    intro q
    subst ht
    simp only [shouldWrite, Bool.false_eq_true, false_and, if_false, not_lt.2 hT, decide_false,
      reduceCtorEq, hn.ne', Nat.dvd_iff_mod_eq_zero]
    rfl
  refine ⟨t, ?_⟩
  induction qs with
  | nil => rfl
  | cons q qs ih => rw [ask_cons (key q), ih]; rfl

/-! ## Time intervals -/

/-- What the answers of a tracker with a time interval satisfy, with the time of the last output (if
any). -/
theorem ask_time {T : ℚ} (hT : 0 < T) (qs : List Query) :
    ∀ (t : Tracker), t.initialized = true → t.useTime = true → t.intervalTime = T →
    t.pending = false → (∀ q ∈ qs, 0 ≤ q.time) → (qs.Pairwise (fun p q => p.time ≤ q.time)) →
    (t.last < 0 ∨ ∀ q ∈ qs, t.last ≤ q.time) →
    ∃ out t', ask t qs = .ok (out, t') ∧ out.length = qs.length ∧
      (∀ (k : Nat) (hk : k < qs.length), out[k]? = some true → 0 ≤ t.last → T ≤ qs[k].time - t.last) ∧
      (∀ (j k : Nat) (_ : j < k) (hk : k < qs.length), out[j]? = some true → out[k]? = some true →
        T ≤ qs[k].time - qs[j].time) ∧
      (∀ (k : Nat) (hk : k < qs.length), out[k]? = some false →
        (0 ≤ t.last ∧ qs[k].time - t.last < T) ∨
        ∃ (j : Nat) (_ : j < k), out[j]? = some true ∧ qs[k].time - qs[j].time < T) := by
  induction qs with
  | nil =>
    intro t _ _ _ _ _ _ _
    exact ⟨[], t, rfl, rfl, by simp, by simp, by simp⟩
  | cons q qs ih =>
    intro t h1 h2 h3 h4 h5 h6 h7
    have hq0 : 0 ≤ q.time := h5 q (by simp)
    have h5' : ∀ p ∈ qs, 0 ≤ p.time := fun p hp => h5 p (by simp [hp])
    obtain ⟨h6a, h6b⟩ := List.pairwise_cons.1 h6
    by_cases hw : t.last < 0 ∨ T ≤ q.time - t.last
    · have hs : shouldWrite t q = .ok (true, { t with last := q.time }) := by
        simp [shouldWrite, h1, h2, h3, h4, hw]
      obtain ⟨out, t', e, l, a1, a2, a3⟩ := ih { t with last := q.time } h1 h2 h3 h4 h5' h6b
        (.inr fun p hp => h6a p hp)
      refine ⟨true :: out, t', ?_, by simp [l], ?_, ?_, ?_⟩
      · rw [ask_cons hs, e]; rfl
      · intro k hk ho hl
        rcases k with _ | k
        · rcases hw with hw | hw
          · linarith
          · simpa using hw
        · simp only [List.getElem?_cons_succ] at ho
          have := a1 k (by simpa using hk) ho hq0
          simp only [List.getElem_cons_succ]
          rcases hw with hw | hw <;> linarith
      · intro j k hjk hk hj ho
        rcases k with _ | k
        · omega
        simp only [List.getElem?_cons_succ] at ho
        simp only [List.getElem_cons_succ]
        rcases j with _ | j
        · exact a1 k (by simpa using hk) ho hq0
        · exact a2 j k (by omega) (by simpa using hk) (by simpa using hj) ho
      · intro k hk ho
        rcases k with _ | k
        · simp at ho
        simp only [List.getElem?_cons_succ] at ho
        simp only [List.getElem_cons_succ]
        right
        rcases a3 k (by simpa using hk) ho with ⟨_, h⟩ | ⟨j, hj, h, h'⟩
        · exact ⟨0, by omega, by simp, by simpa using h⟩
        · exact ⟨j + 1, by omega, by simpa using h, by simpa using h'⟩
    · have hs : shouldWrite t q = .ok (false, t) := by
        simp [shouldWrite, h1, h2, h3, h4, hw]
      push Not at hw
      obtain ⟨out, t', e, l, a1, a2, a3⟩ := ih t h1 h2 h3 h4 h5' h6b
        (h7.imp id fun h p hp => h p (by simp [hp]))
      refine ⟨false :: out, t', ?_, by simp [l], ?_, ?_, ?_⟩
      · rw [ask_cons hs, e]; rfl
      · intro k hk ho hl
        rcases k with _ | k
        · simp at ho
        exact a1 k (by simpa using hk) (by simpa using ho) hl
      · intro j k hjk hk hj ho
        rcases k with _ | k
        · omega
        rcases j with _ | j
        · simp at hj
        exact a2 j k (by omega) (by simpa using hk) (by simpa using hj) (by simpa using ho)
      · intro k hk ho
        rcases k with _ | k
        · left; simpa using ⟨hw.1, hw.2⟩
        rcases a3 k (by simpa using hk) (by simpa using ho) with h | ⟨j, hj, h, h'⟩
        · left; simpa using h
        · right; exact ⟨j + 1, by omega, by simpa using h, by simpa using h'⟩

/-- **C44 (time interval).** With a time interval `T` and times that do not decrease (starting at any
time from zero on): the first query is answered yes; outputs are at least `T` apart; and an output
happens at the first opportunity, i.e. a query is only answered no if there was an output less than
`T` before. -/
theorem C44_time_interval {n : Nat} {T start : ℚ} (hT : 0 < T) {t : Tracker}
    (h : init n T [] start = .ok t) {qs : List Query} (h0 : ∀ q ∈ qs, 0 ≤ q.time)
    (hm : qs.Pairwise (fun p q => p.time ≤ q.time)) :
    ∃ out t', ask t qs = .ok (out, t') ∧ out.length = qs.length ∧
      (qs ≠ [] → out[0]? = some true) ∧
      (∀ (j k : Nat) (_ : j < k) (hk : k < qs.length), out[j]? = some true → out[k]? = some true →
        T ≤ qs[k].time - qs[j].time) ∧
      (∀ (k : Nat) (hk : k < qs.length), out[k]? = some false →
        ∃ (j : Nat) (_ : j < k), out[j]? = some true ∧ qs[k].time - qs[j].time < T) := by
  have ht : t = ⟨true, n, T, decide (0 < T), false, 0, -1⟩ := by
    rw [init, if_pos (Or.inl rfl)] at h
    injection h with h
    exact h.symm
  obtain ⟨out, t', e, l, _, a2, a3⟩ := ask_time hT qs t (by simp [ht]) (by simp [ht, hT])
    (by simp [ht]) (by simp [ht]) h0 hm (.inl (by simp [ht]))
  have hl : t.last = -1 := by simp [ht]
  refine ⟨out, t', e, l, ?_, a2, ?_⟩
  · intro hq
    have h0 : 0 < qs.length := List.length_pos_iff.2 hq
    have : out[0]? = some out[0] := List.getElem?_eq_getElem (by omega)
    rcases hb : out[0] with _ | _
    · rw [hb] at this
      rcases a3 0 h0 this with ⟨h, _⟩ | ⟨j, hj, _⟩
      · rw [hl] at h; norm_num at h
      · omega
    · rw [hb] at this; exact this
  · intro k hk ho
    rcases a3 k hk ho with ⟨h, _⟩ | h
    · rw [hl] at h; norm_num at h
    · exact h

/-- Step 0.3 and interval 1: outputs at the queries 0, 4, 8. -/
example : (match init 100 1 [] 0 with
    | .ok t => match ask t ((List.range 10).map fun k : Nat => ⟨k, (k : ℚ) * (3/10), 0⟩) with
      | .ok (out, _) => decide (out = [true, false, false, false, true, false, false, false, true, false])
      | _ => false
    | _ => false) = true := by decide +kernel

/-! ## Wall clock -/

theorem mem_takeWhile_imp {α : Type} {p : α → Bool} {l : List α} {x : α} (h : x ∈ l.takeWhile p) :
    p x = true := by
  induction l with
  | nil => simp at h
  | cons a l ih =>
    by_cases ha : p a
    · simp only [List.takeWhile_cons, ha, if_true, List.mem_cons] at h
      rcases h with rfl | h
      · exact ha
      · exact ih h
    · simp [List.takeWhile_cons, ha] at h

theorem dropWhile_head {α : Type} {p : α → Bool} {l r : List α} {x : α} (h : l.dropWhile p = x :: r) :
    p x = false := by
  induction l with
  | nil => simp at h
  | cons a l ih =>
    by_cases ha : p a
    · rw [List.dropWhile_cons_of_pos ha] at h
      exact ih h
    · rw [List.dropWhile_cons_of_neg ha] at h
      injection h with h _
      rw [← h]; simpa using ha

theorem ask_append (t : Tracker) (qs rs : List Query) :
    ask t (qs ++ rs) = (ask t qs >>= fun r => ask r.2 rs >>= fun s => .ok (r.1 ++ s.1, s.2)) := by
  induction qs generalizing t with
  | nil =>
    simp only [List.nil_append, ask, bind_ok]
    cases ask t rs <;> rfl
  | cons q qs ih =>
    simp only [List.cons_append, ask]
    cases shouldWrite t q with
    | ok r =>
      simp only [bind_ok, ih]
      cases ask r.2 qs with
      | ok s =>
        simp only [bind_ok, pure_eq]
        cases ask s.2 rs <;> rfl
      | err => rfl
      | ub => rfl
    | err => rfl
    | ub => rfl

theorem shouldWrite_pending {t : Tracker} {q : Query} (hp : q.now ≤ t.endWall) :
    shouldWrite t q = (shouldWrite { t with pending := false } q >>=
      fun r => .ok (r.1, { r.2 with pending := t.pending })) := by
  unfold shouldWrite
  rw [if_neg (c := t.pending = true ∧ t.endWall < q.now) (fun h => absurd h.2 (not_lt.2 hp)),
    if_neg (c := ({ t with pending := false } : Tracker).pending = true ∧ _) (by simp)]
  obtain ⟨a, b, c, d, e, f, g⟩ := t
  simp only
  split_ifs <;> rfl

theorem shouldWrite_endWall {t t' : Tracker} {q : Query} {b : Bool}
    (h : shouldWrite t q = .ok (b, t')) : t'.endWall = t.endWall := by
  unfold shouldWrite at h
  split_ifs at h <;> simp at h <;> obtain ⟨_, rfl⟩ := h <;> rfl

theorem ask_pending {qs : List Query} : ∀ {t : Tracker}, (∀ q ∈ qs, q.now ≤ t.endWall) →
    ask t qs = (ask { t with pending := false } qs >>=
      fun r => .ok (r.1, { r.2 with pending := t.pending })) := by
  induction qs with
  | nil => intro t _; rfl
  | cons q qs ih =>
    intro t h
    simp only [ask]
    rw [shouldWrite_pending (h q (by simp))]
    rcases hs : shouldWrite { t with pending := false } q with ⟨b, t1⟩ | _ | _
    · simp only [bind_ok]
      have hw : t1.endWall = t.endWall :=
        shouldWrite_endWall (t := { t with pending := false }) hs
      rw [ih (t := { t1 with pending := t.pending }) (fun q hq => by
        show q.now ≤ t1.endWall; rw [hw]; exact h q (by simp [hq]))]
      have hp : ({ t1 with pending := false } : Tracker) = t1 := by
        have : t1.pending = false := by
          unfold shouldWrite at hs
          split_ifs at hs <;> simp at hs <;> obtain ⟨_, rfl⟩ := hs <;> simp_all
        obtain ⟨a, b, c, d, e, f, g⟩ := t1
        simp_all
      show (ask { t1 with pending := false } qs >>= _) >>= _ = _
      rw [hp]
      cases ask t1 qs <;> rfl
    · rfl
    · rfl

/-- **C44 (wall-clock limit).** The wall-clock limit adds exactly one output to the schedule: at the
first query after the limit.  That query is not seen by the regular schedule, so all other answers are
those given without limit to the history without that query; and if no query comes after the limit,
all answers are those given without limit. -/
theorem C44_walltime_once (t : Tracker) (hi : t.initialized = true) (hp : t.pending = true)
    (qs : List Query) :
    (∀ q ∈ qs, q.now ≤ t.endWall) ∧
        (ask t qs >>= fun r => .ok r.1) = (ask { t with pending := false } qs >>= fun r => .ok r.1) ∨
    ∃ pre q post, qs = pre ++ q :: post ∧ (∀ p ∈ pre, p.now ≤ t.endWall) ∧ t.endWall < q.now ∧
      ask t qs = (ask { t with pending := false } (pre ++ post) >>= fun r =>
        .ok (r.1.take pre.length ++ true :: r.1.drop pre.length, r.2)) := by
  by_cases h : ∀ q ∈ qs, q.now ≤ t.endWall
  · left
    refine ⟨h, ?_⟩
    rw [ask_pending h]
    cases ask { t with pending := false } qs <;> rfl
  · right
    push Not at h
    obtain ⟨q0, hq0, hlt⟩ := h
    set P : Query → Bool := fun q => decide (q.now ≤ t.endWall) with hP
    have hsplit := List.takeWhile_append_dropWhile (p := P) (l := qs)
    have hne : qs.dropWhile P ≠ [] := by
      intro e
      rw [e, List.append_nil] at hsplit
      rw [← hsplit] at hq0
      have := mem_takeWhile_imp hq0
      simp only [hP, decide_eq_true_eq] at this
      exact absurd this (not_le.2 hlt)
    obtain ⟨q, post, hqp⟩ := List.exists_cons_of_ne_nil hne
    have hq : t.endWall < q.now := by
      have := dropWhile_head hqp
      simpa [hP] using this
    have hpre : ∀ p ∈ qs.takeWhile P, p.now ≤ t.endWall := fun p hp => by
      simpa [hP] using mem_takeWhile_imp hp
    refine ⟨qs.takeWhile P, q, post, by rw [← hqp, hsplit], hpre, hq, ?_⟩
    generalize hpr : qs.takeWhile P = pre at *
    have : qs = pre ++ q :: post := by rw [← hqp, hsplit]
    rw [this, ask_append, ask_append, ask_pending hpre]
    rcases hA : ask { t with pending := false } pre with ⟨o1, t1⟩ | _ | _
    · simp only [bind_ok]
      have hl : o1.length = pre.length ∧ t1.endWall = t.endWall ∧ t1.initialized = true ∧ t1.pending = false := by
        clear this hpre hsplit hqp hpr
        have : ∀ (pre : List Query) (t t1 : Tracker) (o1 : List Bool), t.initialized = true →
            t.pending = false → ask t pre = .ok (o1, t1) →
            o1.length = pre.length ∧ t1.endWall = t.endWall ∧ t1.initialized = true ∧ t1.pending = false := by
          intro pre
          induction pre with
          | nil =>
            intro t t1 o1 hi hp h
            simp [ask] at h
            obtain ⟨rfl, rfl⟩ := h
            exact ⟨rfl, rfl, hi, hp⟩
          | cons p pre ih =>
            intro t t1 o1 hi hp h
            simp only [ask] at h
            obtain ⟨⟨b, t2⟩, h1, h⟩ := bind_eq_ok.1 h
            obtain ⟨⟨o2, t3⟩, h2, h⟩ := bind_eq_ok.1 h
            simp only [pure_eq, ok.injEq, Prod.mk.injEq] at h
            obtain ⟨rfl, rfl⟩ := h
            have hi2 : t2.initialized = true ∧ t2.pending = false := by
              unfold shouldWrite at h1
              split_ifs at h1 <;> simp at h1 <;> obtain ⟨_, rfl⟩ := h1 <;> simp_all
            obtain ⟨l, w, i, p'⟩ := ih t2 _ _ hi2.1 hi2.2 h2
            exact ⟨by simp [l], w.trans (shouldWrite_endWall h1), i, p'⟩
        exact this pre { t with pending := false } _ _ hi rfl hA
      obtain ⟨hl, hw, hi1, hp1⟩ := hl
      have hs : shouldWrite { t1 with pending := t.pending } q = .ok (true, t1) := by
        obtain ⟨a, b, c, d, e, f, g⟩ := t1
        simp only at hi1 hp1 hw
        subst hi1 hp1 hw
        simp [shouldWrite, hp, hq]
      rw [ask_cons hs]
      rcases ask t1 post with ⟨o2, t2⟩ | _ | _
      · simp [hl.symm]
      · rfl
      · rfl
    · rfl
    · rfl

/-- **C44 (limit format).** A limit "HH:MM:SS" is that many hours, minutes and seconds after the
start; "00:00:00" and the empty string mean no limit, other lengths are rejected. -/
theorem C44_walltime_format (n : Nat) (T start : ℚ) :
    (∀ a b c d e f : Char, a.isDigit → b.isDigit → c.isDigit → d.isDigit → e.isDigit → f.isDigit →
      [a, b, ':', c, d, ':', e, f] ≠ "00:00:00".toList →
      ∃ t, init n T [a, b, ':', c, d, ':', e, f] start = .ok t ∧ t.pending = true ∧
        t.endWall = start + 3600 * digitsVal [a, b] + 60 * digitsVal [c, d] + digitsVal [e, f]) ∧
    (∀ w, (w = [] ∨ w = "00:00:00".toList) → ∃ t, init n T w start = .ok t ∧ t.pending = false) ∧
    (∀ w : List Char, w ≠ [] → w.length ≠ 8 → init n T w start = .err) := by
  have key : ∀ a b : Char, a.isDigit → b.isDigit → stoi [a, b] = .ok (digitsVal [a, b] : Int) := by
    intro a b ha hb
    have dig : ∀ c : Char, c.isDigit → isSpace c = false ∧ c ≠ '-' ∧ c ≠ '+' ∧ c.toNat - '0'.toNat ≤ 9 := by
      intro c hc
      simp only [Char.isDigit, Bool.and_eq_true, decide_eq_true_eq, ge_iff_le] at hc
      have h1 : 48 ≤ c.toNat := UInt32.le_iff_toNat_le.1 hc.1
      have h2 : c.toNat ≤ 57 := UInt32.le_iff_toNat_le.1 hc.2
      refine ⟨?_, ?_, ?_, ?_⟩
      · simp only [isSpace, Bool.or_eq_false_iff, Bool.and_eq_false_iff, beq_eq_false_iff_ne,
          decide_eq_false_iff_not]
        refine ⟨?_, .inr (by omega)⟩
        rintro rfl; revert h1; decide
      · rintro rfl; revert h1; decide
      · rintro rfl; revert h1; decide
      · have : '0'.toNat = 48 := rfl
        omega
    obtain ⟨a1, a2, a3, a4⟩ := dig a ha
    obtain ⟨b1, b2, b3, b4⟩ := dig b hb
    have hv : digitsVal [a, b] ≤ 99 := by simp only [digitsVal, List.foldl_cons, List.foldl_nil]; omega
    unfold stoi
    have e1 : List.dropWhile isSpace [a, b] = [a, b] := by simp [List.dropWhile, a1]
    simp only [e1]
    have e2 : sign [a, b] = (false, [a, b]) := by
      unfold sign
      split
      · rename_i h; simp at h; exact absurd h.1 a2
      · rename_i h; simp at h; exact absurd h.1 a3
      · rfl
    simp only [e2]
    have e3 : List.takeWhile Char.isDigit [a, b] = [a, b] := by simp [List.takeWhile, ha, hb]
    rw [e3]
    rw [if_neg (by simp)]
    rw [if_neg (by simp; omega)]
    simp
  refine ⟨?_, ?_, ?_⟩
  · intro a b c d e f ha hb hc hd he hf hne
    refine ⟨⟨true, n, T, decide (0 < T), true,
      start + 3600 * digitsVal [a, b] + 60 * digitsVal [c, d] + digitsVal [e, f], -1⟩, ?_, rfl, rfl⟩
    unfold init
    rw [if_neg (by rintro (h | h) <;> [simp at h; exact hne h])]
    simp [errorIf, substr, key, ha, hb, hc, hd, he, hf]
  · intro w hw
    exact ⟨_, by unfold init; rw [if_pos hw], rfl⟩
  · intro w h1 h2
    unfold init
    rw [if_neg (by
      rintro (h | h)
      · exact h1 h
      · rw [h] at h2; exact h2 rfl)]
    simp only [errorIf, ne_eq, h2, not_false_eq_true, if_true, bind_err]

example : (match init 100 (-1) "01:30:05".toList 1000 with
    | .ok t => decide (t.pending = true ∧ t.endWall = 6405)
    | _ => false) = true := by decide +kernel

/-! ## C45 -/

/-- **C45 (from the third step on).** A checkpoint that is due after step 2 or later is written.
Missing: the first two steps, where a due checkpoint is dropped for good
(`C45_time_counterexample`, `C45_walltime_counterexample`). -/
theorem C45_due_is_written_partial {t : Tracker} {q : Query} (hq : 2 ≤ q.step) {t' : Tracker}
    (h : shouldWrite t q = .ok (true, t')) : writesCheckpoint true t q = .ok (true, t') := by
  unfold writesCheckpoint
  rw [if_pos rfl, h]
  simp
  omega

example : (match init 10 (-1) [] 0 with
    | .ok t => match writesCheckpoint true t ⟨20, 3, 0⟩ with | .ok (b, _) => b | _ => false
    | _ => false) = true := by decide +kernel

/-- **The first checkpoint due by a time interval is dropped**: it is due at the first step, not
written, and not due at the next steps either, not before a whole interval has passed. -/
theorem C45_time_counterexample : ∃ t0 t1 t2 : Tracker, init 10 1 [] 0 = .ok t0 ∧
    (shouldWrite t0 ⟨0, 0, 0⟩ = .ok (true, t1) ∧ writesCheckpoint true t0 ⟨0, 0, 0⟩ = .ok (false, t1)) ∧
    ∀ (n : Nat) (x w : ℚ), 0 ≤ x → x < 1 → writesCheckpoint true t1 ⟨n, x, w⟩ = .ok (false, t2) := by
  refine ⟨⟨true, 10, 1, true, false, 0, -1⟩, ⟨true, 10, 1, true, false, 0, 0⟩,
    ⟨true, 10, 1, true, false, 0, 0⟩, ?_, ⟨?_, ?_⟩, ?_⟩
  · simp [init]
  · simp [shouldWrite]
  · simp [shouldWrite, writesCheckpoint]
  · intro n x w h0 h1
    simp [shouldWrite, writesCheckpoint, not_le.2 h1]

/-- **A wall-clock checkpoint due in one of the first two steps is never written.** -/
theorem C45_walltime_counterexample : ∃ t0 t1 : Tracker, init 1000 (-1) "00:10:00".toList 0 = .ok t0 ∧
    (shouldWrite t0 ⟨1, 1, 700⟩ = .ok (true, t1) ∧ writesCheckpoint true t0 ⟨1, 1, 700⟩ = .ok (false, t1)) ∧
    ∀ (n : Nat) (x w : ℚ), n % 1000 ≠ 0 → writesCheckpoint true t1 ⟨n, x, w⟩ = .ok (false, t1) := by
  refine ⟨⟨true, 1000, -1, false, true, 600, -1⟩, ⟨true, 1000, -1, false, false, 600, -1⟩, ?_, ⟨?_, ?_⟩, ?_⟩
  · decide +kernel
  · simp [shouldWrite]; norm_num
  · simp [shouldWrite, writesCheckpoint]; norm_num
  · intro n x w h
    simp [shouldWrite, writesCheckpoint, h]

end Entity.Schedule
