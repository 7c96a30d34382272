import Verif.Model.Tags
import Verif.Lemmas.Tensor

/-!
# C07 direction tables, C08 send tags, C09 axis and sign of a direction, C10 associated faces
-/

namespace Entity.Dir

open Entity

/-! ## C07 -/

/-- Specification: the vectors with `D` entries in {-1, 0, 1}, not all zero. -/
def IsDirection (D : Nat) (d : Direction) : Prop :=
  d.length = D ∧ (∀ x ∈ d, x = -1 ∨ x = 0 ∨ x = 1) ∧ ∃ x ∈ d, x ≠ 0

/-- Specification: exactly one non-zero entry. -/
def IsAxisAligned (d : Direction) : Prop := d.countP (fun x => x ≠ 0) = 1

/-- all sign vectors of length `D` -/
def signVectors (D : Nat) : List Direction := Decomp.tensorProduct (List.replicate D [-1, 0, 1])

theorem mem_signVectors (D : Nat) (d : Direction) :
    d ∈ signVectors D ↔ d.length = D ∧ ∀ x ∈ d, x = -1 ∨ x = 0 ∨ x = 1 := by
  rw [signVectors, Decomp.mem_tp]
  induction d generalizing D with
  | nil => cases D <;> simp [List.replicate_succ]
  | cons x xs ih =>
    cases D with
    | zero => simp
    | succ D => simp [List.replicate_succ, ih]; tauto

theorem tables_finite : ∀ D, 1 ≤ D → D ≤ 3 →
    (∀ d ∈ signVectors D, (d ∈ allDirs D ↔ d.any (fun x => x ≠ 0) = true) ∧
      (d ∈ orthDirs D ↔ d ∈ allDirs D ∧ d.countP (fun x => x ≠ 0) = 1) ∧
      (d ∈ allDirs D → ((d ∈ uniqueDirs D) ↔ ¬ (neg d ∈ uniqueDirs D)))) ∧
    (∀ d ∈ allDirs D ++ orthDirs D ++ uniqueDirs D, d ∈ signVectors D ∧ neg d ∈ allDirs D ∧
      d ∈ allDirs D) ∧
    (allDirs D).Nodup ∧ (orthDirs D).Nodup ∧ (uniqueDirs D).Nodup := by
  intro D h1 h2
  obtain rfl | rfl | rfl : D = 1 ∨ D = 2 ∨ D = 3 := by omega
  all_goals decide +kernel

/-- **C07.** In 1, 2 and 3 dimensions: the table of directions contains exactly the non-zero sign
vectors, without repetition; it is closed under reversal; the table of faces contains exactly the
directions with one non-zero entry, without repetition; the "unique" table contains exactly one
of each pair of opposite directions, without repetition. -/
theorem C07_direction_tables (D : Nat) (h1 : 1 ≤ D) (h2 : D ≤ 3) :
    (∀ d, d ∈ allDirs D ↔ IsDirection D d) ∧ (allDirs D).Nodup ∧
    (∀ d, d ∈ allDirs D → neg d ∈ allDirs D) ∧
    (∀ d, d ∈ orthDirs D ↔ IsDirection D d ∧ IsAxisAligned d) ∧ (orthDirs D).Nodup ∧
    (∀ d, IsDirection D d → (d ∈ uniqueDirs D ↔ neg d ∉ uniqueDirs D)) ∧
    (∀ d, d ∈ uniqueDirs D → IsDirection D d) ∧ (uniqueDirs D).Nodup := by
  obtain ⟨ha, hb, hc, hd, he⟩ := tables_finite D h1 h2
  have hall : ∀ d, d ∈ allDirs D ↔ IsDirection D d := by
    intro d
    constructor
    · intro h
      have hs := (hb d (by simp [h])).1
      have hn := ((ha d hs).1).1 h
      obtain ⟨hl, hsg⟩ := (mem_signVectors D d).1 hs
      exact ⟨hl, hsg, by simpa [List.any_eq_true] using hn⟩
    · rintro ⟨hl, hsg, hn⟩
      exact ((ha d ((mem_signVectors D d).2 ⟨hl, hsg⟩)).1).2 (by simpa [List.any_eq_true] using hn)
  refine ⟨hall, hc, fun d h => (hb d (by simp [h])).2.1, ?_, hd, ?_, ?_, he⟩
  · intro d
    rw [← hall]
    constructor
    · intro h
      have hs := (hb d (by simp [h])).1
      exact ((ha d hs).2.1).1 h
    · rintro ⟨h, h'⟩
      have hs := (hb d (by simp [h])).1
      exact ((ha d hs).2.1).2 ⟨h, h'⟩
  · intro d hdir
    have h := (hall d).2 hdir
    have hs := (hb d (by simp [h])).1
    exact (ha d hs).2.2 h
  · intro d h
    rw [← hall]
    exact (hb d (by simp [h])).2.2

example : IsDirection 3 [-1, 0, 1] ∧ [-1, 0, 1] ∈ allDirs 3 ∧ [-1, 0, 1] ∉ orthDirs 3 := by
  refine ⟨⟨rfl, by decide, by decide⟩, by decide, by decide⟩

/-! ## C09 -/

theorem getSignLoop_nonzero (s : Int) (hs : s ≠ 0) (d : Direction) :
    getSignLoop s d = if d.countP (fun x => x ≠ 0) = 0 then .ok s else .err := by
  induction d with
  | nil => simp [getSignLoop]
  | cons x xs ih =>
    simp only [getSignLoop]
    by_cases hx : x = 0
    · simp [hx, ih]
    · simp [hx, hs]

theorem getSign_spec (d : Direction) :
    (d.countP (fun x => x ≠ 0) = 1 → ∃ v ∈ d, v ≠ 0 ∧ getSign d = .ok v) ∧
    (d.countP (fun x => x ≠ 0) ≠ 1 → getSign d = .err) := by
  induction d with
  | nil => simp [getSign, getSignLoop]
  | cons x xs ih =>
    by_cases hx : x = 0
    · subst hx
      have e : getSign (0 :: xs) = getSign xs := by simp [getSign, getSignLoop]
      simp only [e]
      simpa using ih
    · have e : getSign (x :: xs) =
          if xs.countP (fun x => x ≠ 0) = 0 then .ok x else .err := by
        rw [getSign, getSignLoop, if_pos hx, if_neg (by simp), getSignLoop_nonzero x hx]
        split <;> simp [hx]
      rw [e, List.countP_cons_of_pos (by simpa using hx)]
      generalize xs.countP (fun x => x ≠ 0) = c
      constructor
      · intro hc
        exact ⟨x, by simp, hx, by rw [if_pos (by omega)]⟩
      · intro hc
        rw [if_neg (by omega)]

/-- **C09 (sign).** For direction vectors of any length: asking for the sign returns the unique
non-zero entry if there is exactly one, and raises an error otherwise. -/
theorem C09_get_sign (d : Direction) :
    (IsAxisAligned d → ∃ v ∈ d, v ≠ 0 ∧ getSign d = .ok v) ∧
    (¬ IsAxisAligned d → getSign d = .err) := getSign_spec d

theorem getDimLoop_pos (k : Int) (hk : 0 < k) (i : Int) (d : Direction) :
    getDimLoop k i d = if d.countP (fun x => x ≠ 0) = 0 then .ok k else .err := by
  induction d generalizing i with
  | nil => simp [getDimLoop]
  | cons x xs ih =>
    simp only [getDimLoop]
    by_cases hx : x = 0
    · simp [hx, ih]
    · simp [hx, hk]

/-- **C09 (axis, partial).** In 1, 2 and 3 dimensions: asking an axis-aligned direction for its axis
returns the axis `a` of the unique non-zero entry.  Missing for the full statement: the error for
every diagonal direction, see `C09_get_dim_counterexample`. -/
theorem C09_get_dim_partial (D : Nat) (h1 : 1 ≤ D) (h2 : D ≤ 3) (d : Direction)
    (hd : IsDirection D d) (ha : IsAxisAligned d) :
    ∃ a, getDim d = .ok a ∧ ∃ v, d[a]? = some v ∧ v ≠ 0 := by
  have hm := ((C07_direction_tables D h1 h2).2.2.2.1 d).2 ⟨hd, ha⟩
  have key : ∀ D, 1 ≤ D → D ≤ 3 → ∀ d ∈ orthDirs D,
      ∃ a ∈ [0, 1, 2], getDim d = .ok a ∧ d[a]? ≠ none ∧ d[a]? ≠ some 0 := by
    intro D h1 h2
    obtain rfl | rfl | rfl : D = 1 ∨ D = 2 ∨ D = 3 := by omega
    all_goals decide +kernel
  obtain ⟨a, _, h, hn, hz⟩ := key D h1 h2 d hm
  obtain ⟨v, hv⟩ := Option.ne_none_iff_exists'.1 hn
  exact ⟨a, h, v, hv, by rintro rfl; exact hz hv⟩

/-- **C09 (axis) holds for the diagonals that do not involve x1:** the code does raise when two
non-zero entries both lie beyond the first axis. -/
theorem C09_get_dim_rejects_beyond_x1 (x : Int) (xs : Direction) (hx : x = 0)
    (h : 2 ≤ xs.countP (fun x => x ≠ 0)) : getDim (x :: xs) = .err := by
  subst hx
  have key : ∀ (i : Int), 1 ≤ i → getDimLoop (-1) i xs = .err := by
    induction xs with
    | nil => simp at h
    | cons y ys ih =>
      intro i hi
      simp only [getDimLoop]
      by_cases hy : y = 0
      · subst hy
        simp only [ne_eq, not_true_eq_false, if_false]
        exact ih (by simpa using h) (i + 1) (by omega)
      · simp only [ne_eq, hy, not_false_eq_true, if_true]
        rw [if_neg (by omega), getDimLoop_pos i (by omega), if_neg]
        rw [List.countP_cons_of_pos (by simpa using hy)] at h
        omega
  simp [getDim, getDimLoop, key 1 (by omega)]

/-- **C09 fails for `get_dim`:** the diagonal direction {1, 1} is accepted and reported as x2,
because the check compares the index of the axis found so far with `> 0` instead of `>= 0`
(directions.h:110). -/
theorem C09_get_dim_counterexample :
    IsDirection 2 [1, 1] ∧ ¬ IsAxisAligned [1, 1] ∧ getDim [1, 1] = .ok 1 := by
  refine ⟨⟨rfl, by decide, by decide⟩, ?_, by decide⟩
  unfold IsAxisAligned; decide

example : IsAxisAligned [0, -1, 0] ∧ getSign [0, -1, 0] = .ok (-1) ∧ getDim [0, -1, 0] = .ok 1 ∧
    getSign [1, -1, 0] = .err ∧ getDim [0, -1, 1] = .err := by
  refine ⟨?_, by decide, by decide, by decide, by decide⟩
  unfold IsAxisAligned; decide

/-! ## C10 -/

/-- Sum of vectors of length `n`, entry by entry. -/
def vecSum (n : Nat) (l : List Direction) : Direction :=
  l.foldr (fun a b => List.zipWith (· + ·) a b) (List.replicate n 0)

theorem assocOrthFrom_spec (pre : Nat) (d : Direction) :
    assocOrthFrom (pre + d.length) pre d =
      ((List.range d.length).filter (fun i => d[i]? ≠ some 0)).map
        (fun i => List.replicate (pre + i) 0 ++ (d[i]?.getD 0) ::
          List.replicate (d.length - 1 - i) 0) := by
  induction d generalizing pre with
  | nil => simp [assocOrthFrom]
  | cons x xs ih =>
    have hu : unit (pre + (xs.length + 1)) pre x =
        List.replicate pre 0 ++ x :: List.replicate xs.length 0 := by
      unfold unit
      rw [List.replicate_add, List.set_append]
      simp [List.replicate_succ]
    have ih' := ih (pre + 1)
    rw [show pre + 1 + xs.length = pre + (xs.length + 1) by omega] at ih'
    simp only [assocOrthFrom, List.length_cons]
    rw [List.range_succ_eq_map, List.filter_cons, List.filter_map, ih']
    have e : ∀ i ∈ List.filter (fun i => decide (xs[i]? ≠ some 0)) (List.range xs.length),
        List.replicate (pre + 1 + i) (0 : Int) ++ (xs[i]?.getD 0) ::
          List.replicate (xs.length - 1 - i) 0 =
        List.replicate (pre + (i + 1)) 0 ++ ((x :: xs)[i + 1]?.getD 0) ::
          List.replicate (xs.length + 1 - 1 - (i + 1)) 0 := by
      intro i hi
      simp only [List.mem_filter, List.mem_range] at hi
      rw [show pre + 1 + i = pre + (i + 1) by omega,
        show xs.length + 1 - 1 - (i + 1) = xs.length - 1 - i by omega]
      simp
    by_cases hx : x = 0
    · subst hx
      simp only [ne_eq, not_true_eq_false, if_false]
      simp only [List.getElem?_cons_zero, not_true_eq_false, decide_false, Bool.false_eq_true,
        if_false, List.map_map]
      exact List.map_congr_left e
    · simp only [hx, ne_eq, not_false_eq_true, if_true, hu]
      simp only [List.getElem?_cons_zero, Option.some.injEq, hx, not_false_eq_true, decide_true,
        if_true, List.map_cons, List.map_map, List.cons.injEq]
      refine ⟨by simp, ?_⟩
      exact List.map_congr_left e

theorem vecSum_cons_zero (n : Nat) (l : List Direction) :
    vecSum (n + 1) (l.map (fun t => 0 :: t)) = 0 :: vecSum n l := by
  induction l with
  | nil => simp [vecSum, List.replicate_succ]
  | cons a l ih =>
    simp only [vecSum, List.map_cons, List.foldr_cons] at ih ⊢
    rw [ih]; simp

theorem assocOrthFrom_shift (size pre : Nat) (d : Direction) :
    assocOrthFrom (size + 1) (pre + 1) d = (assocOrthFrom size pre d).map (fun t => 0 :: t) := by
  induction d generalizing pre with
  | nil => rfl
  | cons x xs ih =>
    simp only [assocOrthFrom]
    split
    · simp only [List.map_cons, ih, List.cons.injEq, and_true]
      simp [unit, List.replicate_succ]
    · exact ih _

theorem zipWith_zeros (d : Direction) :
    List.zipWith (· + ·) (List.replicate d.length 0) d = d := by
  induction d with
  | nil => rfl
  | cons x xs ih => simp [List.replicate_succ, ih]

theorem vecSum_length {n : Nat} {l : List Direction} (h : ∀ a ∈ l, a.length = n) :
    (vecSum n l).length = n := by
  induction l with
  | nil => simp [vecSum]
  | cons a l ih =>
    have h1 := h a (by simp)
    have h2 := ih (fun b hb => h b (by simp [hb]))
    simp only [vecSum, List.foldr_cons] at h2 ⊢
    rw [List.length_zipWith, h2, h1]; simp

theorem assocOrth_sum (d : Direction) : vecSum d.length (assocOrth d) = d := by
  induction d with
  | nil => rfl
  | cons x xs ih =>
    unfold assocOrth at ih ⊢
    simp only [assocOrthFrom, List.length_cons, assocOrthFrom_shift]
    split
    · simp only [vecSum, List.foldr_cons]
      have := vecSum_cons_zero xs.length (assocOrthFrom xs.length 0 xs)
      simp only [vecSum] at this ih
      rw [this, ih]
      simp [unit, List.replicate_succ, zipWith_zeros]
    · rename_i hx
      simp only [ne_eq, not_not] at hx
      rw [vecSum_cons_zero, ih, hx]

/-- **C10.** For direction vectors of any length and any entries: the associated faces are, in axis
order, for each axis `i` with a non-zero entry the vector that is zero except for that entry, and
their sum is the direction. -/
theorem C10_assoc_orth (d : Direction) :
    assocOrth d = ((List.range d.length).filter (fun i => d[i]? ≠ some 0)).map
        (fun i => (List.replicate d.length 0).set i (d[i]?.getD 0)) ∧
    vecSum d.length (assocOrth d) = d := by
  refine ⟨?_, assocOrth_sum d⟩
  have h := assocOrthFrom_spec 0 d
  simp only [Nat.zero_add] at h
  rw [assocOrth, h]
  apply List.map_congr_left
  intro i hi
  simp only [List.mem_filter, List.mem_range] at hi
  obtain ⟨k, hk⟩ : ∃ k, d.length = i + (k + 1) := ⟨d.length - i - 1, by omega⟩
  rw [hk, List.replicate_add, List.set_append]
  simp [List.replicate_succ]

example : assocOrth [-1, 0, 1] = [[-1, 0, 0], [0, 0, 1]] := by decide

end Entity.Dir

namespace Entity.Tags

open Entity Entity.Dir

/-! ## C08 -/

/-- Specification: the direction a particle leaves in, from the flags (below the lower side, above
the upper side) of each dimension. -/
def leaveDir (flags : List (Bool × Bool)) : Direction :=
  flags.map (fun f => if f.1 then -1 else if f.2 then 1 else 0)

/-- flag combinations that can occur: never both sides of one dimension -/
def flagCombos : List (Bool × Bool) := [(false, false), (true, false), (false, true)]

theorem flagCombos_mem (D : Nat) (f : List (Bool × Bool)) (hl : f.length = D)
    (hf : ∀ x ∈ f, ¬ (x.1 = true ∧ x.2 = true)) :
    f ∈ Decomp.tensorProduct (List.replicate D flagCombos) := by
  rw [Decomp.mem_tp]
  induction f generalizing D with
  | nil => subst hl; simp
  | cons x xs ih =>
    subst hl
    simp only [List.length_cons, List.replicate_succ]
    refine .cons ?_ (ih _ rfl (fun y hy => hf y (by simp [hy])))
    have := hf x (by simp)
    obtain ⟨a, b⟩ := x
    cases a <;> cases b <;> simp_all [flagCombos]

theorem tags_finite : ∀ D, 1 ≤ D → D ≤ 3 →
    (∀ f ∈ Decomp.tensorProduct (List.replicate D flagCombos),
      sendTag dead f = .ok dead ∧
      ((leaveDir f).all (· = 0) = true → sendTag alive f = .ok alive) ∧
      ((leaveDir f).all (· = 0) = false → ∃ c ∈ (List.range 28).map Int.ofNat,
        sendTag alive f = .ok c ∧ dir2tag D (leaveDir f) = .ok c ∧
        tag2dir D c = .ok (leaveDir f) ∧ c ≠ dead ∧ c ≠ alive)) ∧
    (∀ d ∈ allDirs D, ∃ c ∈ (List.range 28).map Int.ofNat, dir2tag D d = .ok c ∧
      tag2dir D c = .ok d ∧ c ≠ dead ∧ c ≠ alive) := by
  intro D h1 h2
  obtain rfl | rfl | rfl : D = 1 ∨ D = 2 ∨ D = 3 := by omega
  all_goals decide +kernel

/-- **C08 (tagging).** In 1, 2 and 3 dimensions, for every combination of leaving flags: a dead
particle stays dead; a live particle that left through no side keeps the alive tag; a live particle
that left gets a code different from dead and alive which is the code of exactly the direction it
left in, and which decodes to that direction. -/
theorem C08_send_tag (D : Nat) (h1 : 1 ≤ D) (h2 : D ≤ 3) (flags : List (Bool × Bool))
    (hl : flags.length = D) (hf : ∀ x ∈ flags, ¬ (x.1 = true ∧ x.2 = true)) :
    sendTag dead flags = .ok dead ∧
    ((∀ x ∈ leaveDir flags, x = 0) → sendTag alive flags = .ok alive) ∧
    ((∃ x ∈ leaveDir flags, x ≠ 0) → ∃ c, sendTag alive flags = .ok c ∧ c ≠ dead ∧ c ≠ alive ∧
      dir2tag D (leaveDir flags) = .ok c ∧ tag2dir D c = .ok (leaveDir flags)) := by
  obtain ⟨a, b, c⟩ := (tags_finite D h1 h2).1 flags (flagCombos_mem D flags hl hf)
  refine ⟨a, ?_, ?_⟩
  · intro h
    exact b (by simpa [List.all_eq_true] using h)
  · intro h
    have : (leaveDir flags).all (· = 0) = false := by
      rw [List.all_eq_false]; simpa using h
    obtain ⟨k, _, h1, h2, h3, h4, h5⟩ := c this
    exact ⟨k, h1, h4, h5, h2, h3⟩

/-- **C08 (codes).** Encoding a direction and decoding a code are inverse to each other, on all
directions and on all codes for which decoding returns. -/
theorem C08_codes_inverse (D : Nat) (h1 : 1 ≤ D) (h2 : D ≤ 3) :
    (∀ d ∈ allDirs D, ∃ c, dir2tag D d = .ok c ∧ tag2dir D c = .ok d ∧ c ≠ dead ∧ c ≠ alive) ∧
    (∀ c d, tag2dir D c = .ok d → d ∈ allDirs D ∧ dir2tag D d = .ok c) ∧
    (∀ d d' c, dir2tag D d = .ok c → dir2tag D d' = .ok c → d = d') := by
  have hA := (tags_finite D h1 h2).2
  have hmem : ∀ c d, tag2dir D c = .ok d → d ∈ allDirs D := by
    intro c d h
    unfold tag2dir at h
    split at h
    · simp at h
    · split at h
      · rename_i e
        simp only [Outcome.ok.injEq] at h
        exact h ▸ List.mem_of_getElem? e
      · simp at h
  have hinj : ∀ c c' d, tag2dir D c = .ok d → tag2dir D c' = .ok d → c = c' := by
    intro c c' d h h'
    unfold tag2dir at h h'
    split at h
    · simp at h
    split at h'
    · simp at h'
    rename_i hc hc'
    split at h
    · split at h'
      · rename_i _ _ e _ _ e'
        simp only [Outcome.ok.injEq] at h h'
        obtain ⟨i1, e1⟩ := List.getElem?_eq_some_iff.1 e
        obtain ⟨i2, e2⟩ := List.getElem?_eq_some_iff.1 e'
        have := (C07_direction_tables D h1 h2).2.1.getElem_inj_iff.1 (e1.trans (h.trans
          (h'.symm.trans e2.symm)))
        omega
      · simp at h'
    · simp at h
  have hkeys : ∀ (t : List (Direction × Int)) d c, lookupDir t d = .ok c → d ∈ t.map (·.1) := by
    intro t d c h
    induction t with
    | nil => simp [lookupDir] at h
    | cons x xs ih =>
      obtain ⟨k, v⟩ := x
      simp only [lookupDir] at h
      split at h
      · rename_i e; simp [e]
      · have := ih h
        simp only [List.map_cons, List.mem_cons]
        exact .inr this
  have htab : ∀ d c, dir2tag D d = .ok c → d ∈ allDirs D := by
    intro d c h
    obtain rfl | rfl | rfl : D = 1 ∨ D = 2 ∨ D = 3 := by omega
    · exact hkeys table1 d c h
    · exact hkeys table2 d c h
    · exact hkeys table3 d c h
  refine ⟨fun d hd => ?_, fun c d h => ?_, fun d d' c h h' => ?_⟩
  · obtain ⟨c, _, h1, h2, h3, h4⟩ := hA d hd
    exact ⟨c, h1, h2, h3, h4⟩
  · refine ⟨hmem c d h, ?_⟩
    obtain ⟨c', _, h1, h2, h3, h4⟩ := hA d (hmem c d h)
    rw [h1, hinj c c' d h h2]
  · obtain ⟨k, _, e1, e2, _⟩ := hA d (htab d c h)
    obtain ⟨k', _, e1', e2', _⟩ := hA d' (htab d' c h')
    rw [h] at e1; cases e1
    rw [h'] at e1'; cases e1'
    rw [e2] at e2'; cases e2'; rfl

example : sendTag alive [(true, false), (false, false), (false, true)] = .ok 7 ∧
    tag2dir 3 7 = .ok [-1, 0, 1] := by decide +kernel

end Entity.Tags
