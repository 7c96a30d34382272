import Verif.Model.Prompt
import Verif.Spec.Prompt
import Verif.Lemmas.Prtl
import Mathlib.Data.List.TakeWhile
import Mathlib.Data.List.DropRight

/-!
# C53: output names are interpreted completely
-/

namespace Entity.Props.Prompt

open Entity Entity.Prompt Entity.Spec.Prompt

theorem splitAll_ne (s : List Char) : splitAll s ≠ [] := by
  cases s with
  | nil => simp [splitAll]
  | cons c cs =>
    simp only [splitAll]
    split
    · simp
    · split <;> simp

theorem splitAll_plain (t : List Char) (ht : '_' ∉ t) : splitAll t = [t] := by
  induction t with
  | nil => rfl
  | cons c cs ih =>
    have hc : c ≠ '_' := fun h => ht (by simp [h])
    simp only [splitAll, if_neg hc, ih (fun h => ht (List.mem_cons_of_mem _ h))]

theorem splitAll_piece (t r : List Char) (ht : '_' ∉ t) :
    splitAll (t ++ '_' :: r) = t :: splitAll r := by
  induction t with
  | nil => simp [splitAll]
  | cons c cs ih =>
    have hc : c ≠ '_' := fun h => ht (by simp [h])
    simp only [List.cons_append, splitAll, if_neg hc, ih (fun h => ht (List.mem_cons_of_mem _ h))]

theorem splitAll_species (s : Nat) (ss : List Nat) (hd : ∀ n : Nat, '_' ∉ Nat.toDigits 10 n) :
    splitAll (Nat.toDigits 10 s ++ ss.flatMap fun s => '_' :: Nat.toDigits 10 s)
      = (s :: ss).map (Nat.toDigits 10) := by
  induction ss generalizing s with
  | nil => simpa using splitAll_plain _ (hd s)
  | cons r rs ih =>
    simp only [List.flatMap_cons, List.cons_append]
    rw [splitAll_piece _ _ (hd s), ih r]
    simp

theorem digits_isDigit (n : Nat) {c : Char} (hc : c ∈ Nat.toDigits 10 n) : c.isDigit = true :=
  Nat.isDigit_of_mem_toDigits (by decide) (by decide) hc

theorem digits_no_underscore (n : Nat) : '_' ∉ Nat.toDigits 10 n := fun h => by
  have := digits_isDigit n h
  exact absurd this (by decide)

theorem digits_ne (n : Nat) : Nat.toDigits 10 n ≠ [] := Nat.toDigits_ne_nil

theorem stoi_digits (n : Nat) (hn : n < 2 ^ 31) : stoi (Nat.toDigits 10 n) = .ok (n : Int) := by
  obtain ⟨c, cs, h⟩ := List.exists_cons_of_ne_nil (digits_ne n)
  have hd : ∀ d ∈ c :: cs, d.isDigit = true := fun d hd => digits_isDigit n (h ▸ hd)
  have hc : c.isDigit = true := hd c (by simp)
  have hsp : isSpace c = false := by
    by_contra hcon
    simp only [isSpace, Bool.not_eq_false, Bool.or_eq_true, decide_eq_true_eq] at hcon
    rcases hcon with ((((h | h) | h) | h) | h) | h <;> subst h <;> revert hc <;> decide
  have hsign : stoiSign (c :: cs) = (false, c :: cs) := by
    unfold stoiSign
    split
    · rename_i heq; cases heq; exact absurd hc (by decide)
    · rename_i heq; cases heq; exact absurd hc (by decide)
    · rfl
  have htake : (c :: cs).takeWhile Char.isDigit = c :: cs := by
    rw [List.takeWhile_eq_self_iff]; exact hd
  unfold stoi
  rw [h]
  simp only [List.dropWhile_cons, hsp, Bool.false_eq_true, if_false, hsign, htake]
  rw [if_neg (by simp), ← h, Nat.ofDigitChars_ten_toDigits]
  rw [if_neg (by omega)]

/-- Whatever list of species is asked for, the prompt is read back as those numbers reduced to one
byte. -/
theorem interpret_withSpecies (name : List Char) (hname : '_' ∉ name) (species : List Nat)
    (hs : ∀ s ∈ species, s < 2 ^ 31) :
    interpretSpecies (withSpecies name species) = .ok (species.map (· % 256)) := by
  have hdrop : ∀ r, (name ++ r).dropWhile (· ≠ '_') = r.dropWhile (· ≠ '_') := by
    intro r
    rw [List.dropWhile_append]
    have : name.dropWhile (· ≠ '_') = [] := by
      rw [List.dropWhile_eq_nil_iff]
      intro c hc
      simp only [ne_eq, decide_not, Bool.not_eq_eq_eq_not, Bool.not_true, decide_eq_false_iff_not]
      exact fun h => hname (h ▸ hc)
    rw [this]; rfl
  unfold interpretSpecies withSpecies
  rw [hdrop]
  cases species with
  | nil => simp
  | cons s ss =>
    have hsplit := splitAll_species s ss digits_no_underscore
    have hdw : ((s :: ss).flatMap fun s => '_' :: Nat.toDigits 10 s).dropWhile (· ≠ '_')
        = '_' :: (Nat.toDigits 10 s ++ ss.flatMap fun s => '_' :: Nat.toDigits 10 s) := by
      simp
    rw [hdw]
    have hstr : splitString (Nat.toDigits 10 s ++ ss.flatMap fun s => '_' :: Nat.toDigits 10 s)
        = (s :: ss).map (Nat.toDigits 10) := by
      unfold splitString
      rw [hsplit, if_neg]
      rintro ⟨-, hl⟩
      have := List.mem_of_getLast? hl
      simp only [List.mem_map] at this
      obtain ⟨n, -, hn⟩ := this
      exact digits_ne n hn
    simp only [hstr]
    have key : ∀ l : List Nat, (∀ s ∈ l, s < 2 ^ 31) →
        ((l.map (Nat.toDigits 10)).mapM fun t => do
          let n ← stoi t
          pure (toSpidx n)) = Outcome.ok (l.map (· % 256)) := by
      intro l
      induction l with
      | nil => intro; rfl
      | cons a l ih =>
        intro hl
        have h1 := stoi_digits a (hl a (by simp))
        have h2 := ih fun s hs => hl s (List.mem_cons_of_mem _ hs)
        have h3 : toSpidx (a : Int) = a % 256 := by unfold toSpidx; omega
        rw [List.map_cons, List.mapM_cons, h1, h2]
        simp only [h3, Outcome.bind_ok, Outcome.pure_eq, List.map_cons]
    exact key _ hs

/-- **C53** (species): a moment name followed by any list of species numbers that fit a species
index is read back as exactly those species, in order. -/
theorem C53_species_partial (name : List Char) (hname : '_' ∉ name) (species : List Nat)
    (hs : ∀ s ∈ species, s < 256) :
    interpretSpecies (withSpecies name species) = .ok species := by
  rw [interpret_withSpecies name hname species fun s h => by have := hs s h; omega]
  congr 1
  conv_rhs => rw [← List.map_id species]
  apply List.map_congr_left
  intro s h
  exact Nat.mod_eq_of_lt (hs s h)

/-- **C53** (species), violated beyond one byte: a request for species 257 is taken as species 1,
and trailing text after the digits is ignored. -/
theorem C53_species_counterexample :
    interpretSpecies (withSpecies ['N'] [257]) = .ok [1] ∧
    interpretSpecies ['N', '_', '1', 'a', 'b'] = .ok [1] := by decide +kernel

/-- A name without a suffix lists no species; an empty or non-numeric suffix is rejected. -/
theorem C53_species_rejected (name : List Char) (hname : '_' ∉ name) (c : Char) (r : List Char)
    (hc : c.isDigit = false) (hc' : isSpace c = false ∧ c ≠ '+' ∧ c ≠ '-') :
    interpretSpecies name = .ok [] ∧ interpretSpecies (name ++ ['_']) = .err ∧
      interpretSpecies (name ++ '_' :: c :: r) = .err := by
  have hdw : name.dropWhile (· ≠ '_') = [] := by
    rw [List.dropWhile_eq_nil_iff]
    intro c hc
    simp only [ne_eq, decide_not, Bool.not_eq_eq_eq_not, Bool.not_true, decide_eq_false_iff_not]
    exact fun h => hname (h ▸ hc)
  have hdrop : ∀ r, (name ++ '_' :: r).dropWhile (· ≠ '_') = '_' :: r := by
    intro r
    rw [List.dropWhile_append, hdw]; simp
  refine ⟨by simp only [interpretSpecies, hdw], ?_, ?_⟩
  · simp only [interpretSpecies, hdrop]; rfl
  · have hstoi : ∀ t, stoi (c :: t) = .err := by
      intro t
      have hsign : stoiSign (c :: t) = (false, c :: t) := by
        unfold stoiSign
        split
        · rename_i heq; cases heq; exact absurd rfl hc'.2.2
        · rename_i heq; cases heq; exact absurd rfl hc'.2.1
        · rfl
      unfold stoi
      simp [List.dropWhile_cons, hc'.1, hsign, List.takeWhile_cons, hc]
    have hempty : stoi [] = .err := rfl
    have hsp : ∃ t ts, splitString (c :: r) = t :: ts ∧ stoi t = .err := by
      have hne := splitAll_ne r
      obtain ⟨u, us, hu⟩ := List.exists_cons_of_ne_nil hne
      by_cases hcu : c = '_'
      · refine ⟨[], ?_⟩
        have h1 : splitAll (c :: r) = [] :: u :: us := by simp [splitAll, hcu, hu]
        unfold splitString
        rw [h1]
        split
        · exact ⟨(u :: us).dropLast, by simp, hempty⟩
        · exact ⟨u :: us, rfl, hempty⟩
      · refine ⟨c :: u, ?_⟩
        have h1 : splitAll (c :: r) = (c :: u) :: us := by simp [splitAll, hcu, hu]
        unfold splitString
        rw [h1]
        split
        · rename_i h
          cases us with
          | nil => simp at h
          | cons v vs => exact ⟨(v :: vs).dropLast, by simp, hstoi _⟩
        · exact ⟨us, rfl, hstoi _⟩
    obtain ⟨t, ts, h1, h2⟩ := hsp
    simp only [interpretSpecies, hdrop, h1, List.mapM_cons, h2, Outcome.bind_err]

theorem stoi_neg_digits (n : Nat) : stoi ('-' :: Nat.toDigits 10 n) =
    if n ≤ 2 ^ 31 then .ok (-(n : Int)) else .err := by
  have htake : (Nat.toDigits 10 n).takeWhile Char.isDigit = Nat.toDigits 10 n := by
    rw [List.takeWhile_eq_self_iff]; exact fun d hd => digits_isDigit n hd
  have hsp : isSpace '-' = false := by decide
  unfold stoi
  simp only [List.dropWhile_cons, hsp, Bool.false_eq_true, if_false, stoiSign, htake]
  rw [if_neg (digits_ne n), Nat.ofDigitChars_ten_toDigits]
  simp only [if_true]
  split_ifs <;> first | rfl | omega

theorem stoi_big (n : Nat) (hn : 2 ^ 31 ≤ n) : stoi (Nat.toDigits 10 n) = .err := by
  obtain ⟨c, cs, h⟩ := List.exists_cons_of_ne_nil (digits_ne n)
  have hd : ∀ d ∈ c :: cs, d.isDigit = true := fun d hd => digits_isDigit n (h ▸ hd)
  have hc : c.isDigit = true := hd c (by simp)
  have hsp : isSpace c = false := by
    by_contra hcon
    simp only [isSpace, Bool.not_eq_false, Bool.or_eq_true, decide_eq_true_eq] at hcon
    rcases hcon with ((((h | h) | h) | h) | h) | h <;> subst h <;> revert hc <;> decide
  have hsign : stoiSign (c :: cs) = (false, c :: cs) := by
    unfold stoiSign
    split
    · rename_i heq; cases heq; exact absurd hc (by decide)
    · rename_i heq; cases heq; exact absurd hc (by decide)
    · rfl
  have htake : (c :: cs).takeWhile Char.isDigit = c :: cs := by
    rw [List.takeWhile_eq_self_iff]; exact hd
  unfold stoi
  rw [h]
  simp only [List.dropWhile_cons, hsp, Bool.false_eq_true, if_false, hsign, htake]
  rw [if_neg (by simp), ← h, Nat.ofDigitChars_ten_toDigits]
  rw [if_pos (by omega)]

theorem interpret_one (name : List Char) (hname : '_' ∉ name) (t : List Char) (ht : '_' ∉ t) :
    interpretSpecies (name ++ '_' :: t) = (do let n ← stoi t; pure [toSpidx n]) := by
  have hdw : name.dropWhile (· ≠ '_') = [] := by
    rw [List.dropWhile_eq_nil_iff]
    intro c hc
    simp only [ne_eq, decide_not, Bool.not_eq_eq_eq_not, Bool.not_true, decide_eq_false_iff_not]
    exact fun h => hname (h ▸ hc)
  have hdrop : ∀ r, (name ++ '_' :: r).dropWhile (· ≠ '_') = '_' :: r := by
    intro r
    rw [List.dropWhile_append, hdw]; simp
  have hs : splitString t = [t] := by
    unfold splitString
    rw [splitAll_plain t ht]; simp
  simp only [interpretSpecies, hdrop, hs, List.mapM_cons, List.mapM_nil]
  cases stoi t <;> rfl

/-- **C53** (range): a species number that does not fit an `int` is rejected, whatever its sign.  One
that fits with a minus sign is accepted, and stands for another species. -/
theorem C53_range_counterexample (name : List Char) (hname : '_' ∉ name) (n : Nat) :
    (2 ^ 31 ≤ n → interpretSpecies (name ++ '_' :: Nat.toDigits 10 n) = .err) ∧
    (2 ^ 31 < n → interpretSpecies (name ++ '_' :: '-' :: Nat.toDigits 10 n) = .err) ∧
    (n ≤ 2 ^ 31 → interpretSpecies (name ++ '_' :: '-' :: Nat.toDigits 10 n) =
      .ok [(255 * n) % 256]) := by
  have hd := digits_no_underscore n
  have hd' : '_' ∉ '-' :: Nat.toDigits 10 n := by simp [hd]
  refine ⟨fun h => ?_, fun h => ?_, fun h => ?_⟩
  · rw [interpret_one name hname _ hd, stoi_big n h]; rfl
  · rw [interpret_one name hname _ hd', stoi_neg_digits, if_neg (by omega)]; rfl
  · rw [interpret_one name hname _ hd', stoi_neg_digits, if_pos h]
    simp only [Outcome.bind_ok, Outcome.pure_eq, toSpidx]
    congr 2
    omega

theorem compInt_bad (s : List Char) (h : ∀ c ∈ letters, s ≠ [c]) : compInt s = .err := by
  simp only [letters, List.mem_cons, List.not_mem_nil, or_false, forall_eq_or_imp, forall_eq] at h
  simp [compInt, h]

/-- **C53** (components): two component strings are accepted exactly if both are one of the
component letters, and then expand to exactly the pairs of indices denoted by the letters, without
repetition, in lexicographic order. -/
theorem C53_components (s₁ s₂ : List Char) :
    (∀ c₁ ∈ letters, ∀ c₂ ∈ letters, s₁ = [c₁] → s₂ = [c₂] →
      ∃ ps : List (Nat × Nat),
        interpretComponents [s₁, s₂] = .ok (ps.map fun p => [p.1, p.2]) ∧
        (∀ a b, (a, b) ∈ ps ↔ Denotes c₁ c₂ a b) ∧
        ps.Pairwise fun p q => p.1 < q.1 ∨ p.1 = q.1 ∧ p.2 < q.2) ∧
    (¬ ((∃ c ∈ letters, s₁ = [c]) ∧ ∃ c ∈ letters, s₂ = [c]) →
      interpretComponents [s₁, s₂] = .err) := by
  constructor
  · rintro c₁ h₁ c₂ h₂ rfl rfl
    have table : ∀ c₁ ∈ letters, ∀ c₂ ∈ letters,
        let ps := ((List.range 4).flatMap fun a => (List.range 4).map fun b => (a, b)).filter
          fun p => decide (Denotes c₁ c₂ p.1 p.2)
        interpretComponents [[c₁], [c₂]] = .ok (ps.map fun p => [p.1, p.2]) := by
      decide +kernel
    have bound : ∀ c ∈ letters, ∀ a ∈ indices c, a < 4 := by decide
    refine ⟨_, table c₁ h₁ c₂ h₂, ?_, ?_⟩
    · intro a b
      simp only [List.mem_filter, List.mem_flatMap, List.mem_map, List.mem_range, Prod.mk.injEq,
        decide_eq_true_eq]
      constructor
      · exact fun h => h.2
      · exact fun h => ⟨⟨a, bound c₁ h₁ a h.1, b, bound c₂ h₂ b h.2.1, rfl, rfl⟩, h⟩
    · exact List.Pairwise.filter _ (by decide)
  · intro h
    by_cases h1 : ∃ c ∈ letters, s₁ = [c]
    · have h2 : ∀ c ∈ letters, s₂ ≠ [c] := fun c hc he => h ⟨h1, c, hc, he⟩
      have hc2 := compInt_bad s₂ h2
      obtain ⟨c, hc, rfl⟩ := h1
      have hok : ∀ c ∈ letters, ∃ n, compInt [c] = .ok n := by
        simp only [letters, List.mem_cons, List.not_mem_nil, or_false, forall_eq_or_imp, forall_eq]
        exact ⟨⟨_, rfl⟩, ⟨_, rfl⟩, ⟨_, rfl⟩, ⟨_, rfl⟩, ⟨_, rfl⟩, ⟨_, rfl⟩, ⟨_, rfl⟩, ⟨_, rfl⟩, ⟨_, rfl⟩,
          ⟨_, rfl⟩⟩
      obtain ⟨n, hn⟩ := hok c hc
      simp [interpretComponents, Outcome.errorIf, hn, hc2]
    · have hc1 := compInt_bad s₁ fun c hc he => h1 ⟨c, hc, he⟩
      simp [interpretComponents, Outcome.errorIf, hc1]

/-- **C53** (single component): one component string is accepted exactly if it is a letter standing
for spatial indices, and expands to exactly those indices. -/
theorem C53_component (s : List Char) (r : List (List Nat)) :
    interpretComponents [s] = .ok r ↔
      ∃ c ∈ letters, s = [c] ∧ 0 ∉ indices c ∧ r = (indices c).map fun a => [a] := by
  by_cases h1 : ∃ c ∈ letters, s = [c]
  · obtain ⟨c, hc, rfl⟩ := h1
    have table : ∀ c ∈ letters, interpretComponents [[c]]
        = if 0 ∈ indices c then .err else .ok ((indices c).map fun a => [a]) := by decide +kernel
    rw [table c hc]
    constructor
    · intro h
      split at h
      · simp at h
      · rename_i h0
        exact ⟨c, hc, rfl, h0, by injection h with h; exact h.symm⟩
    · rintro ⟨c', -, he, h0, rfl⟩
      cases he
      rw [if_neg h0]
  · have hc1 := compInt_bad s fun c hc he => h1 ⟨c, hc, he⟩
    constructor
    · intro h; simp [interpretComponents, Outcome.errorIf, hc1] at h
    · rintro ⟨c, hc, he, -⟩; exact absurd ⟨c, hc, he⟩ h1

/-- More than two components are rejected. -/
theorem C53_too_many (comps : List (List Char)) (h : 2 < comps.length) :
    interpretComponents comps = .err := by
  simp [interpretComponents, Outcome.errorIf, h]

/-! Concrete cases. -/

example : withSpecies ['R', 'h', 'o'] [1, 12] = ['R', 'h', 'o', '_', '1', '_', '1', '2'] ∧
    interpretSpecies ['R', 'h', 'o', '_', '1', '_', '1', '2'] = .ok [1, 12] := by decide +kernel

example : interpretComponents [['i'], ['j']]
    = .ok [[1, 1], [1, 2], [1, 3], [2, 2], [2, 3], [3, 3]] ∧
    interpretComponents [['0'], ['i']] = .ok [[0, 1], [0, 2], [0, 3]] ∧
    interpretComponents [['j'], ['j']] = .ok [[1, 1], [2, 2], [3, 3]] ∧
    interpretComponents [['t'], ['z']] = .ok [[0, 3]] := by decide +kernel

example : Denotes 'i' 'j' 1 3 ∧ ¬ Denotes 'i' 'j' 3 1 ∧ ¬ Denotes 'i' 'i' 1 2 := by decide

end Entity.Props.Prompt
