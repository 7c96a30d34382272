import Verif.Lemmas.OutputInput
import Mathlib.Data.List.Nodup

/-!
# C140: what is written follows the parameters of the output
-/

namespace Entity.OutIn

open Entity Entity.Outcome Entity.Schedule

/-- **C140 (schedule).** Every enabled kind of output is written exactly at the steps of its documented
schedule, whatever the schedules of the other kinds; disabled kinds are never written; and `Write`
returns whether it wrote something.

Full claim: for all inputs.  Missing: inputs where the own time interval is not positive, not -1, and no own
interval in steps is given; intervals of zero steps; `format = "disabled"`; see the counterexamples. -/
theorem C140_schedule_partial (gi : Option Nat) (gt : Option ℚ) (inp : Cat → CatInput) (format : String)
    (hf : format ≠ "disabled") (start : ℚ) (qs : List Query) (hq : ∀ q ∈ qs, 0 ≤ q.time)
    (h1 : ∀ c, c ≠ .stats → (inp c).enable.getD true = true →
      (inp c).time.getD (-1) = -1 ∨ 0 < (inp c).time.getD (-1) ∨ (inp c).interval.getD 0 ≠ 0)
    (h2 : ∀ c, c ≠ .stats → (inp c).enable.getD true = true → documented gi gt (inp c) ≠ .every 0) :
    ∃ w out, initWriter format (fun c => readCat gi gt (inp c)) start = .ok w ∧ writes w qs = .ok out ∧
      (∀ c, c ≠ .stats → out.map (fun r => decide (c ∈ r.1)) =
        (answers (documented gi gt (inp c)) none qs).map ((inp c).enable.getD true && ·)) ∧
      (∀ r ∈ out, .stats ∉ r.1 ∧ r.1.Nodup ∧ (r.2 = true ↔ r.1 ≠ [])) := by
  have hen : ∀ c, (readCat gi gt (inp c)).enable = (inp c).enable.getD true := by
    intro c
    unfold readCat
    by_cases h : (inp c).interval.getD 0 = 0 ∧ (inp c).time.getD (-1) = -1
    · simp only [if_pos h]
    · simp only [if_neg h]
  have hs : ∀ c, c ≠ .stats → (inp c).enable.getD true = true →
      schedOf (readCat gi gt (inp c)).interval (readCat gi gt (inp c)).time = documented gi gt (inp c) := by
    intro c hc he
    unfold readCat documented
    rcases h1 c hc he with h | h | h
    · by_cases h0 : (inp c).interval.getD 0 = 0
      · simp only [h, h0, and_self, if_true, ne_eq, not_true_eq_false, if_false]
        rw [if_neg (by norm_num)]
      · simp only [h, h0, false_and, if_false, ne_eq, not_false_eq_true, if_true]
        rw [if_neg (by norm_num), schedOf, if_neg (by norm_num)]
    · have : ¬ (inp c).time.getD (-1) = -1 := by
        intro e
        rw [e] at h
        norm_num at h
      simp only [this, and_false, if_false, h, if_true, schedOf]
    · simp only [h, false_and, if_false, ne_eq, not_false_eq_true, if_true, schedOf]
  have hi : ∀ n T, ∃ t, init n T [] start = .ok t := by
    intro n T
    rw [init, if_pos (Or.inl rfl)]
    exact ⟨_, rfl⟩
  generalize hp : (fun c => readCat gi gt (inp c)) = prm
  have hp' : ∀ c, readCat gi gt (inp c) = prm c := fun c => by rw [← hp]
  obtain ⟨f, ef⟩ := hi (prm .fields).interval (prm .fields).time
  obtain ⟨p, ep⟩ := hi (prm .particles).interval (prm .particles).time
  obtain ⟨e, ee⟩ := hi (prm .spectra).interval (prm .spectra).time
  obtain ⟨t, et⟩ := hi (prm .stats).interval (prm .stats).time
  have hw : initWriter format prm start = .ok ⟨format, prm, table f p e t⟩ := by
    unfold initWriter
    simp only [ef, ep, ee, et, bind_ok, pure_eq]
  obtain ⟨out, o1, o2, o3⟩ := writes_steps qs hq (fun c => documented gi gt (inp c))
    ⟨format, prm, table f p e t⟩
    (fun _ => none) hf (by
      intro c hc he
      have he' : (inp c).enable.getD true = true := by rw [← hen c, hp' c]; exact he
      show Tr (documented gi gt (inp c)) none _
      rw [← hs c hc he', hp' c]
      have h0 : schedOf (prm c).interval (prm c).time ≠ .every 0 := by
        rw [← hp' c, hs c hc he']
        exact h2 c hc he'
      cases c with
      | fields => exact tr_init ef h0
      | particles => exact tr_init ep h0
      | spectra => exact tr_init ee h0
      | stats => exact absurd rfl hc)
  refine ⟨_, out, hw, o1, fun c hc => ?_, o3⟩
  rw [o2 c hc, ← hen c, hp' c]

/-- The hypotheses are met by non-trivial inputs: fields every 2 steps, particles whenever 3 units of time
have passed (although all output is set to every 5 steps), no spectra. -/
example : ∃ w, initWriter "BPFile" (fun c => readCat (some 5) none (match c with
      | .fields => ⟨none, some 2, none⟩ | .particles => ⟨none, none, some 3⟩
      | .spectra => ⟨some false, none, none⟩ | .stats => ⟨none, none, none⟩)) 0 = .ok w ∧
    writes w [⟨0, 0, 0⟩, ⟨1, 1, 0⟩, ⟨2, 2, 0⟩, ⟨3, 3, 0⟩, ⟨4, 4, 0⟩] = .ok
      [([.fields, .particles], true), ([], false), ([.fields], true), ([.particles], true),
       ([.fields], true)] := by
  refine ⟨_, rfl, ?_⟩
  decide +kernel

/-- **C140: intervals.** `output.interval = 0` makes the code compute a remainder by zero at the first
step; so does a negative own time interval other than -1, for which the documentation promises that the
common interval is used; and so does an own time interval of 0. -/
theorem C140_interval_counterexample (q : Query) (start : ℚ) :
    (∀ (inp : CatInput), inp = ⟨none, none, none⟩ → ∃ t,
      init (readCat (some 0) none inp).interval (readCat (some 0) none inp).time [] start = .ok t ∧
      shouldWrite t q = .ub) ∧
    (∀ (gi : Option Nat) (gt : Option ℚ) (T : ℚ), T ≤ 0 → T ≠ -1 → ∃ t,
      init (readCat gi gt ⟨none, none, some T⟩).interval (readCat gi gt ⟨none, none, some T⟩).time [] start
        = .ok t ∧ shouldWrite t q = .ub) := by
  constructor
  · rintro inp rfl
    refine ⟨⟨true, 0, -1, decide ((0 : ℚ) < -1), false, 0, -1⟩, rfl, ?_⟩
    have : decide ((0 : ℚ) < -1) = false := by decide +kernel
    simp only [this, shouldWrite, Bool.true_eq_false, Bool.false_eq_true, false_and, if_false, if_true]
  · intro gi gt T h0 h1
    have e : readCat gi gt ⟨none, none, some T⟩ = ⟨true, 0, T⟩ := by
      unfold readCat
      simp [h1]
    rw [e]
    refine ⟨⟨true, 0, T, decide (0 < T), false, 0, -1⟩, rfl, ?_⟩
    have : decide (0 < T) = false := decide_eq_false (not_lt.2 h0)
    simp only [this, shouldWrite, Bool.true_eq_false, Bool.false_eq_true, false_and, if_false, if_true]

/-- **C140: disabled output.** The documented format `"disabled"` changes nothing about what is due, and
`Write` then reports output at every step, even if nothing was written. -/
theorem C140_disabled_counterexample :
    ∃ w, initWriter "disabled" (fun _ => readCat (some 2) none ⟨none, none, none⟩) 0 = .ok w ∧
      writes w [⟨0, 0, 0⟩, ⟨1, 1, 0⟩] = .ok [([.fields, .particles, .spectra], true), ([], true)] := by
  refine ⟨_, rfl, ?_⟩
  decide +kernel

/-! ## Downsampling -/

theorem layoutFrom_ok {g l n dwn : List Nat} (F : Nat → Nat) : ∀ {is : List Nat},
    (∀ i ∈ is, dwn[i]? = some (F i)) → layoutFrom g l n dwn is = .ok (is.map fun (i : Nat) =>
      Output.axisLayout (g.getD i 0) (l.getD i 0) (n.getD i 0) (F i))
  | [], _ => rfl
  | i :: is, h => by
    rw [layoutFrom, h i (by simp), layoutFrom_ok F (is := is) fun j hj => h j (by simp [hj])]
    rfl

theorem layoutFrom_ub {g l n dwn : List Nat} : ∀ {is : List Nat}, (∃ i ∈ is, dwn.length ≤ i) →
    layoutFrom g l n dwn is = .ub
  | [], h => by simp at h
  | i :: is, h => by
    rw [layoutFrom]
    by_cases hi : dwn.length ≤ i
    · rw [List.getElem?_eq_none hi]
    · rw [List.getElem?_eq_getElem (by omega)]
      have : ∃ i ∈ is, dwn.length ≤ i := by
        obtain ⟨j, hj, e⟩ := h
        rcases List.mem_cons.1 hj with rfl | hj
        · exact absurd e hi
        · exact ⟨j, hj, e⟩
      simp only [layoutFrom_ub this]
      rfl

theorem toUnsigned_of {n : Int} (h0 : 0 ≤ n) (h1 : n < 2 ^ 32) : toUnsigned n = n.toNat := by
  unfold toUnsigned
  rw [Int.emod_eq_of_lt h0 (by simpa using h1)]

/-- **C140 (downsampling).** If every axis is given a factor of at least 1 (by a list with an entry for
every axis and at most three entries, by one number, or by default), the factors are accepted and the
output along axis `i` is laid out with the factor given for it.

Full claim: for all accepted inputs.  Missing: lists with fewer entries than axes, see the counterexample. -/
theorem C140_downsampling_partial (g l n : List Nat) (hg : g.length ≤ 3) (d : DwnInput)
    (hd : ∀ ns, d = .list ns → ns.length ≤ 3)
    (h : ∀ i, i < g.length → ∃ f : Int, d.factor i = some f ∧ 1 ≤ f ∧ f < 2 ^ 32) :
    ∃ dwn, readDwn g.length d = .ok dwn ∧ dwn.length = g.length ∧
      (∀ i, i < g.length → ∃ f : Int, d.factor i = some f ∧ dwn[i]? = some f.toNat) ∧
      meshLayout g l n dwn = .ok ((List.range g.length).map fun (i : Nat) =>
        Output.axisLayout (g.getD i 0) (l.getD i 0) (n.getD i 0) ((d.factor i).getD 1).toNat) := by
  have key : ∃ dwn : List Nat, (∃ raw : List Nat, raw = rawDwn g.length d ∧ raw.length ≤ 3 ∧
        dwn = if g.length < raw.length then raw.take g.length else raw) ∧ dwn.length = g.length ∧
      (∀ i, i < g.length → ∃ f : Int, d.factor i = some f ∧ 1 ≤ f ∧ dwn[i]? = some f.toNat) := by
    cases d with
    | other =>
      refine ⟨List.replicate g.length 1, ⟨_, rfl, by simpa [rawDwn] using hg, by simp [rawDwn]⟩, by simp, fun i hi => ?_⟩
      exact ⟨1, rfl, le_rfl, by simp [List.getElem?_replicate, hi]⟩
    | num k =>
      refine ⟨List.replicate g.length (toUnsigned k), ⟨_, rfl, by simpa [rawDwn] using hg, by simp [rawDwn]⟩, by simp,
        fun i hi => ?_⟩
      obtain ⟨f, e, f1, f2⟩ := h i hi
      refine ⟨f, e, f1, ?_⟩
      simp only [DwnInput.factor, Option.some.injEq] at e
      subst e
      rw [List.getElem?_replicate, if_pos hi, toUnsigned_of (by omega) f2]
    | list ns =>
      have hlen : g.length ≤ ns.length := by
        by_contra hc
        rw [not_le] at hc
        obtain ⟨f, e, -⟩ := h ns.length hc
        simp [DwnInput.factor] at e
      refine ⟨(ns.map toUnsigned).take g.length, ⟨_, rfl, by simpa [rawDwn] using hd ns rfl, ?_⟩, by simpa using hlen,
        fun i hi => ?_⟩
      · by_cases hc : g.length < (ns.map toUnsigned).length
        · rw [rawDwn, if_pos hc]
        · rw [rawDwn, if_neg hc, List.take_of_length_le (by omega)]
      · obtain ⟨f, e, f1, f2⟩ := h i hi
        refine ⟨f, e, f1, ?_⟩
        simp only [DwnInput.factor] at e
        rw [List.getElem?_take_of_lt hi, List.getElem?_map, e, Option.map_some, toUnsigned_of (by omega) f2]
  obtain ⟨dwn, ⟨raw, r1, r2, r3⟩, k2, k3⟩ := key
  have hnz : dwn.any (· == 0) = false := by
    rw [List.any_eq_false]
    intro x hx
    obtain ⟨i, hi, e⟩ := List.getElem_of_mem hx
    obtain ⟨f, -, f1, e2⟩ := k3 i (by omega)
    rw [List.getElem?_eq_getElem hi, e, Option.some.injEq] at e2
    subst e2
    simp
    omega
  refine ⟨dwn, ?_, k2, fun i hi => ?_, ?_⟩
  · unfold readDwn
    rw [← r1]
    simp only [errorIf, not_lt.2 r2, decide_false, Bool.false_eq_true, if_false, bind_ok, ← r3, hnz, pure_eq]
  · obtain ⟨f, e, -, e2⟩ := k3 i hi
    exact ⟨f, e, e2⟩
  · unfold meshLayout
    refine layoutFrom_ok (fun i => ((d.factor i).getD 1).toNat) fun i hi => ?_
    obtain ⟨f, e, -, e2⟩ := k3 i (by simpa using hi)
    rw [e2, e]
    rfl

/-- Two axes with the factors 2 and 3 out of a list of three entries. -/
example : ∀ i, i < [8, 9].length → ∃ f : Int, (DwnInput.list [2, 3, 7]).factor i = some f ∧ 1 ≤ f ∧
    f < 2 ^ 32 := by
  intro i hi
  have : i = 0 ∨ i = 1 := by simp at hi; omega
  rcases this with rfl | rfl
  · exact ⟨2, rfl, by norm_num, by norm_num⟩
  · exact ⟨3, rfl, by norm_num, by norm_num⟩

/-- **C140: short lists.** A list of factors with fewer entries than axes is accepted, and the layout then
reads past its end. -/
theorem C140_short_list_counterexample (g l n : List Nat) (ns : List Int) (h : ns.length < g.length)
    (hg : g.length ≤ 3) (hn : ∀ x ∈ ns, 1 ≤ x ∧ x < 2 ^ 32) :
    ∃ dwn, readDwn g.length (.list ns) = .ok dwn ∧ meshLayout g l n dwn = .ub := by
  have hnz : (ns.map toUnsigned).any (· == 0) = false := by
    rw [List.any_eq_false]
    intro x hx
    obtain ⟨y, hy, rfl⟩ := List.mem_map.1 hx
    obtain ⟨a, b⟩ := hn y hy
    rw [toUnsigned_of (by omega) b]
    simp
    omega
  refine ⟨ns.map toUnsigned, ?_, ?_⟩
  · unfold readDwn
    have h1 : ¬ 3 < ns.length := by omega
    have h2 : ¬ g.length < ns.length := by omega
    simp only [rawDwn, List.length_map, h1, h2, if_false, errorIf, decide_false, Bool.false_eq_true, bind_ok, hnz,
      pure_eq]
  · exact layoutFrom_ub ⟨ns.length, by simpa using h, by simp⟩

/-! ## Species -/

/-- **C140 (species).** If no species are listed, the particles of all species are written, up to 255
species; if species are listed, exactly these are, provided the list has no repetitions and no numbers
out of range.

Full claim: all lists are either honoured or rejected with an error.  Missing: numbers out of range (undefined)
and the empty list, see the counterexample. -/
theorem C140_species_partial (nspec : Nat) (hn : nspec ≤ 255) (s : Option (List Int))
    (h : ∀ l, s = some l → l.Nodup ∧ ∀ x ∈ l, 1 ≤ x ∧ x ≤ nspec) :
    ∃ out, declareSpecies nspec [] (readSpecies nspec s) = .ok out ∧ out.Nodup ∧
      ∀ k : Nat, k ∈ out ↔ 1 ≤ k ∧ k ≤ nspec ∧ ∀ l, s = some l → (k : Int) ∈ l := by
  have key : ∀ (l done : List Nat), (done ++ l).Nodup → (∀ x ∈ l, 1 ≤ x ∧ x ≤ nspec) →
      declareSpecies nspec done l = .ok (done ++ l) := by
    intro l
    induction l with
    | nil => intro done _ _; rw [declareSpecies, List.append_nil]
    | cons a l ih =>
      intro done h1 h2
      obtain ⟨a1, a2⟩ := h2 a (by simp)
      have h3 : a ∉ done := by
        rw [List.nodup_append] at h1
        intro hc
        exact h1.2.2 a hc a (by simp) rfl
      rw [declareSpecies, if_neg (by omega), if_neg h3, ih (done ++ [a]) (by simpa using h1)
        fun x hx => h2 x (by simp [hx])]
      simp
  cases s with
  | none =>
    have e : readSpecies nspec none = (List.range nspec).map (· + 1) := by
      unfold readSpecies
      refine List.map_congr_left fun i hi => ?_
      rw [List.mem_range] at hi
      rw [Nat.mod_eq_of_lt (by omega)]
    rw [e, key _ [] (by
      rw [List.nil_append]
      exact List.Nodup.map (fun a b h => by simpa using h) List.nodup_range) (by
      intro x hx
      simp only [List.mem_map, List.mem_range] at hx
      omega)]
    refine ⟨_, rfl, by
      rw [List.nil_append]
      exact List.Nodup.map (fun a b h => by simpa using h) List.nodup_range, fun k => ?_⟩
    simp only [List.nil_append, List.mem_map, List.mem_range]
    constructor
    · rintro ⟨i, hi, rfl⟩
      exact ⟨by omega, by omega, by simp⟩
    · rintro ⟨h1, h2, -⟩
      exact ⟨k - 1, by omega, by omega⟩
  | some l =>
    obtain ⟨h1, h2⟩ := h l rfl
    have e : readSpecies nspec (some l) = l.map Int.toNat := by
      unfold readSpecies
      refine List.map_congr_left fun x hx => ?_
      obtain ⟨a, b⟩ := h2 x hx
      rw [Int.emod_eq_of_lt (by omega) (by omega)]
    have nd : (l.map Int.toNat).Nodup := by
      refine List.Nodup.map_on ?_ h1
      intro x hx y hy hxy
      have := h2 x hx
      have := h2 y hy
      omega
    rw [e, key _ [] (by simpa using nd) (by
      intro x hx
      obtain ⟨y, hy, rfl⟩ := List.mem_map.1 hx
      have := h2 y hy
      omega)]
    refine ⟨_, rfl, by simpa using nd, fun k => ?_⟩
    simp only [List.nil_append, List.mem_map]
    constructor
    · rintro ⟨y, hy, rfl⟩
      have := h2 y hy
      refine ⟨by omega, by omega, ?_⟩
      rintro l' hl
      rw [Option.some.injEq] at hl
      subst hl
      have : ((y.toNat : Nat) : Int) = y := by omega
      rwa [this]
    · rintro ⟨-, -, h3⟩
      exact ⟨k, h3 l rfl, by simp⟩

/-- Four species of which 1 and 3 are written. -/
example : declareSpecies 4 [] (readSpecies 4 (some [3, 1])) = .ok [3, 1] := by decide +kernel

/-- **C140: species.** An empty list writes no particles although the documentation says that all species
are written then; numbers out of range are not rejected, the access is undefined. -/
theorem C140_species_counterexample (nspec : Nat) :
    declareSpecies nspec [] (readSpecies nspec (some [])) = .ok [] ∧
    declareSpecies nspec [] (readSpecies nspec (some [0])) = .ub ∧
    (nspec < 255 → declareSpecies nspec [] (readSpecies nspec (some [nspec + 1])) = .ub) := by
  refine ⟨rfl, rfl, fun h => ?_⟩
  have e : (((nspec : Int) + 1) % 256).toNat = nspec + 1 := by
    rw [Int.emod_eq_of_lt (by omega) (by omega)]
    omega
  simp only [readSpecies, List.map_cons, List.map_nil, e, declareSpecies]
  rw [if_pos (by omega)]

end Entity.OutIn
