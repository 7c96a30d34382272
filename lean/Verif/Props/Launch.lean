import Verif.Spec.Launch

/-!
# C141 (starting a simulation), C142 (policies of the pusher)
-/

namespace Entity.Launch

open Entity Entity.Outcome Entity.Enums

/-! ## C141 -/

theorem pick_engine (s : String) : s = "srpic" ∧ pick simEngine s = .ok 1 ∨
    s = "grpic" ∧ pick simEngine s = .ok 2 ∨ (s ≠ "srpic" ∧ s ≠ "grpic") ∧ pick simEngine s = .err := by
  by_cases h1 : s = "srpic"
  · subst h1; exact .inl ⟨rfl, by decide⟩
  by_cases h2 : s = "grpic"
  · subst h2; exact .inr (.inl ⟨rfl, by decide⟩)
  refine .inr (.inr ⟨⟨h1, h2⟩, ?_⟩)
  simp only [pick, simEngine, pickFrom, Ne.symm h1, Ne.symm h2, if_false]

theorem pick_metric (s : String) : s = "minkowski" ∧ pick Enums.metric s = .ok 1 ∨
    s = "spherical" ∧ pick Enums.metric s = .ok 2 ∨ s = "qspherical" ∧ pick Enums.metric s = .ok 3 ∨
    s = "kerr_schild" ∧ pick Enums.metric s = .ok 4 ∨ s = "qkerr_schild" ∧ pick Enums.metric s = .ok 5 ∨
    s = "kerr_schild_0" ∧ pick Enums.metric s = .ok 6 ∨
    (s ≠ "minkowski" ∧ s ≠ "spherical" ∧ s ≠ "qspherical" ∧ s ≠ "kerr_schild" ∧ s ≠ "qkerr_schild" ∧
      s ≠ "kerr_schild_0") ∧ pick Enums.metric s = .err := by
  by_cases h1 : s = "minkowski"
  · subst h1; exact .inl ⟨rfl, by decide⟩
  by_cases h2 : s = "spherical"
  · subst h2; exact .inr (.inl ⟨rfl, by decide⟩)
  by_cases h3 : s = "qspherical"
  · subst h3; exact .inr (.inr (.inl ⟨rfl, by decide⟩))
  by_cases h4 : s = "kerr_schild"
  · subst h4; exact .inr (.inr (.inr (.inl ⟨rfl, by decide⟩)))
  by_cases h5 : s = "qkerr_schild"
  · subst h5; exact .inr (.inr (.inr (.inr (.inl ⟨rfl, by decide⟩))))
  by_cases h6 : s = "kerr_schild_0"
  · subst h6; exact .inr (.inr (.inr (.inr (.inr (.inl ⟨rfl, by decide⟩)))))
  refine .inr (.inr (.inr (.inr (.inr (.inr ⟨⟨h1, h2, h3, h4, h5, h6⟩, ?_⟩)))))
  simp only [pick, Enums.metric, pickFrom, Ne.symm h1, Ne.symm h2, Ne.symm h3, Ne.symm h4, Ne.symm h5,
    Ne.symm h6, if_false]

theorem main_mem {p : PGen} {run : Spec → Bool} {s : Spec} (h : s ∈ specializations) :
    main p run s = if p.compatible s then ([s], if run s then 0 else 1) else ([], 1) := by
  have key : ∀ l : List Spec, s ∈ l → l.Nodup → loop p run s l ⟨[], false, false⟩ =
      if p.compatible s then (if run s then (⟨[s], true, true⟩, true) else (⟨[s], true, false⟩, false))
      else (⟨[], true, false⟩, false) := by
    intro l
    have rest : ∀ (l : List Spec) (st : St), s ∉ l → loop p run s l st = (st, true) := by
      intro l
      induction l with
      | nil => intro st _; rfl
      | cons c cs ih =>
        intro st h
        rw [List.mem_cons, not_or] at h
        rw [loop, if_neg h.1, ih st h.2]
    induction l with
    | nil => intro h; simp at h
    | cons c cs ih =>
      intro h1 h2
      rw [List.nodup_cons] at h2
      by_cases hc : s = c
      · subst hc
        rw [loop, if_pos rfl]
        by_cases h3 : p.compatible s
        · rw [if_pos h3, if_pos h3]
          by_cases h4 : run s
          · rw [if_pos h4, if_pos h4, rest cs _ h2.1]; rfl
          · rw [if_neg h4, if_neg h4]; rfl
        · rw [if_neg h3, if_neg h3]
      · rw [loop, if_neg hc]
        exact ih (by simpa [hc] using h1) h2.2
  unfold main
  rw [key _ h (by decide)]
  by_cases h3 : p.compatible s
  · by_cases h4 : run s
    · simp [h3, h4]
    · simp [h3, h4]
  · simp [h3]

theorem main_not_mem {p : PGen} {run : Spec → Bool} {s : Spec} (h : s ∉ specializations) :
    main p run s = ([], 1) := by
  have rest : ∀ (l : List Spec) (st : St), s ∉ l → loop p run s l st = (st, true) := by
    intro l
    induction l with
    | nil => intro st _; rfl
    | cons c cs ih =>
      intro st h
      rw [List.mem_cons, not_or] at h
      rw [loop, if_neg h.1, ih st h.2]
  unfold main
  rw [rest _ _ h]
  rfl

/-- **C141 (choice of the engine).** For every problem generator and every input: if engine, metric and
dimension of the input (in any capitalisation) are a supported combination which the problem generator
declares, then exactly the engine for them is run, once, and the program succeeds exactly if the engine
does; in all other cases no engine is run and the program reports failure. -/
theorem C141_launch (p : PGen) (run : Spec → Bool) (engine metric : String) (nres : Nat) :
    (∀ s, Supported (lower engine) (lower metric) nres s →
      s.1 ∈ p.engines ∧ s.2.1 ∈ p.metrics ∧ s.2.2 ∈ p.dimensions →
      entity p run engine metric nres = .ok ([s], if run s then 0 else 1)) ∧
    ((∀ s, Supported (lower engine) (lower metric) nres s →
      ¬ (s.1 ∈ p.engines ∧ s.2.1 ∈ p.metrics ∧ s.2.2 ∈ p.dimensions)) →
      entity p run engine metric nres = .ok ([], 1)) := by
  have comp : ∀ s : Spec, p.compatible s = true ↔
      s.1 ∈ p.engines ∧ s.2.1 ∈ p.metrics ∧ s.2.2 ∈ p.dimensions := by
    intro s
    simp [PGen.compatible, and_assoc]
  have req : ∀ {e m : Nat}, pick simEngine (lower engine) = .ok e → pick Enums.metric (lower metric) = .ok m →
      requested engine metric nres = if nres = 0 ∨ 3 < nres then .err else .ok (e, m, nres) := by
    intro e m h1 h2
    unfold requested
    rw [h1, h2]
    by_cases h : nres = 0 ∨ 3 < nres
    · rw [if_pos h]
      have : (nres == 0 || decide (3 < nres)) = true := by simpa using h
      simp only [this, bind_ok, errorIf, if_true]
      rfl
    · rw [if_neg h]
      have : (nres == 0 || decide (3 < nres)) = false := by simpa using h
      simp only [this, bind_ok, errorIf, Bool.false_eq_true, if_false, pure_eq]
  have fin : ((∃ s, Supported (lower engine) (lower metric) nres s ∧ s ∈ specializations ∧
        requested engine metric nres = .ok s ∧ ∀ s', Supported (lower engine) (lower metric) nres s' → s' = s) ∨
      ((∀ s, ¬ Supported (lower engine) (lower metric) nres s) ∧ (requested engine metric nres = .err ∨
        ∃ s, requested engine metric nres = .ok s ∧ s ∉ specializations))) := by
    have he := pick_engine (lower engine)
    have hm := pick_metric (lower metric)
    have bad : ∀ {e m : Nat}, pick simEngine (lower engine) = .ok e →
        pick Enums.metric (lower metric) = .ok m →
        (∀ s, Supported (lower engine) (lower metric) nres s ↔ s ∈ specializations ∧ s = (e, m, nres)) →
        ((∃ s, Supported (lower engine) (lower metric) nres s ∧ s ∈ specializations ∧
          requested engine metric nres = .ok s ∧
          ∀ s', Supported (lower engine) (lower metric) nres s' → s' = s) ∨
        ((∀ s, ¬ Supported (lower engine) (lower metric) nres s) ∧ (requested engine metric nres = .err ∨
          ∃ s, requested engine metric nres = .ok s ∧ s ∉ specializations))) := by
      intro e m h1 h2 h
      have r := req h1 h2
      by_cases hm : ((e, m, nres) : Spec) ∈ specializations
      · have hn : ¬ (nres = 0 ∨ 3 < nres) := by
          simp only [specializations, List.mem_cons, Prod.mk.injEq, List.not_mem_nil, or_false] at hm
          omega
        rw [if_neg hn] at r
        exact .inl ⟨_, (h _).2 ⟨hm, rfl⟩, hm, r, fun s' hs => ((h s').1 hs).2⟩
      · refine .inr ⟨fun s hs => ?_, ?_⟩
        · obtain ⟨a, rfl⟩ := (h s).1 hs
          exact hm a
        · by_cases hn : nres = 0 ∨ 3 < nres
          · rw [if_pos hn] at r
            exact .inl r
          · rw [if_neg hn] at r
            exact .inr ⟨_, r, hm⟩
    have iff_tac : ∀ {e m : Nat} {s : Spec} {P : Prop}, (P ↔ ((e, m, nres) : Spec) ∈ specializations) →
        ((P ∧ s = (e, m, nres)) ↔ s ∈ specializations ∧ s = (e, m, nres)) := by
      intro e m s P h
      constructor
      · rintro ⟨a, rfl⟩
        exact ⟨h.1 a, rfl⟩
      · rintro ⟨a, rfl⟩
        exact ⟨h.2 a, rfl⟩
    have dim : ∀ {s : Spec} {e m : Nat}, (nres = 2 ∧ s = (e, m, 2)) ↔ (nres = 2 ∧ s = (e, m, nres)) := by
      intro s e m
      constructor
      · rintro ⟨rfl, rfl⟩; exact ⟨rfl, rfl⟩
      · rintro ⟨rfl, rfl⟩; exact ⟨rfl, rfl⟩
    rcases he with ⟨e, he⟩ | ⟨e, he⟩ | ⟨e, he⟩
    · rcases hm with ⟨m, hm⟩ | ⟨m, hm⟩ | ⟨m, hm⟩ | ⟨m, hm⟩ | ⟨m, hm⟩ | ⟨m, hm⟩ | ⟨m, hm⟩
      case inr.inr.inr.inr.inr.inr =>
        refine .inr ⟨fun s hs => ?_, .inl (by unfold requested; rw [he, hm]; rfl)⟩
        simp only [Supported, m, false_and, and_false, or_self] at hs
      all_goals
        refine bad he hm fun s => ?_
        rw [← iff_tac (P := _) Iff.rfl]
        simp only [Supported, e, m, true_and, false_and, String.reduceEq, false_or, or_false, dim]
        simp only [specializations, List.mem_cons, Prod.mk.injEq, List.not_mem_nil, or_false]
        try simp
    · rcases hm with ⟨m, hm⟩ | ⟨m, hm⟩ | ⟨m, hm⟩ | ⟨m, hm⟩ | ⟨m, hm⟩ | ⟨m, hm⟩ | ⟨m, hm⟩
      case inr.inr.inr.inr.inr.inr =>
        refine .inr ⟨fun s hs => ?_, .inl (by unfold requested; rw [he, hm]; rfl)⟩
        simp only [Supported, m, false_and, and_false, or_self] at hs
      all_goals
        refine bad he hm fun s => ?_
        rw [← iff_tac (P := _) Iff.rfl]
        simp only [Supported, e, m, true_and, false_and, String.reduceEq, false_or, or_false, dim]
        simp only [specializations, List.mem_cons, Prod.mk.injEq, List.not_mem_nil, or_false]
        try simp
    · refine .inr ⟨fun s hs => ?_, .inl (by unfold requested; rw [he]; rfl)⟩
      simp only [Supported, e, false_and, or_self] at hs
  rcases fin with ⟨s, h1, h2, h3, h4⟩ | ⟨h1, h2⟩
  · constructor
    · intro s' hs hc
      rw [h4 s' hs] at hc ⊢
      unfold entity
      rw [h3]
      simp only [main_mem h2, (comp s).2 hc, if_true]
    · intro h
      unfold entity
      rw [h3]
      have : ¬ p.compatible s = true := fun hc => h s h1 ((comp s).1 hc)
      simp only [main_mem h2, this, if_false]
      rfl
  · refine ⟨fun s hs => absurd hs (h1 s), fun _ => ?_⟩
    unfold entity
    rcases h2 with h2 | ⟨s, h2, h3⟩
    · rw [h2]
    · rw [h2]
      simp only [main_not_mem h3]

/-- Names in capitals, and a problem generator for special relativity in 2D. -/
example : entity ⟨[1], [1, 2], [2]⟩ (fun _ => true) "SRPIC" "Minkowski" 2 = .ok ([(1, 1, 2)], 0) ∧
    entity ⟨[1], [1, 2], [2]⟩ (fun _ => true) "SRPIC" "Minkowski" 3 = .ok ([], 1) ∧
    entity ⟨[1, 2], [1, 4], [1, 2]⟩ (fun _ => true) "GRPIC" "Minkowski" 2 = .ok ([], 1) := by
  decide +kernel

/-- **C141 (command line).** The name of the input file is the argument after the first `-input`, wherever
it is and whatever follows, the default if `-input` is the last argument; the simulation is continued
from a checkpoint exactly if one of the four flags is among the arguments.

Full claim: also without `-input` (default name).  Missing: this case increments an iterator past the end, see the
counterexample. -/
theorem C141_command_line_partial (pre rest : List String) (hp : "-input" ∉ pre) :
    ∃ r, commandLine (pre ++ "-input" :: rest) = .ok (rest.headD "input", r) ∧
      (r = true ↔ ∃ a ∈ pre ++ rest, a ∈ ["-continue", "-restart", "-resume", "-checkpoint"]) := by
  have key : ∀ pre : List String, "-input" ∉ pre →
      getArgument "-input" "input" (pre ++ "-input" :: rest) = .ok (rest.headD "input") := by
    intro pre
    induction pre with
    | nil =>
      intro _
      rw [List.nil_append, getArgument, if_pos rfl]
    | cons a pre ih =>
      intro h
      rw [List.mem_cons, not_or] at h
      rw [List.cons_append, getArgument, if_neg (Ne.symm h.1), ih h.2]
  unfold commandLine
  rw [key pre hp]
  refine ⟨_, rfl, ?_⟩
  simp only [isSpecified, Bool.or_eq_true, List.contains_eq_mem, decide_eq_true_eq, List.mem_append,
    List.mem_cons, List.not_mem_nil, or_false, String.reduceEq, false_or]
  constructor
  · rintro (((h | h) | h) | h)
    · exact ⟨_, h, .inl rfl⟩
    · exact ⟨_, h, .inr (.inl rfl)⟩
    · exact ⟨_, h, .inr (.inr (.inl rfl))⟩
    · exact ⟨_, h, .inr (.inr (.inr rfl))⟩
  · rintro ⟨a, h, rfl | rfl | rfl | rfl⟩
    · exact .inl (.inl (.inl h))
    · exact .inl (.inl (.inr h))
    · exact .inl (.inr h)
    · exact .inr h

/-- A usual command line; and one whose file name is missing, where the next flag is taken as the name. -/
example : commandLine ["--kokkos-threads=4", "-input", "a.toml", "-resume"] = .ok ("a.toml", true) ∧
    commandLine ["-input", "-resume"] = .ok ("-resume", true) := by decide +kernel

/-- **C141: no `-input`.** Without `-input`, for which a default is documented, the behaviour is undefined. -/
theorem C141_default_input_counterexample (args : List String) (h : "-input" ∉ args) :
    commandLine args = .ub := by
  have key : getArgument "-input" "input" args = .ub := by
    induction args with
    | nil => rfl
    | cons a as ih =>
      rw [List.mem_cons, not_or] at h
      rw [getArgument, if_neg (Ne.symm h.1), ih h.2]
  unfold commandLine
  rw [key]
  rfl

/-! ## C142 -/

/-- **C142.** The pusher runs exactly once for a species, with the processes that were configured: emission of
the configured type; the update and the external fields of the problem generator if it has them (the latter
if it asks for them); the atmosphere if there is one.  Built-in emission goes into an existing species
without mass and charge; emission of the problem generator requires that it defines one.  All other
configurations stop with an error.

Full claim: for every number of the photon species.  Missing: number 0, see the counterexample. -/
theorem C142_policies_partial (h : Hooks) (sps : List SpInfo) (phS phC : Nat) (t : EmType) (apply atm : Bool)
    (h0 : phS ≠ 0 ∧ phC ≠ 0) :
    (∀ l, makePolicies h sps phS phC t apply atm = .ok l ↔
      ∃ e, l = [⟨e, h.update, h.extFields && apply, atm⟩] ∧
        match t with
        | .none => e = .none
        | .custom => e = .custom ∧ h.emission = true
        | .synchrotron => e = .builtin .synchrotron phS ∧ sps[phS - 1]? = some ⟨true, true⟩
        | .compton => e = .builtin .compton phC ∧ sps[phC - 1]? = some ⟨true, true⟩) ∧
    makePolicies h sps phS phC t apply atm ≠ .ub := by
  have blt : ∀ (t : EmType) (ph : Nat), ph ≠ 0 →
      builtinEmission t sps ph = if sps[ph - 1]? = some ⟨true, true⟩ then .ok (.builtin t ph) else .err := by
    intro t ph hp
    unfold builtinEmission
    by_cases h1 : sps.length < ph
    · have : sps[ph - 1]? = none := List.getElem?_eq_none (by omega)
      simp only [h1, decide_true, errorIf, if_true, this, reduceCtorEq, if_false]
      rfl
    · have hlt : ph - 1 < sps.length := by omega
      simp only [h1, decide_false, errorIf, Bool.false_eq_true, if_false, bind_ok, hp,
        List.getElem?_eq_getElem hlt]
      rcases sps[ph - 1] with ⟨a, b⟩
      cases a <;> cases b <;> rfl
  have hx : (if h.extFields then apply else false) = (h.extFields && apply) := by
    cases h.extFields <;> rfl
  cases t with
  | none =>
    have : makePolicies h sps phS phC .none apply atm = .ok [⟨.none, h.update, h.extFields && apply, atm⟩] := by
      unfold makePolicies
      simp only [bind_ok, pure_eq, hx]
    rw [this]
    refine ⟨fun l => ⟨fun e => ⟨.none, by simpa using e.symm, rfl⟩, ?_⟩, by simp⟩
    rintro ⟨e, rfl, rfl⟩
    rfl
  | custom =>
    have : makePolicies h sps phS phC .custom apply atm = if h.emission then
        .ok [⟨.custom, h.update, h.extFields && apply, atm⟩] else .err := by
      unfold makePolicies
      cases h.emission
      · rfl
      · simp only [if_true, bind_ok, pure_eq, hx]
    rw [this]
    cases he : h.emission
    · refine ⟨fun l => ⟨fun e => by simp at e, ?_⟩, by simp⟩
      rintro ⟨e, rfl, -, hc⟩
      simp at hc
    · refine ⟨fun l => ⟨fun e => ⟨.custom, by simpa using e.symm, rfl, rfl⟩, ?_⟩, by simp⟩
      rintro ⟨e, rfl, rfl, -⟩
      rfl
  | synchrotron =>
    have : makePolicies h sps phS phC .synchrotron apply atm = if sps[phS - 1]? = some ⟨true, true⟩ then
        .ok [⟨.builtin .synchrotron phS, h.update, h.extFields && apply, atm⟩] else .err := by
      unfold makePolicies
      simp only [blt .synchrotron phS h0.1]
      split
      · simp only [bind_ok, pure_eq, hx]
      · rfl
    rw [this]
    by_cases hs : sps[phS - 1]? = some ⟨true, true⟩
    · rw [if_pos hs]
      refine ⟨fun l => ⟨fun e => ⟨_, by simpa using e.symm, rfl, hs⟩, ?_⟩, by simp⟩
      rintro ⟨e, rfl, rfl, -⟩
      rfl
    · rw [if_neg hs]
      refine ⟨fun l => ⟨fun e => by simp at e, ?_⟩, by simp⟩
      rintro ⟨e, rfl, -, hc⟩
      exact absurd hc hs
  | compton =>
    have : makePolicies h sps phS phC .compton apply atm = if sps[phC - 1]? = some ⟨true, true⟩ then
        .ok [⟨.builtin .compton phC, h.update, h.extFields && apply, atm⟩] else .err := by
      unfold makePolicies
      simp only [blt .compton phC h0.2]
      split
      · simp only [bind_ok, pure_eq, hx]
      · rfl
    rw [this]
    by_cases hs : sps[phC - 1]? = some ⟨true, true⟩
    · rw [if_pos hs]
      refine ⟨fun l => ⟨fun e => ⟨_, by simpa using e.symm, rfl, hs⟩, ?_⟩, by simp⟩
      rintro ⟨e, rfl, rfl, -⟩
      rfl
    · rw [if_neg hs]
      refine ⟨fun l => ⟨fun e => by simp at e, ?_⟩, by simp⟩
      rintro ⟨e, rfl, -, hc⟩
      exact absurd hc hs

/-- Electrons (1), positrons (2) and photons (3); Compton emission into the photons and into the
positrons. -/
example : makePolicies ⟨false, true, true⟩ [⟨false, false⟩, ⟨false, false⟩, ⟨true, true⟩] 3 3 .compton false true =
      .ok [⟨.builtin .compton 3, true, false, true⟩] ∧
    makePolicies ⟨false, true, true⟩ [⟨false, false⟩, ⟨false, false⟩, ⟨true, true⟩] 3 2 .compton false true =
      .err := by decide +kernel

/-- **C142: photon species 0.** The number 0 (also 256, which is stored in 8 bits) is not rejected: the access
`species[-1]` is undefined. -/
theorem C142_species_zero_counterexample (h : Hooks) (sps : List SpInfo) (ph : Nat) (apply atm : Bool) :
    makePolicies h sps 0 ph .synchrotron apply atm = .ub ∧ makePolicies h sps ph 0 .compton apply atm = .ub := by
  constructor <;> simp [makePolicies, builtinEmission, errorIf] <;> rfl

end Entity.Launch
