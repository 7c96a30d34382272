import Verif.Lemmas.Setup
import Mathlib.Data.Rat.Defs

/-!
# C156, C157: options of the user, and parameters in the output
-/

namespace Entity.Setup

open Entity Entity.Outcome

variable {K : Type}

/-- **C156.** Options of the user in `[setup]`.  A table of options is accepted exactly when every value
is a truth value, number, string, date or table, or an array of entries of one kind in one or two
dimensions (`Accepted`); no input is undefined behaviour.  Every option can then be read under its name
with its value and its type, whatever the other options and their order, and no other parameter is
changed.  Integers are in the range of `int`.

Partial: integers outside of this range change, and empty arrays, dates and tables are dropped without a
message (`C156_counterexample`). -/
theorem C156_setup_options_partial {B : Build K} (tab : List (String × Toml K)) (p : Params K)
    (hn : (tab.map (·.1)).Nodup) :
    setSetup B tab p ≠ .ub ∧
    ((∃ q, setSetup B tab p = .ok q) ↔ ∀ x ∈ tab, Accepted x.2) ∧
    ∀ q, setSetup B tab p = .ok q →
      (∀ key val, (key, val) ∈ tab → Reads B q ("setup." ++ key) val) ∧
      (∀ k, (∀ key ∈ tab.map (·.1), k ≠ "setup." ++ key) → look q k = look p k) := by
  refine ⟨setSetup_ne_ub B tab p, by rw [setSetup_ok]; simp only [setupVal_ok], fun q hq => ?_⟩
  obtain ⟨h1, h2⟩ := setSetup_look hq hn
  refine ⟨fun key val hm => ?_, h2⟩
  obtain ⟨o, ho, e⟩ := h1 key val hm
  refine setupVal_reads fun v hv => ?_
  rw [ho] at hv
  cases hv
  rw [e]
  rfl

/-- What goes wrong: an integer of more than 32 bits is stored as another number; an empty array and a
date or table are accepted, and there is no parameter of that name; a number without a decimal point is
not a `real_t`, so that reading it as one throws. -/
theorem C156_counterexample (B : Build ℚ) (hB : B.realT = .double) :
    (∃ q, setSetup B [("n", .int 5000000000)] [] = .ok q ∧
      getOne q "setup.n" .int = .ok (.int 705032704)) ∧
    setSetup B [("a", .arr []), ("d", .other)] [] = .ok [] ∧
    (∃ q, setSetup B [("x", .int 1)] [] = .ok q ∧ getOne q "setup.x" B.realT = .err ∧
      getOne q "setup.x" .int = .ok (.int 1)) := by
  refine ⟨⟨_, rfl, rfl⟩, rfl, ⟨_, rfl, ?_, rfl⟩⟩
  rw [hB]
  rfl

/-- **C157.** The parameters of a run are in its output.  Whatever the parameters, if all are of their
types and no two have attributes of the same name, all of them are written without an error; every
parameter for whose type there is a function (`Recordable`) can be decoded from the attribute of its name
— a truth value from `0` or `1`, an enumerator from its name, pairs from the entries of an array, the
entries of a map from attributes of their own — and there are no other attributes than those of
parameters.

Partial: the other types are left out (`C157_counterexample`); of a vector of vectors only the entries in
order are recorded, not their division into vectors. -/
theorem C157_attributes_partial {p : Params K} {io : List (String × Attr K)} (ht : ∀ x ∈ p, Typed x.2)
    (hn : (io.map (·.1) ++ p.flatMap fun x => names x.1 x.2).Nodup) :
    ∃ out, writeParams io p = .ok (io ++ out) ∧
      (∀ x ∈ p, x.1 ≠ "particles.species" → Recordable x.2 → Recorded (io ++ out) x.1 x.2) ∧
      (∀ n ∈ out.map (·.1), ∃ x ∈ p, n ∈ names x.1 x.2 ∧ x.1 ≠ "particles.species" ∧
        Recordable x.2) := by
  obtain ⟨out, h1, -, h2, h3⟩ := writeParams_ok ht hn
  exact ⟨out, h1, h2, h3⟩

/-- **C157.** Whatever the parameters, even if names of attributes clash, no exception leaves the
function. -/
theorem C157_never_throws (io : List (String × Attr K)) (p : Params K) : writeParams io p ≠ .err :=
  writeParams_ne_err io p

/-- **C157.** So two runs with different parameters of such types have different attributes: a parameter
with a value, pair, vector or vector of pairs that is recorded can be told from every other value of the
same type. -/
theorem C157_told_apart {io : List (String × Attr K)} {k : String} {t : Ty} :
    (∀ v w, Recorded io k (.one t v) → Recorded io k (.one t w) → v = w) ∧
    (∀ a b c d, Recorded io k (.pair t a b) → Recorded io k (.pair t c d) → a = c ∧ b = d) ∧
    (∀ l m, Recorded io k (.vec t l) → Recorded io k (.vec t m) → l = m) ∧
    (∀ l m, Recorded io k (.vecPair t l) → Recorded io k (.vecPair t m) → l = m) := by
  refine ⟨?_, ?_, ?_, ?_⟩
  · rintro v w ⟨t1, x, h1, h2⟩ ⟨t2, y, h3, h4⟩
    rw [h1] at h3; cases h3; rw [h2] at h4; simpa using h4
  · rintro a b c d ⟨t1, x, h1, h2⟩ ⟨t2, y, h3, h4⟩
    rw [h1] at h3; cases h3; rw [h2] at h4; simpa using h4
  · rintro v w ⟨t1, x, h1, h2⟩ ⟨t2, y, h3, h4⟩
    rw [h1] at h3; cases h3; rw [h2] at h4; simpa using h4
  · rintro v w ⟨t1, x, h1, h2⟩ ⟨t2, y, h3, h4⟩
    rw [h1] at h3; cases h3; rw [h2] at h4; simpa using h4

/-- **C157.** Options of `[setup]` are in the output, except arrays of truth values. -/
theorem C157_setup_recorded {B : Build K} (hB : B.realT = .float ∨ B.realT = .double)
    {tab : List (String × Toml K)} {p q : Params K} {io : List (String × Attr K)}
    (hk : (tab.map (·.1)).Nodup) (hq : setSetup B tab p = .ok q) (ht : ∀ x ∈ p, Typed x.2)
    (hn : (io.map (·.1) ++ q.flatMap fun x => names x.1 x.2).Nodup) :
    ∃ out, writeParams io q = .ok (io ++ out) ∧
      (∀ key b, (key, .bool b) ∈ tab → Recorded (io ++ out) ("setup." ++ key) (.one .bool (.bool b))) ∧
      (∀ key n, (key, .int n) ∈ tab → Int32 n →
        Recorded (io ++ out) ("setup." ++ key) (.one .int (.int n))) ∧
      (∀ key x, (key, .float x) ∈ tab →
        Recorded (io ++ out) ("setup." ++ key) (.one B.realT (.real (B.rnd x)))) ∧
      (∀ key s, (key, .str s) ∈ tab → Recorded (io ++ out) ("setup." ++ key) (.one .str (.str s))) ∧
      (∀ key (ns : List Int), (key, .arr (ns.map Toml.int)) ∈ tab → ns ≠ [] → (∀ n ∈ ns, Int32 n) →
        Recorded (io ++ out) ("setup." ++ key) (.vec .int (ns.map Sv.int))) ∧
      (∀ key (xs : List K), (key, .arr (xs.map Toml.float)) ∈ tab → xs ≠ [] →
        Recorded (io ++ out) ("setup." ++ key) (.vec B.realT (xs.map fun x => Sv.real (B.rnd x)))) ∧
      (∀ key (ss : List String), (key, .arr (ss.map Toml.str)) ∈ tab → ss ≠ [] →
        Recorded (io ++ out) ("setup." ++ key) (.vec .str (ss.map Sv.str))) := by
  obtain ⟨out, h1, h2, -⟩ := C157_attributes_partial (setSetup_typed hB hq ht) hn
  have hr := ((C156_setup_options_partial tab p hk).2.2 q hq).1
  have hreal : (∀ v : Sv K, Recordable (Any.one B.realT v)) ∧
      ∀ l : List (Sv K), Recordable (Any.vec B.realT l) := by
    rcases hB with e | e <;> rw [e] <;> 
      exact ⟨fun _ => by simp [Recordable], fun _ => by simp [Recordable]⟩
  have one : ∀ {key T v}, getOne q key T = .ok v → (key, Any.one T v) ∈ q := by
    intro key T v h
    unfold getOne at h
    split at h
    · next t w e =>
      split at h
      · next e' => subst e'; cases h; exact mem_of_look e
      · cases h
    · cases h
  have vec : ∀ {key T v}, getVec q key T = .ok v → (key, Any.vec T v) ∈ q := by
    intro key T v h
    unfold getVec at h
    split at h
    · next t w e =>
      split at h
      · next e' => subst e'; cases h; exact mem_of_look e
      · cases h
    · cases h
  refine ⟨out, h1, fun key b hm => ?_, fun key n hm hi => ?_, fun key x hm => ?_, fun key s hm => ?_,
    fun key ns hm h0 hi => ?_, fun key xs hm h0 => ?_, fun key ss hm h0 => ?_⟩
  · exact h2 _ (one (hr _ _ hm)) (setup_ne_species _) (by simp [Recordable])
  · exact h2 _ (one (hr _ _ hm hi)) (setup_ne_species _) (by simp [Recordable])
  · exact h2 _ (one (hr _ _ hm)) (setup_ne_species _) (hreal.1 _)
  · exact h2 _ (one (hr _ _ hm)) (setup_ne_species _) (by simp [Recordable])
  · exact h2 _ (vec ((hr _ _ hm (by simpa using h0)).1 ns rfl hi)) (setup_ne_species _) (by simp [Recordable])
  · exact h2 _ (vec ((hr _ _ hm (by simpa using h0)).2.1 xs rfl)) (setup_ne_species _) (hreal.2 _)
  · exact h2 _ (vec ((hr _ _ hm (by simpa using h0)).2.2.2.1 ss rfl)) (setup_ne_species _) (by simp [Recordable])

/-- What is missing in the output: options that are arrays of truth values, the species of the particle
output and the pair of species of the atmosphere; and two grids of numbers that are divided into rows in
different ways give the same attributes. -/
theorem C157_counterexample :
    writeParams (K := ℚ) [] [("setup.flags", .vec .bool [.bool true, .bool false])] = .ok [] ∧
    writeParams (K := ℚ) [] [("output.particles.species", .vec .uchar [.int 1, .int 2])] = .ok [] ∧
    writeParams (K := ℚ) [] [("grid.boundaries.atmosphere.species", .pair .uchar (.int 1) (.int 2))] =
      .ok [] ∧
    writeParams (K := ℚ) [] [("setup.a", .vecVec .int [[.int 1], [.int 2, .int 3]])] =
      writeParams [] [("setup.a", .vecVec .int [[.int 1, .int 2], [.int 3]])] :=
  ⟨rfl, rfl, rfl, rfl⟩

/-- The hypotheses are met: a section `[setup]` with options of several kinds, beside a parameter. -/
example : ∃ q out,
    setSetup (K := ℚ) ⟨.double, id⟩ [("drift", .float (1/2)), ("modes", .arr [.int 1, .int (-2)]),
      ("on", .bool true), ("m", .arr [.arr [.str "a"], .arr []])]
      [("grid.metric.metric", .one (.enum Enums.metric) (.int 2))] = .ok q ∧
    writeParams [("NGhosts", .one .ulong (.int 2))] q = .ok (("NGhosts", .one .ulong (.int 2)) :: out) ∧
    getVecVec q "setup.m" .str = .ok [[.str "a"], []] ∧
    look out "grid.metric.metric" = some (.one .str (.str "spherical")) ∧
    look out "setup.on" = some (.one .int (.int 1)) ∧
    look out "setup.modes" = some (.arr .int [.int 1, .int (-2)]) ∧
    (["NGhosts"] ++ q.flatMap fun x => names x.1 x.2).Nodup :=
  ⟨_, _, rfl, rfl, rfl, rfl, rfl, rfl, by decide⟩

end Entity.Setup
