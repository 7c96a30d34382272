import Verif.Model.Enums
import Mathlib.Tactic.Common
import Mathlib.Data.List.Nodup

/-!
# C11: enumeration names round-trip
-/

namespace Entity.Enums

open Entity

theorem pickFrom_range (ns : List String) (k : Nat) (s : String) :
    (∀ v, pickFrom (List.range' k ns.length) ns s = .ok v ↔
      ∃ i, ns[i]? = some s ∧ v = k + i ∧ ∀ j < i, ns[j]? ≠ some s) ∧
    (pickFrom (List.range' k ns.length) ns s = .err ↔ s ∉ ns) := by
  induction ns generalizing k with
  | nil => simp [pickFrom]
  | cons n ns ih =>
    rw [List.length_cons, List.range'_succ]
    simp only [pickFrom]
    by_cases h : n = s
    · subst h
      simp only [if_true]
      refine ⟨fun v => ⟨fun h => ⟨0, by simpa using h.symm⟩, ?_⟩, by simp⟩
      rintro ⟨i, hi, rfl, hmin⟩
      rcases i with _ | i
      · simp
      · exact absurd (by simp) (hmin 0 (by omega))
    · simp only [if_neg h]
      refine ⟨fun v => ?_, ?_⟩
      · rw [(ih (k + 1)).1]
        constructor
        · rintro ⟨i, hi, rfl, hmin⟩
          refine ⟨i + 1, by simpa using hi, by omega, ?_⟩
          intro j hj
          rcases j with _ | j
          · simpa using h
          · simpa using hmin j (by omega)
        · rintro ⟨i, hi, rfl, hmin⟩
          rcases i with _ | i
          · simp at hi; exact absurd hi h
          · refine ⟨i, by simpa using hi, by omega, fun j hj => ?_⟩
            simpa using hmin (j + 1) (by omega)
      · rw [(ih (k + 1)).2]; simp [Ne.symm h]

theorem containsFrom_range (ns : List String) (k : Nat) (s : String) :
    containsFrom (List.range' k ns.length) ns s = .ok (decide (s ∈ ns)) := by
  induction ns generalizing k with
  | nil => simp [containsFrom]
  | cons n ns ih =>
    rw [List.length_cons, List.range'_succ]
    simp only [containsFrom]
    by_cases h : n = s
    · simp [h]
    · rw [if_neg h, ih]; simp [Ne.symm h]

/-- The tables of the source are well formed: values are `1..n`, one distinct name each. -/
theorem allEnums_wf : ∀ e ∈ allEnums,
    e.variants = List.range' 1 e.lookup.length ∧ e.lookup.Nodup := by
  decide

/-- **C11**: for every enumeration of enums.h,
(1) every value has a printed name, and picking that name gives the value back;
(2) two values with the same printed name are equal;
(3) for every string, `pick` succeeds with `v` exactly if `v` is a value whose printed name is the
string; otherwise it raises an error, never reading outside the tables;
(4) `contains` never fails and reports `true` exactly for the strings `pick` accepts. -/
theorem C11_names_round_trip (e : EnumTable) (he : e ∈ allEnums) :
    (∀ v ∈ e.variants, ∃ s, toString e v = .ok s ∧ pick e s = .ok v) ∧
    (∀ v ∈ e.variants, ∀ w ∈ e.variants, toString e v = toString e w → v = w) ∧
    (∀ s v, pick e s = .ok v ↔ v ∈ e.variants ∧ toString e v = .ok s) ∧
    (∀ s, (∀ v ∈ e.variants, toString e v ≠ .ok s) ↔ pick e s = .err) ∧
    (∀ s, pick e s ≠ .ub) ∧
    (∀ s, ∃ b, contains e s = .ok b ∧ (b = true ↔ ∃ v, pick e s = .ok v)) := by
  obtain ⟨hv, hnd⟩ := allEnums_wf e he
  have hstr : ∀ v ∈ e.variants, ∃ i, ∃ h : i < e.lookup.length, v = 1 + i ∧
      toString e v = .ok (e.lookup[i]) := by
    intro v hvm
    rw [hv, List.mem_range'] at hvm
    obtain ⟨i, hi, rfl⟩ := hvm
    refine ⟨i, hi, by omega, ?_⟩
    have h1 : 1 + 1 * i ≠ 0 := by omega
    have h2 : 1 + 1 * i - 1 = i := by omega
    simp only [toString, if_neg h1, h2, List.getElem?_eq_getElem hi]
  have hpick : ∀ s v, pick e s = .ok v ↔ v ∈ e.variants ∧ toString e v = .ok s := by
    intro s v
    unfold pick
    rw [hv, (pickFrom_range e.lookup 1 s).1, ← hv]
    constructor
    · rintro ⟨i, hi, rfl, _⟩
      have hl : i < e.lookup.length := (List.getElem?_eq_some_iff.mp hi).1
      have hm : 1 + i ∈ e.variants := by
        rw [hv, List.mem_range']; exact ⟨i, hl, by omega⟩
      refine ⟨hm, ?_⟩
      obtain ⟨j, hj, hij, hs⟩ := hstr _ hm
      have : j = i := by omega
      subst this
      rw [hs, (List.getElem?_eq_some_iff.mp hi).2]
    · rintro ⟨hm, hs⟩
      obtain ⟨i, hi, rfl, hs'⟩ := hstr _ hm
      rw [hs'] at hs
      have hs : e.lookup[i] = s := by simpa using hs
      refine ⟨i, by rw [List.getElem?_eq_getElem hi, hs], rfl, ?_⟩
      intro j hj hc
      obtain ⟨hjl, hjs⟩ := List.getElem?_eq_some_iff.mp hc
      have := (hnd.getElem_inj_iff (hi := hjl) (hj := hi)).mp (by rw [hjs, hs])
      omega
  have herr : ∀ s, pick e s = .err ↔ s ∉ e.lookup := by
    intro s; unfold pick; rw [hv]; exact (pickFrom_range e.lookup 1 s).2
  have hmem : ∀ s, s ∈ e.lookup → ∃ v, pick e s = .ok v := by
    intro s hs
    obtain ⟨i, hi, rfl⟩ := List.mem_iff_getElem.mp hs
    refine ⟨1 + i, (hpick _ _).mpr ⟨?_, ?_⟩⟩
    · rw [hv, List.mem_range']; exact ⟨i, hi, by omega⟩
    · have h1 : 1 + i ≠ 0 := by omega
      have h2 : 1 + i - 1 = i := by omega
      simp only [toString, if_neg h1, h2, List.getElem?_eq_getElem hi]
  refine ⟨?_, ?_, hpick, ?_, ?_, ?_⟩
  · intro v hvm
    obtain ⟨i, hi, _, hs⟩ := hstr v hvm
    exact ⟨_, hs, (hpick _ _).mpr ⟨hvm, hs⟩⟩
  · intro v hvm w hwm h
    obtain ⟨i, hi, _, hs⟩ := hstr v hvm
    have a := (hpick _ _).mpr ⟨hvm, hs⟩
    have b := (hpick _ _).mpr ⟨hwm, h ▸ hs⟩
    rw [a] at b; simpa using b
  · intro s
    constructor
    · intro h
      rw [herr]
      intro hs
      obtain ⟨v, hv'⟩ := hmem s hs
      exact h v ((hpick _ _).mp hv').1 ((hpick _ _).mp hv').2
    · intro h v hvm hs
      have := (hpick _ _).mpr ⟨hvm, hs⟩
      rw [h] at this; cases this
  · intro s h
    by_cases hs : s ∈ e.lookup
    · obtain ⟨v, hv'⟩ := hmem s hs
      rw [h] at hv'; cases hv'
    · rw [(herr s).mpr hs] at h; cases h
  · intro s
    refine ⟨decide (s ∈ e.lookup), ?_, ?_⟩
    · unfold contains; rw [hv]; exact containsFrom_range e.lookup 1 s
    · rw [decide_eq_true_iff]
      refine ⟨hmem s, ?_⟩
      rintro ⟨v, hv'⟩
      by_contra hs
      rw [(herr s).mpr hs] at hv'; cases hv'

/-- C11 covers, e.g., the field boundary conditions; `pick` is case sensitive. -/
example : fldsBC ∈ allEnums ∧ pick fldsBC "conductor" = .ok 8 ∧ pick fldsBC "Conductor" = .err ∧
    toString fldsBC 8 = .ok "conductor" ∧ contains fldsBC "reflect" = .ok false := by decide

/-- The default value `INVALID = 0` has no name: printing it reads before the table. -/
theorem C11_invalid_not_printable (e : EnumTable) : toString e 0 = .ub := rfl

/-- Names that are not the identifier in lower case: abbreviations and formulas. -/
def abbreviations : List (String × String) :=
  [("Cartesian", "cart"), ("Spherical", "sph"), ("Qspherical", "qsph"), ("B2", "b^2"), ("E2", "e^2"),
   ("JdotE", "j.e")]

/-- **C11**, meaning of the names: every value is printed as its identifier in lower case, except for
those in the list of abbreviations. -/
theorem C11_names_mean : (List.zip allEnums identifiers).length = 7 ∧
    ∀ p ∈ List.zip allEnums identifiers, p.1.variants.length = p.2.length ∧
      ∀ q ∈ List.zip p.1.variants p.2,
        toString p.1 q.1 = .ok q.2.toLower ∨ ∃ s, (q.2, s) ∈ abbreviations ∧ toString p.1 q.1 = .ok s := by
  refine ⟨by decide, ?_⟩
  have h : (List.zip allEnums identifiers).all (fun p => p.1.variants.length == p.2.length &&
      (List.zip p.1.variants p.2).all (fun q => decide (toString p.1 q.1 = .ok q.2.toLower) ||
        abbreviations.any (fun r => r.1 == q.2 && decide (toString p.1 q.1 = .ok r.2)))) = true := by
    decide +kernel
  intro p hp
  have h1 := List.all_eq_true.1 h p hp
  simp only [Bool.and_eq_true, beq_iff_eq] at h1
  refine ⟨h1.1, fun q hq => ?_⟩
  have h2 := List.all_eq_true.1 h1.2 q hq
  simp only [Bool.or_eq_true, decide_eq_true_eq, List.any_eq_true, Bool.and_eq_true, beq_iff_eq] at h2
  rcases h2 with h2 | ⟨r, hr, e, h2⟩
  · exact .inl h2
  · exact .inr ⟨r.2, by rw [← e]; exact hr, h2⟩

/-- What the flags of a pusher say: bit 0 photon, bit 1 Boris, bit 2 Vay (the lowest set bit counts),
bit 3 guiding centre. -/
def pusherWords (f : BitVec 8) : List String :=
  (([(0, "photon"), (1, "boris"), (2, "vay")].filter (fun (p : Nat × String) => f.getLsbD p.1)).take 1 ++
    [(3, "gca")].filter (fun (p : Nat × String) => f.getLsbD p.1)).map Prod.snd

/-- What the flags of radiative drag say. -/
def dragWords (f : BitVec 8) : List String :=
  ([(0, "synchrotron"), (1, "compton")].filter (fun (p : Nat × String) => f.getLsbD p.1)).map Prod.snd

/-- **C11**, flags: for every value of the flags the printed pusher and drag are the words of the bits that
are set, separated by commas, `none` if there is no bit at all; printed smoothing types read back. -/
theorem C11_flags (f : BitVec 8) :
    (pusherToString f = if f = 0 then "none" else ",".intercalate (pusherWords f)) ∧
    (dragToString f = if f = 0 then "none" else ",".intercalate (dragWords f)) ∧
    (f.toNat < 3 → smoothingFromString (smoothingToString f) = f) ∧
    (∀ g : BitVec 8, f.toNat < 4 → emissionToString f = emissionToString g → f = g) := by
  have h : ∀ f : Fin (2 ^ 8),
      (pusherToString (.ofFin f) = if BitVec.ofFin f = 0 then "none"
        else ",".intercalate (pusherWords (.ofFin f))) ∧
      (dragToString (.ofFin f) = if BitVec.ofFin f = 0 then "none"
        else ",".intercalate (dragWords (.ofFin f))) ∧
      (f.val < 3 → smoothingFromString (smoothingToString (.ofFin f)) = .ofFin f) := by
    decide +kernel
  have h' : ∀ f g : Fin (2 ^ 8), f.val < 4 →
      emissionToString (.ofFin f) = emissionToString (.ofFin g) → f = g := by
    decide +kernel
  obtain ⟨a, b, c⟩ := h f.toFin
  exact ⟨a, b, c, fun g hf he => BitVec.eq_of_toFin_eq (h' f.toFin g.toFin hf he)⟩

/-- Boris with guiding centre; an unknown bit alone prints nothing. -/
example : pusherToString 10 = "boris,gca" ∧ pusherToString 16 = "" ∧ dragToString 3 = "synchrotron,compton" := by
  decide +kernel

end Entity.Enums
