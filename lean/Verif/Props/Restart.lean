import Verif.Model.Restart
import Verif.Lemmas.Prtl
import Mathlib.Tactic.Linarith
import Mathlib.Tactic.FieldSimp
import Mathlib.Tactic.Ring
import Mathlib.Tactic.NormNum
import Mathlib.Algebra.Order.Field.Rat

/-!
# Properties C49, C50: parameters and time across restarts
-/

namespace Entity.Restart

open Entity Entity.Outcome

variable {I S M P : Type}

theorem setSpecies_ok {old new r : List (S × Nat)} (h : setSpecies old new = .ok r) :
    r.map Prod.fst = old.map Prod.fst ∧ r.map Prod.snd = new.map Prod.snd := by
  unfold setSpecies errorIf at h
  split_ifs at h with hl
  · cases h
  · simp only [bind_ok] at h
    cases h
    have hl : new.length = old.length := by simpa using hl
    clear * - hl
    induction old generalizing new with
    | nil => cases new <;> simp_all
    | cons o old ih =>
      cases new with
      | nil => simp at hl
      | cons n new =>
        obtain ⟨h1, h2⟩ := ih (new := new) (by simpa using hl)
        simp [h1, h2]

theorem resume_ok {c f : Toml I S M P} {p : Params I S M P} (h : resume c f = .ok p) :
    p.raw = f ∧ p.imm = c.imm ∧ p.setup = c.setup ∧ p.mutb = f.mutb ∧
    p.species.map Prod.fst = c.species.map Prod.fst ∧ p.species.map Prod.snd = f.species.map Prod.snd := by
  unfold resume at h
  obtain ⟨sp, h1, h2⟩ := Outcome.bind_eq_ok.1 h
  cases h2
  exact ⟨rfl, rfl, rfl, rfl, setSpecies_ok h1⟩

theorem start_ok {f : Toml I S M P} {p : Params I S M P} (h : start f = .ok p) :
    p.raw = f ∧ p.imm = f.imm ∧ p.setup = f.setup ∧ p.species.map Prod.fst = f.species.map Prod.fst := by
  unfold start at h
  obtain ⟨sp, h1, h2⟩ := Outcome.bind_eq_ok.1 h
  cases h2
  exact ⟨rfl, rfl, rfl, (setSpecies_ok h1).1⟩

/-- The protected part of the parameters: everything that must not change on restart. -/
def Keeps (p : Params I S M P) (f : Toml I S M P) : Prop :=
  p.imm = f.imm ∧ p.setup = f.setup ∧ p.species.map Prod.fst = f.species.map Prod.fst

/-! ## C49 -/

/-- **C49 (first restart).** The first restart keeps the immutable parameters, the `[setup]` table and
the species of the original run, however the input file was edited, and takes the other parameters
and `maxnpart` from the file.  Missing: later restarts (`C49_second_restart_counterexample`). -/
theorem C49_first_restart_partial {f0 f1 : Toml I S M P} {p : Params I S M P}
    (h : chain f0 [f1] = .ok p) :
    Keeps p f0 ∧ p.mutb = f1.mutb ∧ p.species.map Prod.snd = f1.species.map Prod.snd := by
  unfold chain at h
  obtain ⟨p0, h0, h1⟩ := Outcome.bind_eq_ok.1 h
  simp only [List.foldlM_cons, List.foldlM_nil] at h1
  obtain ⟨p1, h1, h2⟩ := Outcome.bind_eq_ok.1 h1
  cases h2
  obtain ⟨a1, a2, a3, a4⟩ := start_ok h0
  obtain ⟨b1, b2, b3, b4, b5, b6⟩ := resume_ok h1
  unfold saved at *
  rw [a1] at b2 b3 b5
  exact ⟨⟨b2, b3, b5⟩, b4, b6⟩

/-- **C49 (unedited files).** If the immutable part of the input file is left alone at every restart
but the last, every restart keeps it.  Missing: as above. -/
theorem C49_unedited_partial {f0 f : Toml I S M P} {fs : List (Toml I S M P)} {p : Params I S M P}
    (h : chain f0 (fs ++ [f]) = .ok p)
    (hf : ∀ g ∈ fs, g.imm = f0.imm ∧ g.setup = f0.setup ∧ g.species.map Prod.fst = f0.species.map Prod.fst) :
    Keeps p f0 := by
  unfold chain at h
  obtain ⟨p0, h0, h01⟩ := Outcome.bind_eq_ok.1 h
  rw [List.foldlM_append] at h01
  obtain ⟨p1, h1, h2⟩ := Outcome.bind_eq_ok.1 h01
  have hraw : p1.raw.imm = f0.imm ∧ p1.raw.setup = f0.setup ∧
      p1.raw.species.map Prod.fst = f0.species.map Prod.fst := by
    have h00 := (start_ok h0).1
    have : p0.raw.imm = f0.imm ∧ p0.raw.setup = f0.setup ∧
      p0.raw.species.map Prod.fst = f0.species.map Prod.fst := by rw [h00]; exact ⟨rfl, rfl, rfl⟩
    clear h h0 h00 h2 h01
    induction fs generalizing p0 with
    | nil => simp only [List.foldlM_nil] at h1; cases h1; exact this
    | cons g fs ih =>
      simp only [List.foldlM_cons] at h1
      obtain ⟨p2, h2, h3⟩ := Outcome.bind_eq_ok.1 h1
      refine ih (fun x hx => hf x (by simp [hx])) (p0 := p2) h3 ?_
      rw [(resume_ok h2).1]; exact hf g (by simp)
  simp only [List.foldlM_cons, List.foldlM_nil] at h2
  obtain ⟨p2, h2, h3⟩ := Outcome.bind_eq_ok.1 h2
  cases h3
  obtain ⟨_, b2, b3, _, b5, _⟩ := resume_ok h2
  unfold saved at *
  exact ⟨b2.trans hraw.1, b3.trans hraw.2.1, b5.trans hraw.2.2⟩

/-- **A second restart takes the immutable parameters from the edited file of the first one**, since a
checkpoint stores the input file instead of the parameters in use. -/
theorem C49_second_restart_counterexample (f0 f1 f2 : Toml I S M P)
    (h1 : f1.species.length = f0.species.length) (h2 : f2.species.length = f1.species.length) :
    ∃ p, chain f0 [f1, f2] = .ok p ∧ Keeps p f1 := by
  have hs : ∀ a b : List (S × Nat), b.length = a.length → ∃ r, setSpecies a b = .ok r := by
    intro a b hab
    refine ⟨List.zipWith (fun o n => (o.1, n.2)) a b, ?_⟩
    simp [setSpecies, errorIf, hab]
  obtain ⟨s0, e0⟩ := hs f0.species f0.species rfl
  obtain ⟨s1, e1⟩ := hs f0.species f1.species h1
  obtain ⟨s2, e2⟩ := hs f1.species f2.species h2
  refine ⟨⟨f2, f1.imm, s2, f2.mutb, f1.setup⟩, ?_, rfl, rfl, (setSpecies_ok e2).1⟩
  simp [chain, start, resume, saved, e0, e1, e2]

/-- One skin depth edited from 10 to 20 between the runs: kept at the first restart, lost at the
second. -/
example : (chain (I := Nat) (S := Nat) (M := Nat) (P := Unit) ⟨10, [(1, 100)], 7, ()⟩
      [⟨20, [(1, 200)], 8, ()⟩] = .ok ⟨⟨20, [(1, 200)], 8, ()⟩, 10, [(1, 200)], 8, ()⟩) ∧
    (chain (I := Nat) (S := Nat) (M := Nat) (P := Unit) ⟨10, [(1, 100)], 7, ()⟩
      [⟨20, [(1, 200)], 8, ()⟩, ⟨20, [(1, 200)], 8, ()⟩] =
      .ok ⟨⟨20, [(1, 200)], 8, ()⟩, 20, [(1, 200)], 8, ()⟩) := ⟨rfl, rfl⟩

/-! ## C50 -/

theorem roundEven_near (x : ℚ) : |(roundEven x : ℚ) - x| ≤ 1 / 2 := by
  have h1 := Int.floor_le x
  have h2 := Int.lt_floor_add_one x
  unfold roundEven
  rw [abs_le]
  split_ifs with a b c
  · constructor <;> linarith
  · push_cast; constructor <;> linarith
  · constructor <;> linarith
  · push_cast; constructor <;> linarith

theorem roundEven_int (n : Int) : roundEven (n : ℚ) = n := by
  simp [roundEven]

/-- **C50 (what is restored).** The restored time is within half a millionth of the time of the
checkpoint, and equals it exactly if and only if that time is a multiple of a millionth.  Missing:
all other times (`C50_counterexample`); the rounding of binary floating point numbers is not
modelled. -/
theorem C50_time_partial (t : ℚ) :
    |restoredTime t - t| ≤ 1 / 2000000 ∧
    (restoredTime t = t ↔ ∃ n : Int, t = (n : ℚ) / 1000000) := by
  constructor
  · have h := roundEven_near (t * 1000000)
    unfold restoredTime
    rw [abs_le] at h ⊢
    obtain ⟨h1, h2⟩ := h
    constructor
    · rw [neg_le_sub_iff_le_add, ← sub_le_iff_le_add, le_div_iff₀ (by norm_num)]; linarith
    · rw [sub_le_iff_le_add, div_le_iff₀ (by norm_num)]; linarith
  · constructor
    · intro h; exact ⟨roundEven (t * 1000000), h.symm⟩
    · rintro ⟨n, rfl⟩
      unfold restoredTime
      rw [div_mul_cancel₀ _ (by norm_num), roundEven_int]

/-- **Time steps of 1/1024: after one step (and any odd number of steps) the restored time is not the
time of the checkpoint.** -/
theorem C50_counterexample (k : Nat) :
    restoredTime ((2 * k + 1 : ℚ) / 1024) ≠ (2 * k + 1 : ℚ) / 1024 := by
  rw [Ne, (C50_time_partial _).2]
  rintro ⟨n, h⟩
  rw [div_eq_div_iff (by norm_num) (by norm_num)] at h
  have h' : (2 * (k : Int) + 1) * 1000000 = n * 1024 := by exact_mod_cast h
  omega

example : restoredTime (5 / 4) = 5 / 4 ∧ restoredTime (1 / 1024) = 977 / 1000000 := by decide +kernel

end Entity.Restart
