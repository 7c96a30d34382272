import Verif.Props.Retention
import Mathlib.Tactic.IntervalCases

/-!
# Property C48: which checkpoint a restart uses
-/

namespace Entity.Checkpoint

open Entity Entity.Outcome Entity.Schedule

/-! ## Reading back the step from the file name -/

theorem digit_char {k : Nat} (hk : k < 10) :
    (Char.ofNat (48 + k)).toNat = 48 + k ∧ (Char.ofNat (48 + k)).isDigit = true ∧
    isSpace (Char.ofNat (48 + k)) = false ∧ Char.ofNat (48 + k) ≠ '-' ∧ Char.ofNat (48 + k) ≠ '+' := by
  interval_cases k <;> decide

theorem digitsVal_append (a : List Char) (c : Char) :
    digitsVal (a ++ [c]) = 10 * digitsVal a + (c.toNat - 48) := by
  simp only [digitsVal, List.foldl_append, List.foldl_cons, List.foldl_nil]
  rfl

theorem decimal_digits (n : Nat) : ∀ c ∈ decimal n, ∃ k < 10, c = Char.ofNat (48 + k) := by
  induction n using Nat.strong_induction_on with
  | _ n ih =>
    rw [decimal]
    split_ifs with h
    · intro c hc; simp at hc; exact ⟨n, h, hc⟩
    · intro c hc
      simp only [List.mem_append, List.mem_singleton] at hc
      rcases hc with hc | hc
      · exact ih (n / 10) (by omega) c hc
      · exact ⟨n % 10, by omega, hc⟩

theorem digitsVal_decimal (n : Nat) : digitsVal (decimal n) = n := by
  induction n using Nat.strong_induction_on with
  | _ n ih =>
    rw [decimal]
    split_ifs with h
    · have := (digit_char h).1
      rw [show [Char.ofNat (48 + n)] = [] ++ [Char.ofNat (48 + n)] from rfl, digitsVal_append, this]
      simp [digitsVal]
    · rw [digitsVal_append, ih (n / 10) (by omega), (digit_char (show n % 10 < 10 by omega)).1]
      omega

theorem decimal_ne_nil (n : Nat) : decimal n ≠ [] := by
  rw [decimal]; split_ifs <;> simp

theorem digitsVal_zeros (k : Nat) (l : List Char) :
    digitsVal (List.replicate k '0' ++ l) = digitsVal l := by
  induction k with
  | zero => rfl
  | succ k ih =>
    rw [List.replicate_succ, List.cons_append, ← ih]
    rfl

theorem pad8_digits (n : Nat) : ∀ c ∈ pad8 n, ∃ k < 10, c = Char.ofNat (48 + k) := by
  intro c hc
  simp only [pad8, List.mem_append, List.mem_replicate] at hc
  rcases hc with ⟨-, rfl⟩ | hc
  · exact ⟨0, by omega, rfl⟩
  · exact decimal_digits n c hc

theorem pad8_length (n : Nat) : 8 ≤ (pad8 n).length := by
  simp only [pad8, List.length_append, List.length_replicate]; omega

theorem stoi_pad8 (n : Nat) :
    stoi (pad8 n) = if 2147483647 < n then .err else .ok (n : Int) := by
  have hd := pad8_digits n
  have hl := pad8_length n
  have hv : digitsVal (pad8 n) = n := by rw [pad8, digitsVal_zeros, digitsVal_decimal]
  obtain ⟨c, l, hcl⟩ : ∃ c l, pad8 n = c :: l := by
    cases h : pad8 n with
    | nil => rw [h] at hl; simp at hl
    | cons c l => exact ⟨c, l, rfl⟩
  obtain ⟨k, hk, rfl⟩ := hd c (by rw [hcl]; simp)
  obtain ⟨h1, h2, h3, h4, h5⟩ := digit_char hk
  have e1 : List.dropWhile isSpace (pad8 n) = pad8 n := by
    rw [hcl, List.dropWhile_cons, h3]; rfl
  have e2 : sign (pad8 n) = (false, pad8 n) := by
    rw [hcl]
    unfold sign
    split
    · rename_i h; simp at h; exact absurd h.1 h4
    · rename_i h; simp at h; exact absurd h.1 h5
    · rfl
  have e3 : List.takeWhile Char.isDigit (pad8 n) = pad8 n := by
    have : ∀ l : List Char, (∀ c ∈ l, c.isDigit = true) → List.takeWhile Char.isDigit l = l := by
      intro l hl
      induction l with
      | nil => rfl
      | cons c l ih =>
        rw [List.takeWhile_cons, if_pos (hl c (by simp)), ih (fun c hc => hl c (by simp [hc]))]
    refine this _ (fun c hc => ?_)
    obtain ⟨k, hk, rfl⟩ := hd c hc
    exact (digit_char hk).2.1
  unfold stoi
  simp only [e1, e2, e3, hv]
  rw [if_neg (by rw [hcl]; simp)]
  simp only [Bool.false_eq_true, if_false]
  by_cases h : 2147483647 < n
  · rw [if_pos (by right; omega), if_pos h]
  · rw [if_neg (by omega), if_neg h]

/-- The loop reads the step from the name of a checkpoint, unless it exceeds the range of `int`. -/
theorem pickOne_stepName (b s : Nat) :
    pickOne b (stepName s) = if 2147483647 < s then .err else .ok (max b s) := by
  have hl : (stepName s).length = (pad8 s).length + 8 := by
    simp only [stepName, List.length_append, show "step-".toList.length = 5 from rfl,
      show ".bp".toList.length = 3 from rfl]
    omega
  have hp : "step-".toList.isPrefixOf (stepName s) = true := by
    rw [List.isPrefixOf_iff_prefix]
    exact ⟨pad8 s ++ ".bp".toList, by simp [stepName]⟩
  have hs : substr (stepName s) 5 ((stepName s).length - 8) = .ok (pad8 s) := by
    unfold substr
    rw [if_neg (by omega), hl]
    congr 1
    have : (stepName s).drop 5 = pad8 s ++ ".bp".toList := by
      simp [stepName]
    rw [this, show (pad8 s).length + 8 - 8 = (pad8 s).length by omega]
    simp
  unfold pickOne
  rw [if_pos hp]
  simp only [if_neg (show ¬ (stepName s).length < 8 by omega), hs, bind_ok, stoi_pad8]
  split_ifs with h
  · rfl
  · simp only [bind_ok]
    have : ((s : Int) % 4294967296).toNat = s := by omega
    rw [this]
    show Outcome.ok _ = _
    congr 1
    split_ifs <;> omega

theorem pick_fold {m : Nat} (hm : m ≤ 2147483647) : ∀ (names : List (List Char)) (b : Nat), b ≤ m →
    (∀ n ∈ names, "step-".toList.isPrefixOf n = true → ∃ s, s ≤ m ∧ n = stepName s) →
    ∃ r, names.foldlM pickOne b = .ok r ∧ b ≤ r ∧ r ≤ m ∧ (stepName m ∈ names → r = m)
  | [], b, hb, _ => ⟨b, rfl, le_refl _, hb, by simp⟩
  | n :: names, b, hb, h => by
    simp only [List.foldlM_cons]
    by_cases hp : "step-".toList.isPrefixOf n = true
    · obtain ⟨s, hs, rfl⟩ := h n (by simp) hp
      rw [pickOne_stepName, if_neg (by omega), bind_ok]
      obtain ⟨r, h1, h2, h3, h4⟩ := pick_fold hm names (max b s) (by omega)
        (fun n hn => h n (by simp [hn]))
      refine ⟨r, h1, by omega, h3, ?_⟩
      intro hmem
      simp only [List.mem_cons] at hmem
      rcases hmem with e | hmem
      · have : pickOne 0 (stepName m) = pickOne 0 (stepName s) := by rw [e]
        rw [pickOne_stepName, pickOne_stepName, if_neg (by omega), if_neg (by omega)] at this
        simp at this
        omega
      · exact h4 hmem
    · have hn : pickOne b n = .ok b := by unfold pickOne; rw [if_neg hp]
      rw [hn, bind_ok]
      obtain ⟨r, h1, h2, h3, h4⟩ := pick_fold hm names b hb (fun n hn => h n (by simp [hn]))
      refine ⟨r, h1, h2, h3, ?_⟩
      intro hmem
      simp only [List.mem_cons] at hmem
      rcases hmem with e | hmem
      · exfalso; apply hp; rw [← e, List.isPrefixOf_iff_prefix]
        exact ⟨pad8 m ++ ".bp".toList, by simp [stepName]⟩
      · exact h4 hmem

/-- The restart takes the newest data on disk, complete or not, and fails if there is no metadata
with it. -/
theorem restart_newest {d : Disk} {names : List (List Char)} (hl : Listing d names) {m : Nat}
    (hm : m ≤ 2147483647) (hp : d.bp m ≠ .absent) (hmax : ∀ s, d.bp s ≠ .absent → s ≤ m) :
    restartStep names = if d.toml m ≠ .absent then .ok m else .err := by
  obtain ⟨r, h1, _, _, h4⟩ := pick_fold hm names 0 (by omega) (fun n hn hpre => by
    obtain ⟨s, rfl⟩ := hl.2.2 n hn hpre
    exact ⟨s, hmax s ((hl.1 s).1 hn), rfl⟩)
  have := h4 ((hl.1 m).2 hp)
  subst this
  unfold restartStep
  rw [h1, bind_ok]
  by_cases ht : d.toml r ≠ .absent
  · rw [if_pos ((hl.2.1 r).2 ht), if_pos ht]; rfl
  · rw [if_neg (fun h => ht ((hl.2.1 r).1 h)), if_neg ht]

/-! ## C48 -/

/-- **C48 (newest data complete).** If the newest checkpoint data on disk belong to a complete
checkpoint (and its step fits an `int`), the restart uses it, in whatever order the directory is
listed and whatever other files it contains.  Missing: an incomplete newer checkpoint
(`C48_crash_counterexample`) and steps of 2³¹ and more (`C48_large_counterexample`). -/
theorem C48_latest_partial {d : Disk} {names : List (List Char)} (hl : Listing d names) {m : Nat}
    (hm : m ≤ 2147483647) (hc : Complete d m) (hmax : ∀ s, d.bp s ≠ .absent → s ≤ m) :
    restartStep names = .ok m := by
  rw [restart_newest hl hm (by rw [hc.1]; decide) hmax, if_pos (by rw [hc.2]; decide)]

/-- Data are being written. -/
def Writing : Pc → Prop
  | .opened _ | .metaOpen _ | .metaDone _ => True
  | _ => False

/-- **C48 (crash outside writing).** Whenever the program stops while it is not writing a checkpoint
(also during the removal of old ones), the restart uses the last finished checkpoint, which is
complete. -/
theorem C48_after_crash_partial {keep : Int} {d0 : Disk} {st : St} (h : Reach keep d0 untracked st)
    (hw : ¬ Writing st.pc) {d : List Nat} {s : Nat} (hd : st.done = d ++ [s])
    (hinc : ∀ x ∈ d, x ≤ s) (h0 : ∀ x, Present d0 x → x ≤ s) (hs : s ≤ 2147483647)
    {names : List (List Char)} (hl : Listing st.disk names) :
    restartStep names = .ok s ∧ Complete st.disk s := by
  obtain ⟨h1, h2, h3, h4⟩ := inv_reach h
  obtain ⟨w, dk, pc, done⟩ := st
  simp only at h1 h2 h3 h4 hd hl hw ⊢
  subst hd
  have hr : ∀ x ∈ recent keep (d ++ [s]), x ≤ s := by
    intro x hx
    have : x ∈ d ++ [s] := by
      unfold recent at hx
      split_ifs at hx
      · exact List.mem_of_mem_drop hx
      · exact hx
    simp only [List.mem_append, List.mem_singleton] at this
    rcases this with h | h
    · exact hinc x h
    · omega
  have hlast : s ∈ recent keep (d ++ [s]) := by
    unfold recent
    split_ifs with hk
    · rw [List.drop_append_of_le_length (by simp; omega)]; simp
    · simp
  have hc := h3 s hlast
  refine ⟨C48_latest_partial hl hs hc ?_, hc⟩
  intro x hx
  by_cases hxw : x ∈ w
  · cases pc <;> simp only [Writing, not_true_eq_false, not_false_eq_true] at hw h4
    · rw [h4] at hxw; exact hr x hxw
    · obtain ⟨d', s', e, hw', _⟩ := h4
      obtain ⟨rfl, e⟩ := List.append_inj' e rfl
      simp at e
      subst e
      rw [hw'] at hxw
      simp only [List.mem_append, List.mem_singleton] at hxw
      rcases hxw with h | h
      · refine hinc x ?_
        unfold recent at h
        split_ifs at h
        · exact List.mem_of_mem_drop h
        · exact h
      · omega
    · rw [h4.1] at hxw
      simp only [List.mem_cons] at hxw
      rcases hxw with rfl | h
      · have := h4.2
        simp only [List.mem_append, List.mem_singleton] at this
        rcases this with h | h
        · exact hinc x h
        · omega
      · exact hr x h
    · rw [h4.1] at hxw
      simp only [List.mem_cons] at hxw
      rcases hxw with rfl | h
      · exact absurd h4.2 hx
      · exact hr x h
  · by_contra hlt
    refine h2 x hxw (fun hp => hlt (h0 x hp)) (.inl hx)

/-- Names of a directory with the data and the metadata of the given steps. -/
def dirNames (bps tomls : List Nat) : List (List Char) := bps.map stepName ++ tomls.map metaName

theorem stepName_inj {a b : Nat} (h : stepName a = stepName b) : a = b := by
  have : digitsVal (pad8 a) = digitsVal (pad8 b) := by
    congr 1
    have h' := congrArg (List.drop 5) h
    simp only [stepName, show "step-".toList = ['s', 't', 'e', 'p', '-'] from rfl] at h'
    simpa using h'
  rw [pad8, digitsVal_zeros, digitsVal_decimal, pad8, digitsVal_zeros, digitsVal_decimal] at this
  exact this

theorem metaName_inj {a b : Nat} (h : metaName a = metaName b) : a = b := by
  have : digitsVal (pad8 a) = digitsVal (pad8 b) := by
    congr 1
    have h' := congrArg (List.drop 5) h
    simp only [metaName, show "meta-".toList = ['m', 'e', 't', 'a', '-'] from rfl] at h'
    simpa using h'
  rw [pad8, digitsVal_zeros, digitsVal_decimal, pad8, digitsVal_zeros, digitsVal_decimal] at this
  exact this

theorem stepName_ne_metaName (a b : Nat) : stepName a ≠ metaName b := by
  intro h
  have := congrArg List.head? h
  simp [stepName, metaName] at this

/-- Such a directory is a listing of the disk with these files. -/
theorem listing_dirNames {d : Disk} {bps tomls : List Nat} (hb : ∀ s, d.bp s ≠ .absent ↔ s ∈ bps)
    (ht : ∀ s, d.toml s ≠ .absent ↔ s ∈ tomls) : Listing d (dirNames bps tomls) := by
  refine ⟨fun s => ?_, fun s => ?_, fun n hn hp => ?_⟩
  · rw [hb]
    simp only [dirNames, List.mem_append, List.mem_map]
    constructor
    · rintro (⟨a, ha, e⟩ | ⟨a, _, e⟩)
      · exact stepName_inj e ▸ ha
      · exact absurd e.symm (stepName_ne_metaName _ _)
    · exact fun h => .inl ⟨s, h, rfl⟩
  · rw [ht]
    simp only [dirNames, List.mem_append, List.mem_map]
    constructor
    · rintro (⟨a, _, e⟩ | ⟨a, ha, e⟩)
      · exact absurd e (stepName_ne_metaName _ _)
      · exact metaName_inj e ▸ ha
    · exact fun h => .inr ⟨s, h, rfl⟩
  · simp only [dirNames, List.mem_append, List.mem_map] at hn
    rcases hn with ⟨a, _, rfl⟩ | ⟨a, _, rfl⟩
    · exact ⟨a, rfl⟩
    · simp [metaName, List.isPrefixOf] at hp

/-- Checkpoints 10 and 20 finished, `keep = 2`: the restart uses 20. -/
example : ∃ st, Reach 2 empty untracked st ∧ st.done = [10] ++ [20] ∧ ¬ Writing st.pc ∧
    ∃ names, Listing st.disk names ∧ restartStep names = .ok 20 := by
  have hr : Reach 2 empty untracked _ := Reach.run 20 4
    (Reach.run 10 4 Reach.init (by decide) (by decide)) (by decide) (by decide)
  have hl := listing_dirNames (d := ((micro 2 20)^[4 + 1] ((micro 2 10)^[4 + 1]
    ⟨[], empty, .idle, []⟩)).disk) (bps := [20, 10]) (tomls := [10, 20])
    (by intro s; simp [micro, tooMany, setFile, empty]; split_ifs <;> simp_all)
    (by intro s; simp [micro, tooMany, setFile, empty]; split_ifs <;> simp_all)
  exact ⟨_, hr, by decide, by simp [Writing, micro, tooMany], _, hl,
    (C48_after_crash_partial hr (by simp [Writing, micro, tooMany]) (d := [10]) (s := 20)
      (by decide) (by decide) (by simp [Present, empty]) (by decide) hl).1⟩

/-- **A crash while a checkpoint is being written makes the restart use the incomplete checkpoint, or
refuse to start**, although an older complete one exists (`keep = 2`, checkpoint 10 finished, 20 being
written). -/
theorem C48_crash_counterexample :
    (∃ st, Reach 2 empty nothing st ∧ Complete st.disk 10 ∧ st.disk.bp 20 = .incomplete ∧
      ∀ names, Listing st.disk names → restartStep names = .ok 20) ∧
    (∃ st, Reach 2 empty nothing st ∧ Complete st.disk 10 ∧ st.disk.bp 20 = .incomplete ∧
      ∀ names, Listing st.disk names → restartStep names = .err) := by
  have h10 : Reach 2 empty nothing ((micro 2 10)^[4 + 1] ⟨[], empty, .idle, []⟩) :=
    Reach.run 10 4 Reach.init (by decide) (by decide)
  refine ⟨⟨_, Reach.run 20 2 h10 (by decide) (by decide), ?_, by decide, fun names hl => ?_⟩,
    ⟨_, Reach.run 20 0 h10 (by decide) (by decide), ?_, by decide, fun names hl => ?_⟩⟩
  · simp only [Complete]; decide
  · rw [restart_newest hl (m := 20) (by decide) (by decide), if_pos (by decide)]
    intro s
    simp [micro, tooMany, setFile, empty]
    split_ifs <;> simp_all
  · simp only [Complete]; decide
  · rw [restart_newest hl (m := 20) (by decide) (by decide), if_neg (by decide)]
    intro s
    simp [micro, tooMany, setFile, empty]
    split_ifs <;> simp_all

theorem decimal_big : decimal 2147483648 = "2147483648".toList := by decide +kernel

/-- **A checkpoint of step 2³¹ or more (steps are unsigned 32-bit numbers) cannot be restarted
from**: reading the step from the file name throws. -/
theorem C48_large_counterexample : ∃ st, Reach 2 empty nothing st ∧ st.pc = .idle ∧
    Complete st.disk 2147483648 ∧ ∃ names, Listing st.disk names ∧ restartStep names = .err := by
  refine ⟨_, Reach.run 2147483648 4 Reach.init (by simp) ?_, ?_, ?_,
    dirNames [2147483648] [2147483648], ?_, ?_⟩
  · intro k hk
    interval_cases k <;> simp [micro]
  · simp [micro, tooMany]
  · simp [Complete, micro, tooMany, setFile]
  · refine listing_dirNames ?_ ?_ <;>
    · intro s
      simp [micro, tooMany, setFile, empty]
      split_ifs <;> simp_all
  · unfold restartStep
    simp only [dirNames, List.map_cons, List.map_nil, List.cons_append, List.nil_append,
      List.foldlM_cons, pickOne_stepName]
    rfl

end Entity.Checkpoint
