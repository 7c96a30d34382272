import Verif.Model.CheckpointFiles
import Mathlib.Data.List.Nodup
import Mathlib.Data.List.Perm.Subperm
import Mathlib.Tactic.Linarith
import Mathlib.Logic.Function.Iterate

/-!
# Properties C46, C47: checkpoints on disk
-/

namespace Entity.Checkpoint

open Entity Entity.Outcome Entity.Schedule

/-- A usable checkpoint. -/
def Complete (d : Disk) (s : Nat) : Prop := d.bp s = .complete ∧ d.toml s = .complete

/-- Something of the checkpoint is on disk. -/
def Present (d : Disk) (s : Nat) : Prop := d.bp s ≠ .absent ∨ d.toml s ≠ .absent

/-- The most recent `keep` of the finished checkpoints (all of them if `keep ≤ 0`). -/
def recent (keep : Int) (done : List Nat) : List Nat :=
  if 0 < keep then done.drop (done.length - keep.toNat) else done

theorem recent_append_few {keep : Int} {d : List Nat} {s : Nat}
    (h : tooMany keep (recent keep d ++ [s]) = false) : recent keep (d ++ [s]) = recent keep d ++ [s] := by
  unfold recent at h ⊢
  split_ifs with hk
  · rw [if_pos hk] at h
    simp only [tooMany, hk, decide_true, Bool.true_and, decide_eq_false_iff_not, List.length_append,
      List.length_drop, List.length_singleton] at h
    have : d.length + 1 - keep.toNat = 0 ∧ d.length - keep.toNat = 0 := by omega
    simp [this.1, this.2]
  · rfl

theorem recent_append_many {keep : Int} {d : List Nat} {s : Nat}
    (h : tooMany keep (recent keep d ++ [s]) = true) :
    ∃ o, recent keep d ++ [s] = o :: recent keep (d ++ [s]) := by
  unfold recent at h ⊢
  by_cases hk : 0 < keep
  · rw [if_pos hk] at h
    simp only [tooMany, hk, decide_true, Bool.true_and, decide_eq_true_eq, List.length_append,
      List.length_drop, List.length_singleton] at h
    simp only [if_pos hk, List.length_append, List.length_singleton]
    have h1 : keep.toNat ≤ d.length := by omega
    have e : d.drop (d.length - keep.toNat) ++ [s] = (d ++ [s]).drop (d.length - keep.toNat) := by
      rw [List.drop_append_of_le_length (by omega)]
    have hlt : d.length - keep.toNat < (d ++ [s]).length := by simp; omega
    refine ⟨(d ++ [s])[d.length - keep.toNat], ?_⟩
    rw [e, List.drop_eq_getElem_cons hlt, show d.length + 1 - keep.toNat = d.length - keep.toNat + 1 by omega]
  · simp [tooMany, hk] at h

theorem recent_length_le {keep : Int} (hk : 0 < keep) (done : List Nat) :
    ((recent keep done).length : Int) ≤ keep := by
  unfold recent; rw [if_pos hk, List.length_drop]; omega

theorem recent_length {keep : Int} (hk : 0 < keep) (done : List Nat) :
    (recent keep done).length = min keep.toNat done.length := by
  unfold recent; rw [if_pos hk, List.length_drop]; omega

/-- The invariant of the writer. -/
def Inv (keep : Int) (d0 : Disk) (st : St) : Prop :=
  st.written.Nodup ∧
  (∀ s, s ∉ st.written → ¬ Present d0 s → ¬ Present st.disk s) ∧
  (∀ s ∈ recent keep st.done, Complete st.disk s) ∧
  match st.pc with
  | .idle => st.written = recent keep st.done
  | .opened s => st.written = recent keep st.done ++ [s]
  | .metaOpen s => st.written = recent keep st.done ++ [s]
  | .metaDone s => st.written = recent keep st.done ++ [s] ∧ st.disk.toml s = .complete
  | .closed => ∃ d s, st.done = d ++ [s] ∧ st.written = recent keep d ++ [s] ∧
      ∀ s ∈ st.written, Complete st.disk s
  | .removing o => st.written = o :: recent keep st.done ∧ o ∈ st.done
  | .removed o => st.written = o :: recent keep st.done ∧ st.disk.bp o = .absent

theorem setFile_self (f : Nat → File) (s : Nat) (x : File) : setFile f s x s = x := by simp [setFile]

theorem setFile_ne (f : Nat → File) {s t : Nat} (x : File) (h : t ≠ s) : setFile f s x t = f t := by
  simp [setFile, h]

theorem recent_idem {keep : Int} {d : List Nat} {s : Nat} :
    ∀ x ∈ recent keep (d ++ [s]), x ∈ recent keep d ++ [s] := by
  intro x hx
  rcases h : tooMany keep (recent keep d ++ [s]) with _ | _
  · rw [recent_append_few h] at hx; exact hx
  · obtain ⟨o, ho⟩ := recent_append_many h
    rw [ho]; exact List.mem_cons_of_mem _ hx

theorem inv_micro {keep : Int} {d0 : Disk} {st : St} (h : Inv keep d0 st) {s : Nat}
    (hs : st.pc = .idle → s ∉ st.written) : Inv keep d0 (micro keep s st) := by
  obtain ⟨w, ⟨bp, toml⟩, pc, done⟩ := st
  obtain ⟨h1, h2, h3, h4⟩ := h
  cases pc with
  | idle =>
    have hs' := hs rfl
    clear hs
    simp only [micro, Inv] at *
    subst h4
    refine ⟨List.Nodup.append h1 (by simp) (by simpa using hs'), ?_, ?_, rfl⟩
    · intro t ht hp
      simp only [List.mem_append, List.mem_singleton, not_or] at ht
      have := h2 t ht.1 hp
      simpa [Present, setFile_ne _ _ ht.2] using this
    · intro t ht
      have hne : t ≠ s := fun e => hs' (e ▸ ht)
      simpa [Complete, setFile_ne _ _ hne] using h3 t ht
  | opened s =>
    simp only [micro, Inv] at *
    subst h4
    have hsn : s ∉ recent keep done := fun hm => by
      simp [List.nodup_append] at h1
      exact h1.2 _ hm rfl
    refine ⟨h1, ?_, ?_, rfl⟩
    · intro t ht hp
      have := h2 t ht hp
      simp only [List.mem_append, List.mem_singleton, not_or] at ht
      simpa [Present, setFile_ne _ _ ht.2] using this
    · intro t ht
      have hne : t ≠ s := fun e => hsn (e ▸ ht)
      simpa [Complete, setFile_ne _ _ hne] using h3 t ht
  | metaOpen s =>
    simp only [micro, Inv] at *
    subst h4
    have hsn : s ∉ recent keep done := fun hm => by
      simp [List.nodup_append] at h1
      exact h1.2 _ hm rfl
    refine ⟨h1, ?_, ?_, rfl, setFile_self _ _ _⟩
    · intro t ht hp
      have := h2 t ht hp
      simp only [List.mem_append, List.mem_singleton, not_or] at ht
      simpa [Present, setFile_ne _ _ ht.2] using this
    · intro t ht
      have hne : t ≠ s := fun e => hsn (e ▸ ht)
      simpa [Complete, setFile_ne _ _ hne] using h3 t ht
  | metaDone s =>
    simp only [micro, Inv] at *
    obtain ⟨h4, h5⟩ := h4
    subst h4
    have hsn : s ∉ recent keep done := fun hm => by
      simp [List.nodup_append] at h1
      exact h1.2 _ hm rfl
    have hall : ∀ t ∈ recent keep done ++ [s],
        Complete ⟨setFile bp s .complete, toml⟩ t := by
      intro t ht
      by_cases hne : t = s
      · subst hne; exact ⟨setFile_self _ _ _, h5⟩
      · simp only [List.mem_append, List.mem_singleton, hne, or_false] at ht
        simpa [Complete, setFile_ne _ _ hne] using h3 t ht
    refine ⟨h1, ?_, fun t ht => hall t (recent_idem t ht), done, s, rfl, rfl, hall⟩
    intro t ht hp
    have := h2 t ht hp
    simp only [List.mem_append, List.mem_singleton, not_or] at ht
    simpa [Present, setFile_ne _ _ ht.2] using this
  | closed =>
    obtain ⟨d, s', hd, hw, hall⟩ := h4
    simp only at hd hw hall h1 h2 h3
    subst hd hw
    rcases htm : tooMany keep (recent keep d ++ [s']) with _ | _
    · simp only [micro, htm, Bool.false_eq_true, if_false, Inv]
      exact ⟨h1, h2, h3, (recent_append_few htm).symm⟩
    · obtain ⟨o, ho⟩ := recent_append_many htm
      have hoc : Complete ⟨bp, toml⟩ o := hall o (by rw [ho]; simp)
      have hcnd : bp o ≠ File.absent ∧ toml o ≠ File.absent :=
        ⟨by rw [show bp o = _ from hoc.1]; decide, by rw [show toml o = _ from hoc.2]; decide⟩
      rw [ho] at htm
      simp only [micro, ho, htm, if_true, if_pos hcnd]
      rw [ho] at h1 h2
      have hmem : o ∈ d ++ [s'] := by
        have : o ∈ recent keep d ++ [s'] := by rw [ho]; simp
        simp only [List.mem_append] at this ⊢
        refine this.imp (fun h => ?_) id
        unfold recent at h
        split_ifs at h
        · exact List.mem_of_mem_drop h
        · exact h
      refine ⟨h1, ?_, ?_, rfl, hmem⟩
      · intro t ht hp
        have := h2 t ht hp
        simp only [List.mem_cons, not_or] at ht
        simpa [Present, setFile_ne _ _ ht.1] using this
      · intro t ht
        have hne : t ≠ o := fun e => (List.nodup_cons.1 h1).1 (e ▸ ht)
        simpa [Complete, setFile_ne _ _ hne] using h3 t ht
  | removing o =>
    simp only [micro, Inv] at *
    obtain ⟨h4, -⟩ := h4
    subst h4
    refine ⟨h1, ?_, ?_, rfl, setFile_self _ _ _⟩
    · intro t ht hp
      have := h2 t ht hp
      simp only [List.mem_cons, not_or] at ht
      simpa [Present, setFile_ne _ _ ht.1] using this
    · intro t ht
      have hne : t ≠ o := fun e => (List.nodup_cons.1 h1).1 (e ▸ ht)
      simpa [Complete, setFile_ne _ _ hne] using h3 t ht
  | removed o =>
    simp only [micro, Inv] at *
    obtain ⟨h4, h5⟩ := h4
    subst h4
    refine ⟨(List.nodup_cons.1 h1).2, ?_, ?_, rfl⟩
    · intro t ht hp
      by_cases hne : t = o
      · subst hne; simp [Present, setFile_self, h5]
      · have := h2 t (by simp only [List.mem_cons, not_or]; exact ⟨hne, ht⟩) hp
        simpa [Present, setFile_ne _ _ hne] using this
    · intro t ht
      have hne : t ≠ o := fun e => (List.nodup_cons.1 h1).1 (e ▸ ht)
      simpa [Complete, setFile_ne _ _ hne] using h3 t ht

/-- Outsiders delete nothing. -/
def nothing : St → Nat → Prop := fun _ _ => False
/-- Outsiders delete only checkpoints this run does not keep track of. -/
def untracked : St → Nat → Prop := fun st s => s ∉ st.written
/-- Outsiders delete anything. -/
def anything : St → Nat → Prop := fun _ _ => True

theorem inv_reach {keep : Int} {d0 : Disk} {st : St} (h : Reach keep d0 untracked st) : Inv keep d0 st := by
  induction h with
  | init => exact ⟨List.nodup_nil, fun s _ h => h, by simp [recent], by simp [recent]⟩
  | step s _ hs ih => exact inv_micro ih hs
  | @outside st s _ hpc ho ih =>
    obtain ⟨w, ⟨bp, toml⟩, pc, done⟩ := st
    obtain ⟨h1, h2, h3, h4⟩ := ih
    simp only at hpc
    subst hpc
    have h4 : w = recent keep done := h4
    have ho : s ∉ w := ho
    refine ⟨h1, ?_, ?_, h4⟩
    · intro t ht hp
      by_cases hne : t = s
      · subst hne; simp [Present, setFile_self]
      · simpa [Present, setFile_ne _ _ hne] using h2 t ht hp
    · intro t ht
      have hne : t ≠ s := fun e => ho (h4 ▸ e ▸ ht)
      simpa [Complete, setFile_ne _ _ hne] using h3 t ht

theorem reach_mono {keep : Int} {d0 : Disk} {a b : St → Nat → Prop} (hab : ∀ st s, a st s → b st s)
    {st : St} (h : Reach keep d0 a st) : Reach keep d0 b st := by
  induction h with
  | init => exact .init
  | step s _ hs ih => exact .step s ih hs
  | outside s _ hpc ho ih => exact .outside s ih hpc (hab _ _ ho)

/-! ## C46 -/

/-- **C46.** In every state the writer can crash in, whatever was on disk before: the last
`min keep n` of the `n` checkpoints finished so far are complete on disk (all of them if `keep` is not
positive), and they are different checkpoints. -/
theorem C46_crash_safe {keep : Int} {d0 : Disk} {st : St} (h : Reach keep d0 nothing st) :
    (recent keep st.done).Nodup ∧ (∀ s ∈ recent keep st.done, Complete st.disk s) ∧
    (0 < keep → (recent keep st.done).length = min keep.toNat st.done.length) := by
  have hi := inv_reach (reach_mono (fun _ _ h => absurd h id) h)
  refine ⟨?_, hi.2.2.1, fun hk => recent_length hk _⟩
  obtain ⟨w, d, pc, done⟩ := st
  obtain ⟨h1, _, _, h4⟩ := hi
  cases pc <;> simp only at h1 h4 ⊢
  · rw [← h4]; exact h1
  · rw [h4] at h1; exact (List.nodup_append.1 h1).1
  · rw [h4] at h1; exact (List.nodup_append.1 h1).1
  · rw [h4.1] at h1; exact (List.nodup_append.1 h1).1
  · obtain ⟨d', s, hd, hw, _⟩ := h4
    rcases htm : tooMany keep (recent keep d' ++ [s]) with _ | _
    · rw [hd, recent_append_few htm, ← hw]; exact h1
    · obtain ⟨o, ho⟩ := recent_append_many htm
      rw [hw, ho] at h1
      rw [hd]; exact (List.nodup_cons.1 h1).2
  · rw [h4.1] at h1; exact (List.nodup_cons.1 h1).2
  · rw [h4.1] at h1; exact (List.nodup_cons.1 h1).2

/-- **C46 (bound).** Between checkpoints, of what this run has written nothing is on disk but the
most recent checkpoints, at most `keep`. -/
theorem C46_bounded {keep : Int} (hk : 0 < keep) {d0 : Disk} {st : St} (h : Reach keep d0 nothing st)
    (hpc : st.pc = .idle) {L : List Nat} (hn : L.Nodup)
    (hL : ∀ s ∈ L, Present st.disk s ∧ ¬ Present d0 s) : (L.length : Int) ≤ keep := by
  have hi := inv_reach (reach_mono (fun _ _ h => absurd h id) h)
  obtain ⟨w, d, pc, done⟩ := st
  simp only at hpc
  subst hpc
  obtain ⟨h1, h2, _, h4⟩ := hi
  simp only at h1 h2 h4
  have hsub : L ⊆ w := fun s hs => by
    by_contra hns
    exact h2 s hns (hL s hs).2 (hL s hs).1
  have := (List.subperm_of_subset hn hsub).length_le
  have := recent_length_le hk done
  rw [h4] at *
  omega

/-! ## C47 -/

/-- **C47 (files of earlier runs).** The same bound holds if outsiders delete, at any time, files this
run does not keep track of.  Missing: files it keeps track of, where the bound is lost
(`C47_counterexample`). -/
theorem C47_untracked_partial {keep : Int} (hk : 0 < keep) {d0 : Disk} {st : St}
    (h : Reach keep d0 untracked st) (hpc : st.pc = .idle) {L : List Nat} (hn : L.Nodup)
    (hL : ∀ s ∈ L, Present st.disk s ∧ ¬ Present d0 s) : (L.length : Int) ≤ keep := by
  have hi := inv_reach h
  obtain ⟨w, d, pc, done⟩ := st
  simp only at hpc
  subst hpc
  obtain ⟨h1, h2, _, h4⟩ := hi
  simp only at h1 h2 h4
  have hsub : L ⊆ w := fun s hs => by
    by_contra hns
    exact h2 s hns (hL s hs).2 (hL s hs).1
  have := (List.subperm_of_subset hn hsub).length_le
  have := recent_length_le hk done
  rw [h4] at *
  omega

/-- The empty directory. -/
def empty : Disk := ⟨fun _ => .absent, fun _ => .absent⟩

/-- Writing one more checkpoint when the oldest one has disappeared. -/
theorem write_stuck {ok : St → Nat → Prop} {st : St} (h : Reach 1 empty ok st) (hpc : st.pc = .idle)
    {s o : Nat} {w : List Nat} (hw : st.written = o :: w) (hs : s ∉ st.written)
    (ho : st.disk.bp o = .absent) :
    ∃ st', Reach 1 empty ok st' ∧ st'.pc = .idle ∧ st'.written = st.written ++ [s] ∧
      st'.disk.bp o = .absent ∧ Complete st'.disk s ∧ ∀ t, t ≠ s → Complete st.disk t → Complete st'.disk t := by
  have hos : o ≠ s := fun e => hs (by rw [hw, e]; simp)
  have hr := Reach.step 0 (Reach.step 0 (Reach.step 0 (Reach.step 0 (Reach.step s h (fun _ => hs))
    (by simp [micro, hpc])) (by simp [micro, hpc])) (by simp [micro, hpc])) (by simp [micro, hpc])
  obtain ⟨w', ⟨bp, toml⟩, pc, done⟩ := st
  simp only at hpc hw hs ho
  subst hpc hw
  have htm : tooMany 1 (o :: (w ++ [s])) = true := by simp [tooMany]
  have hbo : ¬ (setFile (setFile bp s File.incomplete) s File.complete o ≠ File.absent ∧
      setFile (setFile toml s File.incomplete) s File.complete o ≠ File.absent) := by
    simp [setFile, hos, ho]
  have hE : micro 1 0 (micro 1 0 (micro 1 0 (micro 1 0 (micro 1 s ⟨o :: w, ⟨bp, toml⟩, .idle, done⟩)))) =
      ⟨o :: (w ++ [s]), ⟨setFile (setFile bp s File.incomplete) s File.complete,
        setFile (setFile toml s File.incomplete) s File.complete⟩, .idle, done ++ [s]⟩ := by
    simp only [micro, List.cons_append, htm, if_true]
    exact if_neg hbo
  rw [hE] at hr
  refine ⟨_, hr, ?_⟩
  refine ⟨rfl, rfl, by simp [setFile, hos, ho], ?_, ?_⟩
  · simp [Complete, setFile]
  · intro t ht hc
    simpa [Complete, setFile, ht] using hc

/-- **If somebody deletes the oldest checkpoint the program keeps track of, nothing is ever removed
again**: with `keep = 1`, any number of complete checkpoints piles up after one deletion. -/
theorem C47_counterexample (n : Nat) : ∃ st, Reach 1 empty anything st ∧ st.pc = .idle ∧
    ∀ s, 1 ≤ s → s ≤ n → Complete st.disk s := by
  -- checkpoint 0 is written and deleted
  have r0 : Reach 1 empty anything _ := Reach.outside 0 (Reach.step 0 (Reach.step 0 (Reach.step 0
    (Reach.step 0 (Reach.step 0 Reach.init (by simp [micro])) (by simp [micro]))
    (by simp [micro])) (by simp [micro])) (by simp [micro])) (by simp [micro, tooMany]) trivial
  have main : ∀ n : Nat, ∃ st, Reach 1 empty anything st ∧ st.pc = .idle ∧
      st.written = List.range (n + 1) ∧ st.disk.bp 0 = .absent ∧ ∀ s, 1 ≤ s → s ≤ n → Complete st.disk s := by
    intro n
    induction n with
    | zero =>
      refine ⟨_, r0, ?_, ?_, ?_, by omega⟩
      · simp [micro, tooMany]
      · simp [micro, tooMany]
      · simp [micro, tooMany, setFile]
    | succ n ih =>
      obtain ⟨st, hr, hpc, hw, h0, hc⟩ := ih
      obtain ⟨st', hr', hpc', hw', h0', hcs, hct⟩ := write_stuck hr hpc (s := n + 1) (o := 0)
        (w := (List.range n).map Nat.succ) (by rw [hw, List.range_succ_eq_map])
        (by rw [hw]; simp) h0
      refine ⟨st', hr', hpc', by rw [hw', hw, List.range_succ (n := n + 1)], h0', ?_⟩
      intro s h1 h2
      rcases Nat.lt_or_ge n s with h | h
      · have : s = n + 1 := by omega
        subst this; exact hcs
      · exact hct s (by omega) (hc s h1 h)
  obtain ⟨st, hr, hpc, _, _, hc⟩ := main n
  exact ⟨st, hr, hpc, hc⟩

/-- The states after given operations (non-vacuity of the theorems above). -/
theorem Reach.run {keep : Int} {d0 : Disk} {ok : St → Nat → Prop} (s : Nat) :
    ∀ (n : Nat) {st : St}, Reach keep d0 ok st → s ∉ st.written →
      (∀ k < n, ((micro keep s)^[k + 1] st).pc ≠ .idle) → Reach keep d0 ok ((micro keep s)^[n + 1] st)
  | 0, _, h, hs, _ => .step s h (fun _ => hs)
  | n + 1, st, h, hs, hp => by
    rw [Function.iterate_succ_apply']
    exact .step s (Reach.run s n h hs (fun k hk => hp k (by omega))) (fun e => absurd e (hp n (by omega)))

/-- `keep = 2`: checkpoints 10, 20 and 30 written, 10 removed. -/
example : ∃ st, Reach 2 empty nothing st ∧ st.pc = .idle ∧ st.done = [10, 20, 30] ∧
    recent 2 st.done = [20, 30] ∧ ¬ Present st.disk 10 ∧ Complete st.disk 20 ∧ Complete st.disk 30 := by
  refine ⟨_, Reach.run 30 6 (Reach.run 20 4 (Reach.run 10 4 Reach.init (by decide) (by decide))
    (by decide) (by decide)) (by decide) (by decide), by decide, by decide, by decide, ?_, ?_, ?_⟩ <;>
    simp only [Present, Complete] <;> decide

/-- Crash while 10 is being removed: 20 and 30 are there. -/
example : ∃ st, Reach 2 empty nothing st ∧ st.pc = .removing 10 ∧ st.done = [10, 20, 30] ∧
    st.disk.bp 10 = .incomplete ∧ Complete st.disk 20 ∧ Complete st.disk 30 := by
  refine ⟨_, Reach.run 30 4 (Reach.run 20 4 (Reach.run 10 4 Reach.init (by decide) (by decide))
    (by decide) (by decide)) (by decide) (by decide), by decide, by decide, by decide, ?_, ?_⟩ <;>
    simp only [Complete] <;> decide

end Entity.Checkpoint
