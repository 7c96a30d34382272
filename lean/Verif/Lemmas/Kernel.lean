import Verif.Model.Kernel

/-!
# Interleavings of independent threads
-/

namespace Entity.Kernel

variable {K : Type}

def runCode (c : List (Instr K)) (sm : List K × Mem K) : List K × Mem K :=
  c.foldl (fun sm i => i.run sm) sm

theorem runCode_append (c d : List (Instr K)) (sm : List K × Mem K) :
    runCode (c ++ d) sm = runCode d (runCode c sm) := by simp [runCode]

theorem compileEx_run [Add K] [Sub K] [Mul K] [Div K] [Neg K] (e : Ex K) : ∀ (s : List K) (m : Mem K),
    runCode e.compile (s, m) = (e.eval m :: s, m) := by
  induction e with
  | lit c => intro s m; rfl
  | ld l => intro s m; rfl
  | add a b iha ihb | sub a b iha ihb | mul a b iha ihb | div a b iha ihb =>
    intro s m; rw [Ex.compile, runCode_append, runCode_append, iha, ihb]; rfl
  | neg a ih => intro s m; rw [Ex.compile, runCode_append, ih]; rfl

theorem compile_run [Add K] [Sub K] [Mul K] [Div K] [Neg K] (as : List (Assign K)) : ∀ (m : Mem K),
    runCode (compile as) ([], m) = ([], runBody as m) := by
  induction as with
  | nil => intro m; rfl
  | cons a as ih =>
    intro m
    rw [show compile (a :: as) = (a.rhs.compile ++ [.put a.dst]) ++ compile as from by
      simp [compile], runCode_append, runCode_append, compileEx_run]
    exact ih _

/-- The memory an instruction reads. -/
def Instr.reads : Instr K → Option Loc
  | .load l => some l
  | _ => none

/-- The memory an instruction writes. -/
def Instr.writes : Instr K → Option Loc
  | .put l => some l
  | _ => none

theorem compileEx_reads [Add K] [Sub K] [Mul K] [Div K] [Neg K] (e : Ex K) : ∀ i ∈ e.compile, (∀ l, i.reads = some l → l ∈ e.loads) ∧
    i.writes = none := by
  induction e with
  | lit c => intro i hi; simp [Ex.compile] at hi; subst hi; simp [Instr.reads, Instr.writes]
  | ld l => intro i hi; simp [Ex.compile] at hi; subst hi; simp [Instr.reads, Instr.writes, Ex.loads]
  | add a b iha ihb | sub a b iha ihb | mul a b iha ihb | div a b iha ihb =>
    intro i hi
    simp only [Ex.compile, List.mem_append, List.mem_singleton] at hi
    rcases hi with (h | h) | rfl
    · exact ⟨fun l hl => List.mem_append_left _ ((iha i h).1 l hl), (iha i h).2⟩
    · exact ⟨fun l hl => List.mem_append_right _ ((ihb i h).1 l hl), (ihb i h).2⟩
    · simp [Instr.reads, Instr.writes]
  | neg a ih =>
    intro i hi
    simp only [Ex.compile, List.mem_append, List.mem_singleton] at hi
    rcases hi with h | rfl
    · exact ih i h
    · simp [Instr.reads, Instr.writes]

/-- One instruction: the stack depends only on the memory read, the memory changes only where it is
written. -/
theorem Instr.run_congr (i : Instr K) (s : List K) {m m' : Mem K}
    (h : ∀ l, i.reads = some l → m l = m' l) : (i.run (s, m)).1 = (i.run (s, m')).1 := by
  cases i with
  | load l => simp [Instr.run, h l rfl]
  | push c => rfl
  | op f => rcases s with _ | ⟨a, _ | ⟨b, s⟩⟩ <;> rfl
  | op1 f => rcases s with _ | ⟨a, s⟩ <;> rfl
  | put l => rcases s with _ | ⟨a, s⟩ <;> rfl

theorem Instr.run_mem (i : Instr K) (s : List K) (m : Mem K) (l : Loc) (h : i.writes ≠ some l) :
    (i.run (s, m)).2 l = m l := by
  cases i with
  | load l => rfl
  | push c => rfl
  | op f => rcases s with _ | ⟨a, _ | ⟨b, s⟩⟩ <;> rfl
  | op1 f => rcases s with _ | ⟨a, s⟩ <;> rfl
  | put l' =>
    rcases s with _ | ⟨a, s⟩
    · rfl
    · simp only [Instr.writes, ne_eq, Option.some.injEq] at h
      simp only [Instr.run, store]; rw [if_neg (fun e => h e.symm)]

theorem Instr.run_mem_congr (i : Instr K) (s : List K) {m m' : Mem K} (l : Loc) (h : m l = m' l) :
    (i.run (s, m)).2 l = (i.run (s, m')).2 l := by
  cases i with
  | load l => exact h
  | push c => exact h
  | op f => rcases s with _ | ⟨a, _ | ⟨b, s⟩⟩ <;> exact h
  | op1 f => rcases s with _ | ⟨a, s⟩ <;> exact h
  | put l' =>
    rcases s with _ | ⟨a, s⟩
    · exact h
    · simp only [Instr.run, store]; split <;> simp_all

/-- Independent threads: `W t` is what thread `t` may write. -/
structure Indep (code : List Int → List (Instr K)) (W : List Int → Loc → Prop) : Prop where
  wr : ∀ t, ∀ i ∈ code t, ∀ l, i.writes = some l → W t l
  rd : ∀ t, ∀ i ∈ code t, ∀ l, i.reads = some l → ∀ u, u ≠ t → ¬ W u l
  dj : ∀ t u l, W t l → W u l → t = u

/-- Invariant of an interleaving: every thread is where it would be if it ran alone. -/
def Inv (code : List Int → List (Instr K)) (W : List Int → Loc → Prop) (m0 : Mem K) (st : State K) :
    Prop :=
  (∀ t, ∃ k, st.1 t = ⟨(code t).drop k, (runCode ((code t).take k) ([], m0)).1⟩ ∧
    ∀ l, W t l → st.2 l = (runCode ((code t).take k) ([], m0)).2 l) ∧
  ∀ l, (∀ t, ¬ W t l) → st.2 l = m0 l

theorem runCode_mem (c : List (Instr K)) (sm : List K × Mem K) (l : Loc)
    (h : ∀ i ∈ c, i.writes ≠ some l) : (runCode c sm).2 l = sm.2 l := by
  induction c generalizing sm with
  | nil => rfl
  | cons i c ih =>
    show (runCode c (i.run sm)).2 l = sm.2 l
    rw [ih _ (fun j hj => h j (List.mem_cons_of_mem _ hj))]
    exact i.run_mem sm.1 sm.2 l (h i List.mem_cons_self)

theorem inv_step {code : List Int → List (Instr K)} {W : List Int → Loc → Prop} (hI : Indep code W)
    {m0 : Mem K} {st : State K} (h : Inv code W m0 st) (t : List Int) :
    Inv code W m0 (stepThread t st) := by
  obtain ⟨h1, h2⟩ := h
  obtain ⟨k, hk, hm⟩ := h1 t
  unfold stepThread
  cases hc : (code t).drop k with
  | nil =>
    rw [hk, hc]
    exact ⟨h1, h2⟩
  | cons i rest =>
    rw [hk, hc]
    simp only
    have hi : i ∈ code t := List.mem_of_mem_drop (by rw [hc]; exact List.mem_cons_self)
    have hlt : k < (code t).length := by
      by_contra hh
      rw [List.drop_eq_nil_of_le (by omega)] at hc
      cases hc
    have hget : (code t)[k] = i := by
      have := List.drop_eq_getElem_cons hlt
      rw [hc] at this; injection this with a _; exact a.symm
    have hrest : (code t).drop (k + 1) = rest := by
      have := List.drop_eq_getElem_cons hlt
      rw [hc] at this; injection this with _ a; exact a.symm
    have htake : runCode ((code t).take (k + 1)) ([], m0) =
        i.run (runCode ((code t).take k) ([], m0)) := by
      rw [List.take_succ_eq_append_getElem hlt, runCode_append, hget]; rfl
    set sm := runCode ((code t).take k) ([], m0) with hsm
    have hread : ∀ l, i.reads = some l → st.2 l = sm.2 l := by
      intro l hl
      by_cases hw : W t l
      · exact hm l hw
      · rw [h2 l ?_, hsm, runCode_mem]
        · intro j hj hjl
          exact hw (hI.wr t j (List.mem_of_mem_take hj) l hjl)
        · intro u
          by_cases hu : u = t
          · subst hu; exact hw
          · exact hI.rd t i hi l hl u hu
    refine ⟨?_, ?_⟩
    · intro u
      by_cases hu : u = t
      · subst hu
        refine ⟨k + 1, ?_, ?_⟩
        · simp only [if_true]
          rw [hrest, htake]
          congr 1
          exact i.run_congr sm.1 hread
        · intro l hl
          rw [htake]
          exact i.run_mem_congr sm.1 l (hm l hl)
      · obtain ⟨k', hk', hm'⟩ := h1 u
        refine ⟨k', ?_, ?_⟩
        · simp only [if_neg hu]; exact hk'
        · intro l hl
          refine Eq.trans ?_ (hm' l hl)
          apply Instr.run_mem
          intro hw
          exact hu (hI.dj u t l hl (hI.wr t i hi l hw))
    · intro l hl
      refine Eq.trans ?_ (h2 l hl)
      apply Instr.run_mem
      intro hw
      exact hl t (hI.wr t i hi l hw)

theorem inv_run {code : List Int → List (Instr K)} {W : List Int → Loc → Prop} (hI : Indep code W)
    {m0 : Mem K} (sched : List (List Int)) {st : State K} (h : Inv code W m0 st) :
    Inv code W m0 (sched.foldl (fun s t => stepThread t s) st) := by
  induction sched generalizing st with
  | nil => exact h
  | cons t sched ih => exact ih (inv_step hI h t)

/-- Memory at the end of a complete interleaving. -/
theorem inv_end {code : List Int → List (Instr K)} {W : List Int → Loc → Prop} {m0 : Mem K}
    {st : State K} (h : Inv code W m0 st) (hd : ∀ t, (st.1 t).code = []) :
    (∀ t l, W t l → st.2 l = (runCode (code t) ([], m0)).2 l) ∧
    ∀ l, (∀ t, ¬ W t l) → st.2 l = m0 l := by
  refine ⟨?_, h.2⟩
  intro t l hl
  obtain ⟨k, hk, hm⟩ := h.1 t
  have := hd t
  rw [hk] at this
  have hlen : (code t).length ≤ k := by simpa using this
  rw [hm l hl, List.take_of_length_le hlen]

/-! ## Kernels that write their own cell -/

/-- The body of every cell of the range writes only components selected by `wr`, only at its own cell, and reads
such components only there. -/
def Local (cells : List (List Int)) (wr : Nat → Nat → Bool) (body : List Int → List (Assign K)) :
    Prop :=
  ∀ t ∈ cells, ∀ a ∈ body t, (a.dst.idx = t ∧ wr a.dst.arr a.dst.comp = true) ∧
    ∀ l ∈ a.rhs.loads, wr l.arr l.comp = true → l.idx = t

variable [Add K] [Sub K] [Mul K] [Div K] [Neg K]

theorem indep_of_local {wr : Nat → Nat → Bool} {body : List Int → List (Assign K)}
    {cells : List (List Int)} (h : Local cells wr body) :
    Indep (fun t => if t ∈ cells then compile (body t) else [])
      (fun t l => t ∈ cells ∧ l.idx = t ∧ wr l.arr l.comp = true) := by
  have key : ∀ t, ∀ i ∈ (if t ∈ cells then compile (body t) else []), t ∈ cells ∧
      ∃ a ∈ body t, i ∈ a.rhs.compile ∨ i = .put a.dst := by
    intro t i hi
    split at hi
    · rename_i ht
      simp only [compile, List.mem_flatMap, List.mem_append, List.mem_singleton] at hi
      exact ⟨ht, hi⟩
    · simp at hi
  constructor
  · intro t i hi l hl
    obtain ⟨ht, a, ha, h'⟩ := key t i hi
    rcases h' with h' | rfl
    · rw [(compileEx_reads a.rhs i h').2] at hl; cases hl
    · simp only [Instr.writes, Option.some.injEq] at hl
      subst hl
      exact ⟨ht, (h t ht a ha).1⟩
  · intro t i hi l hl u hu hw
    obtain ⟨ht, a, ha, h'⟩ := key t i hi
    rcases h' with h' | rfl
    · have := (compileEx_reads a.rhs i h').1 l hl
      exact hu (hw.2.1.symm.trans ((h t ht a ha).2 l this hw.2.2))
    · cases hl
  · intro t u l h1 h2
    exact h1.2.1.symm.trans h2.2.1

theorem runBody_other (as : List (Assign K)) (m : Mem K) (l : Loc) (h : ∀ a ∈ as, a.dst ≠ l) :
    runBody as m l = m l := by
  induction as generalizing m with
  | nil => rfl
  | cons a as ih =>
    rw [runBody, ih _ (fun b hb => h b (List.mem_cons_of_mem _ hb)), store,
      if_neg (fun e => h a List.mem_cons_self e.symm)]

/-- The result of a kernel: every cell of the range as its own body leaves it when run alone on the
old memory, everything else unchanged. -/
def result (cells : List (List Int)) (body : List Int → List (Assign K)) (m : Mem K) : Mem K :=
  fun l => if l.idx ∈ cells then runBody (body l.idx) m l else m l

theorem launch_result {wr : Nat → Nat → Bool} {body : List Int → List (Assign K)}
    {cells : List (List Int)} (h : Local cells wr body) {m m' : Mem K} (hl : Launch cells body m m') :
    m' = result cells body m := by
  obtain ⟨sched, hd, rfl⟩ := hl
  have hI := indep_of_local h
  have h0 : Inv (fun t => if t ∈ cells then compile (body t) else [])
      (fun t l => t ∈ cells ∧ l.idx = t ∧ wr l.arr l.comp = true) m (start cells body m) := by
    refine ⟨fun t => ⟨0, ?_, fun l _ => rfl⟩, fun l _ => rfl⟩
    simp only [start, List.drop_zero, List.take_zero]
    split <;> rfl
  obtain ⟨e1, e2⟩ := inv_end (inv_run hI sched h0) hd
  funext l
  unfold result
  by_cases hc : l.idx ∈ cells
  · rw [if_pos hc]
    by_cases hw : wr l.arr l.comp = true
    · rw [e1 l.idx l ⟨hc, rfl, hw⟩]
      simp only [if_pos hc, compile_run]
    · rw [e2 l (fun t ht => hw ht.2.2), runBody_other]
      intro a ha hal
      exact hw (hal ▸ (h l.idx hc a ha).1.2)
  · rw [if_neg hc, e2 l (fun t ht => hc (ht.2.1 ▸ ht.1))]

/-- One thread run to the end. -/
theorem run_one (t : List Int) : ∀ (c : List (Instr K)) (st : State K), (st.1 t).code = c →
    let st' := (List.replicate c.length t).foldl (fun s t => stepThread t s) st
    (st'.1 t).code = [] ∧ ∀ u, u ≠ t → st'.1 u = st.1 u := by
  intro c
  induction c with
  | nil => intro st h; exact ⟨h, fun _ _ => rfl⟩
  | cons i c ih =>
    intro st h
    simp only [List.length_cons, List.replicate_succ, List.foldl_cons]
    have h1 : ((stepThread t st).1 t).code = c := by
      unfold stepThread; rw [h]; simp
    obtain ⟨a, b⟩ := ih _ h1
    refine ⟨a, fun u hu => (b u hu).trans ?_⟩
    unfold stepThread; rw [h]; simp [hu]

/-- There is a complete interleaving. -/
theorem launch_exists (cells : List (List Int)) (body : List Int → List (Assign K)) (m : Mem K) :
    ∃ m', Launch cells body m m' := by
  have key : ∀ (cs : List (List Int)) (st : State K), ∃ sched : List (List Int),
      ∀ t, ((sched.foldl (fun s t => stepThread t s) st).1 t).code = [] ∨
        (t ∉ cs ∧ (sched.foldl (fun s t => stepThread t s) st).1 t = st.1 t) := by
    intro cs
    induction cs with
    | nil => intro st; exact ⟨[], fun t => Or.inr ⟨by simp, rfl⟩⟩
    | cons c cs ih =>
      intro st
      obtain ⟨a, b⟩ := run_one c (st.1 c).code st rfl
      obtain ⟨sched, hs⟩ := ih ((List.replicate (st.1 c).code.length c).foldl
        (fun s t => stepThread t s) st)
      refine ⟨List.replicate (st.1 c).code.length c ++ sched, fun t => ?_⟩
      rw [List.foldl_append]
      rcases hs t with h | ⟨h, h'⟩
      · exact Or.inl h
      · by_cases ht : t = c
        · subst ht; left; rw [h', a]
        · right; exact ⟨by simp [ht, h], h'.trans (b t ht)⟩
  obtain ⟨sched, hs⟩ := key cells (start cells body m)
  refine ⟨_, sched, fun t => ?_, rfl⟩
  rcases hs t with h | ⟨h, h'⟩
  · exact h
  · rw [h']; simp [start, h]

theorem launch_iff {wr : Nat → Nat → Bool} {body : List Int → List (Assign K)}
    {cells : List (List Int)} (h : Local cells wr body) {m m' : Mem K} :
    Launch cells body m m' ↔ m' = result cells body m := by
  refine ⟨launch_result h, ?_⟩
  rintro rfl
  obtain ⟨m'', hm⟩ := launch_exists cells body m
  rwa [launch_result h hm] at hm

end Entity.Kernel
