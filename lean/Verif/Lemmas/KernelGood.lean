import Verif.Lemmas.Kernel

/-!
# Interleavings in which some threads are independent

Every thread writes its own part of the memory, but only some threads (`G`) read nothing that another
thread writes.  Those threads leave what they would leave if they ran alone.
-/

namespace Entity.Kernel

variable {K : Type}

structure IndepOn (G : List Int → Prop) (code : List Int → List (Instr K))
    (W : List Int → Loc → Prop) : Prop where
  wr : ∀ t, ∀ i ∈ code t, ∀ l, i.writes = some l → W t l
  rd : ∀ t, G t → ∀ i ∈ code t, ∀ l, i.reads = some l → ∀ u, u ≠ t → ¬ W u l
  dj : ∀ t u l, W t l → W u l → t = u

def InvOn (G : List Int → Prop) (code : List Int → List (Instr K)) (W : List Int → Loc → Prop)
    (m0 : Mem K) (st : State K) : Prop :=
  (∀ t, ∃ k, (st.1 t).code = (code t).drop k ∧
    (G t → (st.1 t).stack = (runCode ((code t).take k) ([], m0)).1 ∧
      ∀ l, W t l → st.2 l = (runCode ((code t).take k) ([], m0)).2 l)) ∧
  ∀ l, (∀ t, ¬ W t l) → st.2 l = m0 l

theorem invOn_step {G : List Int → Prop} {code : List Int → List (Instr K)}
    {W : List Int → Loc → Prop} (hI : IndepOn G code W) {m0 : Mem K} {st : State K}
    (h : InvOn G code W m0 st) (t : List Int) : InvOn G code W m0 (stepThread t st) := by
  obtain ⟨h1, h2⟩ := h
  obtain ⟨k, hk, hm⟩ := h1 t
  unfold stepThread
  cases hc : (code t).drop k with
  | nil =>
    rw [hk, hc]
    exact ⟨h1, h2⟩
  | cons i rest =>
    rw [hk, hc]
    simp only
    have hi : i ∈ code t := List.mem_of_mem_drop (by rw [hc]; exact List.mem_cons_self)
    have hlt : k < (code t).length := by
      by_contra hh
      rw [List.drop_eq_nil_of_le (by omega)] at hc
      cases hc
    have hget : (code t)[k] = i := by
      have := List.drop_eq_getElem_cons hlt
      rw [hc] at this; injection this with a _; exact a.symm
    have hrest : (code t).drop (k + 1) = rest := by
      have := List.drop_eq_getElem_cons hlt
      rw [hc] at this; injection this with _ a; exact a.symm
    have htake : runCode ((code t).take (k + 1)) ([], m0) =
        i.run (runCode ((code t).take k) ([], m0)) := by
      rw [List.take_succ_eq_append_getElem hlt, runCode_append, hget]; rfl
    set sm := runCode ((code t).take k) ([], m0) with hsm
    have hread : G t → ∀ l, i.reads = some l → st.2 l = sm.2 l := by
      intro hG l hl
      by_cases hw : W t l
      · exact (hm hG).2 l hw
      · rw [h2 l ?_, hsm, runCode_mem]
        · intro j hj hjl
          exact hw (hI.wr t j (List.mem_of_mem_take hj) l hjl)
        · intro u
          by_cases hu : u = t
          · subst hu; exact hw
          · exact hI.rd t hG i hi l hl u hu
    refine ⟨?_, ?_⟩
    · intro u
      by_cases hu : u = t
      · subst hu
        refine ⟨k + 1, ?_, ?_⟩
        · simp only [if_true]; exact hrest.symm
        · intro hG
          simp only [if_true]
          rw [htake]
          refine ⟨?_, ?_⟩
          · rw [(hm hG).1]; exact i.run_congr sm.1 (hread hG)
          · intro l hl
            rw [(hm hG).1]
            exact i.run_mem_congr sm.1 l ((hm hG).2 l hl)
      · obtain ⟨k', hk', hm'⟩ := h1 u
        refine ⟨k', ?_, ?_⟩
        · simp only [if_neg hu]; exact hk'
        · intro hG
          simp only [if_neg hu]
          refine ⟨(hm' hG).1, ?_⟩
          intro l hl
          refine Eq.trans ?_ ((hm' hG).2 l hl)
          apply Instr.run_mem
          intro hw
          exact hu (hI.dj u t l hl (hI.wr t i hi l hw))
    · intro l hl
      refine Eq.trans ?_ (h2 l hl)
      apply Instr.run_mem
      intro hw
      exact hl t (hI.wr t i hi l hw)

theorem invOn_run {G : List Int → Prop} {code : List Int → List (Instr K)}
    {W : List Int → Loc → Prop} (hI : IndepOn G code W) {m0 : Mem K} (sched : List (List Int))
    {st : State K} (h : InvOn G code W m0 st) :
    InvOn G code W m0 (sched.foldl (fun s t => stepThread t s) st) := by
  induction sched generalizing st with
  | nil => exact h
  | cons t sched ih => exact ih (invOn_step hI h t)

variable [Add K] [Sub K] [Mul K] [Div K] [Neg K]

/-- Every thread writes only components selected by `wr` at its own cell; the threads in `G` read such
components only there. -/
def LocalOn (G : List Int → Prop) (cells : List (List Int)) (wr : Nat → Nat → Bool)
    (body : List Int → List (Assign K)) : Prop :=
  ∀ t ∈ cells, ∀ a ∈ body t, (a.dst.idx = t ∧ wr a.dst.arr a.dst.comp = true) ∧
    (G t → ∀ l ∈ a.rhs.loads, wr l.arr l.comp = true → l.idx = t)

theorem launch_on {G : List Int → Prop} {wr : Nat → Nat → Bool}
    {body : List Int → List (Assign K)} {cells : List (List Int)} (h : LocalOn G cells wr body)
    {m m' : Mem K} (hl : Launch cells body m m') :
    (∀ l : Loc, l.idx ∈ cells → G l.idx → m' l = runBody (body l.idx) m l) ∧
    ∀ l : Loc, l.idx ∉ cells ∨ wr l.arr l.comp = false → m' l = m l := by
  obtain ⟨sched, hd, rfl⟩ := hl
  have key : ∀ t, ∀ i ∈ (if t ∈ cells then compile (body t) else []), t ∈ cells ∧
      ∃ a ∈ body t, i ∈ a.rhs.compile ∨ i = .put a.dst := by
    intro t i hi
    split at hi
    · rename_i ht
      simp only [compile, List.mem_flatMap, List.mem_append, List.mem_singleton] at hi
      exact ⟨ht, hi⟩
    · simp at hi
  have hI : IndepOn G (fun t => if t ∈ cells then compile (body t) else [])
      (fun t l => t ∈ cells ∧ l.idx = t ∧ wr l.arr l.comp = true) := by
    constructor
    · intro t i hi l hl
      obtain ⟨ht, a, ha, h'⟩ := key t i hi
      rcases h' with h' | rfl
      · rw [(compileEx_reads a.rhs i h').2] at hl; cases hl
      · simp only [Instr.writes, Option.some.injEq] at hl
        subst hl
        exact ⟨ht, (h t ht a ha).1⟩
    · intro t hG i hi l hl u hu hw
      obtain ⟨ht, a, ha, h'⟩ := key t i hi
      rcases h' with h' | rfl
      · have := (compileEx_reads a.rhs i h').1 l hl
        exact hu (hw.2.1.symm.trans ((h t ht a ha).2 hG l this hw.2.2))
      · cases hl
    · intro t u l h1 h2
      exact h1.2.1.symm.trans h2.2.1
  have h0 : InvOn G (fun t => if t ∈ cells then compile (body t) else [])
      (fun t l => t ∈ cells ∧ l.idx = t ∧ wr l.arr l.comp = true) m (start cells body m) := by
    refine ⟨fun t => ⟨0, ?_, fun _ => ⟨?_, fun l _ => rfl⟩⟩, fun l _ => rfl⟩
    · simp only [start, List.drop_zero]; split <;> rfl
    · simp only [start, List.take_zero]; split <;> rfl
  obtain ⟨e1, e2⟩ := invOn_run hI sched h0
  refine ⟨?_, ?_⟩
  · intro l hc hG
    by_cases hw : wr l.arr l.comp = true
    · obtain ⟨k, hk, hm⟩ := e1 l.idx
      have hlen : (compile (body l.idx)).length ≤ k := by
        have := hd l.idx
        rw [hk] at this
        simpa [hc] using this
      rw [(hm hG).2 l ⟨hc, rfl, hw⟩]
      simp only [if_pos hc]
      rw [List.take_of_length_le hlen, compile_run]
    · rw [e2 l (fun t ht => hw ht.2.2), runBody_other]
      intro a ha hal
      exact hw (hal ▸ (h l.idx hc a ha).1.2)
  · intro l hl
    apply e2
    rintro t ⟨ht, hi, hw⟩
    rcases hl with hl | hl
    · exact hl (hi ▸ ht)
    · rw [hl] at hw; cases hw

end Entity.Kernel
