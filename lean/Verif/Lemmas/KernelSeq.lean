import Verif.Lemmas.Kernel

/-!
# The threads of a kernel one after the other
-/

namespace Entity.Kernel

variable {K : Type}

/-- One thread run to the end: what it leaves in the memory. -/
theorem run_one_mem (t : List Int) : ∀ (c : List (Instr K)) (st : State K), (st.1 t).code = c →
    ((List.replicate c.length t).foldl (fun s t => stepThread t s) st).2 =
      (runCode c ((st.1 t).stack, st.2)).2 := by
  intro c
  induction c with
  | nil => intro st h; rfl
  | cons i c ih =>
    intro st h
    simp only [List.length_cons, List.replicate_succ, List.foldl_cons]
    have h1 : ((stepThread t st).1 t).code = c := by
      unfold stepThread; rw [h]; simp
    rw [ih _ h1]
    have h2 : (((stepThread t st).1 t).stack, (stepThread t st).2) = i.run ((st.1 t).stack, st.2) := by
      unfold stepThread; rw [h]; simp
    rw [h2]; rfl

variable [Add K] [Sub K] [Mul K] [Div K] [Neg K] [Zero K] [One K] [NatCast K] [IntCast K]

/-- Any order of the threads, each run to the end before the next starts, is an execution. -/
theorem launch_seq {cells cs : List (List Int)} (body : List Int → List (Assign K)) (m : Mem K)
    (hn : cs.Nodup) (hc : ∀ t, t ∈ cs ↔ t ∈ cells) :
    Launch cells body m (cs.foldl (fun m t => runBody (body t) m) m) := by
  have key : ∀ (cs : List (List Int)) (st : State K), cs.Nodup →
      (∀ t ∈ cs, st.1 t = ⟨compile (body t), []⟩) → ∃ sched : List (List Int),
      (∀ t ∈ cs, ((sched.foldl (fun s t => stepThread t s) st).1 t).code = []) ∧
      (∀ t, t ∉ cs → (sched.foldl (fun s t => stepThread t s) st).1 t = st.1 t) ∧
      (sched.foldl (fun s t => stepThread t s) st).2 = cs.foldl (fun m t => runBody (body t) m) st.2 := by
    intro cs
    induction cs with
    | nil => intro st _ _; exact ⟨[], by simp, fun _ _ => rfl, rfl⟩
    | cons c cs ih =>
      intro st hnd hst
      obtain ⟨hnc, hnd'⟩ := List.nodup_cons.1 hnd
      obtain ⟨a, b⟩ := run_one c (st.1 c).code st rfl
      have hm := run_one_mem c (st.1 c).code st rfl
      rw [hst c List.mem_cons_self] at hm
      simp only [compile_run] at hm
      obtain ⟨sched, s1, s2, s3⟩ := ih ((List.replicate (st.1 c).code.length c).foldl
        (fun s t => stepThread t s) st) hnd' (fun t ht => by
          rw [b t (fun e => hnc (e ▸ ht))]; exact hst t (List.mem_cons_of_mem _ ht))
      refine ⟨List.replicate (st.1 c).code.length c ++ sched, ?_, ?_, ?_⟩
      · intro t ht
        rw [List.foldl_append]
        rcases List.mem_cons.1 ht with rfl | ht
        · rw [s2 t hnc]; exact a
        · exact s1 t ht
      · intro t ht
        rw [List.foldl_append]
        simp only [List.mem_cons, not_or] at ht
        rw [s2 t ht.2, b t ht.1]
      · rw [List.foldl_append, s3, List.foldl_cons]
        rw [hst c List.mem_cons_self]
        simp only
        rw [hm]
  obtain ⟨sched, s1, s2, s3⟩ := key cs (start cells body m) hn (fun t ht => by
    simp [start, (hc t).1 ht])
  refine ⟨sched, fun t => ?_, s3⟩
  by_cases ht : t ∈ cs
  · exact s1 t ht
  · have h' : t ∉ cells := fun h => ht ((hc t).2 h)
    rw [s2 t ht]; simp [start, h']

end Entity.Kernel
