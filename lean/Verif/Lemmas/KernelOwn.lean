import Verif.Lemmas.Kernel
import Verif.Model.Ranks

/-!
# Kernels whose threads own arbitrary locations
-/

namespace Entity.Kernel

variable {K : Type} [Add K] [Sub K] [Mul K] [Div K] [Neg K]

/-- `own l` is the thread that may write `l`; threads read only what no other thread may write. -/
def OwnedL (cells : List (List Int)) (own : Loc → Option (List Int))
    (body : List Int → List (Assign K)) : Prop :=
  ∀ t ∈ cells, ∀ a ∈ body t, own a.dst = some t ∧
    ∀ l ∈ a.rhs.loads, ∀ u ∈ cells, own l = some u → u = t

theorem indep_of_ownedL {body : List Int → List (Assign K)} {cells : List (List Int)}
    {own : Loc → Option (List Int)} (h : OwnedL cells own body) :
    Indep (fun t => if t ∈ cells then compile (body t) else [])
      (fun t l => t ∈ cells ∧ own l = some t) := by
  have key : ∀ t, ∀ i ∈ (if t ∈ cells then compile (body t) else []), t ∈ cells ∧
      ∃ a ∈ body t, i ∈ a.rhs.compile ∨ i = .put a.dst := by
    intro t i hi
    split at hi
    · rename_i ht
      simp only [compile, List.mem_flatMap, List.mem_append, List.mem_singleton] at hi
      exact ⟨ht, hi⟩
    · simp at hi
  constructor
  · intro t i hi l hl
    obtain ⟨ht, a, ha, h'⟩ := key t i hi
    rcases h' with h' | rfl
    · rw [(compileEx_reads a.rhs i h').2] at hl; cases hl
    · simp only [Instr.writes, Option.some.injEq] at hl
      subst hl
      exact ⟨ht, (h t ht a ha).1⟩
  · intro t i hi l hl u hu hw
    obtain ⟨ht, a, ha, h'⟩ := key t i hi
    rcases h' with h' | rfl
    · exact hu ((h t ht a ha).2 l ((compileEx_reads a.rhs i h').1 l hl) u hw.1 hw.2)
    · cases hl
  · intro t u l h1 h2
    exact Option.some.inj (h1.2.symm.trans h2.2)

/-- The result of such a kernel. -/
def resultL (cells : List (List Int)) (own : Loc → Option (List Int))
    (body : List Int → List (Assign K)) (m : Mem K) : Mem K :=
  fun l => match own l with
    | some t => if t ∈ cells then runBody (body t) m l else m l
    | none => m l

theorem launch_ownedL {body : List Int → List (Assign K)} {cells : List (List Int)}
    {own : Loc → Option (List Int)} (h : OwnedL cells own body) {m m' : Mem K}
    (hl : Launch cells body m m') : m' = resultL cells own body m := by
  obtain ⟨sched, hd, rfl⟩ := hl
  have hI := indep_of_ownedL h
  have h0 : Inv (fun t => if t ∈ cells then compile (body t) else [])
      (fun t l => t ∈ cells ∧ own l = some t) m (start cells body m) := by
    refine ⟨fun t => ⟨0, ?_, fun l _ => rfl⟩, fun l _ => rfl⟩
    simp only [start, List.drop_zero, List.take_zero]
    split <;> rfl
  obtain ⟨e1, e2⟩ := inv_end (inv_run hI sched h0) hd
  funext l
  unfold resultL
  cases ho : own l with
  | none =>
    exact e2 l (fun t ht => by rw [ho] at ht; cases ht.2)
  | some t =>
    simp only
    by_cases hc : t ∈ cells
    · rw [if_pos hc, e1 t l ⟨hc, ho⟩]
      simp only [if_pos hc, compile_run]
    · rw [if_neg hc, e2 l (fun u hu => by rw [ho] at hu; exact hc (Option.some.inj hu.2 ▸ hu.1))]

theorem launch_ownedL_iff {body : List Int → List (Assign K)} {cells : List (List Int)}
    {own : Loc → Option (List Int)} (h : OwnedL cells own body) {m m' : Mem K} :
    Launch cells body m m' ↔ m' = resultL cells own body m := by
  refine ⟨launch_ownedL h, ?_⟩
  rintro rfl
  obtain ⟨m', hm'⟩ := launch_exists cells body m
  rw [launch_ownedL h hm'] at hm'
  exact hm'

/-- A body whose assignments go to different locations and do not read each other's. -/
theorem runBody_one {body : List (Assign K)} (hp : body.Pairwise (fun a b => a.dst ≠ b.dst))
    (hr : ∀ a ∈ body, ∀ b ∈ body, a.dst ∈ b.rhs.loads → a.dst = b.dst) {a : Assign K}
    (ha : a ∈ body) (m : Mem K) : runBody body m a.dst = a.rhs.eval m := by
  induction body generalizing m with
  | nil => cases ha
  | cons b bs ih =>
    rw [List.pairwise_cons] at hp
    have hcongr : ∀ (e : Ex K) (m1 m2 : Mem K), (∀ l ∈ e.loads, m1 l = m2 l) →
        e.eval m1 = e.eval m2 := by
      intro e m1 m2
      induction e with
      | lit c => intro _; rfl
      | ld l => intro h; exact h l (by simp [Ex.loads])
      | add a b iha ihb | sub a b iha ihb | mul a b iha ihb | div a b iha ihb =>
        intro h
        simp only [Ex.loads, List.mem_append] at h
        simp only [Ex.eval, iha (fun l hl => h l (.inl hl)), ihb (fun l hl => h l (.inr hl))]
      | neg a iha => intro h; simp only [Ex.eval, iha h]
    rcases List.mem_cons.mp ha with rfl | ha
    · simp only [runBody]
      rw [runBody_other _ _ _ (fun c hc hd => hp.1 c hc hd.symm)]
      simp [store]
    · simp only [runBody]
      rw [ih hp.2 (fun c hc d hd => hr c (List.mem_cons_of_mem _ hc) d (List.mem_cons_of_mem _ hd))
        ha]
      apply hcongr
      intro l hl
      simp only [store]
      rw [if_neg]
      rintro rfl
      exact hp.1 a ha (hr b List.mem_cons_self a (List.mem_cons_of_mem _ ha) hl)

end Entity.Kernel

namespace Entity.Ranks

theorem mem_box_iff {rs : List (Int × Int)} {t : List Int} :
    t ∈ box rs ↔ t.length = rs.length ∧ ∀ d < rs.length,
      (rs.getD d (0, 0)).1 ≤ t.getD d 0 ∧ t.getD d 0 < (rs.getD d (0, 0)).2 := by
  induction rs generalizing t with
  | nil => simp [box]
  | cons r rs ih =>
    obtain ⟨lo, hi⟩ := r
    simp only [box, List.mem_flatMap, List.mem_map, List.mem_range]
    constructor
    · rintro ⟨x, ⟨k, hk, rfl⟩, u, hu, rfl⟩
      obtain ⟨h1, h2⟩ := ih.mp hu
      refine ⟨by simp [h1], fun d hd => ?_⟩
      cases d with
      | zero => simp only [List.getD_cons_zero]; omega
      | succ d => simpa only [List.getD_cons_succ] using h2 d (by simpa using hd)
    · rintro ⟨h1, h2⟩
      cases t with
      | nil => simp at h1
      | cons x u =>
        have h0 := h2 0 (by simp)
        simp only [List.getD_cons_zero] at h0
        refine ⟨x, ⟨(x - lo).toNat, by omega, by omega⟩, u, ih.mpr ⟨by simpa using h1, fun d hd => ?_⟩,
          rfl⟩
        simpa only [List.getD_cons_succ] using h2 (d + 1) (by simpa using hd)

end Entity.Ranks
