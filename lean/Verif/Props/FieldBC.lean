import Verif.Spec.FieldBC
import Verif.Lemmas.FieldBC
import Verif.Lemmas.WallFlux
import Mathlib.Analysis.SpecificLimits.Basic

/-!
# Boundary conditions of the fields (C108–C114)
-/

namespace Entity.FieldBC

open Entity Entity.Kernel Entity.Ranks Entity.FieldSolver

variable {K : Type} [Field K]

/-! ## The generic transcription unfolds to the source -/

/-- fields_bcs.hpp:579-624, `D = 2`, `o = x1`, lower wall. -/
example (e i1 i2 : Int) (h : i1 ≠ 0) :
    byComp 0 (tagged true true) (conductorAt (K := ℚ) 0 false e [i1, i2]) =
      [ ebL .ex1 [e - i1, i2] :=. eb .ex1 [e + i1 - 1, i2],
        ebL .ex2 [e - i1, i2] :=. -eb .ex2 [e + i1, i2],
        ebL .ex3 [e - i1, i2] :=. -eb .ex3 [e + i1, i2],
        ebL .bx1 [e - i1, i2] :=. -eb .bx1 [e + i1, i2],
        ebL .bx2 [e - i1, i2] :=. eb .bx2 [e + i1 - 1, i2],
        ebL .bx3 [e - i1, i2] :=. eb .bx3 [e + i1 - 1, i2] ] := by
  simp [byComp, tagged, conductorAt, halfAlong, h, ebL, eb, Em.toNat]

/-- fields_bcs.hpp:626-666, `D = 2`, `o = x2`, upper wall. -/
example (e i1 i2 : Int) (h : i2 ≠ 0) :
    byComp 0 (tagged true true) (conductorAt (K := ℚ) 1 true e [i1, i2]) =
      [ ebL .ex1 [i1, e + i2] :=. -eb .ex1 [i1, e - i2],
        ebL .ex2 [i1, e + i2 - 1] :=. eb .ex2 [i1, e - i2],
        ebL .ex3 [i1, e + i2] :=. -eb .ex3 [i1, e - i2],
        ebL .bx1 [i1, e + i2 - 1] :=. eb .bx1 [i1, e - i2],
        ebL .bx2 [i1, e + i2] :=. -eb .bx2 [i1, e - i2],
        ebL .bx3 [i1, e + i2 - 1] :=. eb .bx3 [i1, e - i2] ] := by
  simp [byComp, tagged, conductorAt, halfAlong, h, ebL, eb, Em.toNat]

/-- fields_bcs.hpp:580-583, 600-602: the thread on the wall. -/
example (e i2 : Int) :
    byComp 0 (tagged true true) (conductorAt (K := ℚ) 0 false e [0, i2]) =
      [ ebL .ex2 [e, i2] :=. .lit 0, ebL .ex3 [e, i2] :=. .lit 0, ebL .bx1 [e, i2] :=. .lit 0 ] := by
  simp [byComp, tagged, conductorAt, halfAlong, ebL, Em.toNat]

/-! ## C108: conducting wall -/

private theorem half_own {o : Nat} (ho : o < 3) : halfAlong o o = true := by simp [halfAlong, ho]
private theorem half_e {c o : Nat} (hc : c < 3) (h : c ≠ o) : ¬ halfAlong c o = true := by
  simp [halfAlong, hc, h]
private theorem half_bo {o : Nat} : ¬ halfAlong (o + 3) o = true := by simp [halfAlong]
private theorem half_b {c o : Nat} (h : c ≠ o) : halfAlong (c + 3) o = true := by
  simp [halfAlong, h]

private theorem odd_of {M : Mesh} {o c : Nat} {P setE setB : Bool} (ho : o < M.n.length)
    (hng : 1 ≤ M.ng) {m m' : Mem K} (h : conductor M o P setE setB m m')
    (hc : c ∈ tagged setE setB) (hh : ¬ halfAlong c o = true) {t : List Int} (ht : Across M o t) :
    OddAt (line m' c o t) (if P = true then M.iMax o else M.iMin)
      (if P = true then M.ng - 1 else M.ng) := by
  obtain ⟨h1, h2⟩ := conductor_effect ho h
  obtain ⟨htl, htd⟩ := ht
  have hlt : o < t.length := by omega
  have mem : ∀ k : Int, 0 ≤ k → k < (if P = true then (M.ng : Int) else M.ng + 1) →
      t.set o k ∈ box (conductorRange M o P) := fun k hk0 hk1 => by
    rw [mem_wall ho]
    refine ⟨by simp [htl], by rw [getD_set_self hlt]; exact ⟨hk0, hk1⟩, fun d hd hdo => ?_⟩
    rw [getD_set_other hdo]; exact htd d hd hdo
  have inside : ∀ k : Int, (if P = true then k < M.iMax o else M.iMin < k) →
      m' ⟨0, c, t.set o k⟩ = m ⟨0, c, t.set o k⟩ := by
    intro k hk
    apply h2
    intro u hu c' hc' p hp heq
    have hcc : c = c' := congrArg Loc.comp heq
    subst hcc
    have hu0 := ((mem_wall ho).mp hu).2.1.1
    have hul : o < u.length := by have := ((mem_wall ho).mp hu).1; omega
    have hidx : t.set o k = p.1 := congrArg Loc.idx heq
    have hko : k = p.1.getD o 0 := by rw [← hidx, getD_set_self hlt]
    simp only [conductorAt, hh, if_false, Bool.false_eq_true] at hp
    split at hp
    · rw [← Option.some.inj hp, getD_set_self hul] at hko
      cases P <;> simp at hk hko <;> omega
    · cases P <;> simp only [if_true, if_false, Bool.false_eq_true] at hp hk <;>
        (rw [← Option.some.inj hp, getD_set_self hul] at hko; omega)
  constructor
  · have := h1 (t.set o 0) (mem 0 le_rfl (by split <;> omega)) c hc
      (t.set o (if P = true then M.iMax o else M.iMin), .lit 0)
      (by simp only [conductorAt, hh, if_false, Bool.false_eq_true, getD_set_self hlt, if_true,
        List.set_set])
    exact this
  · intro k hk1 hk2
    have hk0 : ((k : Int)) ≠ 0 := by omega
    cases P
    · simp only [if_false, Bool.false_eq_true] at *
      have := h1 (t.set o k) (mem k (by omega) (by omega)) c hc
        (t.set o (M.iMin - k), -.ld ⟨0, c, t.set o (M.iMin + k)⟩)
        (by simp only [conductorAt, hh, if_false, Bool.false_eq_true, getD_set_self hlt, hk0,
          List.set_set])
      simp only [line, this]
      rw [inside (M.iMin + k) (by omega)]
      rfl
    · simp only [if_true] at *
      have := h1 (t.set o k) (mem k (by omega) (by omega)) c hc
        (t.set o (M.iMax o + k), -.ld ⟨0, c, t.set o (M.iMax o - k)⟩)
        (by simp only [conductorAt, hh, if_false, if_true, Bool.false_eq_true, getD_set_self hlt, hk0,
          List.set_set])
      simp only [line, this]
      rw [inside (M.iMax o - k) (by omega)]
      show _ = - (- _)
      rw [neg_neg]; rfl

private theorem even_of {M : Mesh} {o c : Nat} {P setE setB : Bool} (ho : o < M.n.length)
    {m m' : Mem K} (h : conductor M o P setE setB m m')
    (hc : c ∈ tagged setE setB) (hh : halfAlong c o = true) {t : List Int} (ht : Across M o t) :
    EvenAt (line m' c o t) (if P = true then M.iMax o else M.iMin)
      (if P = true then M.ng - 1 else M.ng) := by
  obtain ⟨h1, h2⟩ := conductor_effect ho h
  obtain ⟨htl, htd⟩ := ht
  have hlt : o < t.length := by omega
  have mem : ∀ k : Int, 0 ≤ k → k < (if P = true then (M.ng : Int) else M.ng + 1) →
      t.set o k ∈ box (conductorRange M o P) := fun k hk0 hk1 => by
    rw [mem_wall ho]
    refine ⟨by simp [htl], by rw [getD_set_self hlt]; exact ⟨hk0, hk1⟩, fun d hd hdo => ?_⟩
    rw [getD_set_other hdo]; exact htd d hd hdo
  have inside : ∀ k : Int, (if P = true then k < M.iMax o else M.iMin ≤ k) →
      m' ⟨0, c, t.set o k⟩ = m ⟨0, c, t.set o k⟩ := by
    intro k hk
    apply h2
    intro u hu c' hc' p hp heq
    have hcc : c = c' := congrArg Loc.comp heq
    subst hcc
    have hu0 := ((mem_wall ho).mp hu).2.1.1
    have hul : o < u.length := by have := ((mem_wall ho).mp hu).1; omega
    have hidx : t.set o k = p.1 := congrArg Loc.idx heq
    have hko : k = p.1.getD o 0 := by rw [← hidx, getD_set_self hlt]
    simp only [conductorAt, hh, if_true] at hp
    split at hp
    · cases hp
    · cases P <;> simp only [if_true, if_false, Bool.false_eq_true] at hp hk <;>
        (rw [← Option.some.inj hp, getD_set_self hul] at hko; omega)
  intro k hk1 hk2
  have hk0 : ((k : Int)) ≠ 0 := by omega
  cases P
  · simp only [if_false, Bool.false_eq_true] at *
    have := h1 (t.set o k) (mem k (by omega) (by omega)) c hc
      (t.set o (M.iMin - k), .ld ⟨0, c, t.set o (M.iMin + k - 1)⟩)
      (by simp only [conductorAt, hh, if_false, if_true, Bool.false_eq_true, getD_set_self hlt, hk0,
        List.set_set])
    simp only [line, this]
    rw [inside (M.iMin + k - 1) (by omega)]
    rfl
  · simp only [if_true] at *
    have := h1 (t.set o k) (mem k (by omega) (by omega)) c hc
      (t.set o (M.iMax o + k - 1), .ld ⟨0, c, t.set o (M.iMax o - k)⟩)
      (by simp only [conductorAt, hh, if_false, if_true, getD_set_self hlt, hk0, List.set_set])
    simp only [line, this]
    rw [inside (M.iMax o - k) (by omega)]
    rfl

/-- **C108**: at a lower conducting wall the condition is met through all ghost cells, in one, two and
three dimensions and whatever the order of the threads; the cells inside the wall keep their values,
and so does everything that is not tagged. -/
theorem C108_lower {M : Mesh} {o : Nat} {setE setB : Bool} (ho : o < M.n.length)
    (hd : M.n.length ≤ 3) (hng : 1 ≤ M.ng) {m m' : Mem K}
    (h : conductor M o false setE setB m m') :
    Conducting M o M.iMin setE setB M.ng M.ng m' ∧
    (∀ c t, M.iMin < t.getD o 0 → m' ⟨0, c, t⟩ = m ⟨0, c, t⟩) ∧
    (∀ t, t.getD o 0 = M.iMin → m' ⟨0, o, t⟩ = m ⟨0, o, t⟩ ∧
      ∀ c < 3, c ≠ o → m' ⟨0, c + 3, t⟩ = m ⟨0, c + 3, t⟩) ∧
    (setE = false → ∀ c < 3, ∀ t, m' ⟨0, c, t⟩ = m ⟨0, c, t⟩) ∧
    (setB = false → ∀ c < 3, ∀ t, m' ⟨0, c + 3, t⟩ = m ⟨0, c + 3, t⟩) := by
  obtain ⟨-, h2⟩ := conductor_effect ho h
  have frame : ∀ c t, (c ∈ tagged setE setB → M.iMin < t.getD o 0 ∨
      (halfAlong c o = true ∧ M.iMin ≤ t.getD o 0)) → m' ⟨0, c, t⟩ = m ⟨0, c, t⟩ := by
    intro c t hct
    apply h2
    intro u hu c' hc' p hp heq
    have hcc : c = c' := congrArg Loc.comp heq
    subst hcc
    have hu0 := ((mem_wall ho).mp hu).2.1.1
    have hul : o < u.length := by have := ((mem_wall ho).mp hu).1; omega
    have hidx : t = p.1 := congrArg Loc.idx heq
    have hct := hct hc'
    rw [hidx] at hct
    simp only [conductorAt, if_false, Bool.false_eq_true] at hp
    split at hp
    · split at hp
      · cases hp
      · rw [← Option.some.inj hp, getD_set_self hul] at hct; omega
    · rename_i hh
      split at hp <;> (rw [← Option.some.inj hp, getD_set_self hul] at hct; simp only [hh, false_and, or_false, Bool.false_eq_true] at hct; omega)
  refine ⟨fun t ht => ⟨fun hE => ⟨fun c hc hco => ?_, ?_⟩, fun hB => ⟨?_, fun c hc hco => ?_⟩⟩,
    fun c t hct => frame c t (fun _ => .inl hct), fun t ht => ⟨?_, fun c hc hco => ?_⟩,
    fun hE c hc t => frame c t (fun hm => ?_), fun hB c hc t => frame _ t (fun hm => ?_)⟩
  · exact odd_of ho hng h (mem_tagged.mpr (.inl ⟨hE, hc⟩)) (half_e hc hco) ht
  · exact even_of ho h (mem_tagged.mpr (.inl ⟨hE, by omega⟩)) (half_own (by omega)) ht
  · exact odd_of ho hng h (mem_tagged.mpr (.inr ⟨hB, by omega⟩)) half_bo ht
  · exact even_of ho h (mem_tagged.mpr (.inr ⟨hB, by omega⟩)) (half_b hco) ht
  · exact frame o t (fun _ => .inr ⟨half_own (by omega), by omega⟩)
  · exact frame (c + 3) t (fun _ => .inr ⟨half_b hco, by omega⟩)
  · rw [mem_tagged] at hm
    rcases hm with ⟨hE', _⟩ | ⟨_, h3, _⟩
    · rw [hE] at hE'; cases hE'
    · omega
  · rw [mem_tagged] at hm
    rcases hm with ⟨_, h3⟩ | ⟨hB', _⟩
    · omega
    · rw [hB] at hB'; cases hB'

/-- **C108** at an upper wall: the fields that vanish on the wall are odd through all ghost nodes, but
the even ones are mirrored only up to the last but one ghost cell.  Missing for the full statement: the
outermost ghost cell (`C108_counterexample`). -/
theorem C108_upper_partial {M : Mesh} {o : Nat} {setE setB : Bool} (ho : o < M.n.length)
    (hd : M.n.length ≤ 3) (hng : 1 ≤ M.ng) {m m' : Mem K}
    (h : conductor M o true setE setB m m') :
    Conducting M o (M.iMax o) setE setB (M.ng - 1) (M.ng - 1) m' ∧
    (∀ c t, t.getD o 0 < M.iMax o → m' ⟨0, c, t⟩ = m ⟨0, c, t⟩) ∧
    (setE = false → ∀ c < 3, ∀ t, m' ⟨0, c, t⟩ = m ⟨0, c, t⟩) ∧
    (setB = false → ∀ c < 3, ∀ t, m' ⟨0, c + 3, t⟩ = m ⟨0, c + 3, t⟩) := by
  obtain ⟨-, h2⟩ := conductor_effect ho h
  have frame : ∀ c t, (c ∈ tagged setE setB → t.getD o 0 < M.iMax o) →
      m' ⟨0, c, t⟩ = m ⟨0, c, t⟩ := by
    intro c t hct
    apply h2
    intro u hu c' hc' p hp heq
    have hcc : c = c' := congrArg Loc.comp heq
    subst hcc
    have hu0 := ((mem_wall ho).mp hu).2.1.1
    have hul : o < u.length := by have := ((mem_wall ho).mp hu).1; omega
    have hidx : t = p.1 := congrArg Loc.idx heq
    have hct := hct hc'
    rw [hidx] at hct
    simp only [conductorAt, if_true] at hp
    split at hp
    · split at hp
      · cases hp
      · rw [← Option.some.inj hp, getD_set_self hul] at hct; omega
    · split at hp <;> (rw [← Option.some.inj hp, getD_set_self hul] at hct; omega)
  refine ⟨fun t ht => ⟨fun hE => ⟨fun c hc hco => ?_, ?_⟩, fun hB => ⟨?_, fun c hc hco => ?_⟩⟩,
    fun c t hct => frame c t (fun _ => hct),
    fun hE c hc t => frame c t (fun hm => ?_), fun hB c hc t => frame _ t (fun hm => ?_)⟩
  · exact odd_of ho hng h (mem_tagged.mpr (.inl ⟨hE, hc⟩)) (half_e hc hco) ht
  · exact even_of ho h (mem_tagged.mpr (.inl ⟨hE, by omega⟩)) (half_own (by omega)) ht
  · exact odd_of ho hng h (mem_tagged.mpr (.inr ⟨hB, by omega⟩)) half_bo ht
  · exact even_of ho h (mem_tagged.mpr (.inr ⟨hB, by omega⟩)) (half_b hco) ht
  · rw [mem_tagged] at hm
    rcases hm with ⟨hE', _⟩ | ⟨_, h3, _⟩
    · rw [hE] at hE'; cases hE'
    · omega
  · rw [mem_tagged] at hm
    rcases hm with ⟨_, h3⟩ | ⟨hB', _⟩
    · omega
    · rw [hB] at hB'; cases hB'

/-- The result does not depend on the order of the threads. -/
theorem C108_deterministic {M : Mesh} {o : Nat} {P setE setB : Bool} (ho : o < M.n.length)
    (m : Mem K) : ∃! m', conductor M o P setE setB m m' := by
  obtain ⟨m', hm'⟩ := launch_exists (box (conductorRange M o P)) (fun t => byComp 0
    (tagged setE setB) (conductorAt o P (if P = true then M.iMax o else M.iMin) t)) m
  refine ⟨m', hm', fun m2 h2 => launch_byComp_det (tagged_nodup _ _) (wall_owned (fun t ht => ?_) _)
    h2 hm'⟩
  obtain ⟨h1, h2, _⟩ := (mem_wall ho).mp ht
  exact ⟨by omega, h2.1⟩

/-- At an upper wall the outermost ghost cell keeps what it had: with two ghost cells and fields equal
to one everywhere except there, the normal electric field is not even across the wall. -/
theorem C108_counterexample : ∃ (M : Mesh) (m m' : Mem ℚ), 1 ≤ M.ng ∧
    conductor M 0 true true true m m' ∧ ¬ Conducting M 0 (M.iMax 0) true true (M.ng - 1) M.ng m' := by
  let m : Mem ℚ := fun l => if l.idx = [7] then 0 else 1
  obtain ⟨m', hm', -⟩ := C108_deterministic (K := ℚ) (M := ⟨2, [4]⟩) (o := 0) (P := true) (setE := true)
    (setB := true) (by decide) m
  refine ⟨⟨2, [4]⟩, m, m', by decide, hm', fun hC => ?_⟩
  have ha : Across ⟨2, [4]⟩ 0 [0] := ⟨rfl, fun d hd hd0 => by simp at hd; omega⟩
  have h1 := ((hC [0] ha).1 rfl).2 2 (by decide) (by decide)
  have hin : m' ⟨0, 0, [4]⟩ = m ⟨0, 0, [4]⟩ :=
    (C108_upper_partial (by decide) (by decide) (by decide) hm').2.1 0 [4] (by decide)
  have hout : m' ⟨0, 0, [7]⟩ = m ⟨0, 0, [7]⟩ := by
    apply (conductor_effect (by decide) hm').2
    intro u hu c hc p hp heq
    have hcc : 0 = c := congrArg Loc.comp heq
    subst hcc
    obtain ⟨hul, hu2, -⟩ := (mem_wall (by decide)).mp hu
    have hidx : [7] = p.1 := congrArg Loc.idx heq
    obtain ⟨x, rfl⟩ : ∃ x, u = [x] := List.length_eq_one_iff.mp hul
    simp only [conductorAt, halfAlong, Mesh.iMax, if_true] at hp
    simp at hu2 hp
    rw [← hp.2] at hidx; simp at hidx; omega
  have e1 : line m' 0 0 [0] (Mesh.iMax ⟨2, [4]⟩ 0 - (2 : Nat)) = m' ⟨0, 0, [4]⟩ := rfl
  have e2 : line m' 0 0 [0] (Mesh.iMax ⟨2, [4]⟩ 0 + (2 : Nat) - 1) = m' ⟨0, 0, [7]⟩ := rfl
  rw [e1, e2, hin, hout] at h1
  simp [m] at h1

/-- **C108**: once the condition on the electric field has been applied at a lower wall, Faraday's law
(with any of the stencils) does not change the normal magnetic field on the wall: no flux passes it. -/
theorem C108_no_flux {M : Mesh} {o : Nat} {setB : Bool} (ho : o < M.n.length) (hd : M.n.length ≤ 3)
    (hng : 2 ≤ M.ng) {m m1 m2 : Mem K} (h1 : conductor M o false true setB m m1) {dT dx : K}
    {c : Coeffs K} (h2 : Launch (box (M.n.map fun (n : Nat) => ((M.ng : Int), (M.ng : Int) + n)))
      (atCell (faraday M.n.length dT dx c)) m1 m2) {t : List Int} (ht : t.length = M.n.length)
    (hto : t.getD o 0 = M.iMin) : m2 ⟨0, o + 3, t⟩ = m1 ⟨0, o + 3, t⟩ := by
  refine faraday_wall ho hd hng ?_ h2 ht hto
  intro u hu
  have := ((C108_lower ho hd (by omega) h1).1 u hu).1 rfl
  refine ⟨fun _ => ⟨fun c hc hco => ?_, fun k h1 h0 => by omega⟩, fun hB => by cases hB⟩
  exact ⟨(this.1 c hc hco).1, fun k hk1 hk2 => (this.1 c hc hco).2 k hk1 (by omega)⟩

/-- A wall where there is something to mirror: a 2D subdomain with a nonzero field. -/
example : ∃ m' : Mem ℚ, conductor ⟨2, [4, 3]⟩ 0 false true true (fun l => if l.idx = [3, 2] then 5 else 7) m' ∧
    m' ⟨0, 1, [1, 2]⟩ = -5 ∧ m' ⟨0, 0, [0, 2]⟩ = 5 ∧ m' ⟨0, 2, [2, 2]⟩ = 0 := by
  obtain ⟨m', hm', -⟩ := C108_deterministic (K := ℚ) (M := ⟨2, [4, 3]⟩) (o := 0) (P := false)
    (setE := true) (setB := true) (by decide) (fun l => if l.idx = [3, 2] then 5 else 7)
  have hC := C108_lower (by decide) (by decide) (by decide) hm'
  have ha : Across ⟨2, [4, 3]⟩ 0 [0, 2] := ⟨rfl, fun d hd hd0 => by
    obtain rfl : d = 1 := by simp at hd; omega
    decide⟩
  have hE := (hC.1 [0, 2] ha).1 rfl
  refine ⟨m', hm', ?_, ?_, (hE.1 2 (by decide) (by decide)).1⟩
  · have := (hE.1 1 (by decide) (by decide)).2 1 (by decide) (by decide)
    have e1 : line m' 1 0 [0, 2] (Mesh.iMin ⟨2, [4, 3]⟩ - (1 : Nat)) = m' ⟨0, 1, [1, 2]⟩ := rfl
    have e2 : line m' 1 0 [0, 2] (Mesh.iMin ⟨2, [4, 3]⟩ + (1 : Nat)) = m' ⟨0, 1, [3, 2]⟩ := rfl
    rw [e1, e2, hC.2.1 1 [3, 2] (by decide)] at this
    rw [this]; decide +kernel
  · have := hE.2 2 (by decide) (by decide)
    have e1 : line m' 0 0 [0, 2] (Mesh.iMin ⟨2, [4, 3]⟩ - (2 : Nat)) = m' ⟨0, 0, [0, 2]⟩ := rfl
    have e2 : line m' 0 0 [0, 2] (Mesh.iMin ⟨2, [4, 3]⟩ + (2 : Nat) - 1) = m' ⟨0, 0, [3, 2]⟩ := rfl
    rw [e1, e2, hC.2.1 0 [3, 2] (by decide)] at this
    rw [this]; decide +kernel

/-! ## C109: matching layers -/

private theorem half_site (c a : Nat) : (halfAlong c a = true) ↔
    ((c < 3 ∧ a = c) ∨ (3 ≤ c ∧ a ≠ c - 3)) := by
  unfold halfAlong
  split
  · rename_i h; simp only [beq_iff_eq]; omega
  · rename_i h; simp only [bne_iff_ne]; omega

theorem pos_eq_sites (ng c : Nat) (t : List Int) : pos ng c t = sites ng c t := by
  apply List.ext_getElem (by simp [pos, sites])
  intro k h1 h2
  have hk : k < t.length := by simpa [pos] using h1
  simp only [pos, sites, List.getElem_mapIdx, List.getElem_map, List.getElem_range, site, half_site,
    List.getD_eq_getElem?_getD, List.getElem?_eq_getElem hk, Option.getD_some]
  push_cast
  rfl

theorem pos_getD {ng c : Nat} {t : List Int} {o : Nat} (h : o < t.length) :
    (pos ng c t).getD o 0 = site ng c t o := by
  rw [pos_eq_sites]
  simp [sites, List.getD_eq_getElem?_getD, h]

theorem tanh_nonneg {x : ℝ} (h : 0 ≤ x) : 0 ≤ Real.tanh x := by
  rw [Real.tanh_eq_sinh_div_cosh]
  exact div_nonneg (Real.sinh_nonneg_iff.mpr h) (Real.cosh_pos x).le

section
variable {S : Setter} {p : Match} {ng : Nat} {setE setB : Bool} {r : List (Int × Int)}

/-- **C109**: in the matching layer every tagged component the problem generator provides becomes
`s F + (1 - s) F_target`, with the target evaluated at the position of that component and
`s = tanh(4 d / ds)`, `d` the distance of that position from the edge, so `0 ≤ s < 1`.  The third
electric component on an axis is only damped. -/
theorem C109_value (hds : 0 < p.ds) {m m' : Mem ℝ} (h : matchKernel S p ng setE setB r m m')
    {t : List Int} (ht : t ∈ box r) (hpo : p.o < t.length) {c : Nat}
    (hc : (setE = true ∧ c < 3) ∨ (setB = true ∧ 3 ≤ c ∧ c < 6)) {f : List ℝ → ℝ}
    (hf : S.fset c = some f) : ∃ s : ℝ,
      s = Real.tanh (|S.conv1 (site ng c t p.o) - p.edge| * 4 / p.ds) ∧ 0 ≤ s ∧ s < 1 ∧
      ((c ≠ 2 ∨ ((p.axisLo = true → (ng : Int) < t.getD 1 0) ∧
          (p.axisHi = true → t.getD 1 0 < p.extent2 - ng))) →
        m' ⟨0, c, t⟩ = s * m ⟨0, c, t⟩ +
          (1 - s) * S.toU c (sites ng c t) (f (S.conv (sites ng c t)))) ∧
      (¬ (c ≠ 2 ∨ ((p.axisLo = true → (ng : Int) < t.getD 1 0) ∧
          (p.axisHi = true → t.getD 1 0 < p.extent2 - ng))) →
        m' ⟨0, c, t⟩ = s * m ⟨0, c, t⟩) := by
  obtain ⟨h1, -⟩ := launch_here (tagged_nodup setE setB) (matchAt_here (S := S) (p := p) (ng := ng)) h
  have hw : weight S p ng c t = Real.tanh (|S.conv1 (site ng c t p.o) - p.edge| * 4 / p.ds) := by
    rw [weight, pos_getD hpo]
  have hdr : driven p ng c t = true ↔ (c ≠ 2 ∨ ((p.axisLo = true → (ng : Int) < t.getD 1 0) ∧
      (p.axisHi = true → t.getD 1 0 < p.extent2 - ng))) := by
    unfold driven
    cases p.axisLo <;> cases p.axisHi <;> simp
  have h2 := h1 t ht c (mem_tagged.mpr hc) _ (show matchAt S p ng t c = some _ by
    simp only [matchAt, Setter.target, hf, Option.map_some, hw, pos_eq_sites]; rfl)
  refine ⟨_, rfl, tanh_nonneg (by positivity), Real.tanh_lt_one _, fun hd => ?_, fun hd => ?_⟩
  · rw [h2]; simp only [hdr.mpr hd, if_true]; rfl
  · rw [h2]; simp only [mt hdr.mp hd, if_false]; rfl

/-- **C109**: nothing else changes: other cells, components that are not tagged or that the problem
generator does not provide, other arrays. -/
theorem C109_frame {m m' : Mem ℝ} (h : matchKernel S p ng setE setB r m m') (l : Loc)
    (hl : l.arr ≠ 0 ∨ l.idx ∉ box r ∨ S.fset l.comp = none ∨
      ¬ ((setE = true ∧ l.comp < 3) ∨ (setB = true ∧ 3 ≤ l.comp ∧ l.comp < 6))) : m' l = m l := by
  apply (launch_here (tagged_nodup setE setB) (matchAt_here (S := S) (p := p) (ng := ng)) h).2
  rintro ⟨h1, h2, h3, h4⟩
  rcases hl with hl | hl | hl | hl
  · exact hl h1
  · exact hl h3
  · simp [matchAt, Setter.target, hl] at h4
  · exact hl (mem_tagged.mp h2)

/-- **C109**: away from an axis the new value lies between the old one and the target; on the edge it is
the target; a field that already has the target value keeps it. -/
theorem C109_between (hds : 0 < p.ds) {m m' : Mem ℝ} (h : matchKernel S p ng setE setB r m m')
    {t : List Int} (ht : t ∈ box r) (hpo : p.o < t.length) {c : Nat}
    (hc : (setE = true ∧ c < 3) ∨ (setB = true ∧ 3 ≤ c ∧ c < 6)) {f : List ℝ → ℝ}
    (hf : S.fset c = some f) (hax : p.axisLo = false ∧ p.axisHi = false) :
    let T := S.toU c (sites ng c t) (f (S.conv (sites ng c t)))
    (min (m ⟨0, c, t⟩) T ≤ m' ⟨0, c, t⟩ ∧ m' ⟨0, c, t⟩ ≤ max (m ⟨0, c, t⟩) T) ∧
    (S.conv1 (site ng c t p.o) = p.edge → m' ⟨0, c, t⟩ = T) ∧
    (m ⟨0, c, t⟩ = T → m' ⟨0, c, t⟩ = T) := by
  intro T
  obtain ⟨s, hs, h0, h1, hv, -⟩ := C109_value hds h ht hpo hc hf
  have hv := hv (.inr ⟨fun h => by simp [hax.1] at h, fun h => by simp [hax.2] at h⟩)
  change m' ⟨0, c, t⟩ = s * m ⟨0, c, t⟩ + (1 - s) * T at hv
  rw [hv]
  refine ⟨⟨?_, ?_⟩, fun he => ?_, fun he => ?_⟩
  · have a1 := min_le_left (m ⟨0, c, t⟩) T
    have a2 := min_le_right (m ⟨0, c, t⟩) T
    nlinarith
  · have a1 := le_max_left (m ⟨0, c, t⟩) T
    have a2 := le_max_right (m ⟨0, c, t⟩) T
    nlinarith
  · rw [he, sub_self, abs_zero, zero_mul, zero_div, Real.tanh_zero] at hs
    rw [hs]; ring
  · rw [he]; ring

/-- **C109**: if nothing else acts on the layer, the field converges to the target. -/
theorem C109_converges (hds : 0 < p.ds) (m : Nat → Mem ℝ)
    (h : ∀ k, matchKernel S p ng setE setB r (m k) (m (k + 1)))
    {t : List Int} (ht : t ∈ box r) (hpo : p.o < t.length) {c : Nat}
    (hc : (setE = true ∧ c < 3) ∨ (setB = true ∧ 3 ≤ c ∧ c < 6)) {f : List ℝ → ℝ}
    (hf : S.fset c = some f) (hax : p.axisLo = false ∧ p.axisHi = false) :
    Filter.Tendsto (fun k => m k ⟨0, c, t⟩) Filter.atTop
      (nhds (S.toU c (sites ng c t) (f (S.conv (sites ng c t))))) := by
  set T := S.toU c (sites ng c t) (f (S.conv (sites ng c t))) with hT
  set s := Real.tanh (|S.conv1 (site ng c t p.o) - p.edge| * 4 / p.ds) with hsd
  have hb : 0 ≤ s ∧ s < 1 := by
    obtain ⟨s', hs, h0, h1, -, -⟩ := C109_value hds (h 0) ht hpo hc hf
    rw [hsd, ← hs]; exact ⟨h0, h1⟩
  have hk : ∀ k, m k ⟨0, c, t⟩ = T + s ^ k * (m 0 ⟨0, c, t⟩ - T) := by
    intro k
    induction k with
    | zero => ring
    | succ k ih =>
      obtain ⟨s', hs, -, -, hv, -⟩ := C109_value hds (h k) ht hpo hc hf
      rw [hv (.inr ⟨fun h => by simp [hax.1] at h, fun h => by simp [hax.2] at h⟩), hs, ← hsd, ih,
        ← hT]
      ring
  have hlim := (tendsto_pow_atTop_nhds_zero_of_lt_one hb.1 hb.2).mul_const (m 0 ⟨0, c, t⟩ - T)
  have := hlim.const_add T
  simp only [zero_mul, add_zero] at this
  exact this.congr (fun k => (hk k).symm)

end

end Entity.FieldBC
