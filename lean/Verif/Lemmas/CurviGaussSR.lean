import Verif.Lemmas.CurviAmp

/-!
# Electric flux: steps of the SR engine
-/

namespace Entity.Curvi

open Entity.Kernel Entity.FieldSolver

variable {K : Type} [Field K]

/-- The poloidal electric field of array `A` is the same where its flux is followed. -/
def KeepsE (g : CGrid) (a b : Int) (A : Nat) (m m' : Mem K) : Prop :=
  ∀ (c : Em) i1 i2, a ≤ i1 → i1 < b → g.i2min ≤ i2 →
    ((c = .ex1 ∨ c = .ex2) ∧ i2 < g.i2max ∨ c = .ex1 ∧ i2 = g.i2max ∧ g.axisHi = true) →
    m' (fL A c i1 i2) = m (fL A c i1 i2)

theorem KeepsE.refl (g : CGrid) (a b : Int) (A : Nat) (m : Mem K) : KeepsE g a b A m m :=
  fun _ _ _ _ _ _ _ => rfl

theorem KeepsE.trans {g : CGrid} {a b : Int} {A : Nat} {m m1 m2 : Mem K} (h : KeepsE g a b A m m1)
    (h' : KeepsE g a b A m1 m2) : KeepsE g a b A m m2 :=
  fun c i1 i2 h1 h2 h3 h4 => (h' c i1 i2 h1 h2 h3 h4).trans (h c i1 i2 h1 h2 h3 h4)

section
variable {M : CMetric K} {g : CGrid} {a b : Int} {A : Nat} {m m' : Mem K}

theorem KeepsE.divE (h : KeepsE g a b A m m') {i1 i2 : Int} (hn : Node g a b i1 i2) :
    divE M g A m' i1 i2 = divE M g A m i1 i2 := by
  obtain ⟨⟨h1, h1'⟩, h2, h2'⟩ := hn
  simp only [Curvi.divE]
  rw [h .ex1 i1 i2 (by omega) h1' (by omega) (.inl ⟨.inl rfl, h2'⟩),
    h .ex1 (i1 - 1) i2 (by omega) (by omega) (by omega) (.inl ⟨.inl rfl, h2'⟩),
    h .ex2 i1 i2 (by omega) h1' (by omega) (.inl ⟨.inr rfl, h2'⟩),
    h .ex2 i1 (i2 - 1) (by omega) h1' (by omega) (.inl ⟨.inr rfl, by omega⟩)]

theorem KeepsE.divELo (h : KeepsE g a b A m m') (hn : 0 < g.n2) {i1 : Int} (h1 : a < i1) (h1' : i1 < b) :
    divELo M g A m' i1 = divELo M g A m i1 := by
  have hlt : g.i2min < g.i2max := by simp [CGrid.i2min, CGrid.i2max, hn]
  simp only [Curvi.divELo]
  rw [h .ex1 i1 _ (by omega) h1' le_rfl (.inl ⟨.inl rfl, hlt⟩),
    h .ex1 (i1 - 1) _ (by omega) (by omega) le_rfl (.inl ⟨.inl rfl, hlt⟩),
    h .ex2 i1 _ (by omega) h1' le_rfl (.inl ⟨.inr rfl, hlt⟩)]

theorem KeepsE.divEHi (h : KeepsE g a b A m m') (hn : 0 < g.n2) (hx : g.axisHi = true) {i1 : Int}
    (h1 : a < i1) (h1' : i1 < b) : divEHi M g A m' i1 = divEHi M g A m i1 := by
  have hlt : g.i2min < g.i2max := by simp [CGrid.i2min, CGrid.i2max, hn]
  simp only [Curvi.divEHi]
  rw [h .ex1 i1 _ (by omega) h1' hlt.le (.inr ⟨rfl, rfl, hx⟩),
    h .ex1 (i1 - 1) _ (by omega) (by omega) hlt.le (.inr ⟨rfl, rfl, hx⟩),
    h .ex2 i1 _ (by omega) h1' (by omega) (.inl ⟨.inr rfl, by omega⟩)]

theorem keeps_keepsE {arrs : List Nat} (hA : A ∈ arrs) (h : Keeps g a b arrs m m') :
    KeepsE g a b A m m' := by
  intro c i1 i2 h1 h2 h3 h4
  refine h A hA _ _ _ h1 h2 h3 ?_
  rcases h4 with h4 | h4
  · exact .inl h4.2
  · exact .inr h4.2

theorem axisBC_keepsE {A' : Nat} {sE sB : Bool} (h : axisBC g A' sE sB m m') : KeepsE g a b A m m' := by
  intro c i1 i2 h1 h2 h3 h4
  by_cases hA : A = A'
  · subst hA
    apply axisBC_other h
    · intro hx k x hm e
      obtain ⟨c', k', hd, h', -, -, -, hne⟩ := axis_dst hm
      rw [hd] at e
      simp only [fL, Loc.mk.injEq, List.cons.injEq, and_true, true_and] at e
      obtain ⟨e1, -, e2⟩ := e
      rw [Em.toNat_inj] at e1
      subst e1
      rcases h' rfl with hk | ⟨hk, hk' | hk'⟩
      · omega
      · subst hk'; simp at h4
      · subst hk'; simp at h4
    · intro hx k x hm e
      obtain ⟨c', k', hd, -, h', -, -, hne⟩ := axis_dst hm
      rw [hd] at e
      simp only [fL, Loc.mk.injEq, List.cons.injEq, and_true, true_and] at e
      obtain ⟨e1, -, e2⟩ := e
      rw [Em.toNat_inj] at e1
      subst e1
      have h5 := h' rfl
      rcases h4 with ⟨_, h4⟩ | ⟨h4, _⟩
      · omega
      · exact hne h4
  · exact axisBC_arr hA h _ _

theorem seq_keepsE {rs : List (Rel K)} (h : ∀ r ∈ rs, ∀ m m', r m m' → KeepsE g a b A m m')
    (hs : Seq rs m m') : KeepsE g a b A m m' :=
  seq_all (P := KeepsE g a b A) (KeepsE.refl g a b A) (fun _ _ _ => KeepsE.trans) h hs

theorem fieldBCs_keepsE {all arrs : List Nat} (hA : A ∈ all) {sE sB : Bool}
    (h : fieldBCs g a b all arrs sE sB m m') : KeepsE g a b A m m' := by
  refine seq_keepsE ?_ h
  intro r hr m m' h
  simp only [List.mem_cons, List.mem_append, List.mem_map, List.not_mem_nil, or_false] at hr
  rcases hr with (rfl | ⟨B, -, rfl⟩) | rfl
  · exact keeps_keepsE hA h
  · exact axisBC_keepsE h
  · exact keeps_keepsE hA h

/-- An array the axis kernel is not applied to. -/
theorem fieldBCs_arr {all arrs : List Nat} (hA : A ∈ all) (hA' : A ∉ arrs) {sE sB : Bool}
    (h : fieldBCs g a b all arrs sE sB m m') : Keeps g a b [A] m m' := by
  refine seq_all (P := Keeps g a b [A]) (fun _ _ _ _ _ _ _ _ _ _ => rfl) ?_ ?_ h
  · intro m m1 m2 h1 h2 B hB c i1 i2 p1 p2 p3 p4
    rw [h2 B hB c i1 i2 p1 p2 p3 p4, h1 B hB c i1 i2 p1 p2 p3 p4]
  · intro r hr m m' h
    simp only [List.mem_cons, List.mem_append, List.mem_map, List.not_mem_nil, or_false] at hr
    rcases hr with (rfl | ⟨B, hB, rfl⟩) | rfl
    · intro C hC; rw [List.mem_singleton] at hC; subst hC; exact h C hA
    · intro C hC c i1 i2 _ _ _ _
      rw [List.mem_singleton] at hC; subst hC
      exact axisBC_arr (A' := C) (A := B) (fun e => hA' (by rw [e]; exact hB)) h _ _
    · intro C hC; rw [List.mem_singleton] at hC; subst hC; exact h C hA

/-- After the axis boundary condition for `B` the azimuthal field is even about the upper axis. -/
theorem axisBC_mirror {sE : Bool} (hg : 0 ≤ g.ng) (hx : g.axisHi = true)
    (h : axisBC g A sE true m m') {i1 : Int} (h1 : g.i1min ≤ i1) (h1' : i1 < g.i1max) :
    m' (fL A .bx3 i1 g.i2max) = m' (fL A .bx3 i1 (g.i2max - 1)) := by
  obtain ⟨m1, -, m2, h2, rfl⟩ := h
  rw [if_pos hx] at h2
  have hin : own1 (fL A .bx3 i1 g.i2max).idx ∈ rangeAll1 g := by
    simp only [own1, fL]; exact (mem_rangeAll1 hg).2 (by simp only [CGrid.i1min, CGrid.i1max] at h1 h1'; omega)
  have hin' : own1 (fL A .bx3 i1 (g.i2max - 1)).idx ∈ rangeAll1 g := hin
  have hne : g.i2max - 1 ≠ g.i2max := by omega
  have hne2 : g.i2max ≠ g.i2max + 1 := by omega
  have hne3 : g.i2max - 1 ≠ g.i2max + 1 := by omega
  rw [launch_own (axis_owned _ true A _ sE true) h2, resultOwn, resultOwn, if_pos hin, if_pos hin']
  cases sE <;> simp [own1, fL, axisBody, runBody, store, f, Em.toNat, hne, hne2, hne3]

theorem fieldBCs_mirror {all : List Nat} {sE : Bool} (hg : 0 ≤ g.ng) (hx : g.axisHi = true) (hn : 0 < g.n2)
    (hA : A ∈ all) (ha : g.i1min ≤ a) (hb : b ≤ g.i1max)
    (h : fieldBCs g a b all [A] sE true m m') {i1 : Int} (h1 : a ≤ i1) (h1' : i1 < b) :
    m' (fL A .bx3 i1 g.i2max) = m' (fL A .bx3 i1 (g.i2max - 1)) := by
  have hlt : g.i2min < g.i2max := by simp [CGrid.i2min, CGrid.i2max, hn]
  obtain ⟨m1, -, m2, h2, m3, h3, rfl⟩ := h
  rw [show m' (fL A .bx3 i1 g.i2max) = m2 (fL A .bx3 i1 g.i2max) from
      h3 A hA _ _ _ h1 h1' hlt.le (.inr ⟨rfl, hx⟩),
    show m' (fL A .bx3 i1 (g.i2max - 1)) = m2 (fL A .bx3 i1 (g.i2max - 1)) from
      h3 A hA _ _ _ h1 h1' (by omega) (.inl (by omega))]
  exact axisBC_mirror hg hx h2 (by omega) (by omega)

end

/-- Factor in front of the current: `-dt q0 n0 / B0 · 1 / n0`. -/
def kappa (p : StepPrm K) : K := -p.dt * p.q0 * p.n0 / p.B0 * (1 / p.n0)

section
variable {M : CMetric K} {g : CGrid} {a b : Int} {p : StepPrm K} {m m' : Mem K}

theorem srFaraday_keepsE {fr : K} (h : srFaraday M g p fr m m') : KeepsE g a b emA m m' := by
  intro c i1 i2 _ _ _ h4
  refine launch_other (faradaySR_local _ M g _) h ?_
  have : c = .ex1 ∨ c = .ex2 := by rcases h4 with h4 | h4; exacts [h4.1, .inl h4.1]
  rcases this with rfl | rfl <;> simp [fL, comps, Em.toNat]

/-- A step of the SR engine: what matters for the electric flux. -/
theorem srStep_split (J : Option (Cc → Int → Int → K)) (ha : g.i1min ≤ a) (hb : b ≤ g.i1max)
    (h : srStep M g p a b J m m') :
    ∃ m1 m2 m3, KeepsE g a b emA m m1 ∧
      (0 ≤ g.ng → 0 < g.n2 → g.axisHi = true → ∀ i1, a ≤ i1 → i1 < b →
        m1 (fL emA .bx3 i1 g.i2max) = m1 (fL emA .bx3 i1 (g.i2max - 1))) ∧
      srAmpere M g p 1 m1 m2 ∧
      (match J with
        | none => m3 = m2
        | some J => srCurrents M g p m2 m3 ∧ ∀ c i1 i2, a ≤ i1 → i1 < b → g.i2min ≤ i2 →
            (i2 < g.i2max ∨ (i2 = g.i2max ∧ g.axisHi = true)) → m2 (jL curA c i1 i2) = J c i1 i2) ∧
      KeepsE g a b emA m3 m' := by
  have hin : emA ∈ [emA, curA] := by simp
  have hin' : curA ∈ [emA, curA] := by simp
  cases J with
  | none =>
    obtain ⟨m1, h1, m2, h2, m3, h3, m4, h4, m5, h5, m6, h6, m7, h7, m8, h8, m9, h9, rfl⟩ := h
    refine ⟨m6, m7, m7, ?_, ?_, h7, rfl, ?_⟩
    · exact (srFaraday_keepsE h1).trans ((keeps_keepsE hin h2).trans ((fieldBCs_keepsE hin h3).trans
        ((srFaraday_keepsE h4).trans ((keeps_keepsE hin h5).trans (fieldBCs_keepsE hin h6)))))
    · intro hg hn hx i1 q1 q2
      exact fieldBCs_mirror hg hx hn hin ha hb h6 q1 q2
    · exact (keeps_keepsE hin h8).trans (fieldBCs_keepsE hin h9)
  | some J =>
    obtain ⟨m1, h1, m2, h2, m3, h3, md, hd, m4, h4, m5, h5, m6, h6, m7, h7, mc, hc, m8, h8, m9, h9, rfl⟩ := h
    refine ⟨m6, m7, mc, ?_, ?_, h7, ⟨hc, ?_⟩, ?_⟩
    · have hdep : KeepsE g a b emA m3 md := fun c i1 i2 _ _ _ _ => hd.2 emA (by simp) _ _
      exact (srFaraday_keepsE h1).trans ((keeps_keepsE hin h2).trans ((fieldBCs_keepsE hin h3).trans
        (hdep.trans ((srFaraday_keepsE h4).trans ((keeps_keepsE hin h5).trans (fieldBCs_keepsE hin h6))))))
    · intro hg hn hx i1 q1 q2
      exact fieldBCs_mirror hg hx hn hin ha hb h6 q1 q2
    · intro c i1 i2 q1 q2 q3 q4
      rw [launch_other (ampereSR_local _ M g _) h7 (by simp [jL, comps, curA, emA]),
        show m6 (jL curA c i1 i2) = m5 (jL curA c i1 i2) from
          fieldBCs_arr hin' (by decide) h6 curA (by simp) _ _ _ q1 q2 q3 q4,
        show m5 (jL curA c i1 i2) = m4 (jL curA c i1 i2) from h5 curA hin' _ _ _ q1 q2 q3 q4,
        launch_other (faradaySR_local _ M g _) h4 (by simp [jL, comps, curA, emA]), hd.1]
    · exact (keeps_keepsE hin h8).trans (fieldBCs_keepsE hin h9)

theorem srStep_divE [CharZero K] (hM : Polar M g) (ha : g.i1min ≤ a) (hb : b ≤ g.i1max)
    (J : Option (Cc → Int → Int → K)) (h : srStep M g p a b J m m') {i1 i2 : Int}
    (hn : Node g a b i1 i2) :
    divE M g emA m' i1 i2 = divE M g emA m i1 i2 + kappa p * divJ (jOf J) i1 i2 := by
  obtain ⟨m1, m2, m3, k1, -, h2, h3, k4⟩ := srStep_split J ha hb h
  obtain ⟨⟨q1, q1'⟩, q2, q2'⟩ := id hn
  rw [k4.divE hn]
  have e2 := ampereSR_divE hM h2 (i1 := i1) (i2 := i2) (by omega) (by omega) q2 q2'
  cases J with
  | none =>
    rw [show m3 = m2 from h3, e2, k1.divE hn]; simp [jOf, divJ]
  | some J =>
    rw [currentsSR_divE hM h3.1 (by omega) (by omega) q2 q2', e2, k1.divE hn]
    simp only [divJ, jOf, Option.getD_some, kappa]
    rw [h3.2 _ _ _ (by omega) (by omega) (by omega) (.inl q2'),
      h3.2 _ (i1 - 1) _ (by omega) (by omega) (by omega) (.inl q2'),
      h3.2 _ _ _ (by omega) (by omega) (by omega) (.inl q2'),
      h3.2 _ i1 (i2 - 1) (by omega) (by omega) (by omega) (.inl (by omega))]

theorem srStep_divELo [CharZero K] (hM : Polar M g) (ha : g.i1min ≤ a) (hb : b ≤ g.i1max)
    (hx : g.axisLo = true) (hn : 0 < g.n2)
    (J : Option (Cc → Int → Int → K)) (h : srStep M g p a b J m m') {i1 : Int} (q1 : a < i1) (q1' : i1 < b) :
    divELo M g emA m' i1 = divELo M g emA m i1 + kappa p *
      (1 / 2 * (jOf J .jx1 i1 g.i2min - jOf J .jx1 (i1 - 1) g.i2min) + jOf J .jx2 i1 g.i2min) := by
  have hlt : g.i2min < g.i2max := by simp [CGrid.i2min, CGrid.i2max, hn]
  obtain ⟨m1, m2, m3, k1, -, h2, h3, k4⟩ := srStep_split J ha hb h
  rw [k4.divELo hn q1 q1']
  have e2 := ampereSR_divELo hM hx hn h2 (i1 := i1) (by omega) (by omega)
  cases J with
  | none => rw [show m3 = m2 from h3, e2, k1.divELo hn q1 q1']; simp [jOf]
  | some J =>
    rw [currentsSR_divELo hM hx hn h3.1 (by omega) (by omega), e2, k1.divELo hn q1 q1']
    simp only [jOf, Option.getD_some, kappa]
    rw [h3.2 _ _ _ (by omega) (by omega) le_rfl (.inl hlt),
      h3.2 _ (i1 - 1) _ (by omega) (by omega) le_rfl (.inl hlt),
      h3.2 _ _ _ (by omega) (by omega) le_rfl (.inl hlt)]

theorem srStep_divEHi [CharZero K] (hM : Polar M g) (ha : g.i1min ≤ a) (hb : b ≤ g.i1max)
    (hg : 0 ≤ g.ng) (hx : g.axisHi = true) (hn : 0 < g.n2)
    (J : Option (Cc → Int → Int → K)) (h : srStep M g p a b J m m') {i1 : Int} (q1 : a < i1) (q1' : i1 < b) :
    divEHi M g emA m' i1 = divEHi M g emA m i1 + kappa p *
      (1 / 2 * (jOf J .jx1 i1 g.i2max - jOf J .jx1 (i1 - 1) g.i2max) - jOf J .jx2 i1 (g.i2max - 1)) := by
  have hlt : g.i2min < g.i2max := by simp [CGrid.i2min, CGrid.i2max, hn]
  obtain ⟨m1, m2, m3, k1, hmir, h2, h3, k4⟩ := srStep_split J ha hb h
  rw [k4.divEHi hn hx q1 q1']
  have e2 := ampereSR_divEHi hM hx hn h2 (i1 := i1) (by omega) (by omega)
    (hmir hg hn hx _ (by omega) q1') (hmir hg hn hx _ (by omega) (by omega))
  cases J with
  | none => rw [show m3 = m2 from h3, e2, k1.divEHi hn hx q1 q1']; simp [jOf]
  | some J =>
    rw [currentsSR_divEHi hM hx hn h3.1 (by omega) (by omega), e2, k1.divEHi hn hx q1 q1']
    simp only [jOf, Option.getD_some, kappa]
    rw [h3.2 _ _ _ (by omega) (by omega) hlt.le (.inr ⟨rfl, hx⟩),
      h3.2 _ (i1 - 1) _ (by omega) (by omega) hlt.le (.inr ⟨rfl, hx⟩),
      h3.2 _ i1 (g.i2max - 1) (by omega) (by omega) (by omega) (.inl (by omega))]

/-- A quantity that each step changes by a known amount. -/
theorem seq_sum {σ : Type} {step : σ → Rel K} {q : Mem K → K} {d : σ → K}
    (h : ∀ s m m', step s m m' → q m' = q m + d s) (ss : List σ) {m m' : Mem K}
    (hs : Seq (ss.map step) m m') : q m' = q m + (ss.map d).sum := by
  induction ss generalizing m with
  | nil => simp only [List.map_nil, seq_nil] at hs; subst hs; simp
  | cons s ss ih =>
    obtain ⟨m1, h1, h2⟩ := hs
    rw [ih h2, h s _ _ h1, List.map_cons, List.sum_cons]; ring

end

end Entity.Curvi
