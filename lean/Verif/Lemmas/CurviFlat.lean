import Verif.Lemmas.CurviGaussGR

/-!
# The GR solver without shift and without cross term
-/

namespace Entity.Curvi

open Entity.Kernel Entity.FieldSolver

variable {K : Type} [Field K]

/-- No shift, no `13` component. -/
def Diagonal (M : CMetric K) : Prop := ∀ x y, M.h13 x y = 0 ∧ M.beta1 x y = 0

section
variable {M : CMetric K} {g : CGrid} {a b : Int} {p : StepPrm K} {m m' : Mem K} {A : Nat}
  {cells : List (List Int)}

theorem auxE_flat (hM : Diagonal M) {df bf : Nat} (hd : df ≠ auxA) (hb : bf ≠ auxA)
    (h : Launch cells (auxE M g df bf) m m') {i1 i2 : Int} (hc : [i1, i2] ∈ cells) :
    m' (fL auxA .ex1 i1 i2) = M.alpha (coord g i1 + 1 / 2) (coord g i2) *
        (M.h11 (coord g i1 + 1 / 2) (coord g i2) * m (fL df .ex1 i1 i2)) ∧
    m' (fL auxA .ex2 i1 i2) = M.alpha (coord g i1) (coord g i2 + 1 / 2) *
        (M.h22 (coord g i1) (coord g i2 + 1 / 2) * m (fL df .ex2 i1 i2)) ∧
    m' (fL auxA .ex3 i1 i2) = M.alpha (coord g i1) (coord g i2) *
        (M.h33 (coord g i1) (coord g i2) * m (fL df .ex3 i1 i2)) := by
  have h13 : ∀ x y, M.h13 x y = 0 := fun x y => (hM x y).1
  have hb1 : ∀ x y, M.beta1 x y = 0 := fun x y => (hM x y).2
  refine ⟨?_, ?_, ?_⟩
  · rw [launch_at (auxE_local _ M g hd hb) h (l := fL auxA .ex1 i1 i2) hc]
    simp [fL, auxE, runBody, store, f, wavg, Em.toNat, half, h13, hb1, hd, hb]
  · rw [launch_at (auxE_local _ M g hd hb) h (l := fL auxA .ex2 i1 i2) hc]
    simp [fL, auxE, runBody, store, f, wavg, Em.toNat, half, h13, hb1, hd, hb]
  · rw [launch_at (auxE_local _ M g hd hb) h (l := fL auxA .ex3 i1 i2) hc]
    simp [fL, auxE, runBody, store, f, wavg, Em.toNat, half, h13, hb1, hd, hb]

theorem auxH_flat (hM : Diagonal M) {df bf : Nat} (hd : df ≠ auxA) (hb : bf ≠ auxA)
    (h : Launch cells (auxH M g df bf) m m') {i1 i2 : Int} (hc : [i1, i2] ∈ cells) :
    m' (fL auxA .bx1 i1 i2) = M.alpha (coord g i1) (coord g i2 + 1 / 2) *
        (M.h11 (coord g i1) (coord g i2 + 1 / 2) * m (fL bf .bx1 i1 i2)) ∧
    m' (fL auxA .bx2 i1 i2) = M.alpha (coord g i1 + 1 / 2) (coord g i2) *
        (M.h22 (coord g i1 + 1 / 2) (coord g i2) * m (fL bf .bx2 i1 i2)) ∧
    m' (fL auxA .bx3 i1 i2) = M.alpha (coord g i1 + 1 / 2) (coord g i2 + 1 / 2) *
        (M.h33 (coord g i1 + 1 / 2) (coord g i2 + 1 / 2) * m (fL bf .bx3 i1 i2)) := by
  have h13 : ∀ x y, M.h13 x y = 0 := fun x y => (hM x y).1
  have hb1 : ∀ x y, M.beta1 x y = 0 := fun x y => (hM x y).2
  refine ⟨?_, ?_, ?_⟩
  · rw [launch_at (auxH_local _ M g hd hb) h (l := fL auxA .bx1 i1 i2) hc]
    simp [fL, auxH, runBody, store, f, wavg, Em.toNat, half, h13, hb1, hd, hb]
  · rw [launch_at (auxH_local _ M g hd hb) h (l := fL auxA .bx2 i1 i2) hc]
    simp [fL, auxH, runBody, store, f, wavg, Em.toNat, half, h13, hb1, hd, hb]
  · rw [launch_at (auxH_local _ M g hd hb) h (l := fL auxA .bx3 i1 i2) hc]
    simp [fL, auxH, runBody, store, f, wavg, Em.toNat, half, h13, hb1, hd, hb]

theorem faradayGR_bx3 {bin bout e : Nat} (he : e ≠ bout) {coeff : K}
    (h : Launch cells (faradayGR M g bin bout e coeff) m m') {i1 i2 : Int} (hc : [i1, i2] ∈ cells) :
    m' (fL bout .bx3 i1 i2) = m (fL bin .bx3 i1 i2) +
      coeff * (1 / M.sqrtDet (coord g i1 + 1 / 2) (coord g i2 + 1 / 2)) *
        (m (fL e .ex1 i1 (i2 + 1)) - m (fL e .ex1 i1 i2) + m (fL e .ex2 i1 i2)
          - m (fL e .ex2 (i1 + 1) i2)) := by
  rw [launch_at (faradayGR_local _ M g he coeff) h (l := fL bout .bx3 i1 i2) hc]
  simp only [fL, faradayGR, List.cons_append, List.nil_append]
  split <;> simp [runBody, store, f, fL, Em.toNat, half, he]

/-- The azimuthal magnetic field of array `A` is the same in the followed active cells. -/
def KeepsB3 (g : CGrid) (a b : Int) (A : Nat) (m m' : Mem K) : Prop :=
  ∀ i1 i2, a ≤ i1 → i1 < b → g.i2min ≤ i2 → i2 < g.i2max → m' (fL A .bx3 i1 i2) = m (fL A .bx3 i1 i2)

theorem axisBC_keepsB3 {A' : Nat} {sE sB : Bool} (h : axisBC g A' sE sB m m') : KeepsB3 g a b A m m' := by
  intro i1 i2 h1 h2 h3 h4
  by_cases hA : A = A'
  · subst hA
    apply axisBC_other h
    · intro hx k x hm e
      obtain ⟨c', k', hd, h', -⟩ := axis_dst hm
      rw [hd] at e
      simp only [fL, Loc.mk.injEq, List.cons.injEq, and_true, true_and] at e
      obtain ⟨e1, -, e2⟩ := e
      rw [Em.toNat_inj] at e1
      subst e1
      rcases h' rfl with hk | ⟨hk, hk'⟩
      · omega
      · simp at hk'
    · intro hx k x hm e
      obtain ⟨c', k', hd, -, h', -⟩ := axis_dst hm
      rw [hd] at e
      simp only [fL, Loc.mk.injEq, List.cons.injEq, and_true, true_and] at e
      obtain ⟨e1, -, e2⟩ := e
      have h5 := h' rfl
      omega
  · exact axisBC_arr hA h _ _

theorem grBCs_keepsB3 (hA : A ∈ grArrs) {sE sB : Bool} (h : grBCs g a b sE sB m m') :
    KeepsB3 g a b A m m' := by
  obtain ⟨m1, h1, m2, h2, rfl⟩ := h
  obtain ⟨m3, h3, m4, h4, m5, h5, m6, h6, rfl⟩ := h2
  intro i1 i2 q1 q2 q3 q4
  rw [show m' (fL A .bx3 i1 i2) = m5 (fL A .bx3 i1 i2) from h6 A hA _ _ _ q1 q2 q3 (.inl q4),
    axisBC_keepsB3 h5 i1 i2 q1 q2 q3 q4, axisBC_keepsB3 h4 i1 i2 q1 q2 q3 q4,
    show m3 (fL A .bx3 i1 i2) = m1 (fL A .bx3 i1 i2) from h3 A hA _ _ _ q1 q2 q3 (.inl q4)]
  exact h1 A hA _ _ _ q1 q2 q3 (.inl q4)

theorem mem_rangeAxisGR {i1 i2 : Int} (h1 : g.i1min - 1 ≤ i1) (h1' : i1 < g.i1max) (h2 : g.i2min ≤ i2)
    (h2' : i2 < g.i2max ∨ i2 = g.i2max ∧ g.axisHi = true) : [i1, i2] ∈ rangeAxisGR g := by
  unfold rangeAxisGR
  split
  · rw [mem_box]; omega
  · rename_i hx
    rw [mem_box]
    rcases h2' with h | h
    · omega
    · exact absurd h.2 hx

/-- Electrostatic equilibrium next to the lower axis (no magnetic field, covariant `E1` the same in the
first two rows, no `E2`) in a metric without shift and cross term: a vacuum step changes nothing but the
radial field on the axis, which is overwritten by that of the next row. -/
theorem grMain_static (hD : Diagonal M) (hM : Polar M g) (ha : g.i1min ≤ a) (hb : b ≤ g.i1max)
    (hx : g.axisLo = true) (hn : 1 < g.n2) (h : grMain M g p a b none m m') {i1 : Int}
    (q1 : a < i1) (q2 : i1 + 1 < b)
    (hB : ∀ k, i1 - 1 ≤ k → k ≤ i1 → m (fL emA .bx3 k g.i2min) = 0)
    (hE2 : ∀ k, i1 - 1 ≤ k → k ≤ i1 + 1 → m (fL emA .ex2 k g.i2min) = 0)
    (hE1 : ∀ k, i1 - 1 ≤ k → k ≤ i1 →
      M.alpha (coord g k + 1 / 2) 1 * (M.h11 (coord g k + 1 / 2) 1 * m (fL emA .ex1 k (g.i2min + 1))) =
      M.alpha (coord g k + 1 / 2) 0 * (M.h11 (coord g k + 1 / 2) 0 * m (fL emA .ex1 k g.i2min))) :
    (∀ k, i1 - 1 ≤ k → k ≤ i1 → m' (fL emA .ex1 k g.i2min) = m (fL emA .ex1 k (g.i2min + 1))) ∧
    m' (fL emA .ex2 i1 g.i2min) = 0 := by
  have hlt : g.i2min + 1 < g.i2max := by simp [CGrid.i2min, CGrid.i2max]; omega
  refine ⟨?_, ?_⟩
  · intro k k1 k2
    rw [grMain_axis ha hb hx hn none h (by omega) (by omega)]; simp [jOf]
  have hin : emA ∈ grArrs := by simp [grArrs]
  have hin0 : em0A ∈ grArrs := by simp [grArrs]
  have hina : auxA ∈ grArrs := by simp [grArrs]
  obtain ⟨m1, h1, m2, h2, m3, h3, m4, h4, m5, h5, m6, h6, m7, h7, m8, h8, m9, h9, m10, h10, m11, h11,
      m12, h12, m13, h13, m14, h14, m15, h15, m16, h16, m17, h17, m18, h18, rfl⟩ := h
  have kE : KeepsE g a b emA m m7 := by
    refine (keepsE_of_eq fun c i1 i2 => grTimeAvgDB_arr (by decide) h1 _ _).trans ?_
    refine (keepsE_of_eq fun c i1 i2 => grAuxE_arr (by decide) h2 _ _).trans ?_
    refine (grComm_keepsE hin h3).trans ?_
    refine (grFaraday_keepsE h4).trans ?_
    refine (grBCs_keepsE hin h5).trans ?_
    refine (keepsE_of_eq fun c i1 i2 => grAuxH_arr (by decide) h6 _ _).trans ?_
    exact grComm_keepsE hin h7
  have kE9 : KeepsE g a b emA m m15 := by
    refine kE.trans ?_
    refine (keepsE_of_eq fun c i1 i2 => grAuxE_arr (by decide) h8 _ _).trans ?_
    refine (grComm_keepsE hin h9).trans ?_
    refine (grFaraday_keepsE h10).trans ?_
    refine (grBCs_keepsE hin h11).trans ?_
    refine (keepsE_of_eq fun c i1 i2 => grAmpere_arr (by decide) (by simp) h12 _ _).trans ?_
    refine (grBCs_keepsE hin h13).trans ?_
    refine (keepsE_of_eq fun c i1 i2 => grAuxH_arr (by decide) h14 _ _).trans ?_
    exact grComm_keepsE hin h15
  have hB9 : ∀ k, i1 - 1 ≤ k → k ≤ i1 → m9 (fL emA .bx3 k g.i2min) = 0 := by
    intro k k1 k2
    have c1 : a ≤ k := by omega
    have c2 : k < b := by omega
    rw [show m9 (fL emA .bx3 k g.i2min) = m8 (fL emA .bx3 k g.i2min) from
        h9 emA hin _ _ _ c1 c2 le_rfl (.inl (by omega)),
      show m8 (fL emA .bx3 k g.i2min) = m7 (fL emA .bx3 k g.i2min) from grAuxE_arr (by decide) h8 _ _,
      show m7 (fL emA .bx3 k g.i2min) = m6 (fL emA .bx3 k g.i2min) from
        h7 emA hin _ _ _ c1 c2 le_rfl (.inl (by omega)),
      show m6 (fL emA .bx3 k g.i2min) = m5 (fL emA .bx3 k g.i2min) from grAuxH_arr (by decide) h6 _ _,
      grBCs_keepsB3 hin h5 k _ c1 c2 le_rfl (by omega),
      show m4 (fL emA .bx3 k g.i2min) = m3 (fL emA .bx3 k g.i2min) from grFaraday_arr (by decide) h4 _ _,
      show m3 (fL emA .bx3 k g.i2min) = m2 (fL emA .bx3 k g.i2min) from
        h3 emA hin _ _ _ c1 c2 le_rfl (.inl (by omega)),
      show m2 (fL emA .bx3 k g.i2min) = m1 (fL emA .bx3 k g.i2min) from grAuxE_arr (by decide) h2 _ _,
      show m1 (fL emA .bx3 k g.i2min) = m (fL emA .bx3 k g.i2min) from grTimeAvgDB_arr (by decide) h1 _ _]
    exact hB k k1 k2
  have hEx2 : ∀ k, i1 - 1 ≤ k → k ≤ i1 + 1 → m9 (fL auxA .ex2 k g.i2min) = 0 := by
    intro k k1 k2
    rw [show m9 (fL auxA .ex2 k g.i2min) = m8 (fL auxA .ex2 k g.i2min) from
        h9 auxA hina _ _ _ (by omega) (by omega) le_rfl (.inl (by omega)),
      (auxE_flat hD (df := emA) (bf := em0A) (by decide) (by decide) h8
        (mem_rangeAxisGR (by omega) (by omega) le_rfl (.inl (by omega)))).2.1,
      kE .ex2 k _ (by omega) (by omega) le_rfl (.inl ⟨.inr rfl, by omega⟩), hE2 k k1 k2]
    ring
  have hEx1 : ∀ k, i1 - 1 ≤ k → k ≤ i1 →
      m9 (fL auxA .ex1 k (g.i2min + 1)) = m9 (fL auxA .ex1 k g.i2min) := by
    intro k k1 k2
    rw [show m9 (fL auxA .ex1 k (g.i2min + 1)) = m8 (fL auxA .ex1 k (g.i2min + 1)) from
        h9 auxA hina _ _ _ (by omega) (by omega) (by omega) (.inl (by omega)),
      show m9 (fL auxA .ex1 k g.i2min) = m8 (fL auxA .ex1 k g.i2min) from
        h9 auxA hina _ _ _ (by omega) (by omega) le_rfl (.inl (by omega)),
      (auxE_flat hD (df := emA) (bf := em0A) (by decide) (by decide) h8
        (mem_rangeAxisGR (by omega) (by omega) (by omega) (.inl (by omega)))).1,
      (auxE_flat hD (df := emA) (bf := em0A) (by decide) (by decide) h8
        (mem_rangeAxisGR (by omega) (by omega) le_rfl (.inl (by omega)))).1,
      kE .ex1 k _ (by omega) (by omega) le_rfl (.inl ⟨.inl rfl, by omega⟩),
      kE .ex1 k (g.i2min + 1) (by omega) (by omega) (by omega) (.inl ⟨.inl rfl, by omega⟩),
      coord_succ, coord_i2min, zero_add]
    exact hE1 k k1 k2
  have hB14 : ∀ k, i1 - 1 ≤ k → k ≤ i1 → m15 (fL auxA .bx3 k g.i2min) = 0 := by
    intro k k1 k2
    have c1 : a ≤ k := by omega
    have c2 : k < b := by omega
    rw [show m15 (fL auxA .bx3 k g.i2min) = m14 (fL auxA .bx3 k g.i2min) from
        h15 auxA hina _ _ _ c1 c2 le_rfl (.inl (by omega)),
      (auxH_flat hD (df := em0A) (bf := em0A) (by decide) (by decide) h14
        (mem_rangeAxisGR (by omega) (by omega) le_rfl (.inl (by omega)))).2.2,
      grBCs_keepsB3 hin0 h13 k _ c1 c2 le_rfl (by omega),
      show m12 (fL em0A .bx3 k g.i2min) = m11 (fL em0A .bx3 k g.i2min) from
        (launch_on (ampereGR_on _ M g (din := em0A) (dout := em0A) (h := auxA) (by decide) _) h12).2 _
          (.inr (by simp [fL, comps, Em.toNat])),
      grBCs_keepsB3 hin0 h11 k _ c1 c2 le_rfl (by omega),
      faradayGR_bx3 (bin := emA) (e := auxA) (by decide) h10 (mem_active.2 ⟨by omega, by omega⟩),
      hB9 k k1 k2, hEx1 k k1 k2, hEx2 k k1 (by omega), hEx2 (k + 1) (by omega) (by omega)]
    ring
  have hs := hM.face1 i1 g.i2min le_rfl (by omega)
  have e16 := ampereGR_flux2 (din := emA) (dout := em0A) (hA := auxA) (by decide) h16 (i1 := i1)
    (i2 := g.i2min) (mem_rangeAmpereGR.2 ⟨by omega, by omega⟩) (.inr ⟨by decide, rfl, hx⟩) hs
  rw [hB14 _ (by omega) (by omega), hB14 _ (by omega) le_rfl,
    kE9 .ex2 i1 _ (by omega) (by omega) le_rfl (.inl ⟨.inr rfl, by omega⟩), hE2 i1 (by omega) (by omega),
    sub_zero, mul_zero, mul_zero, add_zero] at e16
  rw [grBCs_keepsE hin h18 .ex2 i1 g.i2min (by omega) (by omega) le_rfl (.inl ⟨.inr rfl, by omega⟩),
    show m17 (fL emA .ex2 i1 g.i2min) = m16 (fL em0A .ex2 i1 g.i2min) from h17 _]
  exact (mul_eq_zero.1 e16).resolve_left hs

end

end Entity.Curvi
