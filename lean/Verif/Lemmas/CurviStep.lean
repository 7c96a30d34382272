import Verif.Lemmas.CurviFar
import Verif.Lemmas.KernelGood

/-!
# Magnetic flux: whole steps
-/

namespace Entity.Curvi

open Entity.Kernel Entity.FieldSolver

variable {K : Type} [Field K]

theorem Polar.lo' {M : CMetric K} {g : CGrid} (hM : Polar M g) (hx : g.axisLo = true) (x : K) :
    M.sqrtDet x (coord g g.i2min) = 0 ∧ M.h33 x (coord g g.i2min) = 0 ∧
      M.h13 x (coord g g.i2min) = 0 := by
  rw [coord_i2min]; exact hM.lo hx x

theorem Polar.hi' {M : CMetric K} {g : CGrid} (hM : Polar M g) (hx : g.axisHi = true) (x : K) :
    M.sqrtDet x (coord g g.i2max) = 0 ∧ M.h33 x (coord g g.i2max) = 0 ∧
      M.h13 x (coord g g.i2max) = 0 := by
  rw [coord_i2max]; exact hM.hi hx x

/-! ## Special relativity -/

/-- One step of the SR engine leaves the flux alone. -/
theorem srStep_sameB {M : CMetric K} {g : CGrid} (hM : Polar M g) {p : StepPrm K} {a b : Int}
    (ha : g.i1min ≤ a) (hb : b ≤ g.i1max) (J : Option (Cc → Int → Int → K)) {m m' : Mem K}
    (h : srStep M g p a b J m m') : SameB M g a b emA m m' := by
  refine seq_all (P := SameB M g a b emA) (fun _ _ _ _ => rfl) (fun _ _ _ => SameB.trans) ?_ h
  have hfar : ∀ fr m m', srFaraday M g p fr m m' → SameB M g a b emA m m' := by
    intro fr m m' h i1 i2 hc
    obtain ⟨⟨h1, h1'⟩, h2, h2', hup⟩ := hc
    exact faradaySR_divB hM h (by omega) (by omega) h2 h2' hup
  have hbc : ∀ sE sB m m', fieldBCs g a b [emA, curA] [emA] sE sB m m' → SameB M g a b emA m m' :=
    fun _ _ _ _ h => fieldBCs_sameB hM (by simp) h
  have hk : ∀ m m', Keeps g a b [emA, curA] m m' → SameB M g a b emA m m' :=
    fun _ _ h => keeps_sameB hM (by simp) h
  have hamp : ∀ m m', srAmpere M g p 1 m m' → SameB M g a b emA m m' := by
    intro m m' h
    refine SameB.of_eq hM (fun c i1 i2 hc => launch_other (ampereSR_local _ M g _) h ?_)
    rcases hc with rfl | rfl <;> simp [fL, comps, Em.toNat]
  have hcur : ∀ m m', srCurrents M g p m m' → SameB M g a b emA m m' := by
    intro m m' h
    refine SameB.of_eq hM (fun c i1 i2 hc => launch_other (currentsSR_local _ M g _ _) h ?_)
    rcases hc with rfl | rfl <;> simp [fL, comps, Em.toNat, emA, curA]
  have hdep : ∀ J m m', Deposited curA [emA] J m m' → SameB M g a b emA m m' :=
    fun J m m' h => SameB.of_eq hM (fun c i1 i2 _ => h.2 emA (by simp) _ _)
  intro r hr
  cases J <;>
    simp only [List.mem_append, List.mem_cons, List.not_mem_nil, or_false, or_assoc] at hr
  · rcases hr with rfl | rfl | rfl | rfl | rfl | rfl | rfl | rfl | rfl
    exacts [hfar _, hk, hbc _ _, hfar _, hk, hbc _ _, hamp, hk, hbc _ _]
  · rcases hr with rfl | rfl | rfl | rfl | rfl | rfl | rfl | rfl | rfl | rfl | rfl
    exacts [hfar _, hk, hbc _ _, hdep _, hfar _, hk, hbc _ _, hamp, hcur, hk, hbc _ _]

/-! ## General relativity -/

/-- `gr::Ampere` writes nothing but the `D` part of its output array (whatever its schedule). -/
theorem ampereGR_on {K : Type} [Add K] [Sub K] [Mul K] [Div K] [Neg K] [Zero K] [One K] [NatCast K] [IntCast K]
    (cells : List (List Int)) (M : CMetric K) (g : CGrid) {din dout h : Nat}
    (hh : h ≠ dout) (coeff : K) :
    LocalOn (fun t => din ≠ dout ∨ ∃ i1 i2, t = [i1, i2] ∧ ¬ (i2 = g.i2min ∧ g.axisLo = true) ∧
      ¬ (i2 = g.i2max ∧ g.axisHi = true)) cells (comps dout 0 3) (ampereGR M g din dout h coeff) := by
  rintro t - a ha
  rcases t with _ | ⟨i1, _ | ⟨i2, _ | ⟨_, _⟩⟩⟩ <;> simp only [ampereGR, List.not_mem_nil] at ha
  split at ha
  · rename_i hx
    simp only [List.mem_cons, List.not_mem_nil, or_false] at ha
    rcases ha with rfl | rfl
    · refine ⟨by simp [fL, comps, Em.toNat], ?_⟩
      rintro (hd | ⟨k1, k2, hk, hn, -⟩)
      · simp [f, fL, comps, hd]
      · simp only [List.cons.injEq, and_true] at hk
        obtain ⟨rfl, rfl⟩ := hk
        exact absurd hx hn
    · simp [f, fL, comps, Em.toNat, hh]
  · split at ha
    · rename_i hx
      simp only [List.mem_cons, List.not_mem_nil, or_false] at ha
      subst ha
      refine ⟨by simp [fL, comps, Em.toNat], ?_⟩
      rintro (hd | ⟨k1, k2, hk, -, hn⟩)
      · simp [f, fL, comps, hd]
      · simp only [List.cons.injEq, and_true] at hk
        obtain ⟨rfl, rfl⟩ := hk
        exact absurd hx hn
    · simp only [List.mem_cons, List.not_mem_nil, or_false] at ha
      rcases ha with rfl | rfl | rfl <;> simp [f, fL, comps, Em.toNat, hh]

section
variable {M : CMetric K} {g : CGrid} {a b : Int} {p : StepPrm K}

/-- The arrays of the GR engine. -/
def grArrs : List Nat := [emA, em0A, auxA, curA, cur0A]

theorem grBCs_sameB (hM : Polar M g) {A : Nat} (hA : A ∈ grArrs) {sE sB : Bool} {m m' : Mem K}
    (h : grBCs g a b sE sB m m') : SameB M g a b A m m' := by
  obtain ⟨m1, h1, m2, h2, rfl⟩ := h
  exact (keeps_sameB hM hA h1).trans (fieldBCs_sameB hM hA h2)

theorem grAuxE_sameB (hM : Polar M g) {k : GetE} {A : Nat} (hA : A ≠ auxA) {m m' : Mem K}
    (h : grAuxE M g k m m') : SameB M g a b A m m' := by
  refine SameB.of_eq hM (fun c i1 i2 _ => ?_)
  cases k
  · exact launch_other (auxE_local _ M g (df := em0A) (bf := emA) (by decide) (by decide)) h
      (by simp [fL, comps, hA])
  · exact launch_other (auxE_local _ M g (df := emA) (bf := em0A) (by decide) (by decide)) h
      (by simp [fL, comps, hA])

theorem grAuxH_sameB (hM : Polar M g) {k : GetH} {A : Nat} (hA : A ≠ auxA) {m m' : Mem K}
    (h : grAuxH M g k m m') : SameB M g a b A m m' := by
  refine SameB.of_eq hM (fun c i1 i2 _ => ?_)
  cases k
  · exact launch_other (auxH_local _ M g (df := emA) (bf := em0A) (by decide) (by decide)) h
      (by simp [fL, comps, hA])
  · exact launch_other (auxH_local _ M g (df := em0A) (bf := em0A) (by decide) (by decide)) h
      (by simp [fL, comps, hA])

theorem grAmpere_sameB (hM : Polar M g) {fr : K} {k : GrAmpere} {A : Nat} {m m' : Mem K}
    (h : grAmpere M g p fr k m m') : SameB M g a b A m m' := by
  refine SameB.of_eq hM (fun c i1 i2 hc => ?_)
  have hw : ∀ dout, comps dout 0 3 (fL A c i1 i2).arr (fL A c i1 i2).comp = false := by
    intro dout; rcases hc with rfl | rfl <;> simp [fL, comps, Em.toNat]
  cases k
  · exact (launch_on (ampereGR_on _ M g (din := emA) (dout := emA) (h := auxA) (by decide) _) h).2 _
      (.inr (hw _))
  · exact (launch_on (ampereGR_on _ M g (din := em0A) (dout := em0A) (h := auxA) (by decide) _) h).2 _
      (.inr (hw _))
  · exact (launch_on (ampereGR_on _ M g (din := emA) (dout := em0A) (h := auxA) (by decide) _) h).2 _
      (.inr (hw _))

theorem grCurrents_sameB (hM : Polar M g) {jA : Nat} (hj : jA ≠ em0A) {A : Nat} {m m' : Mem K}
    (h : grCurrents M g p jA m m') : SameB M g a b A m m' := by
  refine SameB.of_eq hM (fun c i1 i2 hc => launch_other (currentsGR_local _ M g hj _) h ?_)
  rcases hc with rfl | rfl <;> simp [fL, comps, Em.toNat]

theorem grFaraday_sameB (hM : Polar M g) {fr : K} {k : GrFaraday} {m m' : Mem K}
    (h : grFaraday M g p fr k m m') : SameB M g a b emA m m' := by
  refine SameB.of_eq hM (fun c i1 i2 _ => ?_)
  cases k
  · exact launch_other (faradayGR_local _ M g (bin := em0A) (bout := em0A) (e := auxA) (by decide) _) h
      (by simp [fL, comps, emA, em0A])
  · exact launch_other (faradayGR_local _ M g (bin := emA) (bout := em0A) (e := auxA) (by decide) _) h
      (by simp [fL, comps, emA, em0A])

theorem grSwap_divB {m m' : Mem K} (h : grSwap m m') (i1 i2 : Int) :
    divB M g emA m' i1 i2 = divB M g em0A m i1 i2 := by
  have e : ∀ c i1 i2, m' (fL emA c i1 i2) = m (fL em0A c i1 i2) := fun c i1 i2 => by
    rw [h]; rfl
  simp only [divB, e]

/-- The three pieces that produce the new magnetic field. -/
theorem grNewB (hM : Polar M g) (ha : g.i1min ≤ a) (hb : b ≤ g.i1max) {k : GetE} {m m' : Mem K}
    (h : Seq [grAuxE M g k, grCommAux g a b, grFaraday M g p 1 .main] m m') {i1 i2 : Int}
    (hc : Cell g a b i1 i2) : divB M g em0A m' i1 i2 = divB M g emA m i1 i2 := by
  obtain ⟨m1, h1, m2, h2, m3, h3, rfl⟩ := h
  rw [← grAuxE_sameB hM (A := emA) (by decide) h1 i1 i2 hc,
    ← keeps_sameB hM (A := emA) (by simp) h2 i1 i2 hc]
  obtain ⟨⟨c1, c1'⟩, c2, c2', cup⟩ := hc
  have hz : ∀ i row, a ≤ i → i < b → g.i2min ≤ row → (row < g.i2max ∨ row = g.i2max ∧ g.axisHi = true) →
      (∀ x, M.sqrtDet x (coord g row) = 0 ∧ M.h33 x (coord g row) = 0 ∧ M.h13 x (coord g row) = 0) →
      m2 (fL auxA .ex3 i row) = 0 := by
    intro i row r1 r2 r3 r4 hz
    have hin : [i, row] ∈ rangeAxisGR g := by
      unfold rangeAxisGR
      split
      · rw [mem_box]; rcases r4 with r4 | r4 <;> omega
      · rename_i hx
        rw [mem_box]
        rcases r4 with r4 | r4
        · omega
        · exact absurd r4.2 hx
    rw [show m2 (fL auxA .ex3 i row) = m1 (fL auxA .ex3 i row) from
      h2 auxA (by simp) _ _ _ r1 r2 r3 r4]
    cases k
    · exact auxE_axis (df := em0A) (bf := emA) (by decide) (by decide) h1 hin hz
    · exact auxE_axis (df := emA) (bf := em0A) (by decide) (by decide) h1 hin hz
  have hn : g.i2min ≤ g.i2max := by simp [CGrid.i2min, CGrid.i2max]
  exact faradayGR_divB hM (e := auxA) (by decide) h3 (by omega) (by omega) c2 c2' cup
    (fun hx => ⟨hz _ _ (by omega) (by omega) le_rfl (.inl (by omega)) (hM.lo' hx),
      hz _ _ (by omega) (by omega) le_rfl (.inl (by omega)) (hM.lo' hx)⟩)
    (fun hx => ⟨hz _ _ (by omega) (by omega) hn (.inr ⟨rfl, hx⟩) (hM.hi' hx),
      hz _ _ (by omega) (by omega) hn (.inr ⟨rfl, hx⟩) (hM.hi' hx)⟩)

theorem seq_sameB {A : Nat} {rs : List (Rel K)}
    (h : ∀ r ∈ rs, ∀ m m', r m m' → SameB M g a b A m m') {m m' : Mem K} (hs : Seq rs m m') :
    SameB M g a b A m m' :=
  seq_all (P := SameB M g a b A) (fun _ _ _ _ => rfl) (fun _ _ _ => SameB.trans) h hs

theorem grInit_sameB (hM : Polar M g) (ha : g.i1min ≤ a) (hb : b ≤ g.i1max) {m m' : Mem K}
    (h : grInit M g p a b m m') : SameB M g a b emA m m' := by
  rw [grInit, show ∀ r1 r2 r3 r4 r5 r6 r7 r8 r9 r10 r11 r12 r13 r14 r15 r16 r17 r18 r19 r20 r21 : Rel K,
    [r1, r2, r3, r4, r5, r6, r7, r8, r9, r10, r11, r12, r13, r14, r15, r16, r17, r18, r19, r20, r21] =
    [r1, r2, r3, r4, r5, r6, r7, r8, r9] ++ ([r10, r11, r12, r13] ++
      ([r14, r15, r16, r17, r18, r19, r20] ++ [r21])) from by
      intros; rfl, seq_append, ] at h
  obtain ⟨m1, h1, h⟩ := h
  rw [seq_append] at h
  obtain ⟨m2, h2, h⟩ := h
  rw [seq_append] at h
  obtain ⟨m3, h3, m4, h4, rfl⟩ := h
  have s1 : SameB M g a b emA m m1 := by
    refine seq_sameB ?_ h1
    intro r hr
    simp only [List.mem_cons, List.not_mem_nil, or_false] at hr
    have hbc : ∀ sE sB m m', grBCs g a b sE sB m m' → SameB M g a b emA m m' :=
      fun _ _ _ _ h => grBCs_sameB hM (by simp [grArrs]) h
    rcases hr with rfl | rfl | rfl | rfl | rfl | rfl | rfl | rfl | rfl
    · exact hbc _ _
    · exact fun m m' h => SameB.of_eq hM (fun c i1 i2 _ => by rw [h]; simp [fL, emA, em0A])
    · exact fun m m' h => grAuxE_sameB hM (by decide) h
    · exact fun m m' h => grAuxH_sameB hM (by decide) h
    · exact fun m m' h => keeps_sameB hM (by simp) h
    · exact fun m m' h => grFaraday_sameB hM h
    · exact hbc _ _
    · exact fun m m' h => grAmpere_sameB hM h
    · exact hbc _ _
  obtain ⟨ma, ha1, mb, hb1, mc, hc1, hd1⟩ := h2
  have s3 : SameB M g a b em0A m2 m3 := by
    refine seq_sameB ?_ h3
    intro r hr
    simp only [List.mem_cons, List.not_mem_nil, or_false] at hr
    have hbc : ∀ sE sB m m', grBCs g a b sE sB m m' → SameB M g a b em0A m m' :=
      fun _ _ _ _ h => grBCs_sameB hM (by simp [grArrs]) h
    rcases hr with rfl | rfl | rfl | rfl | rfl | rfl | rfl
    · exact hbc _ _
    · exact fun m m' h => grAmpere_sameB hM h
    · exact hbc _ _
    · exact fun m m' h => grAuxH_sameB hM (by decide) h
    · exact fun m m' h => keeps_sameB hM (by simp) h
    · exact fun m m' h => grAmpere_sameB hM h
    · exact hbc _ _
  intro i1 i2 hc
  rw [grSwap_divB h4, s3 i1 i2 hc]
  -- `ComputeAuxH` between `ComputeAuxE` and the exchange does not touch the covariant electric field
  obtain ⟨md, hd2, hd3⟩ := hd1
  have e0 : divB M g em0A md i1 i2 = divB M g emA mc i1 i2 := by
    obtain ⟨⟨c1, c1'⟩, c2, c2', cup⟩ := hc
    have hz : ∀ i row, a ≤ i → i < b → g.i2min ≤ row →
        (row < g.i2max ∨ row = g.i2max ∧ g.axisHi = true) →
        (∀ x, M.sqrtDet x (coord g row) = 0 ∧ M.h33 x (coord g row) = 0 ∧ M.h13 x (coord g row) = 0) →
        mc (fL auxA .ex3 i row) = 0 := by
      intro i row r1 r2 r3 r4 hz
      have hin : [i, row] ∈ rangeAxisGR g := by
        unfold rangeAxisGR
        split
        · rw [mem_box]; rcases r4 with r4 | r4 <;> omega
        · rename_i hx
          rw [mem_box]
          rcases r4 with r4 | r4
          · omega
          · exact absurd r4.2 hx
      rw [show mc (fL auxA .ex3 i row) = mb (fL auxA .ex3 i row) from
        hc1 auxA (by simp) _ _ _ r1 r2 r3 r4,
        launch_other (auxH_local _ M g (df := emA) (bf := em0A) (by decide) (by decide)) hb1
          (by simp [fL, comps, Em.toNat])]
      exact auxE_axis (df := emA) (bf := em0A) (by decide) (by decide) ha1 hin hz
    have hn : g.i2min ≤ g.i2max := by simp [CGrid.i2min, CGrid.i2max]
    exact faradayGR_divB hM (e := auxA) (by decide) hd2 (by omega) (by omega) c2 c2' cup
      (fun hx => ⟨hz _ _ (by omega) (by omega) le_rfl (.inl (by omega)) (hM.lo' hx),
        hz _ _ (by omega) (by omega) le_rfl (.inl (by omega)) (hM.lo' hx)⟩)
      (fun hx => ⟨hz _ _ (by omega) (by omega) hn (.inr ⟨rfl, hx⟩) (hM.hi' hx),
        hz _ _ (by omega) (by omega) hn (.inr ⟨rfl, hx⟩) (hM.hi' hx)⟩)
  rw [seq_nil.1 hd3, e0, keeps_sameB hM (A := emA) (by simp) hc1 i1 i2 hc,
    grAuxH_sameB hM (A := emA) (by decide) hb1 i1 i2 hc,
    grAuxE_sameB hM (A := emA) (by decide) ha1 i1 i2 hc]
  exact s1 i1 i2 hc

theorem grMain_sameB (hM : Polar M g) (ha : g.i1min ≤ a) (hb : b ≤ g.i1max)
    {J : Option (Cc → Int → Int → K)} {m m' : Mem K}
    (h : grMain M g p a b J m m') : SameB M g a b emA m m' := by
  have hbc : ∀ A ∈ grArrs, ∀ sE sB m m', grBCs g a b sE sB m m' → SameB M g a b A m m' :=
    fun _ hA _ _ _ _ h => grBCs_sameB hM hA h
  simp only [grMain, List.append_assoc] at h
  rw [seq_append] at h
  obtain ⟨m1, h1, h⟩ := h
  rw [seq_append] at h
  obtain ⟨m2, h2, h⟩ := h
  rw [show ∀ (r1 r2 r3 r4 r5 : Rel K) (rs : List (Rel K)), [r1, r2, r3, r4, r5] ++ rs =
    [r1, r2, r3] ++ ([r4, r5] ++ rs) from by intros; rfl, seq_append] at h
  obtain ⟨m3, h3, h⟩ := h
  rw [seq_append] at h
  obtain ⟨m4, h4, h⟩ := h
  rw [seq_append] at h
  obtain ⟨m5, h5, h⟩ := h
  rw [seq_append] at h
  obtain ⟨m6, h6, h⟩ := h
  rw [seq_append] at h
  obtain ⟨m7, h7, m8, h8, m9, h9, rfl⟩ := h
  have s1 : SameB M g a b emA m m1 := by
    refine seq_sameB ?_ h1
    intro r hr
    simp only [List.mem_cons, List.not_mem_nil, or_false] at hr
    rcases hr with rfl | rfl | rfl | rfl | rfl | rfl | rfl
    · exact fun m m' h => SameB.of_eq hM (fun c i1 i2 _ =>
        launch_other (timeAvgDB_local _) h (by simp [fL, comps, emA, em0A]))
    · exact fun m m' h => grAuxE_sameB hM (by decide) h
    · exact fun m m' h => keeps_sameB hM (by simp) h
    · exact fun m m' h => grFaraday_sameB hM h
    · exact hbc _ (by simp [grArrs]) _ _
    · exact fun m m' h => grAuxH_sameB hM (by decide) h
    · exact fun m m' h => keeps_sameB hM (by simp) h
  have s2 : SameB M g a b emA m1 m2 := by
    refine seq_sameB ?_ h2
    intro r hr
    cases J <;> simp only [List.mem_cons, List.not_mem_nil, or_false] at hr
    rcases hr with rfl | rfl
    · exact fun m m' h => SameB.of_eq hM (fun c i1 i2 _ => h.2 emA (by simp) _ _)
    · exact fun m m' h => SameB.of_eq hM (fun c i1 i2 _ =>
        launch_other (timeAvgJ_local _) h (by simp [fL, comps, emA, curA]))
  have s4 : SameB M g a b em0A m3 m4 := by
    refine seq_sameB ?_ h4
    intro r hr
    simp only [List.mem_cons, List.not_mem_nil, or_false] at hr
    rcases hr with rfl | rfl
    · exact hbc _ (by simp [grArrs]) _ _
    · exact fun m m' h => grAmpere_sameB hM h
  have s5 : SameB M g a b em0A m4 m5 := by
    refine seq_sameB ?_ h5
    intro r hr
    cases J <;> simp only [List.mem_cons, List.not_mem_nil, or_false] at hr
    subst hr
    exact fun m m' h => grCurrents_sameB hM (by decide) h
  have s6 : SameB M g a b em0A m5 m6 := by
    refine seq_sameB ?_ h6
    intro r hr
    simp only [List.mem_cons, List.not_mem_nil, or_false] at hr
    rcases hr with rfl | rfl | rfl | rfl
    · exact hbc _ (by simp [grArrs]) _ _
    · exact fun m m' h => grAuxH_sameB hM (by decide) h
    · exact fun m m' h => keeps_sameB hM (by simp) h
    · exact fun m m' h => grAmpere_sameB hM h
  have s7 : SameB M g a b em0A m6 m7 := by
    refine seq_sameB ?_ h7
    intro r hr
    cases J <;> simp only [List.mem_cons, List.not_mem_nil, or_false] at hr
    subst hr
    exact fun m m' h => grCurrents_sameB hM (by decide) h
  intro i1 i2 hc
  rw [hbc _ (by simp [grArrs]) _ _ _ _ h9 i1 i2 hc, grSwap_divB h8, s7 i1 i2 hc, s6 i1 i2 hc,
    s5 i1 i2 hc, s4 i1 i2 hc, grNewB hM ha hb h3 hc, s2 i1 i2 hc, s1 i1 i2 hc]

end

end Entity.Curvi
