import Verif.Lemmas.CurviGaussSR

/-!
# Electric flux: the GR engine
-/

namespace Entity.Curvi

open Entity.Kernel Entity.FieldSolver

variable {K : Type} [Field K]

section kernels
variable {M : CMetric K} {g : CGrid} {coeff : K} {cells : List (List Int)} {m m' : Mem K}
  {din dout hA : Nat}

theorem ampereGR_flux1 (hh : hA ≠ dout) (h : Launch cells (ampereGR M g din dout hA coeff) m m')
    {i1 i2 : Int} (hc : [i1, i2] ∈ cells) (hr : OffAxis g i2)
    (hs : M.sqrtDet (coord g i1 + 1 / 2) (coord g i2) ≠ 0) :
    M.sqrtDet (coord g i1 + 1 / 2) (coord g i2) * m' (fL dout .ex1 i1 i2) =
      M.sqrtDet (coord g i1 + 1 / 2) (coord g i2) * m (fL din .ex1 i1 i2) + coeff *
        (m (fL hA .bx3 i1 i2) - m (fL hA .bx3 i1 (i2 - 1))) := by
  rw [(launch_on (ampereGR_on _ M g (din := din) hh coeff) h).1 (fL dout .ex1 i1 i2) hc
    (.inr ⟨i1, i2, rfl, hr⟩)]
  simp only [fL, ampereGR]
  rw [if_neg hr.1, if_neg hr.2]
  simp [runBody, store, f, fL, Em.toNat, half, hh]; field_simp

theorem ampereGR_flux2 (hh : hA ≠ dout) (h : Launch cells (ampereGR M g din dout hA coeff) m m')
    {i1 i2 : Int} (hc : [i1, i2] ∈ cells)
    (hr : OffAxis g i2 ∨ (din ≠ dout ∧ i2 = g.i2min ∧ g.axisLo = true))
    (hs : M.sqrtDet (coord g i1) (coord g i2 + 1 / 2) ≠ 0) :
    M.sqrtDet (coord g i1) (coord g i2 + 1 / 2) * m' (fL dout .ex2 i1 i2) =
      M.sqrtDet (coord g i1) (coord g i2 + 1 / 2) * m (fL din .ex2 i1 i2) + coeff *
        (m (fL hA .bx3 (i1 - 1) i2) - m (fL hA .bx3 i1 i2)) := by
  rw [(launch_on (ampereGR_on _ M g (din := din) hh coeff) h).1 (fL dout .ex2 i1 i2) hc
    (hr.elim (fun hr => .inr ⟨i1, i2, rfl, hr⟩) (fun hr => .inl hr.1))]
  rcases hr with hr | ⟨hd, rfl, hx⟩
  · simp only [fL, ampereGR]
    rw [if_neg hr.1, if_neg hr.2]
    simp [runBody, store, f, fL, Em.toNat, half, hh]; field_simp
  · rw [coord_i2min, zero_add] at hs ⊢
    simp only [fL, ampereGR]
    rw [if_pos ⟨trivial, hx⟩]
    simp [runBody, store, f, fL, Em.toNat, half, -one_div]
    rw [mul_add]; field_simp

/-- The radial field on the axis is copied from the neighbouring row. -/
theorem ampereGR_lo (hh : hA ≠ dout) (hd : din ≠ dout)
    (h : Launch cells (ampereGR M g din dout hA coeff) m m')
    {i1 : Int} (hc : [i1, g.i2min] ∈ cells) (hx : g.axisLo = true) :
    m' (fL dout .ex1 i1 g.i2min) = m (fL din .ex1 i1 (g.i2min + 1)) := by
  rw [(launch_on (ampereGR_on _ M g (din := din) hh coeff) h).1 (fL dout .ex1 i1 g.i2min) hc (.inl hd)]
  simp only [fL, ampereGR]
  rw [if_pos ⟨trivial, hx⟩]
  simp [runBody, store, f, fL, Em.toNat]

theorem ampereGR_hi (hh : hA ≠ dout) (hd : din ≠ dout) (hn : 0 < g.n2)
    (h : Launch cells (ampereGR M g din dout hA coeff) m m')
    {i1 : Int} (hc : [i1, g.i2max] ∈ cells) (hx : g.axisHi = true) :
    m' (fL dout .ex1 i1 g.i2max) = m (fL din .ex1 i1 (g.i2max - 1)) := by
  rw [(launch_on (ampereGR_on _ M g (din := din) hh coeff) h).1 (fL dout .ex1 i1 g.i2max) hc (.inl hd)]
  simp only [fL, ampereGR]
  rw [if_neg (by rintro ⟨h, -⟩; simp only [CGrid.i2min, CGrid.i2max] at h; omega), if_pos ⟨trivial, hx⟩]
  simp [runBody, store, f, fL, Em.toNat]

theorem currentsGR_flux1 {df jA : Nat} (hd : jA ≠ df) (h : Launch cells (currentsGR M g df jA coeff) m m')
    {i1 i2 : Int} (hc : [i1, i2] ∈ cells) (hr : OffAxis g i2)
    (hs : M.sqrtDet (coord g i1 + 1 / 2) (coord g i2) ≠ 0) :
    M.sqrtDet (coord g i1 + 1 / 2) (coord g i2) * m' (fL df .ex1 i1 i2) =
      M.sqrtDet (coord g i1 + 1 / 2) (coord g i2) * m (fL df .ex1 i1 i2) +
        coeff * m (jL jA .jx1 i1 i2) := by
  rw [launch_at (currentsGR_local _ M g hd coeff) h (l := fL df .ex1 i1 i2) hc]
  simp only [fL, currentsGR]
  rw [if_neg hr.1, if_neg hr.2]
  simp [runBody, store, plusEq, f, fL, j, jL, Em.toNat, Cc.toNat, half, hd]; field_simp

theorem currentsGR_flux2 {df jA : Nat} (hd : jA ≠ df) (h : Launch cells (currentsGR M g df jA coeff) m m')
    {i1 i2 : Int} (hc : [i1, i2] ∈ cells)
    (hr : OffAxis g i2 ∨ (i2 = g.i2min ∧ g.axisLo = true))
    (hs : M.sqrtDet (coord g i1) (coord g i2 + 1 / 2) ≠ 0) :
    M.sqrtDet (coord g i1) (coord g i2 + 1 / 2) * m' (fL df .ex2 i1 i2) =
      M.sqrtDet (coord g i1) (coord g i2 + 1 / 2) * m (fL df .ex2 i1 i2) +
        coeff * m (jL jA .jx2 i1 i2) := by
  rw [launch_at (currentsGR_local _ M g hd coeff) h (l := fL df .ex2 i1 i2) hc]
  simp only [fL, currentsGR]
  rcases hr with hr | hr
  · rw [if_neg hr.1, if_neg hr.2]
    simp [runBody, store, plusEq, f, fL, j, jL, Em.toNat, Cc.toNat, half, hd]; field_simp
  · rw [if_pos hr]
    simp [runBody, store, plusEq, f, fL, j, jL, Em.toNat, Cc.toNat, half, hd]; field_simp

theorem currentsGR_cap {df jA : Nat} (hd : jA ≠ df) (h : Launch cells (currentsGR M g df jA coeff) m m')
    {i1 i2 : Int} (hc : [i1, i2] ∈ cells)
    (hr : (i2 = g.i2min ∧ g.axisLo = true) ∨ (i2 = g.i2max ∧ g.axisHi = true)) :
    m' (fL df .ex1 i1 i2) = m (fL df .ex1 i1 i2) +
      m (jL jA .jx1 i1 i2) * (1 / 2) * coeff / M.polarArea (coord g i1 + 1 / 2) := by
  rw [launch_at (currentsGR_local _ M g hd coeff) h (l := fL df .ex1 i1 i2) hc]
  simp only [fL, currentsGR]
  split
  · simp [runBody, store, plusEq, f, fL, j, jL, Em.toNat, Cc.toNat, half, hd]
  · rename_i hx
    rw [if_pos (hr.resolve_left hx)]
    simp [runBody, store, plusEq, f, fL, j, jL, Em.toNat, Cc.toNat, half, hd]

theorem mem_rangeAmpereGR {i1 i2 : Int} : [i1, i2] ∈ rangeAmpereGR g ↔
    (g.i1min ≤ i1 ∧ i1 < g.i1max) ∧ g.i2min ≤ i2 ∧ i2 < g.i2max + 1 := mem_box

theorem ampereGR_divE [CharZero K] (hM : Polar M g) (hh : hA ≠ dout)
    (h : Launch (rangeAmpereGR g) (ampereGR M g din dout hA coeff) m m') {i1 i2 : Int}
    (hd : din ≠ dout ∨ g.axisLo = false ∨ g.i2min + 1 < i2)
    (h1 : g.i1min < i1) (h1' : i1 < g.i1max) (h2 : g.i2min < i2) (h2' : i2 < g.i2max) :
    divE M g dout m' i1 i2 = divE M g din m i1 i2 := by
  have hr := offAxis_mid (g := g) h2 h2'
  have e1 := ampereGR_flux1 hh h (mem_rangeAmpereGR.2 ⟨⟨h1.le, h1'⟩, by omega⟩) hr
    (hM.face2 i1 i2 h2.le h2' (.inl (by omega)))
  have e2 := ampereGR_flux1 hh h (i1 := i1 - 1) (mem_rangeAmpereGR.2 ⟨by omega, by omega⟩) hr
    (hM.face2 (i1 - 1) i2 h2.le h2' (.inl (by omega)))
  have e3 := ampereGR_flux2 hh h (mem_rangeAmpereGR.2 ⟨⟨h1.le, h1'⟩, by omega⟩) (.inl hr)
    (hM.face1 i1 i2 h2.le h2')
  have e4 := ampereGR_flux2 hh h (i1 := i1) (i2 := i2 - 1) (mem_rangeAmpereGR.2 ⟨by omega, by omega⟩)
    (by
      by_cases hx : i2 - 1 = g.i2min ∧ g.axisLo = true
      · refine .inr ⟨?_, hx⟩
        rcases hd with hd | hd | hd
        · exact hd
        · rw [hx.2] at hd; cases hd
        · omega
      · exact .inl ⟨hx, by omega⟩)
    (hM.face1 i1 (i2 - 1) (by omega) (by omega))
  simp only [divE]
  rw [coord_pred, pred_half] at e2 e4
  linear_combination e1 - e2 + e3 - e4

theorem currentsGR_divE [CharZero K] (hM : Polar M g) {df jA : Nat} (hd : jA ≠ df)
    (h : Launch (rangeAmpereGR g) (currentsGR M g df jA coeff) m m') {i1 i2 : Int}
    (h1 : g.i1min < i1) (h1' : i1 < g.i1max) (h2 : g.i2min < i2) (h2' : i2 < g.i2max) :
    divE M g df m' i1 i2 = divE M g df m i1 i2 +
      coeff * divJ (fun c i1 i2 => m (jL jA c i1 i2)) i1 i2 := by
  have hr := offAxis_mid (g := g) h2 h2'
  have e1 := currentsGR_flux1 hd h (mem_rangeAmpereGR.2 ⟨⟨h1.le, h1'⟩, by omega⟩) hr
    (hM.face2 i1 i2 h2.le h2' (.inl (by omega)))
  have e2 := currentsGR_flux1 hd h (i1 := i1 - 1) (mem_rangeAmpereGR.2 ⟨by omega, by omega⟩) hr
    (hM.face2 (i1 - 1) i2 h2.le h2' (.inl (by omega)))
  have e3 := currentsGR_flux2 hd h (mem_rangeAmpereGR.2 ⟨⟨h1.le, h1'⟩, by omega⟩) (.inl hr)
    (hM.face1 i1 i2 h2.le h2')
  have e4 := currentsGR_flux2 hd h (i1 := i1) (i2 := i2 - 1) (mem_rangeAmpereGR.2 ⟨by omega, by omega⟩)
    (by
      by_cases hx : i2 - 1 = g.i2min ∧ g.axisLo = true
      · exact .inr hx
      · exact .inl ⟨hx, by omega⟩)
    (hM.face1 i1 (i2 - 1) (by omega) (by omega))
  simp only [divE, divJ]
  rw [coord_pred, pred_half] at e2 e4
  linear_combination e1 - e2 + e3 - e4

end kernels

/-! ## Steps -/

section
variable {M : CMetric K} {g : CGrid} {a b : Int} {p : StepPrm K} {m m' : Mem K} {A : Nat}

theorem ex12 {c : Em} {i2 : Int}
    (h : (c = .ex1 ∨ c = .ex2) ∧ i2 < g.i2max ∨ c = .ex1 ∧ i2 = g.i2max ∧ g.axisHi = true) :
    c = .ex1 ∨ c = .ex2 := by
  rcases h with h | h
  exacts [h.1, .inl h.1]

theorem keepsE_of_eq (h : ∀ (c : Em) i1 i2, m' (fL A c i1 i2) = m (fL A c i1 i2)) :
    KeepsE g a b A m m' := fun c i1 i2 _ _ _ _ => h c i1 i2

theorem grAuxE_arr {k : GetE} {A : Nat} (hA : A ≠ auxA) (h : grAuxE M g k m m') (c : Nat)
    (idx : List Int) : m' ⟨A, c, idx⟩ = m ⟨A, c, idx⟩ := by
  cases k
  · exact launch_other (auxE_local _ M g (df := em0A) (bf := emA) (by decide) (by decide)) h
      (by simp [comps, hA])
  · exact launch_other (auxE_local _ M g (df := emA) (bf := em0A) (by decide) (by decide)) h
      (by simp [comps, hA])

theorem grAuxH_arr {k : GetH} {A : Nat} (hA : A ≠ auxA) (h : grAuxH M g k m m') (c : Nat)
    (idx : List Int) : m' ⟨A, c, idx⟩ = m ⟨A, c, idx⟩ := by
  cases k
  · exact launch_other (auxH_local _ M g (df := emA) (bf := em0A) (by decide) (by decide)) h
      (by simp [comps, hA])
  · exact launch_other (auxH_local _ M g (df := em0A) (bf := em0A) (by decide) (by decide)) h
      (by simp [comps, hA])

theorem grFaraday_arr {fr : K} {k : GrFaraday} (hA : A ≠ em0A) (h : grFaraday M g p fr k m m') (c : Nat)
    (idx : List Int) : m' ⟨A, c, idx⟩ = m ⟨A, c, idx⟩ := by
  cases k
  · exact launch_other (faradayGR_local _ M g (bin := em0A) (bout := em0A) (e := auxA) (by decide) _) h
      (by simp [comps, hA])
  · exact launch_other (faradayGR_local _ M g (bin := emA) (bout := em0A) (e := auxA) (by decide) _) h
      (by simp [comps, hA])

theorem grAmpere_arr {fr : K} {k : GrAmpere} (hA : A ≠ em0A) (hA' : k = .init → A ≠ emA)
    (h : grAmpere M g p fr k m m') (c : Nat)
    (idx : List Int) : m' ⟨A, c, idx⟩ = m ⟨A, c, idx⟩ := by
  cases k
  · exact (launch_on (ampereGR_on _ M g (din := emA) (dout := emA) (h := auxA) (by decide) _) h).2 _
      (.inr (by simp [comps, hA' rfl]))
  · exact (launch_on (ampereGR_on _ M g (din := em0A) (dout := em0A) (h := auxA) (by decide) _) h).2 _
      (.inr (by simp [comps, hA]))
  · exact (launch_on (ampereGR_on _ M g (din := emA) (dout := em0A) (h := auxA) (by decide) _) h).2 _
      (.inr (by simp [comps, hA]))

theorem grCurrents_arr {jA : Nat} (hj : jA ≠ em0A) (hA : A ≠ em0A) (h : grCurrents M g p jA m m') (c : Nat)
    (idx : List Int) : m' ⟨A, c, idx⟩ = m ⟨A, c, idx⟩ :=
  launch_other (currentsGR_local _ M g hj _) h (by simp [comps, hA])

theorem grTimeAvgDB_arr (hA : A ≠ em0A) (h : grTimeAvgDB g m m') (c : Nat)
    (idx : List Int) : m' ⟨A, c, idx⟩ = m ⟨A, c, idx⟩ :=
  launch_other (timeAvgDB_local _) h (by simp [comps, hA])

theorem grTimeAvgJ_arr (hA : A ≠ curA) (h : grTimeAvgJ g m m') (c : Nat)
    (idx : List Int) : m' ⟨A, c, idx⟩ = m ⟨A, c, idx⟩ :=
  launch_other (timeAvgJ_local _) h (by simp [comps, hA])

theorem grBCs_keepsE (hA : A ∈ grArrs) {sE sB : Bool} (h : grBCs g a b sE sB m m') :
    KeepsE g a b A m m' := by
  obtain ⟨m1, h1, m2, h2, rfl⟩ := h
  exact (keeps_keepsE hA h1).trans (fieldBCs_keepsE hA h2)

theorem grComm_keepsE (hA : A ∈ grArrs) (h : grCommAux g a b m m') : KeepsE g a b A m m' :=
  keeps_keepsE hA h

theorem grBCs_cur (hA : A ∈ grArrs) (hA' : A ∉ [emA, em0A]) {sE sB : Bool}
    (h : grBCs g a b sE sB m m') : Keeps g a b [A] m m' := by
  obtain ⟨m1, h1, m2, h2, rfl⟩ := h
  intro B hB c i1 i2 q1 q2 q3 q4
  rw [fieldBCs_arr hA hA' h2 B hB c i1 i2 q1 q2 q3 q4]
  rw [List.mem_singleton] at hB
  subst hB
  exact h1 B hA c i1 i2 q1 q2 q3 q4

theorem grSwap_divE (h : grSwap m m') (i1 i2 : Int) :
    divE M g emA m' i1 i2 = divE M g em0A m i1 i2 := by
  have e : ∀ c i1 i2, m' (fL emA c i1 i2) = m (fL em0A c i1 i2) := fun c i1 i2 => by
    rw [h]; rfl
  simp only [divE, e]

theorem grFaraday_keepsE {fr : K} {k : GrFaraday} (h : grFaraday M g p fr k m m') :
    KeepsE g a b A m m' := by
  intro c i1 i2 _ _ _ h4
  have hc := ex12 h4
  cases k
  · exact launch_other (faradayGR_local _ M g (bin := em0A) (bout := em0A) (e := auxA) (by decide) _) h
      (by rcases hc with rfl | rfl <;> simp [fL, comps, Em.toNat])
  · exact launch_other (faradayGR_local _ M g (bin := emA) (bout := em0A) (e := auxA) (by decide) _) h
      (by rcases hc with rfl | rfl <;> simp [fL, comps, Em.toNat])

/-- Factor in front of the current in the GR engine: `-dt q0 / B0`. -/
def kappaGR (p : StepPrm K) : K := -p.dt * p.q0 / p.B0

/-- `grMain`: what happens to the field `D`.  From the state `m1` before the last Ampere kernel on. -/
theorem grMain_split (J : Option (Cc → Int → Int → K)) (h : grMain M g p a b J m m') :
    ∃ m1 m2 m3 m4, KeepsE g a b emA m m1 ∧ grAmpere M g p 1 .main m1 m2 ∧
      (match J with
        | none => m3 = m2
        | some J => grCurrents M g p cur0A m2 m3 ∧ ∀ c i1 i2, a ≤ i1 → i1 < b → g.i2min ≤ i2 →
            (i2 < g.i2max ∨ (i2 = g.i2max ∧ g.axisHi = true)) → m2 (jL cur0A c i1 i2) = J c i1 i2) ∧
      grSwap m3 m4 ∧ KeepsE g a b emA m4 m' := by
  have hin : emA ∈ grArrs := by simp [grArrs]
  have hin' : cur0A ∈ grArrs := by simp [grArrs]
  cases J with
  | none =>
    obtain ⟨m1, h1, m2, h2, m3, h3, m4, h4, m5, h5, m6, h6, m7, h7, m8, h8, m9, h9, m10, h10, m11, h11,
      m12, h12, m13, h13, m14, h14, m15, h15, m16, h16, m17, h17, m18, h18, rfl⟩ := h
    refine ⟨m15, m16, m16, m17, ?_, h16, rfl, h17, grBCs_keepsE hin h18⟩
    refine (keepsE_of_eq fun c i1 i2 => grTimeAvgDB_arr (by decide) h1 _ _).trans ?_
    refine (keepsE_of_eq fun c i1 i2 => grAuxE_arr (by decide) h2 _ _).trans ?_
    refine (grComm_keepsE hin h3).trans ?_
    refine (grFaraday_keepsE h4).trans ?_
    refine (grBCs_keepsE hin h5).trans ?_
    refine (keepsE_of_eq fun c i1 i2 => grAuxH_arr (by decide) h6 _ _).trans ?_
    refine (grComm_keepsE hin h7).trans ?_
    refine (keepsE_of_eq fun c i1 i2 => grAuxE_arr (by decide) h8 _ _).trans ?_
    refine (grComm_keepsE hin h9).trans ?_
    refine (grFaraday_keepsE h10).trans ?_
    refine (grBCs_keepsE hin h11).trans ?_
    refine (keepsE_of_eq fun c i1 i2 => grAmpere_arr (by decide) (by simp) h12 _ _).trans ?_
    refine (grBCs_keepsE hin h13).trans ?_
    refine (keepsE_of_eq fun c i1 i2 => grAuxH_arr (by decide) h14 _ _).trans ?_
    exact grComm_keepsE hin h15
  | some J =>
    obtain ⟨m1, h1, m2, h2, m3, h3, m4, h4, m5, h5, m6, h6, m7, h7, md, hd, mj, hj,
      m8, h8, m9, h9, m10, h10, m11, h11, m12, h12, mc, hc,
      m13, h13, m14, h14, m15, h15, m16, h16, me, he, m17, h17, m18, h18, rfl⟩ := h
    refine ⟨m15, m16, me, m17, ?_, h16, ⟨he, ?_⟩, h17, grBCs_keepsE hin h18⟩
    · refine (keepsE_of_eq fun c i1 i2 => grTimeAvgDB_arr (by decide) h1 _ _).trans ?_
      refine (keepsE_of_eq fun c i1 i2 => grAuxE_arr (by decide) h2 _ _).trans ?_
      refine (grComm_keepsE hin h3).trans ?_
      refine (grFaraday_keepsE h4).trans ?_
      refine (grBCs_keepsE hin h5).trans ?_
      refine (keepsE_of_eq fun c i1 i2 => grAuxH_arr (by decide) h6 _ _).trans ?_
      refine (grComm_keepsE hin h7).trans ?_
      refine (keepsE_of_eq fun c i1 i2 => hd.2 emA (by simp) _ _).trans ?_
      refine (keepsE_of_eq fun c i1 i2 => grTimeAvgJ_arr (by decide) hj _ _).trans ?_
      refine (keepsE_of_eq fun c i1 i2 => grAuxE_arr (by decide) h8 _ _).trans ?_
      refine (grComm_keepsE hin h9).trans ?_
      refine (grFaraday_keepsE h10).trans ?_
      refine (grBCs_keepsE hin h11).trans ?_
      refine (keepsE_of_eq fun c i1 i2 => grAmpere_arr (by decide) (by simp) h12 _ _).trans ?_
      refine (keepsE_of_eq fun c i1 i2 => grCurrents_arr (by decide) (by decide) hc _ _).trans ?_
      refine (grBCs_keepsE hin h13).trans ?_
      refine (keepsE_of_eq fun c i1 i2 => grAuxH_arr (by decide) h14 _ _).trans ?_
      exact grComm_keepsE hin h15
    · intro c i1 i2 q1 q2 q3 q4
      have hb := fun sE sB (m m' : Mem K) (h : grBCs g a b sE sB m m') =>
        grBCs_cur hin' (by decide) h cur0A (by simp) c.toNat i1 i2 q1 q2 q3 q4
      have hk := fun (m m' : Mem K) (h : grCommAux g a b m m') => h cur0A hin' c.toNat i1 i2 q1 q2 q3 q4
      refine Eq.trans ?_ (hd.1 c i1 i2)
      exact (grAmpere_arr (by decide) (by simp) h16 _ _).trans <|
        (hk _ _ h15).trans <| (grAuxH_arr (by decide) h14 _ _).trans <| (hb _ _ _ _ h13).trans <|
        (grCurrents_arr (by decide) (by decide) hc _ _).trans <|
        (grAmpere_arr (by decide) (by simp) h12 _ _).trans <| (hb _ _ _ _ h11).trans <|
        (grFaraday_arr (by decide) h10 _ _).trans <| (hk _ _ h9).trans <|
        (grAuxE_arr (by decide) h8 _ _).trans (grTimeAvgJ_arr (by decide) hj _ _)

theorem grMain_divE [CharZero K] (hM : Polar M g) (ha : g.i1min ≤ a) (hb : b ≤ g.i1max)
    (J : Option (Cc → Int → Int → K)) (h : grMain M g p a b J m m') {i1 i2 : Int}
    (hn : Node g a b i1 i2) :
    divE M g emA m' i1 i2 = divE M g emA m i1 i2 + kappaGR p * divJ (jOf J) i1 i2 := by
  obtain ⟨m1, m2, m3, m4, k1, h2, h3, h4, k5⟩ := grMain_split J h
  obtain ⟨⟨q1, q1'⟩, q2, q2'⟩ := id hn
  rw [k5.divE hn, grSwap_divE h4]
  have e2 : divE M g em0A m2 i1 i2 = divE M g emA m1 i1 i2 :=
    ampereGR_divE hM (by decide) h2 (.inl (by decide)) (by omega) (by omega) q2 q2'
  cases J with
  | none =>
    rw [show m3 = m2 from h3, e2, k1.divE hn]; simp [jOf, divJ]
  | some J =>
    rw [currentsGR_divE hM (by decide) h3.1 (by omega) (by omega) q2 q2', e2, k1.divE hn]
    simp only [divJ, jOf, Option.getD_some, kappaGR]
    rw [h3.2 _ _ _ (by omega) (by omega) (by omega) (.inl q2'),
      h3.2 _ (i1 - 1) _ (by omega) (by omega) (by omega) (.inl q2'),
      h3.2 _ _ _ (by omega) (by omega) (by omega) (.inl q2'),
      h3.2 _ i1 (i2 - 1) (by omega) (by omega) (by omega) (.inl (by omega))]

theorem grInit_divE [CharZero K] (hM : Polar M g) (ha : g.i1min ≤ a) (hb : b ≤ g.i1max)
    (h : grInit M g p a b m m') {i1 i2 : Int} (hn : Node g a b i1 i2)
    (hx : g.axisLo = false ∨ g.i2min + 1 < i2) :
    divE M g emA m' i1 i2 = divE M g emA m i1 i2 := by
  have hin : emA ∈ grArrs := by simp [grArrs]
  have hin' : em0A ∈ grArrs := by simp [grArrs]
  obtain ⟨⟨q1, q1'⟩, q2, q2'⟩ := id hn
  obtain ⟨m1, h1, m2, h2, m3, h3, m4, h4, m5, h5, m6, h6, m7, h7, m8, h8, m9, h9, m10, h10, m11, h11,
      m12, h12, m13, h13, m14, h14, m15, h15, m16, h16, m17, h17, m18, h18, m19, h19, m20, h20,
      m21, h21, rfl⟩ := h
  have k1 : KeepsE g a b emA m m7 := by
    refine (grBCs_keepsE hin h1).trans ?_
    refine KeepsE.trans (m1 := m2) (keepsE_of_eq fun c i1 i2 => by rw [h2]; simp [fL, emA, em0A]) ?_
    refine (keepsE_of_eq fun c i1 i2 => grAuxE_arr (by decide) h3 _ _).trans ?_
    refine (keepsE_of_eq fun c i1 i2 => grAuxH_arr (by decide) h4 _ _).trans ?_
    refine (grComm_keepsE hin h5).trans ?_
    refine (grFaraday_keepsE h6).trans ?_
    exact grBCs_keepsE hin h7
  have e8 : divE M g emA m8 i1 i2 = divE M g emA m7 i1 i2 :=
    ampereGR_divE hM (by decide) h8 (.inr hx) (by omega) (by omega) q2 q2'
  have k2 : KeepsE g a b emA m8 m18 := by
    refine (grBCs_keepsE hin h9).trans ?_
    refine (keepsE_of_eq fun c i1 i2 => grAuxE_arr (by decide) h10 _ _).trans ?_
    refine (keepsE_of_eq fun c i1 i2 => grAuxH_arr (by decide) h11 _ _).trans ?_
    refine (grComm_keepsE hin h12).trans ?_
    refine (grFaraday_keepsE h13).trans ?_
    refine (grBCs_keepsE hin h14).trans ?_
    refine (keepsE_of_eq fun c i1 i2 => grAmpere_arr (by decide) (by simp) h15 _ _).trans ?_
    refine (grBCs_keepsE hin h16).trans ?_
    refine (keepsE_of_eq fun c i1 i2 => grAuxH_arr (by decide) h17 _ _).trans ?_
    exact grComm_keepsE hin h18
  have e19 : divE M g em0A m19 i1 i2 = divE M g emA m18 i1 i2 :=
    ampereGR_divE hM (by decide) h19 (.inl (by decide)) (by omega) (by omega) q2 q2'
  rw [grSwap_divE h21, (grBCs_keepsE hin' h20).divE hn, e19, k2.divE hn, e8, k1.divE hn]

theorem grStep_divE [CharZero K] (hM : Polar M g) (ha : g.i1min ≤ a) (hb : b ≤ g.i1max) (step : Nat)
    (J : Option (Cc → Int → Int → K)) (h : grStep M g p a b step J m m') {i1 i2 : Int}
    (hn : Node g a b i1 i2) (hx : step ≠ 0 ∨ g.axisLo = false ∨ g.i2min + 1 < i2) :
    divE M g emA m' i1 i2 = divE M g emA m i1 i2 + kappaGR p * divJ (jOf J) i1 i2 := by
  by_cases hs : step = 0
  · simp only [grStep, hs, if_true, List.cons_append, List.nil_append] at h
    obtain ⟨m1, h1, m2, h2, rfl⟩ := h
    rw [grMain_divE hM ha hb J h2 hn, grInit_divE hM ha hb h1 hn (hx.resolve_left (by simp [hs]))]
  · simp only [grStep, hs, if_false, List.nil_append] at h
    obtain ⟨m1, h1, rfl⟩ := h
    exact grMain_divE hM ha hb J h1 hn

/-- On the lower axis a step replaces the radial field by that of the neighbouring row (plus the
current). -/
theorem grMain_axis (ha : g.i1min ≤ a) (hb : b ≤ g.i1max) (hx : g.axisLo = true) (hn : 1 < g.n2)
    (J : Option (Cc → Int → Int → K)) (h : grMain M g p a b J m m') {i1 : Int} (q1 : a ≤ i1) (q2 : i1 < b) :
    m' (fL emA .ex1 i1 g.i2min) = m (fL emA .ex1 i1 (g.i2min + 1)) +
      kappaGR p * (1 / 2 * jOf J .jx1 i1 g.i2min) / M.polarArea (coord g i1 + 1 / 2) := by
  have hlt : g.i2min + 1 < g.i2max := by simp [CGrid.i2min, CGrid.i2max]; omega
  obtain ⟨m1, m2, m3, m4, k1, h2, h3, h4, k5⟩ := grMain_split J h
  rw [k5 .ex1 i1 g.i2min q1 q2 le_rfl (.inl ⟨.inl rfl, by omega⟩),
    show m4 (fL emA .ex1 i1 g.i2min) = m3 (fL em0A .ex1 i1 g.i2min) from h4 _]
  have hin : [i1, g.i2min] ∈ rangeAmpereGR g := mem_rangeAmpereGR.2 ⟨by omega, by omega⟩
  have e2 : m2 (fL em0A .ex1 i1 g.i2min) = m1 (fL emA .ex1 i1 (g.i2min + 1)) :=
    ampereGR_lo (by decide) (by decide) h2 hin hx
  have e1 := k1 .ex1 i1 (g.i2min + 1) q1 q2 (by omega) (.inl ⟨.inl rfl, hlt⟩)
  cases J with
  | none => rw [show m3 = m2 from h3, e2, e1]; simp [jOf]
  | some J =>
    rw [currentsGR_cap (by decide) h3.1 hin (.inl ⟨rfl, hx⟩), e2, e1,
      h3.2 _ _ _ q1 q2 le_rfl (.inl (by omega))]
    simp only [jOf, Option.getD_some, kappaGR]; ring

end

end Entity.Curvi
