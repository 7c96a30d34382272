import Verif.Lemmas.Curvi

/-!
# Magnetic flux: the Faraday kernels
-/

namespace Entity.Curvi

open Entity.Kernel Entity.FieldSolver

variable {K : Type} [Field K]

/-- Flux through an `x1` face after `sr::Faraday`. -/
theorem faradaySR_flux1 {M : CMetric K} {g : CGrid} {coeff : K} {cells : List (List Int)}
    {m m' : Mem K} (h : Launch cells (faradaySR M g coeff) m m') {i1 i2 : Int}
    (hc : [i1, i2] ∈ cells) (hs : M.sqrtDet (coord g i1) (coord g i2 + 1 / 2) ≠ 0) :
    M.sqrtDet (coord g i1) (coord g i2 + 1 / 2) * m' (fL emA .bx1 i1 i2) =
      M.sqrtDet (coord g i1) (coord g i2 + 1 / 2) * m (fL emA .bx1 i1 i2) + coeff *
        (M.h33 (coord g i1) (coord g i2) * m (fL emA .ex3 i1 i2) -
          M.h33 (coord g i1) (coord g i2 + 1) * m (fL emA .ex3 i1 (i2 + 1))) := by
  rw [launch_at (faradaySR_local _ M g coeff) h (l := fL emA .bx1 i1 i2) hc]
  simp only [fL, faradaySR, List.cons_append, List.nil_append]
  split <;> simp [runBody, store, plusEq, f, fL, emA, Em.toNat, half] <;> field_simp

/-- Flux through an `x2` face off the lower axis after `sr::Faraday`. -/
theorem faradaySR_flux2 {M : CMetric K} {g : CGrid} {coeff : K} {cells : List (List Int)}
    {m m' : Mem K} (h : Launch cells (faradaySR M g coeff) m m') {i1 i2 : Int}
    (hc : [i1, i2] ∈ cells) (ha : i2 ≠ g.i2min ∨ g.axisLo = false)
    (hs : M.sqrtDet (coord g i1 + 1 / 2) (coord g i2) ≠ 0) :
    M.sqrtDet (coord g i1 + 1 / 2) (coord g i2) * m' (fL emA .bx2 i1 i2) =
      M.sqrtDet (coord g i1 + 1 / 2) (coord g i2) * m (fL emA .bx2 i1 i2) + coeff *
        (M.h33 (coord g i1 + 1) (coord g i2) * m (fL emA .ex3 (i1 + 1) i2) -
          M.h33 (coord g i1) (coord g i2) * m (fL emA .ex3 i1 i2)) := by
  rw [launch_at (faradaySR_local _ M g coeff) h (l := fL emA .bx2 i1 i2) hc]
  simp only [fL, faradaySR, List.cons_append, List.nil_append]
  rw [if_pos ha]
  simp [runBody, store, plusEq, f, fL, emA, Em.toNat, half]; field_simp

theorem mem_active {g : CGrid} {i1 i2 : Int} :
    [i1, i2] ∈ rangeActive g ↔ (g.i1min ≤ i1 ∧ i1 < g.i1max) ∧ g.i2min ≤ i2 ∧ i2 < g.i2max :=
  mem_box

/-- `sr::Faraday` leaves the magnetic flux out of every cell unchanged. -/
theorem faradaySR_divB {M : CMetric K} {g : CGrid} (hM : Polar M g) {coeff : K} {m m' : Mem K}
    (h : Launch (rangeActive g) (faradaySR M g coeff) m m') {i1 i2 : Int}
    (h1 : g.i1min ≤ i1) (h1' : i1 + 1 < g.i1max) (h2 : g.i2min ≤ i2) (h2' : i2 < g.i2max)
    (hup : i2 + 1 < g.i2max ∨ g.axisHi = true) :
    divB M g emA m' i1 i2 = divB M g emA m i1 i2 := by
  have hin : [i1, i2] ∈ rangeActive g := mem_active.2 ⟨⟨h1, by omega⟩, h2, h2'⟩
  have hin1 : [i1 + 1, i2] ∈ rangeActive g := mem_active.2 ⟨⟨by omega, h1'⟩, h2, h2'⟩
  have e1 := faradaySR_flux1 h hin1 (hM.face1 _ _ h2 h2')
  have e2 := faradaySR_flux1 h hin (hM.face1 _ _ h2 h2')
  have e3 : M.sqrtDet (coord g i1 + 1 / 2) (coord g (i2 + 1)) * m' (fL emA .bx2 i1 (i2 + 1)) =
      M.sqrtDet (coord g i1 + 1 / 2) (coord g (i2 + 1)) * m (fL emA .bx2 i1 (i2 + 1)) + coeff *
        (M.h33 (coord g i1 + 1) (coord g (i2 + 1)) * m (fL emA .ex3 (i1 + 1) (i2 + 1)) -
          M.h33 (coord g i1) (coord g (i2 + 1)) * m (fL emA .ex3 i1 (i2 + 1))) := by
    by_cases hlt : i2 + 1 < g.i2max
    · exact faradaySR_flux2 h (mem_active.2 ⟨⟨h1, by omega⟩, by omega, hlt⟩) (.inl (by omega))
        (hM.face2 _ _ (by omega) hlt (.inl (by omega)))
    · have hx : i2 + 1 = g.i2max := by omega
      have hh := hM.hi (hup.resolve_left hlt)
      rw [hx, coord_i2max, (hh _).1, (hh _).2.1, (hh _).2.1]; ring
  have e4 : M.sqrtDet (coord g i1 + 1 / 2) (coord g i2) * m' (fL emA .bx2 i1 i2) =
      M.sqrtDet (coord g i1 + 1 / 2) (coord g i2) * m (fL emA .bx2 i1 i2) + coeff *
        (M.h33 (coord g i1 + 1) (coord g i2) * m (fL emA .ex3 (i1 + 1) i2) -
          M.h33 (coord g i1) (coord g i2) * m (fL emA .ex3 i1 i2)) := by
    by_cases ha : i2 ≠ g.i2min ∨ g.axisLo = false
    · exact faradaySR_flux2 h hin ha (hM.face2 _ _ h2 h2' ha)
    · push Not at ha
      have hh := hM.lo (by simpa using ha.2)
      rw [ha.1, coord_i2min, (hh _).1, (hh _).2.1, (hh _).2.1]; ring
  simp only [divB]
  rw [coord_succ g i1] at e1 ⊢
  rw [coord_succ g i2] at e3 ⊢
  linear_combination e1 - e2 + e3 - e4

end Entity.Curvi

namespace Entity.Curvi

open Entity.Kernel Entity.FieldSolver

variable {K : Type} [Field K]

/-- Flux through an `x1` face after `gr::Faraday`. -/
theorem faradayGR_flux1 {M : CMetric K} {g : CGrid} {bin bout e : Nat} (he : e ≠ bout) {coeff : K}
    {cells : List (List Int)} {m m' : Mem K} (h : Launch cells (faradayGR M g bin bout e coeff) m m')
    {i1 i2 : Int} (hc : [i1, i2] ∈ cells)
    (hs : M.sqrtDet (coord g i1) (coord g i2 + 1 / 2) ≠ 0) :
    M.sqrtDet (coord g i1) (coord g i2 + 1 / 2) * m' (fL bout .bx1 i1 i2) =
      M.sqrtDet (coord g i1) (coord g i2 + 1 / 2) * m (fL bin .bx1 i1 i2) + coeff *
        (m (fL e .ex3 i1 i2) - m (fL e .ex3 i1 (i2 + 1))) := by
  rw [launch_at (faradayGR_local _ M g he coeff) h (l := fL bout .bx1 i1 i2) hc]
  simp only [fL, faradayGR, List.cons_append, List.nil_append]
  split <;> simp [runBody, store, f, fL, Em.toNat, half] <;> field_simp

/-- Flux through an `x2` face off the lower axis after `gr::Faraday`. -/
theorem faradayGR_flux2 {M : CMetric K} {g : CGrid} {bin bout e : Nat} (he : e ≠ bout) {coeff : K}
    {cells : List (List Int)} {m m' : Mem K} (h : Launch cells (faradayGR M g bin bout e coeff) m m')
    {i1 i2 : Int} (hc : [i1, i2] ∈ cells) (ha : i2 ≠ g.i2min ∨ g.axisLo = false)
    (hs : M.sqrtDet (coord g i1 + 1 / 2) (coord g i2) ≠ 0) :
    M.sqrtDet (coord g i1 + 1 / 2) (coord g i2) * m' (fL bout .bx2 i1 i2) =
      M.sqrtDet (coord g i1 + 1 / 2) (coord g i2) * m (fL bin .bx2 i1 i2) + coeff *
        (m (fL e .ex3 (i1 + 1) i2) - m (fL e .ex3 i1 i2)) := by
  rw [launch_at (faradayGR_local _ M g he coeff) h (l := fL bout .bx2 i1 i2) hc]
  simp only [fL, faradayGR, List.cons_append, List.nil_append]
  rw [if_neg (by rintro ⟨h1, h2⟩; rcases ha with ha | ha; exacts [ha h1, by simp [h2] at ha])]
  simp [runBody, store, f, fL, Em.toNat, half, he]; field_simp

/-- `gr::Faraday` gives the output array the magnetic flux of the input array, if the covariant
azimuthal field vanishes on the axis. -/
theorem faradayGR_divB {M : CMetric K} {g : CGrid} (hM : Polar M g) {bin bout e : Nat} (he : e ≠ bout)
    {coeff : K} {m m' : Mem K} (h : Launch (rangeActive g) (faradayGR M g bin bout e coeff) m m')
    {i1 i2 : Int}
    (h1 : g.i1min ≤ i1) (h1' : i1 + 1 < g.i1max) (h2 : g.i2min ≤ i2) (h2' : i2 < g.i2max)
    (hup : i2 + 1 < g.i2max ∨ g.axisHi = true)
    (hlo : g.axisLo = true → m (fL e .ex3 i1 g.i2min) = 0 ∧ m (fL e .ex3 (i1 + 1) g.i2min) = 0)
    (hhi : g.axisHi = true → m (fL e .ex3 i1 g.i2max) = 0 ∧ m (fL e .ex3 (i1 + 1) g.i2max) = 0) :
    divB M g bout m' i1 i2 = divB M g bin m i1 i2 := by
  have hin : [i1, i2] ∈ rangeActive g := mem_active.2 ⟨⟨h1, by omega⟩, h2, h2'⟩
  have hin1 : [i1 + 1, i2] ∈ rangeActive g := mem_active.2 ⟨⟨by omega, h1'⟩, h2, h2'⟩
  have e1 := faradayGR_flux1 he h hin1 (hM.face1 _ _ h2 h2')
  have e2 := faradayGR_flux1 he h hin (hM.face1 _ _ h2 h2')
  have e3 : M.sqrtDet (coord g i1 + 1 / 2) (coord g (i2 + 1)) * m' (fL bout .bx2 i1 (i2 + 1)) =
      M.sqrtDet (coord g i1 + 1 / 2) (coord g (i2 + 1)) * m (fL bin .bx2 i1 (i2 + 1)) + coeff *
        (m (fL e .ex3 (i1 + 1) (i2 + 1)) - m (fL e .ex3 i1 (i2 + 1))) := by
    by_cases hlt : i2 + 1 < g.i2max
    · exact faradayGR_flux2 he h (mem_active.2 ⟨⟨h1, by omega⟩, by omega, hlt⟩) (.inl (by omega))
        (hM.face2 _ _ (by omega) hlt (.inl (by omega)))
    · have hx : i2 + 1 = g.i2max := by omega
      have hax := hup.resolve_left hlt
      rw [hx, coord_i2max, (hM.hi hax _).1, (hhi hax).1, (hhi hax).2]; ring
  have e4 : M.sqrtDet (coord g i1 + 1 / 2) (coord g i2) * m' (fL bout .bx2 i1 i2) =
      M.sqrtDet (coord g i1 + 1 / 2) (coord g i2) * m (fL bin .bx2 i1 i2) + coeff *
        (m (fL e .ex3 (i1 + 1) i2) - m (fL e .ex3 i1 i2)) := by
    by_cases ha : i2 ≠ g.i2min ∨ g.axisLo = false
    · exact faradayGR_flux2 he h hin ha (hM.face2 _ _ h2 h2' ha)
    · push Not at ha
      have hax : g.axisLo = true := by simpa using ha.2
      rw [ha.1, coord_i2min, (hM.lo hax _).1, (hlo hax).1, (hlo hax).2]; ring
  simp only [divB]
  rw [coord_succ g i1] at e1 ⊢
  rw [coord_succ g i2] at e3 ⊢
  linear_combination e1 - e2 + e3 - e4

/-- The covariant azimuthal field computed by `ComputeAuxE` vanishes on the axis. -/
theorem auxE_axis {M : CMetric K} {g : CGrid} {df bf : Nat}
    (hd : df ≠ auxA) (hb : bf ≠ auxA) {cells : List (List Int)} {m m' : Mem K}
    (h : Launch cells (auxE M g df bf) m m') {i1 i2 : Int} (hc : [i1, i2] ∈ cells)
    (hz : ∀ x, M.sqrtDet x (coord g i2) = 0 ∧ M.h33 x (coord g i2) = 0 ∧ M.h13 x (coord g i2) = 0) :
    m' (fL auxA .ex3 i1 i2) = 0 := by
  rw [launch_at (auxE_local _ M g hd hb) h (l := fL auxA .ex3 i1 i2) hc]
  simp [fL, auxE, runBody, store, f, wavg, Em.toNat, hz]

/-! ## The pieces of a step -/

/-- Cells whose flux is followed. -/
def Cell (g : CGrid) (a b i1 i2 : Int) : Prop :=
  (a ≤ i1 ∧ i1 + 1 < b) ∧ g.i2min ≤ i2 ∧ i2 < g.i2max ∧ (i2 + 1 < g.i2max ∨ g.axisHi = true)

/-- `divB` only depends on the magnetic field at active cells, off the axis. -/
theorem divB_congr {M : CMetric K} {g : CGrid} (hM : Polar M g) {A A' : Nat} {m m' : Mem K} {a b : Int}
    (h : ∀ (c : Em) i1 i2, (c = .bx1 ∨ c = .bx2 ∧ (i2 ≠ g.i2min ∨ g.axisLo = false)) → a ≤ i1 →
      i1 < b → g.i2min ≤ i2 → i2 < g.i2max → m' (fL A' c i1 i2) = m (fL A c i1 i2))
    {i1 i2 : Int} (hc : Cell g a b i1 i2) : divB M g A' m' i1 i2 = divB M g A m i1 i2 := by
  obtain ⟨⟨h1, h1'⟩, h2, h2', hup⟩ := hc
  have e3 : M.sqrtDet (coord g i1 + 1 / 2) (coord g (i2 + 1)) * m' (fL A' .bx2 i1 (i2 + 1)) =
      M.sqrtDet (coord g i1 + 1 / 2) (coord g (i2 + 1)) * m (fL A .bx2 i1 (i2 + 1)) := by
    by_cases hlt : i2 + 1 < g.i2max
    · rw [h .bx2 _ _ (.inr ⟨rfl, .inl (by omega)⟩) h1 (by omega) (by omega) hlt]
    · have hx : i2 + 1 = g.i2max := by omega
      rw [hx, coord_i2max, (hM.hi (hup.resolve_left hlt) _).1]; ring
  have e4 : M.sqrtDet (coord g i1 + 1 / 2) (coord g i2) * m' (fL A' .bx2 i1 i2) =
      M.sqrtDet (coord g i1 + 1 / 2) (coord g i2) * m (fL A .bx2 i1 i2) := by
    by_cases ha : i2 ≠ g.i2min ∨ g.axisLo = false
    · rw [h .bx2 _ _ (.inr ⟨rfl, ha⟩) h1 (by omega) h2 h2']
    · push Not at ha
      rw [ha.1, coord_i2min, (hM.lo (by simpa using ha.2) _).1]; ring
  simp only [divB]
  rw [e3, e4, h .bx1 _ _ (.inl rfl) h1 (by omega) h2 h2', h .bx1 _ _ (.inl rfl) (by omega) h1' h2 h2']

/-- The flux of array `A` is the same in all followed cells. -/
def SameB (M : CMetric K) (g : CGrid) (a b : Int) (A : Nat) (m m' : Mem K) : Prop :=
  ∀ i1 i2, Cell g a b i1 i2 → divB M g A m' i1 i2 = divB M g A m i1 i2

theorem SameB.trans {M : CMetric K} {g : CGrid} {a b : Int} {A : Nat} {m m1 m2 : Mem K}
    (h : SameB M g a b A m m1) (h' : SameB M g a b A m1 m2) : SameB M g a b A m m2 :=
  fun i1 i2 hc => (h' i1 i2 hc).trans (h i1 i2 hc)

theorem SameB.of_eq {M : CMetric K} {g : CGrid} (hM : Polar M g) {a b : Int} {A : Nat} {m m' : Mem K}
    (h : ∀ (c : Em) i1 i2, (c = .bx1 ∨ c = .bx2) → m' (fL A c i1 i2) = m (fL A c i1 i2)) :
    SameB M g a b A m m' :=
  fun _ _ hc => divB_congr hM (fun c i1 i2 h' _ _ _ _ =>
    h c i1 i2 (h'.elim Or.inl (fun h => Or.inr h.1))) hc

theorem keeps_sameB {M : CMetric K} {g : CGrid} (hM : Polar M g) {a b : Int} {arrs : List Nat} {A : Nat}
    (hA : A ∈ arrs) {m m' : Mem K} (h : Keeps g a b arrs m m') : SameB M g a b A m m' :=
  fun _ _ hc => divB_congr hM (fun _ _ _ _ h1 h2 h3 h4 => h A hA _ _ _ h1 h2 h3 (.inl h4)) hc

/-- What the axis kernel leaves alone. -/
theorem axis_other {g : CGrid} {P : Bool} {A : Nat} {e : Int} {setE setB : Bool} {m m' : Mem K}
    (h : Launch (rangeAll1 g) (axisBody P A e setE setB) m m') {l : Loc}
    (hl : ∀ i1, ∀ x ∈ axisBody (K := K) P A e setE setB [i1], x.dst ≠ l) : m' l = m l := by
  rw [launch_own (axis_owned _ P A e setE setB) h, resultOwn]
  split
  · rw [runBody_other]
    intro x hx
    rcases hw : own1 l.idx with _ | ⟨i1, _ | ⟨i2, _⟩⟩
    · rw [hw] at hx; simp [axisBody] at hx
    · rw [hw] at hx; exact hl i1 x hx
    · rw [hw] at hx; simp [axisBody] at hx
  · rfl

theorem axisBC_other {g : CGrid} {A : Nat} {setE setB : Bool} {m m' : Mem K}
    (h : axisBC g A setE setB m m') {l : Loc}
    (hlo : g.axisLo = true → ∀ i1, ∀ x ∈ axisBody (K := K) false A g.i2min setE setB [i1], x.dst ≠ l)
    (hhi : g.axisHi = true → ∀ i1, ∀ x ∈ axisBody (K := K) true A g.i2max setE setB [i1], x.dst ≠ l) :
    m' l = m l := by
  obtain ⟨m1, h1, m2, h2, rfl⟩ := h
  have e1 : m1 l = m l := by
    by_cases hx : g.axisLo = true
    · rw [if_pos hx] at h1; exact axis_other h1 (hlo hx)
    · rw [if_neg hx] at h1; rw [h1]
  refine Eq.trans ?_ e1
  by_cases hx : g.axisHi = true
  · rw [if_pos hx] at h2; exact axis_other h2 (hhi hx)
  · rw [if_neg hx] at h2; rw [h2]

theorem axis_dst {P : Bool} {A : Nat} {e i1 : Int} {setE setB : Bool} {x : Assign K}
    (hx : x ∈ axisBody P A e setE setB [i1]) :
    ∃ (c : Em) (k : Int), x.dst = fL A c i1 k ∧
      (P = false → k = e - 1 ∨ k = e ∧ (c = .ex3 ∨ c = .bx2)) ∧
      (P = true → k = e + 1 ∨ k = e ∧ c ≠ .ex1) ∧
      (c = .ex2 ∨ c = .ex3 → setE = true) ∧ (c = .bx1 ∨ c = .bx2 ∨ c = .bx3 → setB = true) ∧
      c ≠ .ex1 := by
  cases P <;> cases setE <;> cases setB <;> simp [axisBody] at hx
  all_goals first
    | (rcases hx with rfl | rfl | rfl | rfl | rfl | rfl | rfl <;>
        exact ⟨_, _, rfl, by simp, by simp, by simp, by simp, by simp⟩)
    | (rcases hx with rfl | rfl | rfl | rfl <;>
        exact ⟨_, _, rfl, by simp, by simp, by simp, by simp, by simp⟩)
    | (rcases hx with rfl | rfl | rfl <;>
        exact ⟨_, _, rfl, by simp, by simp, by simp, by simp, by simp⟩)

theorem Em.toNat_inj {c c' : Em} : c.toNat = c'.toNat ↔ c = c' := by
  cases c <;> cases c' <;> simp [Em.toNat]

theorem axisBC_arr {g : CGrid} {A A' : Nat} (hA : A' ≠ A) {setE setB : Bool} {m m' : Mem K}
    (h : axisBC g A setE setB m m') (c : Nat) (idx : List Int) :
    m' ⟨A', c, idx⟩ = m ⟨A', c, idx⟩ := by
  apply axisBC_other h <;> intro _ i1 x hx e <;> obtain ⟨c, k, hd, -⟩ := axis_dst hx <;>
    rw [hd] at e <;> simp only [fL, Loc.mk.injEq] at e <;> exact hA e.1.symm

theorem axisBC_sameB {M : CMetric K} {g : CGrid} (hM : Polar M g) {a b : Int} {A A' : Nat}
    {setE setB : Bool} {m m' : Mem K} (h : axisBC g A' setE setB m m') : SameB M g a b A m m' := by
  by_cases hA : A = A'
  · subst hA
    refine fun _ _ hc => divB_congr hM ?_ hc
    intro c i1 i2 hcc _ _ h1 h2
    apply axisBC_other h
    · intro hx k x hm e
      obtain ⟨c', k', hd, h', -⟩ := axis_dst hm
      rw [hd] at e
      simp only [fL, Loc.mk.injEq, List.cons.injEq, and_true, true_and] at e
      obtain ⟨e1, -, e2⟩ := e
      rw [Em.toNat_inj] at e1
      subst e1
      rcases h' rfl with hk | ⟨hk, hk'⟩
      · omega
      · rcases hcc with rfl | ⟨rfl, hcc | hcc⟩
        · simp at hk'
        · omega
        · rw [hx] at hcc; cases hcc
    · intro hx k x hm e
      obtain ⟨c', k', hd, -, h', -⟩ := axis_dst hm
      rw [hd] at e
      simp only [fL, Loc.mk.injEq, List.cons.injEq, and_true, true_and] at e
      obtain ⟨e1, -, e2⟩ := e
      rcases h' rfl with hk | ⟨hk, -⟩ <;> omega
  · exact SameB.of_eq hM (fun c i1 i2 _ => axisBC_arr hA h _ _)

theorem seq_cons {r : Rel K} {rs : List (Rel K)} {m m' : Mem K} :
    Seq (r :: rs) m m' ↔ ∃ m1, r m m1 ∧ Seq rs m1 m' := Iff.rfl

theorem seq_nil {m m' : Mem K} : Seq [] m m' ↔ m' = m := Iff.rfl

theorem seq_append (rs ss : List (Rel K)) {m m' : Mem K} :
    Seq (rs ++ ss) m m' ↔ ∃ m1, Seq rs m m1 ∧ Seq ss m1 m' := by
  induction rs generalizing m with
  | nil => simp [Seq]
  | cons r rs ih =>
    simp only [List.cons_append, Seq, ih]
    constructor
    · rintro ⟨m1, h1, m2, h2, h3⟩; exact ⟨m2, ⟨m1, h1, h2⟩, h3⟩
    · rintro ⟨m2, ⟨m1, h1, h2⟩, h3⟩; exact ⟨m1, h1, m2, h2, h3⟩

/-- A relation that every piece satisfies and that is transitive is satisfied by the whole. -/
theorem seq_all {P : Mem K → Mem K → Prop} (hr : ∀ m, P m m)
    (ht : ∀ m m1 m2, P m m1 → P m1 m2 → P m m2) {rs : List (Rel K)}
    (h : ∀ r ∈ rs, ∀ m m', r m m' → P m m') {m m' : Mem K} (hs : Seq rs m m') : P m m' := by
  induction rs generalizing m with
  | nil => rw [seq_nil.1 hs]; exact hr m
  | cons r rs ih =>
    obtain ⟨m1, h1, h2⟩ := hs
    exact ht _ _ _ (h r List.mem_cons_self _ _ h1)
      (ih (fun r hr => h r (List.mem_cons_of_mem _ hr)) h2)

theorem fieldBCs_sameB {M : CMetric K} {g : CGrid} (hM : Polar M g) {a b : Int} {all arrs : List Nat}
    {A : Nat} (hA : A ∈ all) {setE setB : Bool} {m m' : Mem K}
    (h : fieldBCs g a b all arrs setE setB m m') : SameB M g a b A m m' := by
  refine seq_all (P := SameB M g a b A) (fun _ _ _ _ => rfl) (fun _ _ _ => SameB.trans) ?_ h
  intro r hr m m' h
  simp only [List.mem_cons, List.mem_append, List.mem_map, List.mem_singleton, List.not_mem_nil,
    or_false] at hr
  rcases hr with (rfl | ⟨B, -, rfl⟩) | rfl
  · exact keeps_sameB hM hA h
  · exact axisBC_sameB hM h
  · exact keeps_sameB hM hA h

end Entity.Curvi
