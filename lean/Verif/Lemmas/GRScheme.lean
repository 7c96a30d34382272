import Verif.Lemmas.CurviGaussGR
import Verif.Lemmas.CurviAt
import Verif.Spec.GRScheme

/-!
# The GR step away from the boundaries
-/

namespace Entity.GRScheme

open Entity.Kernel Entity.FieldSolver Entity.Curvi

variable {K : Type} [Field K]

/-- Cells at least `k` cells away from the edges of the columns `a ≤ i1 < b` of the grid. -/
def Inner (g : CGrid) (a b : Int) (k : Nat) (i1 i2 : Int) : Prop :=
  a + k ≤ i1 ∧ i1 + k < b ∧ g.i2min + k ≤ i2 ∧ i2 + k < g.i2max

/-- The three components of array `A` from number `o` on are those of `F`. -/
def Ag (g : CGrid) (a b : Int) (A o : Nat) (F : Lat K) (k : Nat) (m : Mem K) : Prop :=
  ∀ i1 i2, Inner g a b k i1 i2 → m ⟨A, o, [i1, i2]⟩ = F.x i1 i2 ∧ m ⟨A, o + 1, [i1, i2]⟩ = F.y i1 i2 ∧
    m ⟨A, o + 2, [i1, i2]⟩ = F.z i1 i2

/-- The values of an array as a lattice function. -/
def rd (m : Mem K) (A o : Nat) : Lat K :=
  ⟨fun i j => m ⟨A, o, [i, j]⟩, fun i j => m ⟨A, o + 1, [i, j]⟩, fun i j => m ⟨A, o + 2, [i, j]⟩⟩

theorem ag_rd (g : CGrid) (a b : Int) (A o k : Nat) (m : Mem K) : Ag g a b A o (rd m A o) k m :=
  fun _ _ _ => ⟨rfl, rfl, rfl⟩

variable {M : CMetric K} {g : CGrid} {a b : Int} {m m' : Mem K} {p : StepPrm K} {A o k : Nat} {F : Lat K}

theorem Ag.mono {k' : Nat} (hk : k ≤ k') (h : Ag g a b A o F k m) : Ag g a b A o F k' m :=
  fun i1 i2 hi => h i1 i2 (by unfold Inner at *; omega)

theorem Ag.frame (h : Ag g a b A o F k m)
    (e : ∀ c, o ≤ c → c ≤ o + 2 → ∀ i1 i2, Inner g a b k i1 i2 → m' ⟨A, c, [i1, i2]⟩ = m ⟨A, c, [i1, i2]⟩) :
    Ag g a b A o F k m' := fun i1 i2 hi => by
  rw [e o le_rfl (by omega) _ _ hi, e (o + 1) (by omega) (by omega) _ _ hi,
    e (o + 2) (by omega) (by omega) _ _ hi]
  exact h i1 i2 hi

theorem Ag.arr (h : Ag g a b A o F k m) (e : ∀ c idx, m' ⟨A, c, idx⟩ = m ⟨A, c, idx⟩) :
    Ag g a b A o F k m' := h.frame fun _ _ _ _ _ _ => e _ _

/-! ### Boundary conditions and exchanges -/

theorem axis_keeps {A' c : Nat} {sE sB : Bool} (hk : 1 ≤ k) (h : axisBC g A' sE sB m m') {i1 i2 : Int}
    (hi : Inner g a b k i1 i2) : m' ⟨A, c, [i1, i2]⟩ = m ⟨A, c, [i1, i2]⟩ := by
  obtain ⟨-, -, q1, q2⟩ := hi
  by_cases hA : A = A'
  · subst hA
    apply axisBC_other h
    · intro hx k' x hm e
      obtain ⟨c', k'', hd, h', -, -, -, hne⟩ := axis_dst hm
      rw [hd] at e
      simp only [fL, Loc.mk.injEq, List.cons.injEq, and_true, true_and] at e
      obtain ⟨-, -, e2⟩ := e
      rcases h' rfl with hk' | ⟨hk', -⟩ <;> omega
    · intro hx k' x hm e
      obtain ⟨c', k'', hd, -, h', -, -, hne⟩ := axis_dst hm
      rw [hd] at e
      simp only [fL, Loc.mk.injEq, List.cons.injEq, and_true, true_and] at e
      obtain ⟨-, -, e2⟩ := e
      have := h' rfl
      omega
  · exact axisBC_arr hA h _ _

theorem fieldBCs_keeps {c : Nat} {all arrs : List Nat} (hA : A ∈ all) {sE sB : Bool} (hk : 1 ≤ k)
    (h : fieldBCs g a b all arrs sE sB m m') {i1 i2 : Int} (hi : Inner g a b k i1 i2) :
    m' ⟨A, c, [i1, i2]⟩ = m ⟨A, c, [i1, i2]⟩ := by
  refine seq_all (P := fun m m' => m' ⟨A, c, [i1, i2]⟩ = m ⟨A, c, [i1, i2]⟩) (fun _ => rfl)
    (fun _ _ _ h1 h2 => h2.trans h1) ?_ h
  intro r hr m m' h
  have hK : ∀ m m' : Mem K, Keeps g a b all m m' → m' ⟨A, c, [i1, i2]⟩ = m ⟨A, c, [i1, i2]⟩ :=
    fun m m' h => h A hA c i1 i2 (by have := hi.1; omega) (by have := hi.2.1; omega)
      (by have := hi.2.2.1; omega) (.inl (by have := hi.2.2.2; omega))
  simp only [List.mem_cons, List.mem_append, List.mem_map, List.not_mem_nil, or_false] at hr
  rcases hr with (rfl | ⟨B, -, rfl⟩) | rfl
  · exact hK _ _ h
  · exact axis_keeps hk h hi
  · exact hK _ _ h

theorem grBCs_keeps {c : Nat} (hA : A ∈ grArrs) {sE sB : Bool} (hk : 1 ≤ k)
    (h : grBCs g a b sE sB m m') {i1 i2 : Int} (hi : Inner g a b k i1 i2) :
    m' ⟨A, c, [i1, i2]⟩ = m ⟨A, c, [i1, i2]⟩ := by
  obtain ⟨m1, h1, m2, h2, rfl⟩ := h
  rw [fieldBCs_keeps hA hk h2 hi]
  exact h1 A hA c i1 i2 (by have := hi.1; omega) (by have := hi.2.1; omega)
      (by have := hi.2.2.1; omega) (.inl (by have := hi.2.2.2; omega))

/-! ### Kernels -/

theorem Inner.axisGR (ha : g.i1min ≤ a) (hb : b ≤ g.i1max) {i1 i2 : Int} (h : Inner g a b k i1 i2) :
    [i1, i2] ∈ rangeAxisGR g := by
  obtain ⟨h1, h2, h3, h4⟩ := h
  exact mem_rangeAxisGR (by omega) (by omega) (by omega) (.inl (by omega))

theorem Inner.ampere (ha : g.i1min ≤ a) (hb : b ≤ g.i1max) {i1 i2 : Int} (h : Inner g a b k i1 i2) :
    [i1, i2] ∈ rangeAmpereGR g := by
  obtain ⟨h1, h2, h3, h4⟩ := h
  exact mem_rangeAmpereGR.2 ⟨by omega, by omega⟩

theorem Inner.active (ha : g.i1min ≤ a) (hb : b ≤ g.i1max) {i1 i2 : Int} (h : Inner g a b k i1 i2) :
    [i1, i2] ∈ rangeActive g := by
  obtain ⟨h1, h2, h3, h4⟩ := h
  exact mem_active.2 ⟨by omega, by omega⟩

theorem Inner.offAxis {i1 i2 : Int} (h : Inner g a b (k + 1) i1 i2) : OffAxis g i2 := by
  obtain ⟨h1, h2, h3, h4⟩ := h
  exact ⟨by omega, by omega⟩

theorem Inner.shift {i1 i2 j1 j2 : Int} (h : Inner g a b (k + 1) i1 i2) (h1 : i1 - 1 ≤ j1) (h2 : j1 ≤ i1 + 1)
    (h3 : i2 - 1 ≤ j2) (h4 : j2 ≤ i2 + 1) : Inner g a b k j1 j2 := by
  unfold Inner at *; push_cast at h; omega

theorem add_half_half [CharZero K] (x : K) : x + 1 / 2 + 1 / 2 = x + 1 := by ring

theorem auxE_ag [CharZero K] {df bf : Nat} (hd : df ≠ auxA) (hb' : bf ≠ auxA) (ha : g.i1min ≤ a)
    (hb : b ≤ g.i1max) {D B : Lat K} (hD : Ag g a b df 0 D k m) (hB : Ag g a b bf 3 B k m)
    (h : Launch (rangeAxisGR g) (auxE M g df bf) m m') :
    Ag g a b auxA 0 (Efield M g D B) (k + 1) m' := by
  intro i1 i2 hi
  have hc := hi.axisGR ha hb
  have d0 := hD i1 i2 (hi.shift (by omega) (by omega) (by omega) (by omega))
  have dm := hD (i1 - 1) i2 (hi.shift (by omega) (by omega) (by omega) (by omega))
  have dp := hD (i1 + 1) i2 (hi.shift (by omega) (by omega) (by omega) (by omega))
  have b0 := hB i1 i2 (hi.shift (by omega) (by omega) (by omega) (by omega))
  have bm := hB (i1 - 1) i2 (hi.shift (by omega) (by omega) (by omega) (by omega))
  simp only [zero_add] at d0 dm dp
  norm_num only at b0 bm
  refine ⟨?_, ?_, ?_⟩
  · rw [launch_at (auxE_local _ M g hd hb') h (l := ⟨auxA, 0, [i1, i2]⟩) hc]
    simp only [auxE, Efield, wmean, add_half_half, add_sub_cancel_right, ← d0.1, ← d0.2.2, ← dp.2.2]
    simp [runBody, store, wavg, f, fL, Em.toNat, half, mul_assoc, hd, hb']
  · rw [launch_at (auxE_local _ M g hd hb') h (l := ⟨auxA, 0 + 1, [i1, i2]⟩) hc]
    simp only [auxE, Efield, wmean, GRScheme.shift, ← d0.2.1, ← b0.2.2, ← bm.2.2]
    simp [runBody, store, wavg, f, fL, Em.toNat, half, mul_assoc, hd, hb']
  · rw [launch_at (auxE_local _ M g hd hb') h (l := ⟨auxA, 0 + 2, [i1, i2]⟩) hc]
    simp only [auxE, Efield, wmean, GRScheme.shift, ← d0.2.2, ← d0.1, ← dm.1, ← b0.2.1, ← bm.2.1]
    simp [runBody, store, wavg, f, fL, Em.toNat, half, mul_assoc, hd, hb']

theorem auxH_ag [CharZero K] {df bf : Nat} (hd : df ≠ auxA) (hb' : bf ≠ auxA) (ha : g.i1min ≤ a)
    (hb : b ≤ g.i1max) {D B : Lat K} (hD : Ag g a b df 0 D k m) (hB : Ag g a b bf 3 B k m)
    (h : Launch (rangeAxisGR g) (auxH M g df bf) m m') :
    Ag g a b auxA 3 (Hfield M g D B) (k + 1) m' := by
  intro i1 i2 hi
  have hc := hi.axisGR ha hb
  have d0 := hD i1 i2 (hi.shift (by omega) (by omega) (by omega) (by omega))
  have dp := hD (i1 + 1) i2 (hi.shift (by omega) (by omega) (by omega) (by omega))
  have b0 := hB i1 i2 (hi.shift (by omega) (by omega) (by omega) (by omega))
  have bm := hB (i1 - 1) i2 (hi.shift (by omega) (by omega) (by omega) (by omega))
  have bp := hB (i1 + 1) i2 (hi.shift (by omega) (by omega) (by omega) (by omega))
  simp only [zero_add] at d0 dp
  norm_num only at b0 bm bp
  refine ⟨?_, ?_, ?_⟩
  · rw [launch_at (auxH_local _ M g hd hb') h (l := ⟨auxA, 3, [i1, i2]⟩) hc]
    simp only [auxH, Hfield, wmean, ← b0.1, ← b0.2.2, ← bm.2.2]
    simp [runBody, store, wavg, f, fL, Em.toNat, half, mul_assoc, hd, hb']
  · rw [launch_at (auxH_local _ M g hd hb') h (l := ⟨auxA, 3 + 1, [i1, i2]⟩) hc]
    simp only [auxH, Hfield, wmean, GRScheme.shift, add_half_half, add_sub_cancel_right, ← b0.2.1, ← d0.2.2,
      ← dp.2.2]
    simp [runBody, store, wavg, f, fL, Em.toNat, half, mul_assoc, hd, hb']
  · rw [launch_at (auxH_local _ M g hd hb') h (l := ⟨auxA, 3 + 2, [i1, i2]⟩) hc]
    simp only [auxH, Hfield, wmean, GRScheme.shift, add_half_half, add_sub_cancel_right, ← b0.2.2, ← b0.1,
      ← bp.1, ← d0.2.1, ← dp.2.1]
    simp [runBody, store, wavg, f, fL, Em.toNat, half, mul_assoc, hd, hb']

theorem faraday_ag {bin bout : Nat} (he : auxA ≠ bout) (ha : g.i1min ≤ a) (hb : b ≤ g.i1max) {coeff : K}
    {B E : Lat K} (hB : Ag g a b bin 3 B k m) (hE : Ag g a b auxA 0 E k m)
    (h : Launch (rangeActive g) (faradayGR M g bin bout auxA coeff) m m') :
    Ag g a b bout 3 (B.addMul (-coeff) (curlE M g E)) (k + 1) m' := by
  intro i1 i2 hi
  have hc := hi.active ha hb
  have hr := hi.offAxis
  have b0 := hB i1 i2 (hi.shift (by omega) (by omega) (by omega) (by omega))
  have e0 := hE i1 i2 (hi.shift (by omega) (by omega) (by omega) (by omega))
  have e1 := hE (i1 + 1) i2 (hi.shift (by omega) (by omega) (by omega) (by omega))
  have e2 := hE i1 (i2 + 1) (hi.shift (by omega) (by omega) (by omega) (by omega))
  simp only [zero_add] at e0 e1 e2
  norm_num only at b0
  refine ⟨?_, ?_, ?_⟩
  · rw [launch_at (faradayGR_local _ M g he coeff) h (l := ⟨bout, 3, [i1, i2]⟩) hc]
    simp only [faradayGR, Lat.addMul, curlE, ← b0.1, ← e0.2.2, ← e2.2.2]
    rw [if_neg hr.1]
    simp [runBody, store, f, fL, Em.toNat, half]
    ring
  · rw [launch_at (faradayGR_local _ M g he coeff) h (l := ⟨bout, 3 + 1, [i1, i2]⟩) hc]
    simp only [faradayGR, Lat.addMul, curlE, ← b0.2.1, ← e0.2.2, ← e1.2.2]
    rw [if_neg hr.1]
    simp [runBody, store, f, fL, Em.toNat, half, he]
    ring
  · rw [launch_at (faradayGR_local _ M g he coeff) h (l := ⟨bout, 3 + 2, [i1, i2]⟩) hc]
    simp only [faradayGR, Lat.addMul, curlE, ← b0.2.2, ← e0.1, ← e0.2.1, ← e1.2.1, ← e2.1]
    rw [if_neg hr.1]
    simp [runBody, store, f, fL, Em.toNat, half, he]
    ring

theorem ampere_ag {din dout : Nat} (he : auxA ≠ dout) (ha : g.i1min ≤ a) (hb : b ≤ g.i1max) {coeff : K}
    {D H : Lat K} (hD : Ag g a b din 0 D k m) (hH : Ag g a b auxA 3 H k m)
    (h : Launch (rangeAmpereGR g) (ampereGR M g din dout auxA coeff) m m') :
    Ag g a b dout 0 (D.addMul coeff (curlH M g H)) (k + 1) m' := by
  intro i1 i2 hi
  have hc := hi.ampere ha hb
  have hr := hi.offAxis
  have d0 := hD i1 i2 (hi.shift (by omega) (by omega) (by omega) (by omega))
  have e0 := hH i1 i2 (hi.shift (by omega) (by omega) (by omega) (by omega))
  have e1 := hH (i1 - 1) i2 (hi.shift (by omega) (by omega) (by omega) (by omega))
  have e2 := hH i1 (i2 - 1) (hi.shift (by omega) (by omega) (by omega) (by omega))
  simp only [zero_add] at d0
  norm_num only at e0 e1 e2
  have L := (launch_on (ampereGR_on _ M g (din := din) he coeff) h).1
  refine ⟨?_, ?_, ?_⟩
  · rw [L ⟨dout, 0, [i1, i2]⟩ hc (.inr ⟨i1, i2, rfl, hr⟩)]
    simp only [ampereGR, Lat.addMul, curlH, ← d0.1, ← e0.2.2, ← e2.2.2]
    rw [if_neg hr.1, if_neg hr.2]
    simp [runBody, store, f, fL, Em.toNat, half]
    ring
  · rw [L ⟨dout, 0 + 1, [i1, i2]⟩ hc (.inr ⟨i1, i2, rfl, hr⟩)]
    simp only [ampereGR, Lat.addMul, curlH, ← d0.2.1, ← e0.2.2, ← e1.2.2]
    rw [if_neg hr.1, if_neg hr.2]
    simp [runBody, store, f, fL, Em.toNat, half, he]
    ring
  · rw [L ⟨dout, 0 + 2, [i1, i2]⟩ hc (.inr ⟨i1, i2, rfl, hr⟩)]
    simp only [ampereGR, Lat.addMul, curlH, ← d0.2.2, ← e0.1, ← e0.2.1, ← e1.2.1, ← e2.1]
    rw [if_neg hr.1, if_neg hr.2]
    simp [runBody, store, f, fL, Em.toNat, half, he]
    ring

theorem currents_ag {jA : Nat} (hj : jA ≠ em0A) (ha : g.i1min ≤ a) (hb : b ≤ g.i1max) {coeff : K}
    {D J : Lat K} (hD : Ag g a b em0A 0 D (k + 1) m) (hJ : Ag g a b jA 0 J (k + 1) m)
    (h : Launch (rangeAmpereGR g) (currentsGR M g em0A jA coeff) m m') :
    Ag g a b em0A 0 (D.addMul coeff (density M g J)) (k + 1) m' := by
  intro i1 i2 hi
  have hc := hi.ampere ha hb
  have hr := hi.offAxis
  have d0 := hD i1 i2 hi
  have j0 := hJ i1 i2 hi
  simp only [zero_add] at d0 j0
  refine ⟨?_, ?_, ?_⟩
  · rw [launch_at (currentsGR_local _ M g hj coeff) h (l := ⟨em0A, 0, [i1, i2]⟩) hc]
    simp only [currentsGR, Lat.addMul, density, ← d0.1, ← j0.1]
    rw [if_neg hr.1, if_neg hr.2]
    simp [runBody, store, plusEq, j, jL, fL, Em.toNat, Cc.toNat, half]
    ring
  · rw [launch_at (currentsGR_local _ M g hj coeff) h (l := ⟨em0A, 0 + 1, [i1, i2]⟩) hc]
    simp only [currentsGR, Lat.addMul, density, ← d0.2.1, ← j0.2.1]
    rw [if_neg hr.1, if_neg hr.2]
    simp [runBody, store, plusEq, j, jL, fL, Em.toNat, Cc.toNat, half, hj]
    ring
  · rw [launch_at (currentsGR_local _ M g hj coeff) h (l := ⟨em0A, 0 + 2, [i1, i2]⟩) hc]
    simp only [currentsGR, Lat.addMul, density, ← d0.2.2, ← j0.2.2]
    rw [if_neg hr.1, if_neg hr.2]
    simp [runBody, store, plusEq, j, jL, fL, Em.toNat, Cc.toNat, half, hj]
    ring

theorem timeAvgDB_ag (ha : g.i1min ≤ a) (hb : b ≤ g.i1max) {F0 F : Lat K} (ho : o = 0 ∨ o = 3)
    (h0 : Ag g a b em0A o F0 k m) (h1 : Ag g a b emA o F k m) (h : grTimeAvgDB g m m') :
    Ag g a b em0A o (Lat.mid F0 F) k m' := by
  intro i1 i2 hi
  have hc := hi.active ha hb
  have q0 := h0 i1 i2 hi
  have q1 := h1 i1 i2 hi
  have t := fun c => timeAvgDB_at h hc c
  simp only [Lat.mid, ← q0.1, ← q0.2.1, ← q0.2.2, ← q1.1, ← q1.2.1, ← q1.2.2]
  rcases ho with rfl | rfl
  · refine ⟨(t .ex1).trans ?_, (t .ex2).trans ?_, (t .ex3).trans ?_⟩ <;> simp only [fL, Em.toNat] <;> ring_nf
  · refine ⟨(t .bx1).trans ?_, (t .bx2).trans ?_, (t .bx3).trans ?_⟩ <;> simp only [fL, Em.toNat] <;> ring_nf

theorem timeAvgJ_ag (ha : g.i1min ≤ a) (hb : b ≤ g.i1max) {F0 F : Lat K}
    (h0 : Ag g a b cur0A 0 F0 k m) (h1 : Ag g a b curA 0 F k m) (h : grTimeAvgJ g m m') :
    Ag g a b curA 0 (Lat.mid F F0) k m' := by
  intro i1 i2 hi
  have hc := hi.active ha hb
  have q0 := h0 i1 i2 hi
  have q1 := h1 i1 i2 hi
  have t : ∀ c : Cc, m' (jL curA c i1 i2) = 1 / 2 * (m (jL cur0A c i1 i2) + m (jL curA c i1 i2)) := by
    intro c
    rw [launch_at (timeAvgJ_local _) h (l := jL curA c i1 i2) hc]
    cases c <;> simp [jL, timeAvgJ, runBody, store, j, curA, cur0A, Cc.toNat, half]
  simp only [Lat.mid, ← q0.1, ← q0.2.1, ← q0.2.2, ← q1.1, ← q1.2.1, ← q1.2.2]
  refine ⟨(t .jx1).trans ?_, (t .jx2).trans ?_, (t .jx3).trans ?_⟩ <;> simp only [jL, Cc.toNat] <;> ring_nf

theorem grFaraday_E (hk : o = 0) {fr : K} {kd : GrFaraday} (hE : Ag g a b em0A o F k m)
    (h : grFaraday M g p fr kd m m') : Ag g a b em0A o F k m' := by
  subst hk
  refine hE.frame fun c _ h2 i1 i2 _ => ?_
  have : ¬ 3 ≤ c := by omega
  cases kd
  · exact launch_other (faradayGR_local _ M g (bin := em0A) (bout := em0A) (e := auxA) (by decide) _) h
      (by simp [comps, this])
  · exact launch_other (faradayGR_local _ M g (bin := emA) (bout := em0A) (e := auxA) (by decide) _) h
      (by simp [comps, this])

theorem grAmpere_B {fr : K} {kd : GrAmpere} {A : Nat} (hE : Ag g a b A 3 F k m)
    (h : grAmpere M g p fr kd m m') : Ag g a b A 3 F k m' := by
  refine hE.frame fun c h1 _ i1 i2 _ => ?_
  have : ¬ c < 3 := by omega
  cases kd
  · exact (launch_on (ampereGR_on _ M g (din := emA) (dout := emA) (h := auxA) (by decide) _) h).2 _
      (.inr (by simp [comps, this]))
  · exact (launch_on (ampereGR_on _ M g (din := em0A) (dout := em0A) (h := auxA) (by decide) _) h).2 _
      (.inr (by simp [comps, this]))
  · exact (launch_on (ampereGR_on _ M g (din := emA) (dout := em0A) (h := auxA) (by decide) _) h).2 _
      (.inr (by simp [comps, this]))

theorem grCurrents_B {jA : Nat} (hj : jA ≠ em0A) (hE : Ag g a b em0A 3 F k m)
    (h : grCurrents M g p jA m m') : Ag g a b em0A 3 F k m' := by
  refine hE.frame fun c h1 _ i1 i2 _ => ?_
  have : ¬ c < 3 := by omega
  exact launch_other (currentsGR_local _ M g hj _) h (by simp [comps, this])

theorem grAuxE_H {kd : GetE} (hE : Ag g a b auxA 3 F k m) (h : grAuxE M g kd m m') :
    Ag g a b auxA 3 F k m' := by
  refine hE.frame fun c h1 _ i1 i2 _ => ?_
  have : ¬ c < 3 := by omega
  cases kd
  · exact launch_other (auxE_local _ M g (df := em0A) (bf := emA) (by decide) (by decide)) h
      (by simp [comps, this])
  · exact launch_other (auxE_local _ M g (df := emA) (bf := em0A) (by decide) (by decide)) h
      (by simp [comps, this])

theorem Ag.bc (hA : A ∈ grArrs) (hk : 1 ≤ k) {sE sB : Bool} (h : grBCs g a b sE sB m m')
    (hF : Ag g a b A o F k m) : Ag g a b A o F k m' :=
  hF.frame fun _ _ _ _ _ hi => grBCs_keeps hA hk h hi

theorem Ag.comm (hA : A ∈ grArrs) (h : grCommAux g a b m m')
    (hF : Ag g a b A o F k m) : Ag g a b A o F k m' :=
  hF.frame fun c _ _ i1 i2 hi => h A hA c i1 i2 (by have := hi.1; omega) (by have := hi.2.1; omega)
      (by have := hi.2.2.1; omega) (.inl (by have := hi.2.2.2; omega))

/-- The lattice function of the deposited currents. -/
def ofJ (J : Cc → Int → Int → K) : Lat K := ⟨J .jx1, J .jx2, J .jx3⟩

theorem swap_em (h : grSwap m m') (hF : Ag g a b em0A o F k m) : Ag g a b emA o F k m' :=
  fun i1 i2 hi => by simp only [h ⟨emA, _, _⟩]; exact hF i1 i2 hi

theorem swap_em0 (h : grSwap m m') (hF : Ag g a b emA o F k m) : Ag g a b em0A o F k m' :=
  fun i1 i2 hi => by simp only [h ⟨em0A, _, _⟩]; exact hF i1 i2 hi

theorem swap_cur (h : grSwap m m') (hF : Ag g a b cur0A o F k m) : Ag g a b curA o F k m' :=
  fun i1 i2 hi => by simp only [h ⟨curA, _, _⟩]; exact hF i1 i2 hi

/-- The part of the step before the currents are known. -/
theorem main_first [CharZero K] (ha : g.i1min ≤ a) (hb : b ≤ g.i1max) {s : Fields K}
    {m1 m2 m3 m4 m5 m6 m7 : Mem K}
    (hD : Ag g a b emA 0 s.D (k + 1) m) (hB : Ag g a b emA 3 s.B (k + 1) m) (hD0 : Ag g a b em0A 0 s.D0 (k + 1) m)
    (hB0 : Ag g a b em0A 3 s.B0 (k + 1) m) (hJ : Ag g a b curA 0 s.J (k + 1) m)
    (h1 : grTimeAvgDB g m m1) (h2 : grAuxE M g .D0_B m1 m2) (h3 : grCommAux g a b m2 m3)
    (h4 : grFaraday M g p 1 .aux m3 m4) (h5 : grBCs g a b false true m4 m5)
    (h6 : grAuxH M g .D_B0 m5 m6) (h7 : grCommAux g a b m6 m7) :
    Ag g a b emA 0 s.D (k + 3) m7 ∧ Ag g a b emA 3 s.B (k + 3) m7 ∧ Ag g a b em0A 0 (Lat.mid s.D0 s.D) (k + 3) m7 ∧
    Ag g a b em0A 3 (Bcentred M g p s) (k + 3) m7 ∧
    Ag g a b auxA 3 (Hfield M g s.D (Bcentred M g p s)) (k + 4) m7 ∧ Ag g a b curA 0 s.J (k + 3) m7 := by
  have i1 : emA ∈ grArrs := by simp [grArrs]
  have i2 : em0A ∈ grArrs := by simp [grArrs]
  have i3 : auxA ∈ grArrs := by simp [grArrs]
  have i4 : curA ∈ grArrs := by simp [grArrs]
  have D0m := timeAvgDB_ag ha hb (.inl rfl) hD0 hD h1
  have B0m := timeAvgDB_ag ha hb (.inr rfl) hB0 hB h1
  have D1 := hD.arr (grTimeAvgDB_arr (by decide) h1)
  have B1 := hB.arr (grTimeAvgDB_arr (by decide) h1)
  have J1 := hJ.arr (grTimeAvgDB_arr (by decide) h1)
  have E2 := (auxE_ag (M := M) (by decide) (by decide) ha hb D0m B1 h2).comm i3 h3
  have fr : ∀ {A o k F}, A ∈ grArrs → A ≠ auxA → Ag g a b A o F k m1 → Ag g a b A o F k m3 :=
    fun hA hne h => (h.arr (grAuxE_arr hne h2)).comm hA h3
  have Bc : Ag g a b em0A 3 (Bcentred M g p s) (k + 3) m5 := by
    have := (faraday_ag (M := M) (by decide) ha hb ((fr i2 (by decide) B0m).mono (by omega)) E2 h4).bc i2
      (by omega) h5
    simpa only [one_mul, Bcentred] using this
  have gr : ∀ {A o F}, A ∈ grArrs → A ≠ auxA → A ≠ em0A → Ag g a b A o F (k + 1) m1 → Ag g a b A o F (k + 3) m5 :=
    fun hA hne hne' h => ((((fr hA hne h).mono (by omega)).arr (grFaraday_arr hne' h4)).bc hA (by omega) h5)
  have D5 := gr i1 (by decide) (by decide) D1
  have B5 := gr i1 (by decide) (by decide) B1
  have J5 := gr i4 (by decide) (by decide) J1
  have D05 : Ag g a b em0A 0 (Lat.mid s.D0 s.D) (k + 3) m5 :=
    ((grFaraday_E rfl (fr i2 (by decide) D0m) h4).mono (by omega)).bc i2 (by omega) h5
  have hr : ∀ {A o k F}, A ∈ grArrs → A ≠ auxA → Ag g a b A o F k m5 → Ag g a b A o F k m7 :=
    fun hA hne h => (h.arr (grAuxH_arr hne h6)).comm hA h7
  exact ⟨hr i1 (by decide) D5, hr i1 (by decide) B5, hr i2 (by decide) D05, hr i2 (by decide) Bc,
    (auxH_ag (by decide) (by decide) ha hb D5 Bc h6).comm i3 h7, hr i4 (by decide) J5⟩

/-- From the push of the particles to Ampere's law for the field at `n + ½`. -/
theorem main_second [CharZero K] (ha : g.i1min ≤ a) (hb : b ≤ g.i1max) {s : Fields K} {Dm : Lat K}
    {m8 m9 m10 m11 m12 : Mem K} (hD : Ag g a b emA 0 s.D (k + 3) m) (hB : Ag g a b emA 3 s.B (k + 3) m)
    (hDm : Ag g a b em0A 0 Dm (k + 3) m) (hBc : Ag g a b em0A 3 (Bcentred M g p s) (k + 3) m)
    (hH : Ag g a b auxA 3 (Hfield M g s.D (Bcentred M g p s)) (k + 4) m)
    (h8 : grAuxE M g .D_B0 m m8) (h9 : grCommAux g a b m8 m9)
    (h10 : grFaraday M g p 1 .main m9 m10) (h11 : grBCs g a b false true m10 m11)
    (h12 : grAmpere M g p 1 .aux m11 m12) :
    Ag g a b emA 0 s.D (k + 5) m12 ∧ Ag g a b emA 3 s.B (k + 5) m12 ∧
    Ag g a b em0A 0 (Dm.addMul (p.correction * p.dt)
      (curlH M g (Hfield M g s.D (Bcentred M g p s)))) (k + 5) m12 ∧
    Ag g a b em0A 3 (Bnext M g p s) (k + 5) m12 ∧
    (∀ {A F}, A ∈ grArrs → A ≠ auxA → A ≠ em0A → Ag g a b A 0 F (k + 3) m → Ag g a b A 0 F (k + 5) m12) := by
  have i1 : emA ∈ grArrs := by simp [grArrs]
  have i2 : em0A ∈ grArrs := by simp [grArrs]
  have i3 : auxA ∈ grArrs := by simp [grArrs]
  have E9 := (auxE_ag (M := M) (by decide) (by decide) ha hb hD hBc h8).comm i3 h9
  have fr : ∀ {A o k F}, A ∈ grArrs → A ≠ auxA → Ag g a b A o F k m → Ag g a b A o F k m9 :=
    fun hA hne h => (h.arr (grAuxE_arr hne h8)).comm hA h9
  have Bn : Ag g a b em0A 3 (Bnext M g p s) (k + 5) m11 := by
    have := (faraday_ag (M := M) (by decide) ha hb ((fr i1 (by decide) hB).mono (by omega)) E9 h10).bc i2
      (by omega) h11
    simpa only [one_mul, Bnext] using this
  have gr : ∀ {A o F k}, A ∈ grArrs → A ≠ em0A → 1 ≤ k → Ag g a b A o F k m9 → Ag g a b A o F k m11 :=
    fun hA hne hk h => (h.arr (grFaraday_arr hne h10)).bc hA hk h11
  have D11 := gr i1 (by decide) (by omega) (fr i1 (by decide) hD)
  have B11 := gr i1 (by decide) (by omega) (fr i1 (by decide) hB)
  have H11 := gr i3 (by decide) (by omega) ((grAuxE_H hH h8).comm i3 h9)
  have Dm11 := (grFaraday_E rfl (fr i2 (by decide) hDm) h10).bc i2 (by omega) h11
  have D12 : Ag g a b em0A 0 (Dm.addMul (p.correction * p.dt)
      (curlH M g (Hfield M g s.D (Bcentred M g p s)))) (k + 5) m12 := by
    have := ampere_ag (M := M) (by decide) ha hb (Dm11.mono (by omega)) H11 h12
    simpa only [one_mul] using this
  refine ⟨(D11.mono (by omega)).arr (grAmpere_arr (by decide) (by simp) h12),
    (B11.mono (by omega)).arr (grAmpere_arr (by decide) (by simp) h12), D12, grAmpere_B Bn h12, ?_⟩
  intro A F hA hne hne' h
  exact ((gr hA hne' (by omega) (fr hA hne h)).mono (by omega)).arr
    (grAmpere_arr hne' (by simp) h12)

/-- The last part: the full step of `D`. -/
theorem main_third [CharZero K] (ha : g.i1min ≤ a) (hb : b ≤ g.i1max) {s : Fields K} {Dc Bn : Lat K}
    {m13 m14 m15 m16 : Mem K} (hD : Ag g a b emA 0 s.D (k + 5) m) (hB : Ag g a b emA 3 s.B (k + 5) m)
    (hDc : Ag g a b em0A 0 Dc (k + 5) m) (hBn : Ag g a b em0A 3 Bn (k + 5) m)
    (h13 : grBCs g a b true false m m13) (h14 : grAuxH M g .D0_B0 m13 m14)
    (h15 : grCommAux g a b m14 m15) (h16 : grAmpere M g p 1 .main m15 m16) :
    Ag g a b emA 0 s.D (k + 7) m16 ∧ Ag g a b emA 3 s.B (k + 7) m16 ∧
    Ag g a b em0A 0 (s.D.addMul (p.correction * p.dt) (curlH M g (Hfield M g Dc Bn))) (k + 7) m16 ∧
    Ag g a b em0A 3 Bn (k + 7) m16 ∧
    (∀ {A F}, A ∈ grArrs → A ≠ auxA → A ≠ em0A → Ag g a b A 0 F (k + 5) m → Ag g a b A 0 F (k + 7) m16) := by
  have i1 : emA ∈ grArrs := by simp [grArrs]
  have i2 : em0A ∈ grArrs := by simp [grArrs]
  have i3 : auxA ∈ grArrs := by simp [grArrs]
  have fr : ∀ {A o F}, A ∈ grArrs → A ≠ auxA → Ag g a b A o F (k + 5) m → Ag g a b A o F (k + 6) m15 :=
    fun hA hne h => (((h.bc hA (by omega) h13).arr (grAuxH_arr hne h14)).comm hA h15).mono (by omega)
  have H15 := (auxH_ag (M := M) (by decide) (by decide) ha hb (hDc.bc i2 (by omega) h13)
    (hBn.bc i2 (by omega) h13) h14).comm i3 h15
  have D16 := ampere_ag (M := M) (by decide) ha hb (fr i1 (by decide) hD) H15 h16
  have gr : ∀ {A o F}, A ∈ grArrs → A ≠ auxA → A ≠ em0A → Ag g a b A o F (k + 5) m → Ag g a b A o F (k + 7) m16 :=
    fun hA hne hne' h => ((fr hA hne h).arr (grAmpere_arr hne' (by simp) h16)).mono (by omega)
  refine ⟨gr i1 (by decide) (by decide) hD, gr i1 (by decide) (by decide) hB, ?_,
    (grAmpere_B (fr i2 (by decide) hBn) h16).mono (by omega), fun hA hne hne' h => gr hA hne hne' h⟩
  simpa only [one_mul] using D16

/-- One step of the GR engine (after the preparation of the first one), `k + 7` cells away from the edges. -/
theorem grMain_ag [CharZero K] (ha : g.i1min ≤ a) (hb : b ≤ g.i1max) {s : Fields K}
    {J : Option (Cc → Int → Int → K)}
    (hD : Ag g a b emA 0 s.D (k + 1) m) (hB : Ag g a b emA 3 s.B (k + 1) m) (hD0 : Ag g a b em0A 0 s.D0 (k + 1) m)
    (hB0 : Ag g a b em0A 3 s.B0 (k + 1) m) (hJ : Ag g a b curA 0 s.J (k + 1) m) (h : grMain M g p a b J m m') :
    Ag g a b emA 0 (Dnext M g p s (J.map ofJ)) (k + 7) m' ∧ Ag g a b emA 3 (Bnext M g p s) (k + 7) m' ∧
    Ag g a b em0A 0 s.D (k + 7) m' ∧ Ag g a b em0A 3 s.B (k + 7) m' ∧
    ∀ J', J = some J' → Ag g a b curA 0 (ofJ J') (k + 7) m' := by
  have i1 : emA ∈ grArrs := by simp [grArrs]
  have i2 : em0A ∈ grArrs := by simp [grArrs]
  have i4 : curA ∈ grArrs := by simp [grArrs]
  have i5 : cur0A ∈ grArrs := by simp [grArrs]
  cases J with
  | none =>
    obtain ⟨m1, h1, m2, h2, m3, h3, m4, h4, m5, h5, m6, h6, m7, h7, m8, h8, m9, h9, m10, h10, m11, h11,
      m12, h12, m13, h13, m14, h14, m15, h15, m16, h16, m17, h17, m18, h18, rfl⟩ := h
    obtain ⟨x1, x2, x3, x4, x5, -⟩ := main_first ha hb hD hB hD0 hB0 hJ h1 h2 h3 h4 h5 h6 h7
    obtain ⟨y1, y2, y3, y4, -⟩ := main_second ha hb x1 x2 x3 x4 x5 h8 h9 h10 h11 h12
    obtain ⟨z1, z2, z3, z4, -⟩ := main_third ha hb y1 y2 y3 y4 h13 h14 h15 h16
    exact ⟨(swap_em h17 z3).bc i1 (by omega) h18, (swap_em h17 z4).bc i1 (by omega) h18,
      (swap_em0 h17 z1).bc i2 (by omega) h18, (swap_em0 h17 z2).bc i2 (by omega) h18, fun _ e => nomatch e⟩
  | some J =>
    obtain ⟨m1, h1, m2, h2, m3, h3, m4, h4, m5, h5, m6, h6, m7, h7, md, hd, mj, hj,
      m8, h8, m9, h9, m10, h10, m11, h11, m12, h12, mc, hc,
      m13, h13, m14, h14, m15, h15, m16, h16, me, he, m17, h17, m18, h18, rfl⟩ := h
    obtain ⟨x1, x2, x3, x4, x5, x6⟩ := main_first ha hb hD hB hD0 hB0 hJ h1 h2 h3 h4 h5 h6 h7
    have dep : ∀ {A o F k}, A ∈ [emA, em0A, auxA, curA] → Ag g a b A o F k m7 → Ag g a b A o F k md :=
      fun hA h => h.arr (hd.2 _ hA)
    have jd : Ag g a b cur0A 0 (ofJ J) (k + 3) md := fun i1 i2 _ => ⟨hd.1 .jx1 i1 i2, hd.1 .jx2 i1 i2, hd.1 .jx3 i1 i2⟩
    have jm := timeAvgJ_ag ha hb jd (dep (by simp) x6) hj
    have avg : ∀ {A o F k}, A ≠ curA → Ag g a b A o F k md → Ag g a b A o F k mj :=
      fun hA h => h.arr (grTimeAvgJ_arr hA hj)
    obtain ⟨y1, y2, y3, y4, y5⟩ := main_second ha hb (avg (by decide) (dep (by simp) x1))
      (avg (by decide) (dep (by simp) x2)) (avg (by decide) (dep (by simp) x3))
      (avg (by decide) (dep (by simp) x4)) (avg (by decide) (dep (by simp) x5)) h8 h9 h10 h11 h12
    have jm' := y5 i4 (by decide) (by decide) jm
    have j0' := y5 i5 (by decide) (by decide) (avg (by decide) jd)
    have c3 := currents_ag (M := M) (k := k + 4) (by decide) ha hb y3 jm' hc
    have cr : ∀ {A o F k}, A ≠ em0A → Ag g a b A o F k m12 → Ag g a b A o F k mc :=
      fun hA h => h.arr (grCurrents_arr (by decide) hA hc)
    obtain ⟨z1, z2, z3, z4, z5⟩ := main_third ha hb (cr (by decide) y1) (cr (by decide) y2) c3
      (grCurrents_B (by decide) y4 hc) h13 h14 h15 h16
    have j0'' := z5 i5 (by decide) (by decide) (cr (by decide) j0')
    have e3 := currents_ag (M := M) (k := k + 6) (by decide) ha hb z3 j0'' he
    have er : ∀ {A o F k}, A ≠ em0A → Ag g a b A o F k m16 → Ag g a b A o F k me :=
      fun hA h => h.arr (grCurrents_arr (by decide) hA he)
    refine ⟨?_, (swap_em h17 (grCurrents_B (by decide) z4 he)).bc i1 (by omega) h18,
      (swap_em0 h17 (er (by decide) z1)).bc i2 (by omega) h18,
      (swap_em0 h17 (er (by decide) z2)).bc i2 (by omega) h18, ?_⟩
    · have := (swap_em h17 e3).bc i1 (by omega) h18
      simpa only [Dnext, Dcentred, source, Option.map_some, neg_mul, neg_div] using this
    · intro J' e
      obtain rfl := Option.some.inj e
      exact (swap_cur h17 (er (by decide) j0'')).bc i4 (by omega) h18

/-- The preparation of the first step. -/
theorem grInit_ag [CharZero K] (ha : g.i1min ≤ a) (hb : b ≤ g.i1max) {D B J0 : Lat K}
    (hD : Ag g a b emA 0 D (k + 1) m) (hB : Ag g a b emA 3 B (k + 1) m)
    (hJ : Ag g a b cur0A 0 J0 (k + 1) m) (h : grInit M g p a b m m') :
    Ag g a b emA 0 (firstFields M g p D B J0).D (k + 7) m' ∧
    Ag g a b emA 3 (firstFields M g p D B J0).B (k + 7) m' ∧
    Ag g a b em0A 0 (firstFields M g p D B J0).D0 (k + 7) m' ∧
    Ag g a b em0A 3 (firstFields M g p D B J0).B0 (k + 7) m' ∧
    Ag g a b curA 0 (firstFields M g p D B J0).J (k + 7) m' := by
  have i1 : emA ∈ grArrs := by simp [grArrs]
  have i2 : em0A ∈ grArrs := by simp [grArrs]
  have i3 : auxA ∈ grArrs := by simp [grArrs]
  have i5 : cur0A ∈ grArrs := by simp [grArrs]
  obtain ⟨m1, h1, m2, h2, m3, h3, m4, h4, m5, h5, m6, h6, m7, h7, m8, h8, m9, h9, m10, h10, m11, h11,
    m12, h12, m13, h13, m14, h14, m15, h15, m16, h16, m17, h17, m18, h18, m19, h19, m20, h20, m21, h21, rfl⟩ := h
  -- boundaries and copy
  have D1 := hD.bc i1 (by omega) h1
  have B1 := hB.bc i1 (by omega) h1
  have J1 := hJ.bc i5 (by omega) h1
  have c0 : ∀ {o F k}, Ag g a b emA o F k m1 → Ag g a b em0A o F k m2 := fun h i1 i2 hi => by
    simp only [h2 ⟨em0A, _, _⟩]; exact h i1 i2 hi
  have c1 : ∀ {A o F k}, A ≠ em0A → Ag g a b A o F k m1 → Ag g a b A o F k m2 := fun hA h i1 i2 hi => by
    simp only [h2 ⟨_, _, _⟩, hA, if_false]; exact h i1 i2 hi
  have D2 := c1 (by decide) D1
  have B2 := c1 (by decide) B1
  have d2 := c0 D1
  have b2 := c0 B1
  have J2 := c1 (by decide) J1
  -- E and H at -1/2
  have a5 : ∀ {A o F k}, A ∈ grArrs → A ≠ auxA → Ag g a b A o F k m2 → Ag g a b A o F k m5 :=
    fun hA hne h => ((h.arr (grAuxE_arr hne h3)).arr (grAuxH_arr hne h4)).comm hA h5
  have E5 : Ag g a b auxA 0 (Efield M g D B) (k + 2) m5 := by
    refine Ag.comm i3 h5 ((auxE_ag (M := M) (by decide) (by decide) ha hb D2 b2 h3).frame ?_)
    intro c _ hc i1 i2 _
    have : ¬ 3 ≤ c := by omega
    exact launch_other (auxH_local _ M g (df := emA) (bf := em0A) (by decide) (by decide)) h4
      (by simp [comps, this])
  have H5 : Ag g a b auxA 3 (Hfield M g D B) (k + 2) m5 :=
    (auxH_ag (M := M) (by decide) (by decide) ha hb (D2.arr (grAuxE_arr (by decide) h3))
      (b2.arr (grAuxE_arr (by decide) h3)) h4).comm i3 h5
  -- B at 0
  have b7 := (faraday_ag (M := M) (by decide) ha hb ((a5 i2 (by decide) b2).mono (by omega)) E5 h6).bc i2
    (by omega) h7
  have f7 : ∀ {A o F k}, A ∈ grArrs → A ≠ em0A → 1 ≤ k → Ag g a b A o F k m5 → Ag g a b A o F k m7 :=
    fun hA hne hk h => (h.arr (grFaraday_arr hne h6)).bc hA hk h7
  have D7 := f7 i1 (by decide) (by omega) (a5 i1 (by decide) D2)
  have B7 := f7 i1 (by decide) (by omega) (a5 i1 (by decide) B2)
  have J7 := f7 i5 (by decide) (by omega) (a5 i5 (by decide) J2)
  have H7 := f7 i3 (by decide) (by omega) H5
  have d7 := (grFaraday_E rfl (a5 i2 (by decide) d2) h6).bc i2 (by omega) h7
  -- D at 0
  have D9 := (ampere_ag (M := M) (by decide) ha hb (D7.mono (by omega)) H7 h8).bc i1 (by omega) h9
  have g9 : ∀ {A o F k}, A ∈ grArrs → A ≠ em0A → A ≠ emA → 1 ≤ k → Ag g a b A o F k m7 →
      Ag g a b A o F k m9 :=
    fun hA hne hne' hk h => (h.arr (grAmpere_arr hne (fun _ => hne') h8)).bc hA hk h9
  have B9 := (grAmpere_B B7 h8).bc i1 (by omega) h9
  have b9 := (grAmpere_B b7 h8).bc i2 (by omega) h9
  have J9 := g9 i5 (by decide) (by decide) (by omega) J7
  have d9 : Ag g a b em0A 0 D (k + 1) m9 := by
    refine (d7.frame fun c _ _ i1 i2 _ => ?_).bc i2 (by omega) h9
    exact (launch_on (ampereGR_on _ M g (din := emA) (dout := emA) (h := auxA) (by decide) _) h8).2 _
      (.inr (by simp [comps, emA, em0A]))
  -- E and H at 0
  have a12 : ∀ {A o F k}, A ∈ grArrs → A ≠ auxA → Ag g a b A o F k m9 → Ag g a b A o F k m12 :=
    fun hA hne h => ((h.arr (grAuxE_arr hne h10)).arr (grAuxH_arr hne h11)).comm hA h12
  have E12 := ((auxE_ag (M := M) (by decide) (by decide) ha hb D9 b9 h10).frame (m' := m11) (by
    intro c _ hc i1 i2 _
    have : ¬ 3 ≤ c := by omega
    exact launch_other (auxH_local _ M g (df := emA) (bf := em0A) (by decide) (by decide)) h11
      (by simp [comps, this]))).comm i3 h12
  have H12 := (auxH_ag (M := M) (by decide) (by decide) ha hb (D9.arr (grAuxE_arr (by decide) h10))
      (b9.arr (grAuxE_arr (by decide) h10)) h11).comm i3 h12
  -- B at 1/2
  have b14 := (faraday_ag (M := M) (by decide) ha hb ((a12 i1 (by decide) B9).mono (by omega)) E12 h13).bc i2
    (by omega) h14
  have f14 : ∀ {A o F k}, A ∈ grArrs → A ≠ em0A → 1 ≤ k → Ag g a b A o F k m12 → Ag g a b A o F k m14 :=
    fun hA hne hk h => (h.arr (grFaraday_arr hne h13)).bc hA hk h14
  have D14 := f14 i1 (by decide) (by omega) (a12 i1 (by decide) D9)
  have B14 := f14 i1 (by decide) (by omega) (a12 i1 (by decide) B9)
  have J14 := f14 i5 (by decide) (by omega) (a12 i5 (by decide) J9)
  have H14 := f14 i3 (by decide) (by omega) H12
  have d14 := (grFaraday_E rfl (a12 i2 (by decide) d9) h13).bc i2 (by omega) h14
  -- D at 1/2
  have d16 := (ampere_ag (M := M) (by decide) ha hb (d14.mono (by omega)) H14 h15).bc i2 (by omega) h16
  have g16 : ∀ {A o F k}, A ∈ grArrs → A ≠ em0A → 1 ≤ k → Ag g a b A o F k m14 → Ag g a b A o F k m16 :=
    fun hA hne hk h => (h.arr (grAmpere_arr hne (by simp) h15)).bc hA hk h16
  have D16 := g16 i1 (by decide) (by omega) D14
  have B16 := g16 i1 (by decide) (by omega) B14
  have J16 := g16 i5 (by decide) (by omega) J14
  have b16 := (grAmpere_B b14 h15).bc i2 (by omega) h16
  -- H at 1/2 and D at 1
  have a18 : ∀ {A o F k}, A ∈ grArrs → A ≠ auxA → Ag g a b A o F k m16 → Ag g a b A o F k m18 :=
    fun hA hne h => (h.arr (grAuxH_arr hne h17)).comm hA h18
  have H18 := (auxH_ag (M := M) (by decide) (by decide) ha hb d16 b16 h17).comm i3 h18
  have d20 := (ampere_ag (M := M) (by decide) ha hb ((a18 i1 (by decide) D16).mono (by omega)) H18 h19).bc
    i2 (by omega) h20
  have g20 : ∀ {A o F k}, A ∈ grArrs → A ≠ em0A → 1 ≤ k → Ag g a b A o F k m18 → Ag g a b A o F k m20 :=
    fun hA hne hk h => (h.arr (grAmpere_arr hne (by simp) h19)).bc hA hk h20
  have D20 := g20 i1 (by decide) (by omega) (a18 i1 (by decide) D16)
  have B20 := g20 i1 (by decide) (by omega) (a18 i1 (by decide) B16)
  have J20 := g20 i5 (by decide) (by omega) (a18 i5 (by decide) J16)
  have b20 := (grAmpere_B (a18 i2 (by decide) b16) h19).bc i2 (by omega) h20
  have e1 : half * p.correction * p.dt = 1 / 2 * (p.correction * p.dt) := by rw [half, mul_assoc]
  have e2 : 1 * p.correction * p.dt = p.correction * p.dt := by rw [one_mul]
  simp only [e1, e2] at d20 D20 b20
  exact ⟨swap_em h21 d20, (swap_em h21 b20).mono (by omega), (swap_em0 h21 D20).mono (by omega),
    (swap_em0 h21 B20).mono (by omega), (swap_cur h21 J20).mono (by omega)⟩

/-! ### The SR engine on curvilinear grids -/

theorem Inner.axisSR (ha : g.i1min ≤ a) (hb : b ≤ g.i1max) {i1 i2 : Int} (h : Inner g a b k i1 i2) :
    [i1, i2] ∈ rangeAxisSR g := by
  obtain ⟨h1, h2, h3, h4⟩ := h
  exact mem_rangeAxisSR (by omega) (by omega) (by omega) (.inl (by omega))

theorem coord_succ (i : Int) : (coord g (i + 1) : K) = coord g i + 1 := by
  simp only [coord]; push_cast; ring

theorem coord_pred_half [CharZero K] (i : Int) : (coord g (i - 1) : K) + 1 / 2 = coord g i - 1 / 2 := by
  simp only [coord]; push_cast; ring

theorem faradaySR_ag (ha : g.i1min ≤ a) (hb : b ≤ g.i1max) {coeff : K}
    {B E : Lat K} (hB : Ag g a b emA 3 B k m) (hE : Ag g a b emA 0 E k m)
    (h : Launch (rangeActive g) (faradaySR M g coeff) m m') :
    Ag g a b emA 3 (B.addMul (-coeff) (curlE M g (lowerE M g E))) (k + 1) m' := by
  intro i1 i2 hi
  have hc := hi.active ha hb
  have hr := hi.offAxis
  have b0 := hB i1 i2 (hi.shift (by omega) (by omega) (by omega) (by omega))
  have e0 := hE i1 i2 (hi.shift (by omega) (by omega) (by omega) (by omega))
  have e1 := hE (i1 + 1) i2 (hi.shift (by omega) (by omega) (by omega) (by omega))
  have e2 := hE i1 (i2 + 1) (hi.shift (by omega) (by omega) (by omega) (by omega))
  obtain ⟨q1, q2, q3⟩ := faradaySR_at h hc
  have hax : i2 ≠ g.i2min ∨ g.axisLo = false := by
    by_contra hn
    simp only [not_or, not_not, Bool.not_eq_false] at hn
    exact hr.1 hn
  rw [if_pos hax] at q2
  simp only [fL, Em.toNat] at q1 q2 q3
  refine ⟨q1.trans ?_, q2.trans ?_, q3.trans ?_⟩
  all_goals
    simp only [Lat.addMul, curlE, lowerE, coord_succ, ← b0.1, ← b0.2.1, ← b0.2.2, ← e0.1, ← e0.2.1, ← e0.2.2,
      ← e1.2.1, ← e1.2.2, ← e2.1, ← e2.2.2]
    ring

theorem ampereSR_ag [CharZero K] (ha : g.i1min ≤ a) (hb : b ≤ g.i1max) {coeff : K}
    {E B : Lat K} (hE : Ag g a b emA 0 E k m) (hB : Ag g a b emA 3 B k m)
    (h : Launch (rangeAxisSR g) (ampereSR M g coeff) m m') :
    Ag g a b emA 0 (E.addMul coeff (curlH M g (lowerB M g B))) (k + 1) m' := by
  intro i1 i2 hi
  have hc := hi.axisSR ha hb
  have hr := hi.offAxis
  have d0 := hE i1 i2 (hi.shift (by omega) (by omega) (by omega) (by omega))
  have e0 := hB i1 i2 (hi.shift (by omega) (by omega) (by omega) (by omega))
  have e1 := hB (i1 - 1) i2 (hi.shift (by omega) (by omega) (by omega) (by omega))
  have e2 := hB i1 (i2 - 1) (hi.shift (by omega) (by omega) (by omega) (by omega))
  obtain ⟨q1, q2, q3⟩ := ampereSR_at h hc hr
  simp only [fL, Em.toNat] at q1 q2 q3
  refine ⟨q1.trans ?_, q2.trans ?_, q3.trans ?_⟩
  all_goals
    simp only [Lat.addMul, curlH, lowerB, coord_pred_half, ← d0.1, ← d0.2.1, ← d0.2.2, ← e0.1, ← e0.2.1,
      ← e0.2.2, ← e1.2.1, ← e1.2.2, ← e2.1, ← e2.2.2]
    ring

theorem currentsSR_ag (ha : g.i1min ≤ a) (hb : b ≤ g.i1max) {coeff inv_n0 : K}
    {E J : Lat K} (hE : Ag g a b emA 0 E (k + 1) m) (hJ : Ag g a b curA 0 J (k + 1) m)
    (h : Launch (rangeAxisSR g) (currentsSR M g coeff inv_n0) m m') :
    Ag g a b emA 0 (E.addMul (coeff * inv_n0) (density M g J)) (k + 1) m' := by
  intro i1 i2 hi
  have hc := hi.axisSR ha hb
  have hr := hi.offAxis
  have d0 := hE i1 i2 hi
  have j0 := hJ i1 i2 hi
  simp only [zero_add] at d0 j0
  have L := fun c => launch_at (currentsSR_local _ M g coeff inv_n0) h (l := ⟨emA, c, [i1, i2]⟩) hc
  refine ⟨(L 0).trans ?_, (L 1).trans ?_, (L 2).trans ?_⟩
  all_goals
    simp only [currentsSR, Lat.addMul, density, ← d0.1, ← d0.2.1, ← d0.2.2, ← j0.1, ← j0.2.1, ← j0.2.2]
    rw [if_neg hr.1, if_neg hr.2]
    simp [runBody, store, plusEq, timesEq, j, jL, fL, Em.toNat, Cc.toNat, half, emA, curA]
    ring

/-- One step of the SR engine on a curvilinear grid, `k + 4` cells away from the edges. -/
theorem srStep_ag [CharZero K] (ha : g.i1min ≤ a) (hb : b ≤ g.i1max) (hn : p.n0 ≠ 0)
    {J : Option (Cc → Int → Int → K)} {E B : Lat K}
    (hE : Ag g a b emA 0 E (k + 1) m) (hB : Ag g a b emA 3 B (k + 1) m) (h : srStep M g p a b J m m') :
    Ag g a b emA 0 (EnextSR M g p E B (J.map ofJ)) (k + 4) m' ∧
    Ag g a b emA 3 (BnextSR M g p E B) (k + 4) m' := by
  have i1 : emA ∈ [emA, curA] := by simp
  have i2 : curA ∈ [emA, curA] := by simp
  have hk : ∀ {A o F k} {m m' : Mem K}, A ∈ [emA, curA] → Keeps g a b [emA, curA] m m' →
      Ag g a b A o F k m → Ag g a b A o F k m' := fun hA h hF =>
    hF.frame fun c _ _ i1 i2 hi => h _ hA c i1 i2 (by have := hi.1; omega) (by have := hi.2.1; omega)
      (by have := hi.2.2.1; omega) (.inl (by have := hi.2.2.2; omega))
  have hf : ∀ {A o F k sE sB} {m m' : Mem K}, A ∈ [emA, curA] → 1 ≤ k →
      fieldBCs g a b [emA, curA] [emA] sE sB m m' → Ag g a b A o F k m → Ag g a b A o F k m' :=
    fun hA hk h hF => hF.frame fun c _ _ i1 i2 hi => fieldBCs_keeps hA hk h hi
  have fE : ∀ {F k fr} {m m' : Mem K}, srFaraday M g p fr m m' → Ag g a b emA 0 F k m →
      Ag g a b emA 0 F k m' := fun h hF => hF.frame fun c _ hc i1 i2 _ => by
    have : ¬ 3 ≤ c := by omega
    exact launch_other (faradaySR_local _ M g _) h (by simp [comps, this])
  have fJ : ∀ {F k fr} {m m' : Mem K}, srFaraday M g p fr m m' → Ag g a b curA 0 F k m →
      Ag g a b curA 0 F k m' := fun h hF => hF.arr fun c idx =>
    launch_other (faradaySR_local _ M g _) h (by simp [comps, emA, curA])
  have aB : ∀ {F k} {m m' : Mem K}, srAmpere M g p 1 m m' → Ag g a b emA 3 F k m →
      Ag g a b emA 3 F k m' := fun h hF => hF.frame fun c hc _ i1 i2 _ => by
    have : ¬ c < 3 := by omega
    exact launch_other (ampereSR_local _ M g _) h (by simp [comps, this])
  have aJ : ∀ {F k} {m m' : Mem K}, srAmpere M g p 1 m m' → Ag g a b curA 0 F k m →
      Ag g a b curA 0 F k m' := fun h hF => hF.arr fun c idx =>
    launch_other (ampereSR_local _ M g _) h (by simp [comps, emA, curA])
  have cB : ∀ {F k} {m m' : Mem K}, srCurrents M g p m m' → Ag g a b emA 3 F k m →
      Ag g a b emA 3 F k m' := fun h hF => hF.frame fun c hc _ i1 i2 _ => by
    have : ¬ c < 3 := by omega
    exact launch_other (currentsSR_local _ M g _ _) h (by simp [comps, this])
  have two : ∀ F : Lat K, ∀ G : Lat K, (F.addMul (-(half * p.correction * p.dt)) G).addMul
      (-(half * p.correction * p.dt)) G = F.addMul (-(p.correction * p.dt)) G := by
    intro F G
    ext <;> simp only [Lat.addMul, half] <;> ring
  have one : (1 : K) * p.correction * p.dt = p.correction * p.dt := by rw [one_mul]
  cases J with
  | none =>
    obtain ⟨m1, h1, m2, h2, m3, h3, m4, h4, m5, h5, m6, h6, m7, h7, m8, h8, m9, h9, rfl⟩ := h
    have B3 := hf i1 (by omega) h3 (hk i1 h2 (faradaySR_ag ha hb hB hE h1))
    have E3 := hf i1 (by omega) h3 (hk i1 h2 (fE h1 hE))
    have B6 := hf i1 (by omega) h6 (hk i1 h5 (faradaySR_ag ha hb B3 (E3.mono (by omega)) h4))
    have E6 := hf i1 (by omega) h6 (hk i1 h5 (fE h4 E3))
    rw [two] at B6
    have E7 := ampereSR_ag ha hb (E6.mono (by omega)) B6 h7
    rw [one] at E7
    exact ⟨hf i1 (by omega) h9 (hk i1 h8 E7),
      (hf i1 (by omega) h9 (hk i1 h8 (aB h7 B6))).mono (by omega)⟩
  | some J =>
    obtain ⟨m1, h1, m2, h2, m3, h3, md, hd, m4, h4, m5, h5, m6, h6, m7, h7, mc, hc, m8, h8, m9, h9, rfl⟩ := h
    have B3 := (hf i1 (by omega) h3 (hk i1 h2 (faradaySR_ag ha hb hB hE h1))).arr (hd.2 emA (by simp))
    have E3 := (hf i1 (by omega) h3 (hk i1 h2 (fE h1 hE))).arr (hd.2 emA (by simp))
    have Jd : Ag g a b curA 0 (ofJ J) (k + 4) md :=
      fun i1 i2 _ => ⟨hd.1 .jx1 i1 i2, hd.1 .jx2 i1 i2, hd.1 .jx3 i1 i2⟩
    have B6 := hf i1 (by omega) h6 (hk i1 h5 (faradaySR_ag ha hb B3 (E3.mono (by omega)) h4))
    have E6 := hf i1 (by omega) h6 (hk i1 h5 (fE h4 E3))
    have J6 := hf i2 (by omega) h6 (hk i2 h5 (fJ h4 Jd))
    rw [two] at B6
    have E7 := ampereSR_ag ha hb (E6.mono (by omega)) B6 h7
    rw [one] at E7
    have Ec := currentsSR_ag (M := M) (k := k + 3) ha hb E7 (aJ h7 J6) hc
    have e : -p.dt * p.q0 * p.n0 / p.B0 * (1 / p.n0) = -(p.dt * p.q0 / p.B0) := by field_simp
    rw [e] at Ec
    exact ⟨hf i1 (by omega) h9 (hk i1 h8 Ec),
      (hf i1 (by omega) h9 (hk i1 h8 (cB hc (aB h7 B6)))).mono (by omega)⟩

end Entity.GRScheme
