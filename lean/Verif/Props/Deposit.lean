import Verif.Lemmas.EsirkepovDiv

/-!
# C29, C30: the deposited current satisfies the discrete continuity equation

Specification: the charge density of a set of particles is the sum over the particles that are not
dead of weight times charge times the product over the axes of the cardinal B-spline of the distance
to the node — linear weights for the zigzag scheme, the spline of degree `O` for the Esirkepov scheme
of order `O`.  The discrete divergence at a node is the sum over the axes of the difference of the
flux on the two sides of the node.  Arrays are indexed including `NG` ghost cells.
-/

namespace Entity.Deposit

open Entity Entity.Push Entity.Shapes Entity.Tags

variable {K : Type} [Field K] [LinearOrder K] [IsStrictOrderedRing K]

/-! ## Specification -/

/-- Degree of the shape of a particle: linear for the zigzag scheme. -/
def degree (O : Nat) : Nat := if O = 0 then 1 else O

/-- Charge at array index `n` of a particle placed at `pos` of each of its axes. -/
def chargeAt (deg : Nat) (NG : Int) (charge : K) (pos : Ax K → K) (n : List Int) (p : DPrtl K) : K :=
  if p.tag = dead then 0
  else p.weight * charge *
    (List.zipWith (fun a k => bspline deg (pos a - ((k - NG : Int) : K))) p.ax n).prod

/-- Charge density of a set of particles. -/
def rho (deg : Nat) (NG : Int) (charge : K) (pos : Ax K → K) (ps : List (DPrtl K)) (n : List Int) :
    K := (ps.map (chargeAt deg NG charge pos n)).sum

/-- Discrete divergence at index `n` of the flux `T`. -/
def div (T : Cur K) (n : List Int) : K :=
  ((List.range n.length).map (fun d => T d n - T d (n.modify d (· - 1)))).sum

/-- A particle the kernel may meet: dead, or on a `D`-dimensional grid with offsets in `[0, 1]` and
a displacement below one cell along every axis. -/
def Fit (D : Nat) (p : DPrtl K) : Prop :=
  p.tag = dead ∨ (p.ax.length = D ∧ ∀ a ∈ p.ax, FitAx a)

/-- The particle does not move along one of its axes. -/
def Planar (p : DPrtl K) : Prop := ∃ a ∈ p.ax, a.i = a.iPrev ∧ a.dx = a.dxPrev

/-! ## One particle -/

theorem div_add (S T : Cur K) (n : List Int) : div (fun c k => S c k + T c k) n = div S n + div T n := by
  unfold div
  rw [← List.sum_map_add]
  congr 1
  apply List.map_congr_left
  intro d _; ring

theorem div_one (T : Cur K) (n : Int) : div T [n] = T 0 [n] - T 0 [n - 1] := by
  simp [div, List.range_succ]

theorem div_two (T : Cur K) (n m : Int) :
    div T [n, m] = (T 0 [n, m] - T 0 [n - 1, m]) + (T 1 [n, m] - T 1 [n, m - 1]) := by
  simp [div, List.range_succ]

theorem div_three (T : Cur K) (n m l : Int) :
    div T [n, m, l] = (T 0 [n, m, l] - T 0 [n - 1, m, l]) + (T 1 [n, m, l] - T 1 [n, m - 1, l]) +
      (T 2 [n, m, l] - T 2 [n, m, l - 1]) := by
  simp [div, List.range_succ, add_assoc]

/-- From one particle to a launch. -/
theorem launch {O deg : Nat} {NG : Int} {charge dt : K} {n : List Int} : ∀ {ps : List (DPrtl K)}
    {us : List (Upd K)}, depositAll O NG charge dt ps = .ok us →
    (∀ p ∈ ps, ∀ vs, depositOne O NG charge dt p = .ok vs →
      div (total vs) n = -(chargeAt deg NG charge xNew n p - chargeAt deg NG charge xOld n p) / dt) →
    div (total us) n = -(rho deg NG charge xNew ps n - rho deg NG charge xOld ps n) / dt := by
  intro ps
  induction ps with
  | nil =>
    intro us h _
    simp only [depositAll, Outcome.ok.injEq] at h
    subst h
    simp [div, rho]
  | cons p ps ih =>
    intro us h hp
    simp only [depositAll] at h
    obtain ⟨vs, h1, h⟩ := Outcome.bind_eq_ok.mp h
    obtain ⟨ws, h2, h⟩ := Outcome.bind_eq_ok.mp h
    simp only [Outcome.pure_eq, Outcome.ok.injEq] at h
    subst h
    have e : total (vs ++ ws) = fun c k => total vs c k + total ws c k := by
      funext c k; exact total_append _ _ _ _
    rw [e, div_add, ih h2 (fun q hq => hp q (List.mem_cons_of_mem _ hq)),
      hp p List.mem_cons_self vs h1]
    simp only [rho, List.map_cons, List.sum_cons]; ring

theorem dead_case {O deg : Nat} {NG : Int} {charge dt : K} {n : List Int} {p : DPrtl K}
    (h : p.tag = dead) {vs : List (Upd K)} (hv : depositOne O NG charge dt p = .ok vs) :
    div (total vs) n = -(chargeAt deg NG charge xNew n p - chargeAt deg NG charge xOld n p) / dt := by
  simp only [depositOne, h, if_true, Outcome.ok.injEq] at hv
  subst hv
  simp [div, chargeAt, h]

theorem linNew {a : Ax K} (h : FitAx a) (NG n : Int) :
    lin (a.i + NG) a.dx n = bspline 1 (xNew a - ((n - NG : Int) : K)) := by
  rw [lin_eq _ _ _ h.n0 h.n1, xNew]; congr 1; push_cast; ring

theorem linOld {a : Ax K} (h : FitAx a) (NG n : Int) :
    lin (a.iPrev + NG) a.dxPrev n = bspline 1 (xOld a - ((n - NG : Int) : K)) := by
  rw [lin_eq _ _ _ h.p0 h.p1, xOld]; congr 1; push_cast; ring

theorem zigzag_one {D : Nat} {NG : Int} {charge dt : K} {n : List Int} (hn : n.length = D)
    {p : DPrtl K} (hp : Fit D p) (hd : p.tag = dead ∨ D = 1 ∨ D = 2 ∨ Planar p) {vs : List (Upd K)}
    (hv : depositOne 0 NG charge dt p = .ok vs) :
    div (total vs) n = -(chargeAt 1 NG charge xNew n p - chargeAt 1 NG charge xOld n p) / dt := by
  rcases hp with hp | ⟨hl, hf⟩
  · exact dead_case hp hv
  by_cases ht : p.tag = dead
  · exact dead_case ht hv
  have hd := hd.resolve_left ht
  subst hn
  simp only [depositOne, if_neg ht] at hv
  simp only [chargeAt, if_neg ht]
  rcases hax : p.ax with _ | ⟨a, _ | ⟨b, _ | ⟨c, _ | ⟨e, r⟩⟩⟩⟩ <;> rw [hax] at hv hl hf <;>
    simp only [reduceCtorEq, Outcome.ok.injEq] at hv <;> subst hv
  · match n, hl with
    | [n], _ =>
      have ha := hf a (by simp)
      rw [div_one, zigzag1_div _ _ _ _ _ _ ha.cells, linNew ha, linOld ha]
      simp only [List.zipWith_cons_cons, List.zipWith_nil_left, List.prod_cons, List.prod_nil]
      ring
  · match n, hl with
    | [n, m], _ =>
      have ha := hf a (by simp)
      have hb := hf b (by simp)
      rw [div_two, zigzag2_div _ _ _ _ _ _ ha.cells hb.cells, linNew ha, linOld ha, linNew hb,
        linOld hb]
      simp only [List.zipWith_cons_cons, List.zipWith_nil_left, List.prod_cons, List.prod_nil]
      ring
  · match n, hl with
    | [n, m, l], _ =>
      have ha := hf a (by simp)
      have hb := hf b (by simp)
      have hc := hf c (by simp)
      obtain ⟨r1, s1, e1, q1, t1, -⟩ := zzAxis_spec a (p.weight * charge * (1 / dt)) ha.cells
      obtain ⟨r2, s2, e2, q2, t2, -⟩ := zzAxis_spec b (p.weight * charge * (1 / dt)) hb.cells
      obtain ⟨r3, s3, e3, q3, t3, -⟩ := zzAxis_spec c (p.weight * charge * (1 / dt)) hc.cells
      rw [div_three, zigzag3_div _ _ _ _ _ _ _ _ _ _ _ _ e1 q1 e2 q2 e3 q3, linNew ha, linOld ha,
        linNew hb, linOld hb, linNew hc, linOld hc]
      have z : (r1 - a.dxPrev) * (r2 - b.dxPrev) * (r3 - c.dxPrev) = 0 ∧
          (a.dx - s1) * (b.dx - s2) * (c.dx - s3) = 0 := by
        have hpl : Planar p := by simpa using hd
        obtain ⟨x, hx, hi, hdx⟩ := hpl
        rw [hax] at hx
        simp only [List.mem_cons, List.not_mem_nil, or_false] at hx
        rcases hx with rfl | rfl | rfl
        · obtain ⟨u1, u2⟩ := t1 hi
          have : r1 = x.dxPrev := by rw [u1, hdx]; ring
          rw [u2, this, hdx]; constructor <;> ring
        · obtain ⟨u1, u2⟩ := t2 hi
          have : r2 = x.dxPrev := by rw [u1, hdx]; ring
          rw [u2, this, hdx]; constructor <;> ring
        · obtain ⟨u1, u2⟩ := t3 hi
          have : r3 = x.dxPrev := by rw [u1, hdx]; ring
          rw [u2, this, hdx]; constructor <;> ring
      rw [z.1, z.2]
      simp only [List.zipWith_cons_cons, List.zipWith_nil_left, List.prod_cons, List.prod_nil]
      ring

theorem esirkepov_one {O : Nat} (h1 : 1 ≤ O) (h2 : O ≤ 11) {NG : Int} {charge dt : K}
    {n : List Int} {p : DPrtl K} (hp : Fit n.length p) {vs : List (Upd K)}
    (hv : depositOne O NG charge dt p = .ok vs) :
    div (total vs) n = -(chargeAt O NG charge xNew n p - chargeAt O NG charge xOld n p) / dt := by
  rcases hp with hp | ⟨hl, hf⟩
  · exact dead_case hp hv
  by_cases ht : p.tag = dead
  · exact dead_case ht hv
  obtain ⟨O, rfl⟩ : ∃ k, O = k + 1 := ⟨O - 1, by omega⟩
  simp only [depositOne, if_neg ht] at hv
  simp only [chargeAt, if_neg ht]
  rcases hax : p.ax with _ | ⟨a, _ | ⟨b, _ | ⟨c, _ | ⟨e, r⟩⟩⟩⟩ <;> rw [hax] at hv hl hf <;>
    simp only [reduceCtorEq] at hv
  · match n, hl with
    | [n], _ =>
      have ha := hf a (by simp)
      rw [div_one, esirkepov1_div _ h1 h2 _ _ _ _ _ _ ha hv]
      simp only [List.zipWith_cons_cons, List.zipWith_nil_left, List.prod_cons, List.prod_nil, shp]
      ring
  · match n, hl with
    | [n, m], _ =>
      have ha := hf a (by simp)
      have hb := hf b (by simp)
      rw [div_two, esirkepov2_div _ h1 h2 _ _ _ _ _ _ ha hb hv]
      simp only [List.zipWith_cons_cons, List.zipWith_nil_left, List.prod_cons, List.prod_nil, shp]
      ring
  · match n, hl with
    | [n, m, l], _ =>
      have ha := hf a (by simp)
      have hb := hf b (by simp)
      have hc := hf c (by simp)
      rw [div_three, esirkepov3_div _ h1 h2 _ _ _ _ _ _ ha hb hc hv]
      simp only [List.zipWith_cons_cons, List.zipWith_nil_left, List.prod_cons, List.prod_nil, shp]
      ring

theorem deposit_diff {nAll : List Nat} {us vs : List (Upd K)} (hp : vs.Perm us) {J J' : Cur K}
    (h : applyAll nAll vs J = .ok J') : (fun c k => J' c k - J c k) = total us := by
  funext c k
  rw [applyAll_ok h, total_perm hp]; ring

/-! ## C29 -/

/-- **C29** (zigzag scheme), one and two dimensions, and in three dimensions for particles that move
in a coordinate plane: whatever the order in which the additions of all particles are carried out,
the divergence of the deposited current is at every node minus the change of the linearly weighted
charge over the time step.  Missing: general motion in three dimensions, where the statement is
false (`C29_zigzag_3d_counterexample`; the defect is `C29_zigzag_3d_defect`). -/
theorem C29_zigzag_continuity_partial (D : Nat) (NG : Int) (charge dt : K) (nAll : List Nat)
    (ps : List (DPrtl K)) (hfit : ∀ p ∈ ps, Fit D p)
    (hdim : ∀ p ∈ ps, p.tag = dead ∨ D = 1 ∨ D = 2 ∨ Planar p)
    (us vs : List (Upd K)) (hu : depositAll 0 NG charge dt ps = .ok us) (hv : vs.Perm us)
    (J J' : Cur K) (hJ : applyAll nAll vs J = .ok J') (n : List Int) (hn : n.length = D) :
    div (fun c k => J' c k - J c k) n =
      -(rho 1 NG charge xNew ps n - rho 1 NG charge xOld ps n) / dt := by
  rw [deposit_diff hv hJ]
  exact launch hu (fun p hp ws hw => zigzag_one hn (hfit p hp) (hdim p hp) hw)

/-- The defect of the zigzag scheme in three dimensions, for a particle that stays in its cell: the
divergence misses a quarter of the product of the three displacements at the eight corners of the
cell, with alternating signs. -/
theorem C29_zigzag_3d_defect (NG : Int) (coeff invDt : K) (a b c : Ax K)
    (ha : FitAx a) (hb : FitAx b) (hc : FitAx c)
    (ia : a.i = a.iPrev) (ib : b.i = b.iPrev) (ic : c.i = c.iPrev) (n m l : Int) :
    div (total (zigzag3 NG coeff invDt a b c)) [n, m, l] =
      -(coeff * invDt) *
        (bspline 1 (xNew a - ((n - NG : Int) : K)) * bspline 1 (xNew b - ((m - NG : Int) : K)) *
            bspline 1 (xNew c - ((l - NG : Int) : K)) -
         bspline 1 (xOld a - ((n - NG : Int) : K)) * bspline 1 (xOld b - ((m - NG : Int) : K)) *
            bspline 1 (xOld c - ((l - NG : Int) : K))) +
      coeff * invDt / 16 * ((a.dx - a.dxPrev) * (b.dx - b.dxPrev) * (c.dx - c.dxPrev)) *
        ((del (a.i + NG + 1) n - del (a.i + NG) n) * (del (b.i + NG + 1) m - del (b.i + NG) m) *
          (del (c.i + NG + 1) l - del (c.i + NG) l)) := by
  obtain ⟨r1, s1, e1, q1, t1, -⟩ := zzAxis_spec a (coeff * invDt) ha.cells
  obtain ⟨r2, s2, e2, q2, t2, -⟩ := zzAxis_spec b (coeff * invDt) hb.cells
  obtain ⟨r3, s3, e3, q3, t3, -⟩ := zzAxis_spec c (coeff * invDt) hc.cells
  rw [div_three, zigzag3_div _ _ _ _ _ _ _ _ _ _ _ _ e1 q1 e2 q2 e3 q3, linNew ha, linOld ha,
    linNew hb, linOld hb, linNew hc, linOld hc]
  rw [← ia, ← ib, ← ic, (t1 ia).2, (t2 ib).2, (t3 ic).2, (t1 ia).1, (t2 ib).1, (t3 ic).1]
  ring

/-- A particle of unit charge that crosses half a cell along each of the three axes. -/
def diagonal : DPrtl ℚ :=
  { ax := [⟨0, 0, 1/2, 0, 0⟩, ⟨0, 0, 1/2, 0, 0⟩, ⟨0, 0, 1/2, 0, 0⟩], weight := 1, vp2 := 0, vp3 := 0,
    tag := alive }

/-- **C29 is false in three dimensions**: for a particle moving along the diagonal of its cell the
zigzag current does not satisfy the continuity equation. -/
theorem C29_zigzag_3d_counterexample : ∃ (p : DPrtl ℚ) (us : List (Upd ℚ)) (n : List Int),
    Fit 3 p ∧ depositAll 0 2 1 1 [p] = .ok us ∧ n.length = 3 ∧
    (∀ u ∈ us, inArray [8, 8, 8] u.idx = true) ∧
    div (total us) n ≠ -(rho 1 2 1 xNew [p] n - rho 1 2 1 xOld [p] n) / 1 := by
  refine ⟨diagonal, _, [3, 3, 3], Or.inr ⟨rfl, ?_⟩, rfl, rfl, by decide +kernel, by decide +kernel⟩
  intro a ha
  simp only [diagonal, List.mem_cons, List.not_mem_nil, or_false, or_self] at ha
  subst ha
  exact ⟨by norm_num, by norm_num, by norm_num, by norm_num, by
    rw [abs_lt]; constructor <;> norm_num⟩

/-! ## C30 -/

/-- **C30** (Esirkepov scheme, orders 1 ... 11, one, two and three dimensions): whatever the order in
which the additions of all particles are carried out, the divergence of the deposited current is at
every node minus the change of the charge, weighted with the shape of that order, over the time
step. -/
theorem C30_esirkepov_continuity (O : Nat) (h1 : 1 ≤ O) (h2 : O ≤ 11) (NG : Int) (charge dt : K)
    (nAll : List Nat) (n : List Int) (ps : List (DPrtl K)) (hfit : ∀ p ∈ ps, Fit n.length p)
    (us vs : List (Upd K)) (hu : depositAll O NG charge dt ps = .ok us) (hv : vs.Perm us)
    (J J' : Cur K) (hJ : applyAll nAll vs J = .ok J') :
    div (fun c k => J' c k - J c k) n =
      -(rho O NG charge xNew ps n - rho O NG charge xOld ps n) / dt := by
  rw [deposit_diff hv hJ]
  exact launch hu (fun p hp ws hw => esirkepov_one h1 h2 (hfit p hp) hw)

/-! ## A concrete case -/

/-- A particle that crosses into the next cell along x1 and moves back along x2. -/
def mover : DPrtl ℚ :=
  { ax := [⟨4, 3, 1/4, 3/4, 0⟩, ⟨2, 2, 1/8, 5/8, 0⟩], weight := 3/2, vp2 := 0, vp3 := 1/3,
    tag := alive }

theorem mover_fit : Fit 2 mover := by
  refine Or.inr ⟨rfl, ?_⟩
  intro a ha
  simp only [mover, List.mem_cons, List.not_mem_nil, or_false] at ha
  rcases ha with rfl | rfl <;>
  exact ⟨by norm_num, by norm_num, by norm_num, by norm_num, by
    rw [abs_lt]; constructor <;> norm_num⟩

/-- The hypotheses hold for it at order 0 and order 3, and the charge does change at a node. -/
example : (match depositAll 0 2 (2 : ℚ) (1/2) [mover] with
    | .ok us => us.all (fun u => inArray [12, 12] u.idx) && decide (div (total us) [6, 4] = -9/4)
    | _ => false) = true := by decide +kernel

example : (match depositAll 3 3 (2 : ℚ) (1/2) [mover] with
    | .ok us => us.all (fun u => inArray [14, 14] u.idx) && decide (div (total us) [7, 5] ≠ 0)
    | _ => false) = true := by decide +kernel

end Entity.Deposit
