import Mathlib.Tactic.NormNum
import Verif.Lemmas.Metric
import Verif.Model.MetricGR

/-!
# C62: coordinates of the whole grid and of its subdomains
-/

namespace Entity.Metric

open Entity.Push (V3)
open Real

/-! ## Specification -/

/-- Conversions of one direction, `ph` from code to physical coordinates and `cd` the other way, are
inverse to one another (on physical coordinates satisfying `P`) and take the `n` cells to the extent
from `lo` to `hi`. -/
structure Inverse (ph : ℝ → ℝ) (cd : ℝ → Option ℝ) (P : ℝ → Prop) (lo hi n : ℝ) : Prop where
  cd_ph : ∀ x, P (ph x) ∧ cd (ph x) = some x
  ph_cd : ∀ y, P y → ∃ x, cd y = some x ∧ ph x = y
  first : ph 0 = lo
  last : ph n = hi

/-- The conversions `ph'`, `cd'` of a subdomain are those of the whole grid shifted by the offset. -/
structure Shifted (ph ph' : ℝ → ℝ) (cd cd' : ℝ → Option ℝ) (off : ℝ) : Prop where
  ph_eq : ∀ x, ph' x = ph (off + x)
  cd_eq : ∀ y x, cd y = some x → cd' y = some (x - off)

/-- The stretching parameter is off, or between zero and one. -/
def Stretch (ε h : ℝ) : Prop := |h| ≤ ε ∨ 0 < h ∧ h < 1 ∧ ε < |h|

/-! ## Helpers -/

theorem lin_inverse {d lo hi n : ℝ} (hd : d ≠ 0) (h : n * d + lo = hi) :
    Inverse (fun x => x * d + lo) (fun y => some ((y - lo) * (1 / d))) (fun _ => True) lo hi n := by
  refine ⟨fun x => ⟨trivial, ?_⟩, fun y _ => ⟨_, rfl, ?_⟩, by ring, h⟩
  · simp only [Option.some.injEq]
    field_simp
    ring
  · field_simp
    ring

theorem lin_last {lo hi n : ℝ} (hn : 0 < n) : n * ((hi - lo) / n) + lo = hi := by
  field_simp
  ring

theorem lin_pos {lo hi n : ℝ} (hn : 0 < n) (h : lo < hi) : (hi - lo) / n ≠ 0 :=
  (div_pos (by linarith) hn).ne'

theorem lin_step {d lo : ℝ} {off nc : Nat} (hn : 0 < nc) :
    (((off + nc : Nat) : ℝ) * d + lo - (off * d + lo)) / nc = d := by
  have : (nc : ℝ) ≠ 0 := by exact_mod_cast hn.ne'
  push_cast
  field_simp
  ring

theorem lin_shifted {d lo d' lo' off : ℝ} (hd : d ≠ 0) (h1 : d' = d) (h2 : lo' = off * d + lo) :
    Shifted (fun x => x * d + lo) (fun x => x * d' + lo') (fun y => some ((y - lo) * (1 / d)))
      (fun y => some ((y - lo') * (1 / d'))) off := by
  subst h1 h2
  refine ⟨fun x => by ring, fun y x h => ?_⟩
  simp only [Option.some.injEq] at h ⊢
  rw [← h]
  field_simp
  ring

theorem stretch_inv {ε h : ℝ} (hs : Stretch ε h) (θ : ℝ) :
    ∃ η, theta2eta ε h θ = some η ∧ eta2theta ε h η = θ := by
  rcases hs with hs | ⟨h0, h1, h2⟩
  · exact ⟨θ, by rw [theta2eta, if_pos hs], by rw [eta2theta, if_pos hs]⟩
  · exact theta2eta_spec h0 h1 h2 θ

theorem stretch_inv' {ε h : ℝ} (hs : Stretch ε h) (η : ℝ) :
    theta2eta ε h (eta2theta ε h η) = some η := by
  rcases hs with hs | ⟨h0, h1, h2⟩
  · rw [theta2eta, if_pos hs, eta2theta, if_pos hs]
  · exact theta2eta_eta2theta h0 h1 h2 η

/-! ## Minkowski -/

theorem mink_make {D : Nat} {ε : ℝ} {e : Fin 3 → Ext} {g : Mink} (hg : Mink.make D ε e = .ok g) :
    g = ⟨((e 0).hi - (e 0).lo) / (e 0).n, fun k => (e k).lo⟩ ∧
    (2 ≤ D → almostEqual ε (((e 1).hi - (e 1).lo) / (e 1).n) g.dx) ∧
    (D = 3 → almostEqual ε (((e 2).hi - (e 2).lo) / (e 2).n) g.dx) := by
  unfold Mink.make at hg
  dsimp only at hg
  split_ifs at hg with h1 h2
  injection hg with hg
  subst hg
  rw [not_and, not_not] at h1 h2
  exact ⟨rfl, h1, h2⟩

/-- **C62 (Cartesian, whole grid).** Wherever the constructor accepts a grid, code and physical
coordinates are inverse to one another along every direction and the cells start at the lower corner;
along the first direction they fill the extent exactly, along the others up to the tolerance of the
comparison of cell sizes. -/
theorem C62_minkowski_inverse (D : Nat) (hD : D ≤ 3) (ε : ℝ) (e : Fin 3 → Ext) (g : Mink)
    (hg : Mink.make D ε e = .ok g) (hn : 0 < (e 0).n) (hx : (e 0).lo < (e 0).hi)
    (k : Fin 3) (hk : k.val < D) :
    Inverse (g.toPh k) (fun y => some (g.toCd k y)) (fun _ => True) (e k).lo
      ((e k).lo + (e k).n * g.dx) (e k).n ∧
    (k = 0 → (e k).lo + (e k).n * g.dx = (e k).hi) ∧
    (k ≠ 0 → almostEqual ε (((e k).hi - (e k).lo) / (e k).n) g.dx) := by
  have hd := lin_pos hn hx
  obtain ⟨hc, h1, h2⟩ := mink_make hg
  refine ⟨?_, ?_, ?_⟩
  · rw [hc]
    exact lin_inverse hd (by ring)
  · rintro rfl
    rw [hc]
    have := lin_last (lo := (e 0).lo) (hi := (e 0).hi) hn
    simp only
    linarith
  · intro h0
    match k with
    | 0 => exact absurd rfl h0
    | 1 => exact h1 hk
    | 2 =>
      have : (2 : Nat) < D := hk
      exact h2 (by omega)

/-- **C62 (Cartesian, subdomains).** For every subdomain of every decomposition the constructor accepts
the local extents, the cell size is the one of the whole grid, and local conversions are the global
ones shifted by the offset. -/
theorem C62_minkowski_local (D : Nat) (ε : ℝ) (hε : 0 ≤ ε) (e : Fin 3 → Ext) (g : Mink)
    (hg : Mink.make D ε e = .ok g) (hn : 0 < (e 0).n) (hx : (e 0).lo < (e 0).hi)
    (off nc : Fin 3 → Nat) (hc : ∀ k, 0 < nc k) :
    ∃ l, Mink.make D ε (fun k => localExt (g.toPh k) (off k) (nc k)) = .ok l ∧ l.dx = g.dx ∧
      ∀ k, Shifted (g.toPh k) (l.toPh k) (fun y => some (g.toCd k y)) (fun y => some (l.toCd k y))
        (off k) := by
  have hd : g.dx ≠ 0 := by rw [(mink_make hg).1]; exact lin_pos hn hx
  have hs : ∀ k, ((localExt (g.toPh k) (off k) (nc k)).hi - (localExt (g.toPh k) (off k) (nc k)).lo) /
      (localExt (g.toPh k) (off k) (nc k)).n = g.dx := fun k => lin_step (hc k)
  have ha : almostEqual ε g.dx g.dx := by
    unfold almostEqual
    rw [sub_self, abs_zero, min_self]
    positivity
  refine ⟨⟨g.dx, fun k => off k * g.dx + g.xmin k⟩, ?_, rfl, fun k => lin_shifted hd rfl rfl⟩
  unfold Mink.make
  simp only [hs, ha, not_true_eq_false, and_false, if_false]
  rfl

/-! ## Uniform spherical grids -/

/-- **C62 (spherical and Kerr-Schild).** Code and physical coordinates are inverse to one another along
the radius and the angle, the cells fill the extents, and the metric of every subdomain has the cell
sizes, the small-angle switch and (shifted) the conversions of the whole grid. -/
theorem C62_spherical (e1 e2 : Ext) (n1 : 0 < e1.n) (n2 : 0 < e2.n) (h1 : e1.lo < e1.hi)
    (h2 : e2.lo < e2.hi) (off1 nc1 off2 nc2 : Nat) (c1 : 0 < nc1) (c2 : 0 < nc2) :
    let g := Sph.make e1 e2
    let l := Sph.make (localExt g.toPh1 off1 nc1) (localExt g.toPh2 off2 nc2)
    Inverse g.toPh1 (fun y => some (g.toCd1 y)) (fun _ => True) e1.lo e1.hi e1.n ∧
    Inverse g.toPh2 (fun y => some (g.toCd2 y)) (fun _ => True) e2.lo e2.hi e2.n ∧
    l.dr = g.dr ∧ l.dt = g.dt ∧ (l.small ↔ g.small) ∧
    Shifted g.toPh1 l.toPh1 (fun y => some (g.toCd1 y)) (fun y => some (l.toCd1 y)) off1 ∧
    Shifted g.toPh2 l.toPh2 (fun y => some (g.toCd2 y)) (fun y => some (l.toCd2 y)) off2 := by
  intro g l
  have hr : l.dr = g.dr := lin_step c1
  have ht : l.dt = g.dt := lin_step c2
  refine ⟨lin_inverse (lin_pos n1 h1) (lin_last n1), lin_inverse (lin_pos n2 h2) (lin_last n2), hr, ht,
    ?_, lin_shifted (lin_pos n1 h1) hr rfl, lin_shifted (lin_pos n2 h2) ht rfl⟩
  change 1 / 2 * l.dt < 1 / 1000 ↔ 1 / 2 * g.dt < 1 / 1000
  rw [ht]

@[inherit_doc C62_spherical]
theorem C62_kerr_schild (ε a : ℝ) (e1 e2 : Ext) (n1 : 0 < e1.n) (n2 : 0 < e2.n) (h1 : e1.lo < e1.hi)
    (h2 : e2.lo < e2.hi) (off1 nc1 off2 nc2 : Nat) (c1 : 0 < nc1) (c2 : 0 < nc2) :
    let g := KS.make ε a e1 e2
    let l := KS.make ε a (localExt g.toPh1 off1 nc1) (localExt g.toPh2 off2 nc2)
    Inverse g.toPh1 (fun y => some (g.toCd1 y)) (fun _ => True) e1.lo e1.hi e1.n ∧
    Inverse g.toPh2 (fun y => some (g.toCd2 y)) (fun _ => True) e2.lo e2.hi e2.n ∧
    l.dr = g.dr ∧ l.dt = g.dt ∧ (l.small ↔ g.small) ∧
    Shifted g.toPh1 l.toPh1 (fun y => some (g.toCd1 y)) (fun y => some (l.toCd1 y)) off1 ∧
    Shifted g.toPh2 l.toPh2 (fun y => some (g.toCd2 y)) (fun y => some (l.toCd2 y)) off2 :=
  C62_spherical e1 e2 n1 n2 h1 h2 off1 nc1 off2 nc2 c1 c2

@[inherit_doc C62_spherical]
theorem C62_kerr_schild_0 (e1 e2 : Ext) (n1 : 0 < e1.n) (n2 : 0 < e2.n) (h1 : e1.lo < e1.hi)
    (h2 : e2.lo < e2.hi) (off1 nc1 off2 nc2 : Nat) (c1 : 0 < nc1) (c2 : 0 < nc2) :
    let g := KS0.make e1 e2
    let l := KS0.make (localExt g.toPh1 off1 nc1) (localExt g.toPh2 off2 nc2)
    Inverse g.toPh1 (fun y => some (g.toCd1 y)) (fun _ => True) e1.lo e1.hi e1.n ∧
    Inverse g.toPh2 (fun y => some (g.toCd2 y)) (fun _ => True) e2.lo e2.hi e2.n ∧
    l.dr = g.dr ∧ l.dt = g.dt ∧
    Shifted g.toPh1 l.toPh1 (fun y => some (g.toCd1 y)) (fun y => some (l.toCd1 y)) off1 ∧
    Shifted g.toPh2 l.toPh2 (fun y => some (g.toCd2 y)) (fun y => some (l.toCd2 y)) off2 := by
  have := C62_spherical e1 e2 n1 n2 h1 h2 off1 nc1 off2 nc2 c1 c2
  exact ⟨this.1, this.2.1, this.2.2.1, this.2.2.2.1, this.2.2.2.2.2⟩

/-! ## Stretched grids -/

theorem eta2theta_mono {ε h : ℝ} (hs : Stretch ε h) {a b : ℝ} (hab : a < b) :
    eta2theta ε h a < eta2theta ε h b := by
  rcases hs with hs | ⟨h0, h1, h2⟩
  · rwa [eta2theta, eta2theta, if_pos hs, if_pos hs]
  · exact eta2theta_strictMono h0 h1 h2 hab

theorem log?_pos {x : ℝ} (hx : 0 < x) : log? x = some (Real.log x) := if_neg (not_le.2 hx)

theorem log?_exp (x : ℝ) : log? (exp x) = some x := by
  rw [log?_pos (exp_pos x), Real.log_exp]

/-- **C62 (quasi-spherical).** With the stretching off or between zero and one and the radii beyond the
offset `r0`, the constructor gives numbers, code and physical coordinates are inverse to one another
along the radius (beyond `r0`) and the angle, the cells fill the extents, and the metric of every
subdomain exists and has the cell sizes, the small-angle switch and (shifted) the conversions of the
whole grid.  (The radial and angular members of the quasi-spherical Kerr-Schild metric are the same.)
The restriction on the stretching is the part of the property that is missing: the documented range is
from -1 to 1. -/
theorem C62_qspherical_partial (ε r0 h : ℝ) (hs : Stretch ε h) (e1 e2 : Ext) (n1 : 0 < e1.n)
    (n2 : 0 < e2.n) (h0 : r0 < e1.lo) (h1 : e1.lo < e1.hi) (h2 : e2.lo < e2.hi) (off1 nc1 off2 nc2 : Nat)
    (c1 : 0 < nc1) (c2 : 0 < nc2) :
    ∃ g l, QSph.make ε r0 h e1 e2 = some g ∧
      QSph.make ε r0 h (localExt g.toPh1 off1 nc1) (localExt g.toPh2 off2 nc2) = some l ∧
      Inverse g.toPh1 g.toCd1 (r0 < ·) e1.lo e1.hi e1.n ∧
      Inverse g.toPh2 g.toCd2 (fun _ => True) e2.lo e2.hi e2.n ∧
      l.dchi = g.dchi ∧ l.deta = g.deta ∧ (l.small ↔ g.small) ∧
      Shifted g.toPh1 l.toPh1 g.toCd1 l.toCd1 off1 ∧ Shifted g.toPh2 l.toPh2 g.toCd2 l.toCd2 off2 := by
  obtain ⟨a, ha, ha'⟩ := stretch_inv hs e2.lo
  obtain ⟨b, hb, hb'⟩ := stretch_inv hs e2.hi
  have hab : a < b := by
    rcases lt_trichotomy a b with h | h | h
    · exact h
    · rw [h, hb'] at ha'; exact absurd ha' h2.ne'
    · have := eta2theta_mono hs h
      rw [ha', hb'] at this
      exact absurd this (not_lt.2 h2.le)
  have hl := log?_pos (x := e1.lo - r0) (by linarith)
  have hh := log?_pos (x := e1.hi - r0) (by linarith)
  have hlt : Real.log (e1.lo - r0) < Real.log (e1.hi - r0) :=
    Real.log_lt_log (by linarith) (by linarith)
  set c := Real.log (e1.lo - r0) with hc
  set d := Real.log (e1.hi - r0) with hd
  have hec : exp c = e1.lo - r0 := Real.exp_log (by linarith)
  have hed : exp d = e1.hi - r0 := Real.exp_log (by linarith)
  clear_value c d
  have hp1 := lin_pos n1 hlt
  have hp2 := lin_pos n2 hab
  have hl1 := lin_last (lo := c) (hi := d) n1
  have hl2 := lin_last (lo := a) (hi := b) n2
  have hgm : QSph.make ε r0 h e1 e2 = some ⟨ε, r0, h, c, a, (d - c) / e1.n, (b - a) / e2.n,
      eta2theta ε h (1 / 2 * ((b - a) / e2.n)) < 1 / 1000⟩ := by
    simp [QSph.make, hl, hh, ha, hb]
  set k := (d - c) / e1.n
  set q := (b - a) / e2.n
  clear_value k q
  have hlm : QSph.make ε r0 h
      (localExt (QSph.toPh1 ⟨ε, r0, h, c, a, k, q, eta2theta ε h (1 / 2 * q) < 1 / 1000⟩) off1 nc1)
      (localExt (QSph.toPh2 ⟨ε, r0, h, c, a, k, q, eta2theta ε h (1 / 2 * q) < 1 / 1000⟩) off2 nc2) =
      some ⟨ε, r0, h, off1 * k + c, off2 * q + a, k, q, eta2theta ε h (1 / 2 * q) < 1 / 1000⟩ := by
    have e1 : (((off1 + nc1 : Nat) : ℝ) * k + c - (off1 * k + c)) / nc1 = k := lin_step c1
    have e2 : (((off2 + nc2 : Nat) : ℝ) * q + a - (off2 * q + a)) / nc2 = q := lin_step c2
    simp only [QSph.make, localExt, QSph.toPh1, QSph.toPh2, add_sub_cancel_left, log?_exp,
      stretch_inv' hs, Option.bind_eq_bind, Option.bind_some, e1, e2]
  refine ⟨_, _, hgm, hlm, ⟨?_, ?_, ?_, ?_⟩, ⟨?_, ?_, ?_, ?_⟩, rfl, rfl, Iff.rfl, ⟨?_, ?_⟩, ⟨?_, ?_⟩⟩
  · intro x
    refine ⟨by have := exp_pos (x * k + c); simp only [QSph.toPh1]; linarith, ?_⟩
    simp only [QSph.toPh1, QSph.toCd1, add_sub_cancel_left, log?_exp, Option.map_some,
      Option.some.injEq]
    field_simp
    ring
  · intro y hy
    refine ⟨(Real.log (y - r0) - c) * (1 / k), ?_, ?_⟩
    · simp only [QSph.toCd1, log?_pos (show 0 < y - r0 by linarith), Option.map_some]
    · have : (Real.log (y - r0) - c) * (1 / k) * k + c = Real.log (y - r0) := by field_simp; ring
      simp only [QSph.toPh1, this]
      rw [Real.exp_log (by linarith)]; ring
  · simp only [QSph.toPh1, zero_mul, zero_add, hec]; ring
  · simp only [QSph.toPh1, hl1, hed]; ring
  · intro x
    refine ⟨trivial, ?_⟩
    simp only [QSph.toPh2, QSph.toCd2, stretch_inv' hs, Option.map_some, Option.some.injEq]
    field_simp
    ring
  · intro y _
    obtain ⟨η, h1, h2⟩ := stretch_inv hs y
    refine ⟨(η - a) * (1 / q), ?_, ?_⟩
    · simp only [QSph.toCd2, h1, Option.map_some]
    · have : (η - a) * (1 / q) * q + a = η := by field_simp; ring
      simp only [QSph.toPh2, this, h2]
  · simp only [QSph.toPh2, zero_mul, zero_add, ha']
  · simp only [QSph.toPh2, hl2, hb']
  · intro x
    simp only [QSph.toPh1]
    congr 2; ring
  · intro y x hx
    simp only [QSph.toCd1, Option.map_eq_some_iff] at hx ⊢
    obtain ⟨η, h1, h2⟩ := hx
    refine ⟨η, h1, ?_⟩
    rw [← h2]
    field_simp
    ring
  · intro x
    simp only [QSph.toPh2]
    congr 1; ring
  · intro y x hx
    simp only [QSph.toCd2, Option.map_eq_some_iff] at hx ⊢
    obtain ⟨η, h1, h2⟩ := hx
    refine ⟨η, h1, ?_⟩
    rw [← h2]
    field_simp
    ring

/-- **C62 (counterexample).** For every negative stretching parameter outside the tolerance (the
documented range is from -1 to 1) a grid reaching the axis has no angular coordinate there: the cubic is
solved with the square root of a negative number, and the constructor gives no numbers. -/
theorem C62_negative_stretch_counterexample (ε r0 h : ℝ) (h0 : h < 0) (hε : ε < |h|) :
    theta2eta ε h 0 = none ∧ ∀ e1 e2 : Ext, e2.lo = 0 → QSph.make ε r0 h e1 e2 = none := by
  have key : theta2eta ε h 0 = none := by
    have hr : radicand h 0 = -(π ^ 2 * (-h) ^ 3 * ((2 * h + 1) ^ 2 * (4 - h))) := by
      unfold radicand; ring
    have hp : 0 < π ^ 2 * (-h) ^ 3 := by
      have : 0 < -h := by linarith
      positivity
    rw [theta2eta, if_neg (not_le.2 hε)]
    by_cases hh : 2 * h + 1 = 0
    · have h2 : radicand h 0 = 0 := by rw [hr, hh]; ring
      rw [if_neg (by rw [h2]; simp), if_pos]
      rw [h2, Real.sqrt_zero]
      have := pi_pos
      have : 0 < h ^ 2 := by nlinarith
      nlinarith
    · rw [if_pos]
      rw [hr]
      have : 0 < (2 * h + 1) ^ 2 * (4 - h) := mul_pos (by positivity) (by linarith)
      nlinarith [mul_pos hp this]
  refine ⟨key, fun e1 e2 he => ?_⟩
  unfold QSph.make
  rw [he, key]
  cases log? (e1.lo - r0) <;> cases log? (e1.hi - r0) <;> simp

/-! ## Cartesian coordinates of spherical grids -/

theorem atan2_polar {ρ φ : ℝ} (hρ : 0 < ρ) (h1 : -π < φ) (h2 : φ ≤ π) :
    atan2 (ρ * sin φ) (ρ * cos φ) = φ := by
  have := Complex.arg_mul_cos_add_sin_mul_I hρ (θ := φ) ⟨h1, h2⟩
  refine Eq.trans ?_ this
  unfold atan2
  congr 1
  apply Complex.ext <;> simp [Complex.cos_ofReal_re, Complex.sin_ofReal_re]

/-- **C62 (Cartesian coordinates of spherical ones).** Off the axis the two conversions are inverse to
one another; the azimuth is the one from zero (included) to 2π. -/
theorem C62_xyz_of_sph (r t p : ℝ) (hr : 0 < r) (ht0 : 0 < t) (ht : t < π) (hp0 : 0 ≤ p)
    (hp : p < 2 * π) : xyzToSph (sphToXyz r t p) = ⟨r, t, p⟩ := by
  have hs : 0 < sin t := sin_pos_of_pos_of_lt_pi ht0 ht
  have hrs : 0 < r * sin t := mul_pos hr hs
  have e1 : (r * sin t * cos p) ^ 2 + (r * sin t * sin p) ^ 2 = (r * sin t) ^ 2 := by
    linear_combination (r * sin t) ^ 2 * sin_sq_add_cos_sq p
  have e2 : (r * sin t) ^ 2 + (r * cos t) ^ 2 = r ^ 2 := by
    linear_combination r ^ 2 * sin_sq_add_cos_sq t
  simp only [xyzToSph, sphToXyz, e1, e2, Real.sqrt_sq hr.le, Real.sqrt_sq hrs.le]
  have a1 : atan2 (r * cos t) (r * sin t) = π / 2 - t := by
    have := atan2_polar (φ := π / 2 - t) hr (by linarith) (by linarith)
    rwa [sin_pi_div_two_sub, cos_pi_div_two_sub] at this
  have a2 : atan2 (r * sin t * sin p) (-(r * sin t * cos p)) = π - p := by
    have := atan2_polar (φ := π - p) hrs (by linarith) (by linarith)
    rwa [sin_pi_sub, cos_pi_sub, mul_neg] at this
  rw [a1, a2]
  congr 1 <;> ring

@[inherit_doc C62_xyz_of_sph]
theorem C62_sph_of_xyz (v : V3 ℝ) :
    let s := xyzToSph v
    sphToXyz s.x s.y s.z = v := by
  set ρ := √(v.x ^ 2 + v.y ^ 2) with hρ
  have n1 : ‖(⟨-v.x, v.y⟩ : ℂ)‖ = ρ := by
    rw [Complex.norm_def, Complex.normSq_mk, hρ]; congr 1; ring
  have hρ2 : ρ ^ 2 = v.x ^ 2 + v.y ^ 2 := Real.sq_sqrt (by positivity)
  have n2 : ‖(⟨ρ, v.z⟩ : ℂ)‖ = √(v.x ^ 2 + v.y ^ 2 + v.z ^ 2) := by
    rw [Complex.norm_def, Complex.normSq_mk]
    congr 1
    linear_combination hρ2
  have a1 := Complex.norm_mul_cos_arg ⟨ρ, v.z⟩
  have a2 := Complex.norm_mul_sin_arg ⟨ρ, v.z⟩
  have b1 := Complex.norm_mul_cos_arg ⟨-v.x, v.y⟩
  have b2 := Complex.norm_mul_sin_arg ⟨-v.x, v.y⟩
  rw [n2] at a1 a2
  rw [n1] at b1 b2
  simp only [xyzToSph, sphToXyz, atan2, ← hρ]
  simp only [sin_pi_div_two_sub, cos_pi_div_two_sub, sin_pi_sub, cos_pi_sub] at *
  rw [a1]
  ext
  · simp only; linarith
  · simp only; linarith
  · simp only; linarith

/-! ## Examples -/

/-- A grid of 64 × 32 cells with stretching 0.4 meets the hypotheses of the quasi-spherical case. -/
example : Stretch (1 / 10 ^ 6) (4 / 10) ∧
    (1 : ℝ) < (⟨2, 50, 64⟩ : Ext).lo ∧ (⟨2, 50, 64⟩ : Ext).lo < (⟨2, 50, 64⟩ : Ext).hi ∧
    (0 : ℝ) < (⟨0, π, 32⟩ : Ext).n ∧ (⟨0, π, 32⟩ : Ext).lo < (⟨0, π, 32⟩ : Ext).hi := by
  refine ⟨.inr ⟨by norm_num, by norm_num, ?_⟩, by norm_num, by norm_num, by norm_num, pi_pos⟩
  rw [abs_of_pos] <;> norm_num

/-- A two-dimensional Cartesian grid accepted by the constructor. -/
example : ∃ g, Mink.make 2 (1 / 10 ^ 6) (fun k => if k = 0 then ⟨-1, 3, 8⟩ else ⟨0, 2, 4⟩) = .ok g ∧
    g.dx = 1 / 2 := by
  refine ⟨⟨1 / 2, fun k => ((fun k => if k = 0 then ⟨-1, 3, 8⟩ else ⟨0, 2, 4⟩ : Fin 3 → Ext) k).lo⟩,
    ?_, rfl⟩
  have : almostEqual (1 / 10 ^ 6) (1 / 2) (1 / 2) := by
    unfold almostEqual; rw [sub_self, abs_zero]; positivity
  have h0 : ((3 : ℝ) - -1) / 8 = 1 / 2 := by norm_num
  have h1 : ((2 : ℝ) - 0) / 4 = 1 / 2 := by norm_num
  unfold Mink.make
  simp only [if_true, one_ne_zero, if_false, h0, h1, this, not_true_eq_false, and_false]
  norm_num

end Entity.Metric
