import Verif.Lemmas.MetricGR

/-! Vector transformations of the metrics. -/

namespace Entity.Metric

open Entity.Push (V3)
open Real

/-- Transformations that all go through the tetrad basis. -/
theorem path_of_tetrad {V : Type} {tr : Idx → Idx → V → Outcome V} {S : List Idx}
    (toT fromT : Idx → V → V) (h1 : ∀ a ∈ S, ∀ v, fromT a (toT a v) = v)
    (h2 : ∀ a ∈ S, ∀ v, toT a (fromT a v) = v)
    (h : ∀ a ∈ S, ∀ b ∈ S, a ≠ b → ∀ v, tr a b v = .ok (fromT b (toT a v))) :
    ∀ a b c, a ∈ S → b ∈ S → c ∈ S → a ≠ b → b ≠ c →
      ∀ v, (tr a b v >>= tr b c) = if a = c then .ok v else tr a c v := by
  intro a b c ha hb hc hab hbc v
  rw [h a ha b hb hab, Outcome.bind_ok, h b hb c hc hbc, h2 b hb]
  split_ifs with e
  · subst e; rw [h1 a ha]
  · rw [h a ha c hc e]

theorem diag_rules {h s j k : ℝ} (hs : s ≠ 0) (hh : h = s ^ 2) (hjk : j * k = 1) :
    VectorRules (diagTransform h s j k) (· * ·) .Sph := by
  subst hh
  refine ⟨?_, ?_, ?_⟩
  · apply path_of_tetrad
      (fun a v => match a with | .U => v * s | .D => v / s | _ => v)
      (fun a v => match a with | .U => v / s | .D => v * s | _ => v)
    · intro a ha v; fin_cases ha <;> simp <;> field_simp
    · intro a ha v; fin_cases ha <;> simp <;> field_simp
    · intro a ha b hb hab v
      fin_cases ha <;> fin_cases hb <;> simp [diagTransform] at hab ⊢ <;> field_simp
  · intro a b hab v
    fin_cases hab <;> simp [diagTransform] <;> linear_combination v * hjk
  · intro v w
    refine ⟨v / s, w * s, v / s * j, w * s * k, by simp [diagTransform], by simp [diagTransform], ?_,
      by simp [diagTransform], by simp [diagTransform], ?_⟩
    · field_simp
    · have : v / s * j * (w * s * k) = v / s * (w * s) * (j * k) := by ring
      beta_reduce
      rw [this, hjk]; field_simp

/-- What `grTransform` needs to know about the components. -/
structure Good (h : Spatial) : Prop where
  p1 : 0 < h.u11
  p2 : 0 < h.l22
  p3 : 0 < h.l33
  e11 : h.l11 * h.u11 + h.l13 * h.u13 = 1
  e31 : h.l13 * h.u11 + h.l33 * h.u13 = 0
  e33 : h.l13 * h.u13 + h.l33 * h.u33 = 1
  e22 : h.l22 * h.u22 = 1

theorem gr_rules {h : Spatial} {j k : V3 ℝ} (g : Good h) (jx : j.x * k.x = 1) (jy : j.y * k.y = 1)
    (jz : j.z * k.z = 1) : VectorRules (grTransform h j k) V3.dot .Sph := by
  have hp : 0 < √h.u11 := Real.sqrt_pos.2 g.p1
  have hq : 0 < √h.l22 := Real.sqrt_pos.2 g.p2
  have hs : 0 < √h.l33 := Real.sqrt_pos.2 g.p3
  have hp2 : h.u11 = √h.u11 ^ 2 := (Real.sq_sqrt g.p1.le).symm
  have hq2 : h.l22 = √h.l22 ^ 2 := (Real.sq_sqrt g.p2.le).symm
  have hs2 : h.l33 = √h.l33 ^ 2 := (Real.sq_sqrt g.p3.le).symm
  have f13 : h.u13 = -h.l13 * h.u11 / h.l33 := by
    have := g.p3.ne'
    field_simp
    linarith [g.e31]
  have f11 : h.l11 = 1 / h.u11 + h.l13 ^ 2 / h.l33 := by
    have := g.e11
    have h3 := g.p3.ne'
    have h1 := g.p1.ne'
    rw [f13] at this
    field_simp at this ⊢
    linarith
  have f33 : h.u33 = (1 + h.l13 ^ 2 * h.u11 / h.l33) / h.l33 := by
    have := g.e33
    have h3 := g.p3.ne'
    rw [f13] at this
    field_simp at this ⊢
    linarith
  have f22 : h.u22 = 1 / h.l22 := by
    have h2 := g.p2.ne'
    have := g.e22
    field_simp
    linarith
  set p := √h.u11
  set q := √h.l22
  set s := √h.l33
  have ep : √h.u11 = p := rfl
  have eq : √h.l22 = q := rfl
  have es : √h.l33 = s := rfl
  rw [hp2, hs2] at f13 f11 f33
  rw [hq2] at f22
  refine ⟨?_, ?_, ?_⟩
  · apply path_of_tetrad
      (fun a v => match a with
        | .U => ⟨v.x / p, v.y * q, v.z * s + v.x * h.l13 / s⟩
        | .D => ⟨v.x * p - v.z * p * h.l13 / h.l33, v.y / q, v.z / s⟩
        | _ => v)
      (fun a v => match a with
        | .U => ⟨v.x * p, v.y / q, v.z / s - v.x * p * h.l13 / h.l33⟩
        | .D => ⟨v.x / p + v.z * h.l13 / s, v.y * q, v.z * s⟩
        | _ => v)
    · intro a ha v
      fin_cases ha <;> ext <;> simp [hs2] <;> field_simp <;> ring
    · intro a ha v
      fin_cases ha <;> ext <;> simp [hs2] <;> field_simp <;> ring
    · intro a ha b hb hab v
      fin_cases ha <;> fin_cases hb <;> simp [grTransform, ep, eq, es] at hab ⊢
      · rw [f11, hq2, hs2]
        refine ⟨?_, ?_, ?_⟩ <;> field_simp <;> ring
      · rw [f22, f33, f13, hp2, hs2]
        refine ⟨?_, ?_, ?_⟩ <;> field_simp <;> ring
  · intro a b hab v
    fin_cases hab <;> simp [grTransform] <;> ext <;> simp <;> first
      | linear_combination v.x * jx
      | linear_combination v.y * jy
      | linear_combination v.z * jz
  · intro v w
    refine ⟨⟨v.x * p, v.y / q, v.z / s - v.x * p * h.l13 / h.l33⟩,
      ⟨w.x / p + w.z * h.l13 / s, w.y * q, w.z * s⟩,
      ⟨v.x * p * j.x, v.y / q * j.y, (v.z / s - v.x * p * h.l13 / h.l33) * j.z⟩,
      ⟨(w.x / p + w.z * h.l13 / s) * k.x, w.y * q * k.y, w.z * s * k.z⟩,
      by simp [grTransform, p, q, s], by simp [grTransform, p, q, s], ?_,
      by simp [grTransform], by simp [grTransform], ?_⟩
    · simp only [V3.dot]
      rw [hs2]
      field_simp
      ring
    · simp only [V3.dot]
      have : v.x * p * j.x * ((w.x / p + w.z * h.l13 / s) * k.x) + v.y / q * j.y * (w.y * q * k.y) +
        (v.z / s - v.x * p * h.l13 / h.l33) * j.z * (w.z * s * k.z) =
        v.x * p * (w.x / p + w.z * h.l13 / s) * (j.x * k.x) + v.y / q * (w.y * q) * (j.y * k.y) +
        (v.z / s - v.x * p * h.l13 / h.l33) * (w.z * s) * (j.z * k.z) := by ring
      rw [this, jx, jy, jz, hs2]
      field_simp
      ring

theorem gr0_rules {h : Spatial} {j k : V3 ℝ} (g : Good h) (h0 : h.l13 = 0) (jx : j.x * k.x = 1)
    (jy : j.y * k.y = 1) (jz : j.z * k.z = 1) : VectorRules (gr0Transform h j k) V3.dot .Sph := by
  have hp : 0 < √h.u11 := Real.sqrt_pos.2 g.p1
  have hq : 0 < √h.l22 := Real.sqrt_pos.2 g.p2
  have hs : 0 < √h.l33 := Real.sqrt_pos.2 g.p3
  have hp2 : h.u11 = √h.u11 ^ 2 := (Real.sq_sqrt g.p1.le).symm
  have hq2 : h.l22 = √h.l22 ^ 2 := (Real.sq_sqrt g.p2.le).symm
  have hs2 : h.l33 = √h.l33 ^ 2 := (Real.sq_sqrt g.p3.le).symm
  have f11 : h.l11 = 1 / h.u11 := by
    have := g.e11
    rw [h0] at this
    have h1 := g.p1.ne'
    field_simp
    linarith
  have f33 : h.u33 = 1 / h.l33 := by
    have := g.e33
    rw [h0] at this
    have h1 := g.p3.ne'
    field_simp
    linarith
  have f22 : h.u22 = 1 / h.l22 := by
    have h2 := g.p2.ne'
    have := g.e22
    field_simp
    linarith
  set p := √h.u11
  set q := √h.l22
  set s := √h.l33
  have ep : √h.u11 = p := rfl
  have eq : √h.l22 = q := rfl
  have es : √h.l33 = s := rfl
  rw [hp2] at f11
  rw [hs2] at f33
  rw [hq2] at f22
  refine ⟨?_, ?_, ?_⟩
  · apply path_of_tetrad
      (fun a v => match a with
        | .U => ⟨v.x / p, v.y * q, v.z * s⟩
        | .D => ⟨v.x * p, v.y / q, v.z / s⟩
        | _ => v)
      (fun a v => match a with
        | .U => ⟨v.x * p, v.y / q, v.z / s⟩
        | .D => ⟨v.x / p, v.y * q, v.z * s⟩
        | _ => v)
    · intro a ha v
      fin_cases ha <;> ext <;> simp <;> field_simp
    · intro a ha v
      fin_cases ha <;> ext <;> simp <;> field_simp
    · intro a ha b hb hab v
      fin_cases ha <;> fin_cases hb <;> simp [gr0Transform, ep, eq, es] at hab ⊢
      · rw [f11, hq2, hs2]
        refine ⟨?_, ?_, ?_⟩ <;> field_simp
      · rw [f22, f33, hp2]
        refine ⟨?_, ?_, ?_⟩ <;> field_simp
  · intro a b hab v
    fin_cases hab <;> simp [gr0Transform] <;> ext <;> simp <;> first
      | linear_combination v.x * jx
      | linear_combination v.y * jy
      | linear_combination v.z * jz
  · intro v w
    refine ⟨⟨v.x * p, v.y / q, v.z / s⟩, ⟨w.x / p, w.y * q, w.z * s⟩,
      ⟨v.x * p * j.x, v.y / q * j.y, v.z / s * j.z⟩,
      ⟨w.x / p * k.x, w.y * q * k.y, w.z * s * k.z⟩,
      by simp [gr0Transform, p, q, s], by simp [gr0Transform, p, q, s], ?_,
      by simp [gr0Transform], by simp [gr0Transform], ?_⟩
    · simp only [V3.dot]
      field_simp
    · simp only [V3.dot]
      have : v.x * p * j.x * (w.x / p * k.x) + v.y / q * j.y * (w.y * q * k.y) +
        v.z / s * j.z * (w.z * s * k.z) =
        v.x * p * (w.x / p) * (j.x * k.x) + v.y / q * (w.y * q) * (j.y * k.y) +
        v.z / s * (w.z * s) * (j.z * k.z) := by ring
      rw [this, jx, jy, jz]
      field_simp

theorem gen_good {a r θ jr jt : ℝ} (hr : 0 < r) (hs : sin θ ≠ 0) (hj : jr ≠ 0) (ht : jt ≠ 0) :
    Good (genSpatial a r θ jr jt) := by
  obtain ⟨h1, _, h3, h4, h5⟩ := gen_inverse (a := a) hr hs hj ht
  have hS := sigma_pos (a := a) (θ := θ) hr
  have hA := bigA_pos (a := a) (θ := θ) hr
  refine ⟨?_, ?_, ?_, h1, h3, h4, h5⟩ <;> simp only [genSpatial] <;> positivity

end Entity.Metric
