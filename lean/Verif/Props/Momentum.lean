import Verif.Model.Push
import Mathlib.Tactic.Ring
import Mathlib.Tactic.FieldSimp
import Mathlib.Tactic.Linarith
import Mathlib.Tactic.Positivity
import Mathlib.Tactic.LinearCombination
import Mathlib.Tactic.NormNum

/-!
# Momentum pushers and radiative drag (C26, C27)
-/

namespace Entity.Push
open V3

/-- Specification: the square of the Lorentz factor of a particle of momentum `u` (per unit mass). -/
def gammaSq (u : V3 ℝ) : ℝ := 1 + (u.x * u.x + u.y * u.y + u.z * u.z)

@[simp] theorem V3.add_x (a b : V3 ℝ) : (a + b).x = a.x + b.x := rfl
@[simp] theorem V3.add_y (a b : V3 ℝ) : (a + b).y = a.y + b.y := rfl
@[simp] theorem V3.add_z (a b : V3 ℝ) : (a + b).z = a.z + b.z := rfl
@[simp] theorem V3.sub_x (a b : V3 ℝ) : (a - b).x = a.x - b.x := rfl
@[simp] theorem V3.sub_y (a b : V3 ℝ) : (a - b).y = a.y - b.y := rfl
@[simp] theorem V3.sub_z (a b : V3 ℝ) : (a - b).z = a.z - b.z := rfl

/-- The rotation common to Boris and (after reduction) Vay conserves the norm. -/
theorem boris_rot (u t : V3 ℝ) (k : ℝ) (hk : k * (1 + (t.x ^ 2 + t.y ^ 2 + t.z ^ 2)) = 2) :
    let u1 := (u + u.cross t).smul k
    gammaSq (u + u1.cross t) = gammaSq u := by
  obtain ⟨ux, uy, uz⟩ := u
  obtain ⟨x, y, z⟩ := t
  have hpos : (1 + (x ^ 2 + y ^ 2 + z ^ 2)) ≠ 0 := by positivity
  simp only at hk
  have : k = 2 / (1 + (x ^ 2 + y ^ 2 + z ^ 2)) := by field_simp; linarith
  subst this
  simp only [gammaSq, cross, smul, V3.add_x, V3.add_y, V3.add_z]
  field_simp
  ring

/-- **C26 (Boris, no electric field).** For every momentum, magnetic field and time step the Lorentz
factor after the Boris update equals the one before. -/
theorem C26_boris_energy (c : ℝ) (b u : V3 ℝ) :
    gammaSq (boris c ⟨0, 0, 0⟩ b u) = gammaSq u := by
  have h0 : u + (⟨0, 0, 0⟩ : V3 ℝ).smul c = u := by ext <;> simp [smul]
  have hz : ∀ v : V3 ℝ, v + (⟨0, 0, 0⟩ : V3 ℝ).smul c = v := by intro v; ext <;> simp [smul]
  simp only [boris, h0, hz]
  apply boris_rot
  have : (1 + (b.smul (c * (1 / √(1 + u.normSq)))).normSq) ≠ 0 := by
    simp only [normSq]; positivity
  simp only [normSq] at this ⊢
  field_simp

/-- **C26 (Boris, no magnetic field).** The Boris update then adds exactly the electric impulse
`2 c E`, where `2 c` is the charge-to-mass ratio times the time step (in code units). -/
theorem C26_boris_impulse (c : ℝ) (e u : V3 ℝ) :
    boris c e ⟨0, 0, 0⟩ u = ⟨u.x + 2 * c * e.x, u.y + 2 * c * e.y, u.z + 2 * c * e.z⟩ := by
  ext <;> simp [boris, smul, cross, normSq] <;> ring

theorem vay_rot (u t : V3 ℝ) :
    let v := u + u.cross t
    let k := 1 / (1 + t.x ^ 2 + t.y ^ 2 + t.z ^ 2)
    gammaSq ⟨k * (v.x + v.dot t * t.x + v.y * t.z - v.z * t.y),
      k * (v.y + v.dot t * t.y + v.z * t.x - v.x * t.z),
      k * (v.z + v.dot t * t.z + v.x * t.y - v.y * t.x)⟩ = gammaSq u := by
  obtain ⟨ux, uy, uz⟩ := u
  obtain ⟨x, y, z⟩ := t
  have hpos : (1 + x ^ 2 + y ^ 2 + z ^ 2) ≠ 0 := by positivity
  simp only [gammaSq, cross, dot, V3.add_x, V3.add_y, V3.add_z]
  field_simp
  ring

/-- **C26 (Vay, no electric field).** -/
theorem C26_vay_energy (c : ℝ) (b u : V3 ℝ) :
    gammaSq (vay c ⟨0, 0, 0⟩ b u) = gammaSq u := by
  set B := b.smul c with hB
  set G := √(1 + u.normSq) with hG
  have hg1 : 0 < 1 + u.normSq := by simp only [normSq]; positivity
  have hGpos : 0 < G := Real.sqrt_pos.2 hg1
  have hGsq : G ^ 2 = 1 + u.normSq := Real.sq_sqrt hg1.le
  have hz : u + ((⟨0, 0, 0⟩ : V3 ℝ).smul c).smul 2 = u := by ext <;> simp [smul]
  set u1 := u + (u.cross B).smul (1 / G) with hu1
  have hd : u1.dot B = u.dot B := by
    simp only [hu1, dot, cross, smul, V3.add_x, V3.add_y, V3.add_z]; field_simp; ring
  -- the quantity under the outer root is exactly the old Lorentz factor
  have hs : 1 + u1.normSq - B.normSq = G ^ 2 - (B.normSq + u.dot B ^ 2) / G ^ 2 := by
    have e1 : u1.normSq = u.normSq + (u.normSq * B.normSq - u.dot B ^ 2) / G ^ 2 := by
      simp only [hu1, normSq, dot, cross, smul, V3.add_x, V3.add_y, V3.add_z]
      field_simp; ring
    rw [e1]
    have e2 : u.normSq = G ^ 2 - 1 := by linarith
    rw [e2]; field_simp; ring
  have hroot : √((1 + u1.normSq - B.normSq) ^ 2
      + 4 * (B.x ^ 2 + B.y ^ 2 + B.z ^ 2 + u1.dot B ^ 2))
      = G ^ 2 + (B.normSq + u.dot B ^ 2) / G ^ 2 := by
    rw [hd, hs]
    have : (G ^ 2 - (B.normSq + u.dot B ^ 2) / G ^ 2) ^ 2
        + 4 * (B.x ^ 2 + B.y ^ 2 + B.z ^ 2 + u.dot B ^ 2)
        = (G ^ 2 + (B.normSq + u.dot B ^ 2) / G ^ 2) ^ 2 := by
      have : B.x ^ 2 + B.y ^ 2 + B.z ^ 2 = B.normSq := rfl
      rw [this]; field_simp; ring
    rw [this]
    apply Real.sqrt_sq
    simp only [normSq]; positivity
  have hin : √((1 / 2) * ((1 + u1.normSq - B.normSq) + √((1 + u1.normSq - B.normSq) ^ 2
      + 4 * (B.x ^ 2 + B.y ^ 2 + B.z ^ 2 + u1.dot B ^ 2)))) = G := by
    rw [hroot, hs]
    have : (1 / 2) * ((G ^ 2 - (B.normSq + u.dot B ^ 2) / G ^ 2)
        + (G ^ 2 + (B.normSq + u.dot B ^ 2) / G ^ 2)) = G ^ 2 := by ring
    rw [this]; exact Real.sqrt_sq hGpos.le
  simp only [vay, hz, ← hB, ← hG, ← hu1, hin]
  have key := vay_rot u (B.smul (1 / G))
  have hc : u + u.cross (B.smul (1 / G)) = u1 := by
    ext <;> simp [hu1, smul, cross] <;> ring
  have hdd : u1.dot (B.smul (1 / G)) = 1 / G * u1.dot B := by simp only [dot, smul]; ring
  simp only [hc, hdd] at key
  rw [← key]
  simp only [smul]
  congr 2 <;> ring

/-- **C26 (conventional step with an external force but no fields).** The two half kicks around the
field push add exactly the full impulse of the external force. -/
theorem C26_force_impulse (c dt : ℝ) (f u : V3 ℝ) :
    conventional true c dt f ⟨0, 0, 0⟩ ⟨0, 0, 0⟩ u
      = ⟨u.x + dt * f.x, u.y + dt * f.y, u.z + dt * f.z⟩ := by
  simp only [conventional, if_true]
  rw [C26_boris_impulse]
  ext <;> simp [halfKick, smul] <;> ring

/-- Example: the particle is really rotated, so the energy theorem is not about the identity. -/
example : boris 1 ⟨0, 0, 0⟩ ⟨0, 0, 2⟩ ⟨0, √3, 0⟩ = ⟨√3, 0, 0⟩ := by
  have h : √(1 + 3 : ℝ) = 2 := by rw [show (1 + 3 : ℝ) = 2 ^ 2 by norm_num]; simp
  ext <;> simp [boris, smul, cross, normSq, h] <;> ring

/-! ## C72: the discretised equation of motion -/

/-- Specification: three-velocity of a particle of momentum `u`. -/
noncomputable def velocity (u : V3 ℝ) : V3 ℝ := u.smul (1 / √(gammaSq u))

theorem gammaSq_pos (u : V3 ℝ) : 0 < gammaSq u := by
  have := mul_self_nonneg u.x; have := mul_self_nonneg u.y; have := mul_self_nonneg u.z
  simp only [gammaSq]; linarith

theorem gammaSq_eq (u : V3 ℝ) : gammaSq u = 1 + u.normSq := by
  simp only [gammaSq, normSq]; ring

/-- **C72 (Boris).** Between the two half kicks of the electric field, the Boris update solves the
time-centred rotation equation: with `u⁻ = u + cE` and `u⁺ = u' − cE`,
`u⁺ − u⁻ = c (u⁺ + u⁻)/γ⁻ × B`, and the Lorentz factors of `u⁺` and `u⁻` agree.  This determines `u'`,
so direction and angle of the rotation are fixed as well. -/
theorem C72_boris_lorentz (c : ℝ) (e b u : V3 ℝ) :
    let um := u + e.smul c
    let up := boris c e b u - e.smul c
    up - um = ((up + um).smul (1 / √(gammaSq um))).cross (b.smul c) ∧
    gammaSq up = gammaSq um := by
  intro um up
  set t := b.smul (c * (1 / √(1 + um.normSq))) with ht
  have hup : up = um + ((um + um.cross t).smul (2 / (1 + t.normSq))).cross t := by
    ext <;> simp [up, boris, um, ht] <;> ring
  have htn : 1 + t.normSq ≠ 0 := by simp only [normSq]; positivity
  constructor
  · have hc : ((up + um).smul (1 / √(gammaSq um))).cross (b.smul c) = (up + um).cross t := by
      rw [gammaSq_eq]
      ext <;> simp [ht, smul, cross] <;> ring
    rw [hc, hup]
    simp only [normSq] at htn
    ext <;> simp [smul, cross, normSq] <;> field_simp <;> ring
  · rw [hup]
    apply boris_rot
    simp only [normSq] at htn ⊢
    field_simp

/-- **C72 (Vay).** The Vay update solves the implicit equation
`u' = u + 2cE + c (v + v') × B`, where `v`, `v'` are the velocities before and after. -/
theorem C72_vay_lorentz (c : ℝ) (e b u : V3 ℝ) :
    vay c e b u = u + e.smul (2 * c) +
      ((velocity u + velocity (vay c e b u)).cross (b.smul c)) := by
  set B := b.smul c with hB
  set G := √(1 + u.normSq) with hG
  set u1 := u + (e.smul c).smul 2 + (u.cross B).smul (1 / G) with hu1
  set d := u1.dot B with hd
  set s := 1 + u1.normSq - B.normSq with hs
  set q := B.x ^ 2 + B.y ^ 2 + B.z ^ 2 + d ^ 2 with hq
  set W := (1 / 2) * (s + √(s ^ 2 + 4 * q)) with hW
  have hq0 : 0 ≤ q := by simp only [hq]; positivity
  have hroot : 0 ≤ s ^ 2 + 4 * q := by positivity
  have hsq : √(s ^ 2 + 4 * q) ^ 2 = s ^ 2 + 4 * q := Real.sq_sqrt hroot
  have hWpos : 0 < W := by
    have h1 : |s| ≤ √(s ^ 2 + 4 * q) := by
      rw [← Real.sqrt_sq_eq_abs]; exact Real.sqrt_le_sqrt (by linarith)
    rcases lt_or_ge 0 s with h | h
    · have := Real.sqrt_nonneg (s ^ 2 + 4 * q); simp only [hW]; linarith
    · -- then `B` does not vanish, so the root is strictly larger than `|s|`
      have hBn : 0 < q := by
        have : B.normSq ≥ 1 + u1.normSq := by simp only [hs] at h; linarith
        have h2 : 0 ≤ u1.normSq := by simp only [normSq]; positivity
        have h3 : B.normSq = B.x ^ 2 + B.y ^ 2 + B.z ^ 2 := rfl
        have h4 := sq_nonneg d
        simp only [hq]; linarith
      have h1' : |s| < √(s ^ 2 + 4 * q) := by
        rw [← Real.sqrt_sq_eq_abs]; exact Real.sqrt_lt_sqrt (sq_nonneg s) (by linarith)
      have := neg_abs_le s
      simp only [hW]; linarith
  have hWq : W ^ 2 = s * W + q := by
    have : W ^ 2 = (1 / 4) * (s ^ 2 + 2 * s * √(s ^ 2 + 4 * q) + √(s ^ 2 + 4 * q) ^ 2) := by
      simp only [hW]; ring
    rw [this, hsq]; simp only [hW]; ring
  set g := √W with hg
  have hgpos : 0 < g := Real.sqrt_pos.2 hWpos
  have hg2 : g ^ 2 = W := Real.sq_sqrt hWpos.le
  set t := B.smul (1 / g) with ht
  set k := 1 / (1 + t.normSq) with hk
  have htn : 1 + t.normSq ≠ 0 := by simp only [normSq]; positivity
  set w := vay c e b u with hw
  have hwv : w = ⟨k * (u1.x + u1.dot t * t.x + u1.y * t.z - u1.z * t.y),
      k * (u1.y + u1.dot t * t.y + u1.z * t.x - u1.x * t.z),
      k * (u1.z + u1.dot t * t.z + u1.x * t.y - u1.y * t.x)⟩ := by
    have hkk : 1 / (1 + (B.x * (1 / g)) ^ 2 + (B.y * (1 / g)) ^ 2 + (B.z * (1 / g)) ^ 2) = k := by
      simp only [hk, ht, normSq, smul]; congr 1; ring
    have hdt : u1.dot t = 1 / g * u1.dot B := by simp only [ht, dot, smul]; ring
    rw [hw]
    simp only [vay, ← hB, ← hG, ← hu1, ← hd, ← hs, ← hq, ← hW, ← hg, hkk, hdt]
    ext <;> simp only [ht, smul] <;> ring
  -- `w - w × t = u1`
  have hlin : w = u1 + w.cross t := by
    rw [hwv]
    simp only [normSq] at htn
    ext <;> simp [cross, dot, hk, normSq] <;> field_simp <;> ring
  -- the Lorentz factor of the result is `g`
  have hgam : gammaSq w = W := by
    have e1 : w.normSq = (u1.normSq + u1.dot t ^ 2) / (1 + t.normSq) := by
      rw [hwv]
      simp only [normSq] at htn
      simp only [normSq, dot, hk]; field_simp; ring
    have e2 : t.normSq = B.normSq / W := by
      rw [← hg2]; simp only [ht, normSq, smul]; field_simp
    have e3 : u1.dot t ^ 2 = d ^ 2 / W := by
      rw [← hg2]; simp only [ht, hd, dot, smul]; field_simp
    have hBs : B.normSq = q - d ^ 2 := by simp only [hq, normSq]; ring
    have hu1n : u1.normSq = s - 1 + B.normSq := by simp only [hs]; ring
    rw [gammaSq_eq, e1, e2, e3]
    have hne : 1 + B.normSq / W ≠ 0 := by rw [← e2]; exact htn
    have hne' : W + B.normSq ≠ 0 := by
      intro h; apply hne; field_simp; simpa using h
    rw [hu1n, hBs] at *
    field_simp
    linear_combination -hWq
  have hvel : velocity w = w.smul (1 / g) := by rw [velocity, hgam]
  rw [hvel]
  conv_lhs => rw [hlin]
  have hvu : velocity u = u.smul (1 / G) := by rw [velocity, gammaSq_eq]
  rw [hvu]
  ext <;> simp [hu1, ht, smul, cross] <;> ring

/-! ## Drag -/

/-- Specification: change of the momentum by synchrotron drag alone in a step. -/
noncomputable def syncDelta (cs : ℝ) (e b uOld u : V3 ℝ) : V3 ℝ :=
  radiativeDrag true false cs 0 e b uOld u - u
/-- Specification: change of the momentum by inverse-Compton drag alone in a step. -/
noncomputable def compDelta (cc : ℝ) (e b uOld u : V3 ℝ) : V3 ℝ :=
  radiativeDrag false true 0 cc e b uOld u - u

/-- **C27 (partial).** What the code does with both mechanisms enabled: the change is the full
synchrotron change plus the Compton change evaluated at the time-centred *velocity* instead of the
time-centred momentum.  Missing: the full claim (Compton change at the time-centred momentum), which
is false (`C27_counterexample`). -/
theorem C27_combined_partial (cs cc : ℝ) (e b uOld u : V3 ℝ) :
    let up := (uOld + u).smul (1 / 2)
    let v := up.smul (1 / √(1 + up.normSq))
    radiativeDrag true true cs cc e b uOld u - u
      = syncDelta cs e b uOld u + (comptonDrag cc ⟨0, 0, 0⟩ v).1 := by
  intro up v
  ext <;> simp [radiativeDrag, syncDelta, comptonDrag, synchrotronDrag, up, v] <;> ring

/-- One mechanism alone: the Compton drag is exactly `-coeff γ u'`, anti-parallel to the time-centred
momentum `u'`. -/
theorem C27_compton_alone_partial (cc : ℝ) (e b uOld u : V3 ℝ) :
    let up := (uOld + u).smul (1 / 2)
    compDelta cc e b uOld u = up.smul (-(cc * √(gammaSq up))) := by
  intro up
  have hp : 0 < 1 + up.normSq := by simp only [normSq]; positivity
  have hs : √(1 + up.normSq) ≠ 0 := (Real.sqrt_pos.2 hp).ne'
  have hg : gammaSq up = 1 + up.normSq := by simp only [gammaSq, normSq]; ring
  rw [hg]
  have : compDelta cc e b uOld u
      = ((up.smul (1 / √(1 + up.normSq))).smul (cc * (1 / (1 / √(1 + up.normSq))) ^ 2)).smul (-1) := by
    ext <;> simp [compDelta, radiativeDrag, comptonDrag, up, smul]
  rw [this]
  ext <;> simp only [smul] <;> field_simp

/-- **C27, the claim fails.** With no fields the synchrotron drag changes nothing, so the claim says
that enabling it as well must leave the Compton drag alone; but it does not: the synchrotron routine
has already divided the shared time-centred momentum by its Lorentz factor. -/
theorem C27_counterexample :
    ∃ (cs cc : ℝ) (e b uOld u : V3 ℝ),
      syncDelta cs e b uOld u = ⟨0, 0, 0⟩ ∧
      radiativeDrag true true cs cc e b uOld u - u
        ≠ syncDelta cs e b uOld u + compDelta cc e b uOld u := by
  refine ⟨1, 1, ⟨0, 0, 0⟩, ⟨0, 0, 0⟩, ⟨√3, 0, 0⟩, ⟨√3, 0, 0⟩, ?_, ?_⟩
  · ext <;> simp [syncDelta, radiativeDrag, synchrotronDrag, cross, dot, smul, normSq]
  · have h3 : √3 ^ 2 = (3 : ℝ) := Real.sq_sqrt (by norm_num)
    have h4 : √(1 + 3 : ℝ) = 2 := by rw [show (1 + 3 : ℝ) = 2 ^ 2 by norm_num]; simp
    intro h
    have hx := congrArg V3.x h
    simp [syncDelta, compDelta, radiativeDrag, synchrotronDrag, comptonDrag, cross, dot, smul,
      normSq] at hx
    have e1 : (2⁻¹ * (√3 + √3) : ℝ) = √3 := by ring
    simp only [e1] at hx
    rw [h3, h4] at hx
    have h7 : (1 + (2⁻¹ * √3) ^ 2 : ℝ) = 7 / 4 := by rw [mul_pow, h3]; norm_num
    rw [h7] at hx
    have hA : (0 : ℝ) < √(7 / 4) := Real.sqrt_pos.2 (by norm_num)
    have hA2 : √(7 / 4) ^ 2 = (7 / 4 : ℝ) := Real.sq_sqrt (by norm_num)
    have hr : (0 : ℝ) < √3 := Real.sqrt_pos.2 (by norm_num)
    field_simp at hx
    rw [hx] at hA2; norm_num at hA2

end Entity.Push
