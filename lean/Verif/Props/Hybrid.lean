import Verif.Model.Hybrid
import Verif.Props.GuidingCentre

/-!
# C175: the hybrid pusher
-/

namespace Entity.Push
open Entity V3

/-- Specification: the guiding-centre approximation applies: there is a magnetic field and a charge, the
Larmor radius `γ dt / (2 |c| B)` is below its limit, and so is the ratio of the squared fields. -/
def Applies (c dt larmorMax ratioMax : ℝ) (e b u : V3 ℝ) : Prop :=
  0 < b.dot b ∧ c ≠ 0 ∧ √(gammaSq u) * dt < larmorMax * (2 * |c| * √(b.dot b)) ∧
    e.dot e < ratioMax * b.dot b

theorem normSq_dot (a : V3 ℝ) : a.normSq = a.dot a := by simp only [V3.normSq, V3.dot] <;> ring

theorem magnetized_iff (c dt l m : ℝ) (e b u : V3 ℝ) :
    magnetized c dt l m e b u ↔ Applies c dt l m e b u := by
  unfold magnetized Applies
  rw [normSq_dot b, normSq_dot e, show 1 + u.normSq = gammaSq u by simp only [V3.normSq, gammaSq] <;> ring]
  constructor
  · rintro ⟨h, ⟨hc, h1⟩, h2⟩
    have : 0 < 2 * |c| * √(b.dot b) := by
      have := abs_pos.2 hc
      have := Real.sqrt_pos.2 h
      positivity
    exact ⟨h, hc, (div_lt_iff₀ this).1 h1, (div_lt_iff₀ h).1 h2⟩
  · rintro ⟨h, hc, h1, h2⟩
    have : 0 < 2 * |c| * √(b.dot b) := by
      have := abs_pos.2 hc
      have := Real.sqrt_pos.2 h
      positivity
    exact ⟨h, ⟨hc, (div_lt_iff₀ this).2 h1⟩, (div_lt_iff₀ h).2 h2⟩

theorem gcaForce_eq (c dt : ℝ) (f e b u : V3 ℝ) : gcaForce c dt f e b u = gca c e b (u + f.smul dt) := by
  have : ∀ n : V3 ℝ, u.dot n + c * 2 * e.dot n + dt * f.dot n = (u + f.smul dt).dot n + c * 2 * e.dot n := by
    intro n
    simp only [V3.dot, V3.add_x, V3.add_y, V3.add_z, V3.smul]
    ring
  unfold gcaForce gca
  simp only [this]

/-- **C175**, guiding centre: if the approximation applies, and strong electric fields are excluded by the
limit, the push is not conventional, it changes the momentum along the magnetic field by the electric and the
external force along it, and the rest is a drift slower than light, perpendicular to both fields. -/
theorem C175_guiding_centre (isBoris isVay force : Bool) (c dt l m : ℝ) (f e b u : V3 ℝ) (hm : m ≤ 1)
    (h : Applies c dt l m e b u) :
    ∃ u', hybrid true isBoris isVay force c dt l m f e b u = .ok (u', true) ∧
      u'.dot b = u.dot b + 2 * c * e.dot b + (if force = true then dt * f.dot b else 0) ∧
      ∃ v, Drifts u' b v ∧ v.dot b = 0 ∧ v.dot e = 0 ∧ v.dot v < 1 := by
  have hne : ¬ (e.dot b = 0 ∧ e.dot e = b.dot b) := by
    rintro ⟨_, h'⟩
    have := h.2.2.2
    rw [h'] at this
    nlinarith [h.1]
  have hh : (true = true ∧ magnetized c dt l m e b u) := ⟨rfl, (magnetized_iff ..).2 h⟩
  refine ⟨if force = true then gcaForce c dt f e b u else gca c e b u, ?_, ?_⟩
  · unfold hybrid
    rw [if_pos hh]
  · cases force
    · obtain ⟨h1, v, _, h2, h3, h4, h5, _⟩ := C172_guiding_centre c e b u h.1 hne
      exact ⟨by simpa using h1, v, by simpa using h2, h3, h4, h5⟩
    · obtain ⟨h1, v, _, h2, h3, h4, h5, _⟩ := C172_guiding_centre c e b (u + f.smul dt) h.1 hne
      simp only [if_true, gcaForce_eq]
      refine ⟨?_, v, h2, h3, h4, h5⟩
      rw [h1]
      simp only [V3.dot, V3.add_x, V3.add_y, V3.add_z, V3.smul]
      ring

/-- **C175**, conventional: if the pusher is not hybrid or the approximation does not apply, the result is
that of the conventional pusher, with the external force in two halves; Boris is preferred, and it is an
error to have chosen neither. -/
theorem C175_conventional (isGca isBoris isVay : Bool) (c dt l m : ℝ) (f e b u : V3 ℝ)
    (h : isGca = true → ¬ Applies c dt l m e b u) :
    (isBoris = false → isVay = false → ∀ force, hybrid isGca isBoris isVay force c dt l m f e b u = .err) ∧
    (isBoris = true ∨ isVay = true →
      hybrid isGca isBoris isVay true c dt l m f e b u = .ok (conventional isBoris c dt f e b u, false) ∧
      hybrid isGca isBoris isVay false c dt l m f e b u =
        .ok (conventional isBoris c dt ⟨0, 0, 0⟩ e b u, false)) := by
  have hh : ¬ (isGca = true ∧ magnetized c dt l m e b u) := fun h' => h h'.1 ((magnetized_iff ..).1 h'.2)
  have hz : ∀ a : V3 ℝ, halfKick dt ⟨0, 0, 0⟩ a = a := by
    rintro ⟨x, y, z⟩
    show V3.mk _ _ _ = _
    simp [V3.smul]
  unfold hybrid conventional
  simp only [if_neg hh, hz]
  refine ⟨fun h1 h2 force => by simp [h1, h2], fun h1 => ?_⟩
  cases isBoris
  · have : isVay = true := by simpa using h1
    simp [this]
  · simp

/-- Non-vacuity: a slow particle in a strong magnetic field, and the same in a strong electric field. -/
example : Applies (1 / 2) 1 3 (1 / 4) ⟨1, 0, 1⟩ ⟨0, 0, 4⟩ ⟨0, 0, 0⟩ ∧
    ¬ Applies (1 / 2) 1 3 (1 / 4) ⟨3, 0, 0⟩ ⟨0, 0, 4⟩ ⟨0, 0, 0⟩ := by
  have h4 : √(4 * 4 : ℝ) = 4 := Real.sqrt_mul_self (by norm_num)
  constructor
  · simp only [Applies, V3.dot, gammaSq]
    rw [show (0 * 0 + 0 * 0 + 4 * 4 : ℝ) = 4 * 4 by norm_num, h4]
    norm_num
  · simp only [Applies, V3.dot]
    norm_num

end Entity.Push
