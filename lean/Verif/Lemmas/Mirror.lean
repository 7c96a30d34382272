import Verif.Lemmas.Ampere
import Verif.Spec.Walls

/-!
# The field equations on the lattice and mirrors
-/

namespace Entity.Walls

open Entity Entity.Kernel Entity.FieldSolver Entity.FieldBC Entity.Ranks

variable {K : Type} [Field K]

/-- The lattice field is its own mirror image at the mirror `A / 2` across axis `o`: components between
the nodes keep their sign, the others change it. -/
def Mirror (D : Nat) (A : Int) (o : Nat) (G : Mem K) : Prop :=
  ∀ c p, c < 6 → p.length = D →
    G ⟨0, c, p.set o (A - p.getD o 0 - if halfAlong c o = true then 1 else 0)⟩ =
      if halfAlong c o = true then G ⟨0, c, p⟩ else - G ⟨0, c, p⟩

/-! ## Formulas not needed elsewhere -/

section
variable (k k2 : K) (c : Coeffs K) (w : Mem K)

theorem far1_b2 : runBody (faraday1 k c) w ⟨0, 4, [0]⟩ = w ⟨0, 4, [0]⟩ + k * (
    (1 - 3 * c.deltax) * (w ⟨0, 2, [1]⟩ - w ⟨0, 2, [0]⟩)
    + c.deltax * (w ⟨0, 2, [2]⟩ - w ⟨0, 2, [-1]⟩)) := by kernel_rfl

theorem far1_b3 : runBody (faraday1 k c) w ⟨0, 5, [0]⟩ = w ⟨0, 5, [0]⟩ + k * (
    - (1 - 3 * c.deltax) * (w ⟨0, 1, [1]⟩ - w ⟨0, 1, [0]⟩)
    - c.deltax * (w ⟨0, 1, [2]⟩ - w ⟨0, 1, [-1]⟩)) := by kernel_rfl

theorem far2_b3 : runBody (faraday2 k k2 c) w ⟨0, 5, [0, 0]⟩ = w ⟨0, 5, [0, 0]⟩ + k2 * (
    (1 - 2 * c.betayx - 3 * c.deltay) * (w ⟨0, 0, [0, 1]⟩ - w ⟨0, 0, [0, 0]⟩)
    + c.deltay * (w ⟨0, 0, [0, 2]⟩ - w ⟨0, 0, [0, -1]⟩)
    + c.betayx * (w ⟨0, 0, [1, 1]⟩ - w ⟨0, 0, [1, 0]⟩)
    + c.betayx * (w ⟨0, 0, [-1, 1]⟩ - w ⟨0, 0, [-1, 0]⟩)
    - (1 - 2 * c.betaxy - 3 * c.deltax) * (w ⟨0, 1, [1, 0]⟩ - w ⟨0, 1, [0, 0]⟩)
    - c.deltax * (w ⟨0, 1, [2, 0]⟩ - w ⟨0, 1, [-1, 0]⟩)
    - c.betaxy * (w ⟨0, 1, [1, 1]⟩ - w ⟨0, 1, [0, 1]⟩)
    - c.betaxy * (w ⟨0, 1, [1, -1]⟩ - w ⟨0, 1, [0, -1]⟩)) := by kernel_rfl
end

/-! ## The mirrored field around a mirrored place -/

theorem Mirror.at10 {A : Int} {G : Mem K} (h : Mirror 1 A 0 G) {c : Nat} (hc : c < 6)
    (x s k : Int) : G ⟨0, c, [A - x - s + k]⟩ =
      if halfAlong c 0 = true then G ⟨0, c, [x + s - 1 - k]⟩ else - G ⟨0, c, [x + s - k]⟩ := by
  cases hh : halfAlong c 0
  · have := h c [x + s - k] hc rfl
    simp only [hh, List.set_cons_zero, List.set_cons_succ, List.getD_cons_zero, List.getD_cons_succ,
      Bool.false_eq_true, if_false] at this ⊢
    rw [← this]; congr 3; ring
  · have := h c [x + s - 1 - k] hc rfl
    simp only [hh, List.set_cons_zero, List.set_cons_succ, List.getD_cons_zero, List.getD_cons_succ,
      if_true] at this ⊢
    rw [← this]; congr 3; ring

theorem Mirror.at20 {A : Int} {G : Mem K} (h : Mirror 2 A 0 G) {c : Nat} (hc : c < 6)
    (x s k v : Int) : G ⟨0, c, [A - x - s + k, v]⟩ =
      if halfAlong c 0 = true then G ⟨0, c, [x + s - 1 - k, v]⟩ else - G ⟨0, c, [x + s - k, v]⟩ := by
  cases hh : halfAlong c 0
  · have := h c [x + s - k, v] hc rfl
    simp only [hh, List.set_cons_zero, List.set_cons_succ, List.getD_cons_zero, List.getD_cons_succ,
      Bool.false_eq_true, if_false] at this ⊢
    rw [← this]; congr 3; ring
  · have := h c [x + s - 1 - k, v] hc rfl
    simp only [hh, List.set_cons_zero, List.set_cons_succ, List.getD_cons_zero, List.getD_cons_succ,
      if_true] at this ⊢
    rw [← this]; congr 3; ring

theorem Mirror.at21 {A : Int} {G : Mem K} (h : Mirror 2 A 1 G) {c : Nat} (hc : c < 6)
    (x s k u : Int) : G ⟨0, c, [u, A - x - s + k]⟩ =
      if halfAlong c 1 = true then G ⟨0, c, [u, x + s - 1 - k]⟩ else - G ⟨0, c, [u, x + s - k]⟩ := by
  cases hh : halfAlong c 1
  · have := h c [u, x + s - k] hc rfl
    simp only [hh, List.set_cons_zero, List.set_cons_succ, List.getD_cons_zero, List.getD_cons_succ,
      Bool.false_eq_true, if_false] at this ⊢
    rw [← this]; congr 4; ring
  · have := h c [u, x + s - 1 - k] hc rfl
    simp only [hh, List.set_cons_zero, List.set_cons_succ, List.getD_cons_zero, List.getD_cons_succ,
      if_true] at this ⊢
    rw [← this]; congr 4; ring

theorem Mirror.at30 {A : Int} {G : Mem K} (h : Mirror 3 A 0 G) {c : Nat} (hc : c < 6)
    (x s k v w : Int) : G ⟨0, c, [A - x - s + k, v, w]⟩ =
      if halfAlong c 0 = true then G ⟨0, c, [x + s - 1 - k, v, w]⟩ else - G ⟨0, c, [x + s - k, v, w]⟩ := by
  cases hh : halfAlong c 0
  · have := h c [x + s - k, v, w] hc rfl
    simp only [hh, List.set_cons_zero, List.set_cons_succ, List.getD_cons_zero, List.getD_cons_succ,
      Bool.false_eq_true, if_false] at this ⊢
    rw [← this]; congr 3; ring
  · have := h c [x + s - 1 - k, v, w] hc rfl
    simp only [hh, List.set_cons_zero, List.set_cons_succ, List.getD_cons_zero, List.getD_cons_succ,
      if_true] at this ⊢
    rw [← this]; congr 3; ring

theorem Mirror.at31 {A : Int} {G : Mem K} (h : Mirror 3 A 1 G) {c : Nat} (hc : c < 6)
    (x s k u w : Int) : G ⟨0, c, [u, A - x - s + k, w]⟩ =
      if halfAlong c 1 = true then G ⟨0, c, [u, x + s - 1 - k, w]⟩ else - G ⟨0, c, [u, x + s - k, w]⟩ := by
  cases hh : halfAlong c 1
  · have := h c [u, x + s - k, w] hc rfl
    simp only [hh, List.set_cons_zero, List.set_cons_succ, List.getD_cons_zero, List.getD_cons_succ,
      Bool.false_eq_true, if_false] at this ⊢
    rw [← this]; congr 4; ring
  · have := h c [u, x + s - 1 - k, w] hc rfl
    simp only [hh, List.set_cons_zero, List.set_cons_succ, List.getD_cons_zero, List.getD_cons_succ,
      if_true] at this ⊢
    rw [← this]; congr 4; ring

theorem Mirror.at32 {A : Int} {G : Mem K} (h : Mirror 3 A 2 G) {c : Nat} (hc : c < 6)
    (x s k u v : Int) : G ⟨0, c, [u, v, A - x - s + k]⟩ =
      if halfAlong c 2 = true then G ⟨0, c, [u, v, x + s - 1 - k]⟩ else - G ⟨0, c, [u, v, x + s - k]⟩ := by
  cases hh : halfAlong c 2
  · have := h c [u, v, x + s - k] hc rfl
    simp only [hh, List.set_cons_zero, List.set_cons_succ, List.getD_cons_zero, List.getD_cons_succ,
      Bool.false_eq_true, if_false] at this ⊢
    rw [← this]; congr 5; ring
  · have := h c [u, v, x + s - 1 - k] hc rfl
    simp only [hh, List.set_cons_zero, List.set_cons_succ, List.getD_cons_zero, List.getD_cons_succ,
      if_true] at this ⊢
    rw [← this]; congr 5; ring

/-! ## Faraday and Ampere -/

theorem c0 : 0 < 6 := by decide
theorem c1 : 1 < 6 := by decide
theorem c2 : 2 < 6 := by decide
theorem c3 : 3 < 6 := by decide
theorem c4 : 4 < 6 := by decide
theorem c5 : 5 < 6 := by decide

theorem mirror_far10 (k : K) (c : Coeffs K) {A : Int} {G : Mem K} (h : Mirror 1 A 0 G) (x : Int) :
    ∀ b, 3 ≤ b → b < 6 → onLattice 1 (faraday1 k c) G ⟨0, b, [A - x - if halfAlong b 0 = true then 1 else 0]⟩ =
      if halfAlong b 0 = true then onLattice 1 (faraday1 k c) G ⟨0, b, [x]⟩
        else - onLattice 1 (faraday1 k c) G ⟨0, b, [x]⟩ := by
  intro b hb hb'
  obtain rfl | rfl | rfl : b = 3 ∨ b = 4 ∨ b = 5 := by omega
  all_goals
    simp only [onLattice, here, List.replicate, far1_b1, far1_b2, far1_b3, Loc.at,
      List.zipWith_cons_cons, List.zipWith_nil_left, h.at10 c0, h.at10 c1, h.at10 c2, h.at10 c3, h.at10 c4, h.at10 c5]
    simp [halfAlong]
    try ring_nf
    try simp

theorem mirror_far20 (k k2 : K) (c : Coeffs K) {A : Int} {G : Mem K} (h : Mirror 2 A 0 G) (x y : Int) :
    ∀ b, 3 ≤ b → b < 6 → onLattice 2 (faraday2 k k2 c) G ⟨0, b, [A - x - if halfAlong b 0 = true then 1 else 0, y]⟩ =
      if halfAlong b 0 = true then onLattice 2 (faraday2 k k2 c) G ⟨0, b, [x, y]⟩
        else - onLattice 2 (faraday2 k k2 c) G ⟨0, b, [x, y]⟩ := by
  intro b hb hb'
  obtain rfl | rfl | rfl : b = 3 ∨ b = 4 ∨ b = 5 := by omega
  all_goals
    simp only [onLattice, here, List.replicate, far2_b1, far2_b2, far2_b3, Loc.at,
      List.zipWith_cons_cons, List.zipWith_nil_left, h.at20 c0, h.at20 c1, h.at20 c2, h.at20 c3, h.at20 c4, h.at20 c5]
    simp [halfAlong]
    try ring_nf
    try simp

theorem mirror_far21 (k k2 : K) (c : Coeffs K) {A : Int} {G : Mem K} (h : Mirror 2 A 1 G) (x y : Int) :
    ∀ b, 3 ≤ b → b < 6 → onLattice 2 (faraday2 k k2 c) G ⟨0, b, [x, A - y - if halfAlong b 1 = true then 1 else 0]⟩ =
      if halfAlong b 1 = true then onLattice 2 (faraday2 k k2 c) G ⟨0, b, [x, y]⟩
        else - onLattice 2 (faraday2 k k2 c) G ⟨0, b, [x, y]⟩ := by
  intro b hb hb'
  obtain rfl | rfl | rfl : b = 3 ∨ b = 4 ∨ b = 5 := by omega
  all_goals
    simp only [onLattice, here, List.replicate, far2_b1, far2_b2, far2_b3, Loc.at,
      List.zipWith_cons_cons, List.zipWith_nil_left, h.at21 c0, h.at21 c1, h.at21 c2, h.at21 c3, h.at21 c4, h.at21 c5]
    simp [halfAlong]
    try ring_nf
    try simp

theorem mirror_far30 (k : K) (c : Coeffs K) {A : Int} {G : Mem K} (h : Mirror 3 A 0 G) (x y z : Int) :
    ∀ b, 3 ≤ b → b < 6 → onLattice 3 (faraday3 k c) G ⟨0, b, [A - x - if halfAlong b 0 = true then 1 else 0, y, z]⟩ =
      if halfAlong b 0 = true then onLattice 3 (faraday3 k c) G ⟨0, b, [x, y, z]⟩
        else - onLattice 3 (faraday3 k c) G ⟨0, b, [x, y, z]⟩ := by
  intro b hb hb'
  obtain rfl | rfl | rfl : b = 3 ∨ b = 4 ∨ b = 5 := by omega
  all_goals
    simp only [onLattice, here, List.replicate, far3_b1, far3_b2, far3_b3, Loc.at,
      List.zipWith_cons_cons, List.zipWith_nil_left, h.at30 c0, h.at30 c1, h.at30 c2, h.at30 c3, h.at30 c4, h.at30 c5]
    simp [halfAlong]
    try ring_nf
    try simp

theorem mirror_far31 (k : K) (c : Coeffs K) {A : Int} {G : Mem K} (h : Mirror 3 A 1 G) (x y z : Int) :
    ∀ b, 3 ≤ b → b < 6 → onLattice 3 (faraday3 k c) G ⟨0, b, [x, A - y - if halfAlong b 1 = true then 1 else 0, z]⟩ =
      if halfAlong b 1 = true then onLattice 3 (faraday3 k c) G ⟨0, b, [x, y, z]⟩
        else - onLattice 3 (faraday3 k c) G ⟨0, b, [x, y, z]⟩ := by
  intro b hb hb'
  obtain rfl | rfl | rfl : b = 3 ∨ b = 4 ∨ b = 5 := by omega
  all_goals
    simp only [onLattice, here, List.replicate, far3_b1, far3_b2, far3_b3, Loc.at,
      List.zipWith_cons_cons, List.zipWith_nil_left, h.at31 c0, h.at31 c1, h.at31 c2, h.at31 c3, h.at31 c4, h.at31 c5]
    simp [halfAlong]
    try ring_nf
    try simp

theorem mirror_far32 (k : K) (c : Coeffs K) {A : Int} {G : Mem K} (h : Mirror 3 A 2 G) (x y z : Int) :
    ∀ b, 3 ≤ b → b < 6 → onLattice 3 (faraday3 k c) G ⟨0, b, [x, y, A - z - if halfAlong b 2 = true then 1 else 0]⟩ =
      if halfAlong b 2 = true then onLattice 3 (faraday3 k c) G ⟨0, b, [x, y, z]⟩
        else - onLattice 3 (faraday3 k c) G ⟨0, b, [x, y, z]⟩ := by
  intro b hb hb'
  obtain rfl | rfl | rfl : b = 3 ∨ b = 4 ∨ b = 5 := by omega
  all_goals
    simp only [onLattice, here, List.replicate, far3_b1, far3_b2, far3_b3, Loc.at,
      List.zipWith_cons_cons, List.zipWith_nil_left, h.at32 c0, h.at32 c1, h.at32 c2, h.at32 c3, h.at32 c4, h.at32 c5]
    simp [halfAlong]
    try ring_nf
    try simp

theorem mirror_amp10 (k : K) {A : Int} {G : Mem K} (h : Mirror 1 A 0 G) (x : Int) :
    ∀ b, 0 ≤ b → b < 3 → onLattice 1 (ampere1 k) G ⟨0, b, [A - x - if halfAlong b 0 = true then 1 else 0]⟩ =
      if halfAlong b 0 = true then onLattice 1 (ampere1 k) G ⟨0, b, [x]⟩
        else - onLattice 1 (ampere1 k) G ⟨0, b, [x]⟩ := by
  intro b hb hb'
  obtain rfl | rfl | rfl : b = 0 ∨ b = 1 ∨ b = 2 := by omega
  all_goals
    simp only [onLattice, here, List.replicate, amp1_e1, amp1_e2, amp1_e3, Loc.at,
      List.zipWith_cons_cons, List.zipWith_nil_left, h.at10 c0, h.at10 c1, h.at10 c2, h.at10 c3, h.at10 c4, h.at10 c5]
    simp [halfAlong]
    try ring_nf
    try simp

theorem mirror_amp20 (k k2 : K) {A : Int} {G : Mem K} (h : Mirror 2 A 0 G) (x y : Int) :
    ∀ b, 0 ≤ b → b < 3 → onLattice 2 (ampere2 k k2) G ⟨0, b, [A - x - if halfAlong b 0 = true then 1 else 0, y]⟩ =
      if halfAlong b 0 = true then onLattice 2 (ampere2 k k2) G ⟨0, b, [x, y]⟩
        else - onLattice 2 (ampere2 k k2) G ⟨0, b, [x, y]⟩ := by
  intro b hb hb'
  obtain rfl | rfl | rfl : b = 0 ∨ b = 1 ∨ b = 2 := by omega
  all_goals
    simp only [onLattice, here, List.replicate, amp2_e1, amp2_e2, amp2_e3, Loc.at,
      List.zipWith_cons_cons, List.zipWith_nil_left, h.at20 c0, h.at20 c1, h.at20 c2, h.at20 c3, h.at20 c4, h.at20 c5]
    simp [halfAlong]
    try ring_nf
    try simp

theorem mirror_amp21 (k k2 : K) {A : Int} {G : Mem K} (h : Mirror 2 A 1 G) (x y : Int) :
    ∀ b, 0 ≤ b → b < 3 → onLattice 2 (ampere2 k k2) G ⟨0, b, [x, A - y - if halfAlong b 1 = true then 1 else 0]⟩ =
      if halfAlong b 1 = true then onLattice 2 (ampere2 k k2) G ⟨0, b, [x, y]⟩
        else - onLattice 2 (ampere2 k k2) G ⟨0, b, [x, y]⟩ := by
  intro b hb hb'
  obtain rfl | rfl | rfl : b = 0 ∨ b = 1 ∨ b = 2 := by omega
  all_goals
    simp only [onLattice, here, List.replicate, amp2_e1, amp2_e2, amp2_e3, Loc.at,
      List.zipWith_cons_cons, List.zipWith_nil_left, h.at21 c0, h.at21 c1, h.at21 c2, h.at21 c3, h.at21 c4, h.at21 c5]
    simp [halfAlong]
    try ring_nf
    try simp

theorem mirror_amp30 (k : K) {A : Int} {G : Mem K} (h : Mirror 3 A 0 G) (x y z : Int) :
    ∀ b, 0 ≤ b → b < 3 → onLattice 3 (ampere3 k) G ⟨0, b, [A - x - if halfAlong b 0 = true then 1 else 0, y, z]⟩ =
      if halfAlong b 0 = true then onLattice 3 (ampere3 k) G ⟨0, b, [x, y, z]⟩
        else - onLattice 3 (ampere3 k) G ⟨0, b, [x, y, z]⟩ := by
  intro b hb hb'
  obtain rfl | rfl | rfl : b = 0 ∨ b = 1 ∨ b = 2 := by omega
  all_goals
    simp only [onLattice, here, List.replicate, amp3_e1, amp3_e2, amp3_e3, Loc.at,
      List.zipWith_cons_cons, List.zipWith_nil_left, h.at30 c0, h.at30 c1, h.at30 c2, h.at30 c3, h.at30 c4, h.at30 c5]
    simp [halfAlong]
    try ring_nf
    try simp

theorem mirror_amp31 (k : K) {A : Int} {G : Mem K} (h : Mirror 3 A 1 G) (x y z : Int) :
    ∀ b, 0 ≤ b → b < 3 → onLattice 3 (ampere3 k) G ⟨0, b, [x, A - y - if halfAlong b 1 = true then 1 else 0, z]⟩ =
      if halfAlong b 1 = true then onLattice 3 (ampere3 k) G ⟨0, b, [x, y, z]⟩
        else - onLattice 3 (ampere3 k) G ⟨0, b, [x, y, z]⟩ := by
  intro b hb hb'
  obtain rfl | rfl | rfl : b = 0 ∨ b = 1 ∨ b = 2 := by omega
  all_goals
    simp only [onLattice, here, List.replicate, amp3_e1, amp3_e2, amp3_e3, Loc.at,
      List.zipWith_cons_cons, List.zipWith_nil_left, h.at31 c0, h.at31 c1, h.at31 c2, h.at31 c3, h.at31 c4, h.at31 c5]
    simp [halfAlong]
    try ring_nf
    try simp

theorem mirror_amp32 (k : K) {A : Int} {G : Mem K} (h : Mirror 3 A 2 G) (x y z : Int) :
    ∀ b, 0 ≤ b → b < 3 → onLattice 3 (ampere3 k) G ⟨0, b, [x, y, A - z - if halfAlong b 2 = true then 1 else 0]⟩ =
      if halfAlong b 2 = true then onLattice 3 (ampere3 k) G ⟨0, b, [x, y, z]⟩
        else - onLattice 3 (ampere3 k) G ⟨0, b, [x, y, z]⟩ := by
  intro b hb hb'
  obtain rfl | rfl | rfl : b = 0 ∨ b = 1 ∨ b = 2 := by omega
  all_goals
    simp only [onLattice, here, List.replicate, amp3_e1, amp3_e2, amp3_e3, Loc.at,
      List.zipWith_cons_cons, List.zipWith_nil_left, h.at32 c0, h.at32 c1, h.at32 c2, h.at32 c3, h.at32 c4, h.at32 c5]
    simp [halfAlong]
    try ring_nf
    try simp

end Entity.Walls
