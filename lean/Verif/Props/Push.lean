import Verif.Model.Push
import Verif.Props.Directions
import Mathlib.Tactic.Ring
import Mathlib.Tactic.FieldSimp
import Mathlib.Tactic.Linarith
import Mathlib.Tactic.Positivity
import Mathlib.Tactic.NormNum

/-!
# Particle positions: push, boundary conditions, conversion (C23, C24, C25, C28, C63)
-/

namespace Entity.Push
open Entity

/-! ## Specifications -/

section
variable {K : Type} [Field K] [LinearOrder K] [IsStrictOrderedRing K]

/-- Position along an axis in cells: cell plus offset. -/
def Ax.pos (a : Ax K) : K := (a.i : K) + a.dx
/-- Previous position along an axis in cells. -/
def Ax.prev (a : Ax K) : K := (a.iPrev : K) + a.dxPrev
/-- The offset is normalised. -/
def Ax.Norm (a : Ax K) : Prop := 0 ≤ a.dx ∧ a.dx < 1
/-- The particle is inside a box of `n` cells along this axis. -/
def Ax.Inside (n : Int) (a : Ax K) : Prop := 0 ≤ a.i ∧ a.i < n

/-! ## C23 -/

/-- **C23.** A displacement of less than one cell leaves the offset in `[0,1)`, changes the cell index
by at most one, advances the position by exactly the displacement, and records the position before
as the previous one. -/
theorem C23_push (disp : K) (a : Ax K) (ha : a.Norm) (h1 : -1 < disp) (h2 : disp < 1) :
    (pushAxis disp a).Norm ∧
    |(pushAxis disp a).i - a.i| ≤ 1 ∧
    (pushAxis disp a).pos = a.pos + disp ∧
    (pushAxis disp a).prev = a.pos ∧
    (pushAxis disp a).u = a.u := by
  obtain ⟨h3, h4⟩ := ha
  simp only [pushAxis, Ax.Norm, Ax.pos, Ax.prev]
  rcases lt_or_ge (a.dx + disp) 0 with h | h
  · have : ¬ (1 : K) ≤ a.dx + disp := by linarith
    simp only [ge_iff_le, this, h, decide_false, decide_true, b2i, b2n, Bool.false_eq_true,
      if_false, if_true, sub_zero]
    refine ⟨⟨by linarith, by linarith⟩, by simp, ?_, trivial, trivial⟩
    push_cast; ring
  · rcases lt_or_ge (a.dx + disp) 1 with h' | h'
    · have e1 : ¬ (1 : K) ≤ a.dx + disp := by linarith
      have e2 : ¬ a.dx + disp < 0 := by linarith
      simp only [ge_iff_le, e1, e2, decide_false, b2i, b2n, Bool.false_eq_true,
        if_false, sub_zero, add_zero]
      refine ⟨⟨by linarith, by linarith⟩, by simp, ?_, trivial, trivial⟩
      ring
    · have e2 : ¬ a.dx + disp < 0 := by linarith
      have e3 : ¬ a.dx + disp - 1 < 0 := by linarith
      simp only [ge_iff_le, h', e2, e3, decide_false, decide_true, b2i, b2n, Bool.false_eq_true,
        if_false, if_true, sub_zero, add_zero]
      refine ⟨⟨by linarith, by linarith⟩, by simp, ?_, trivial, trivial⟩
      push_cast; ring

/-- Example: a particle near the right end of cell 4 crosses into cell 5. -/
example : pushAxis (1 / 2 : ℚ) ⟨4, 3, 3 / 4, 0, 1⟩ = ⟨5, 4, 1 / 4, 3 / 4, 1⟩ := by
  simp [pushAxis, b2i, b2n]; norm_num

/-! ## C24, C25: one axis -/

/-- Specification of what a boundary kind does to the position and momentum of a particle that is
beyond that side.  `wall` is the position of the wall and `shift` the box length with the sign that
brings the particle back. -/
def SideSpec (isX2 : Bool) (b : PBC) (wall shift : K) (n : Int) (a a' : Ax K) : Prop :=
  match b with
  | .periodic =>
      a'.pos = a.pos + shift ∧ a'.prev = a.prev + shift ∧ a'.u = a.u ∧ a'.dx = a.dx ∧ a'.Inside n
  | .reflect =>
      a'.pos = wall + (wall - a.pos) ∧ a'.u = -a.u ∧ a'.prev = a.prev ∧ a'.Inside n
  | .axis =>
      if isX2 then
        a'.pos = wall + (wall - a.pos) ∧ a'.u = a.u ∧ a'.prev = a.prev ∧ a'.Inside n
      else a' = a
  | _ => a' = a

/-- Specification of the effect of the boundary conditions on one axis. -/
def AxisSpec (isX2 : Bool) (s : PBC × PBC × Int) (a a' : Ax K) : Prop :=
  (a.Inside s.2.2 → a' = a) ∧
  (a.i < 0 → SideSpec isX2 s.1 0 (s.2.2 : K) s.2.2 a a') ∧
  (s.2.2 ≤ a.i → SideSpec isX2 s.2.1 (s.2.2 : K) (-(s.2.2 : K)) s.2.2 a a')

/-- The particle is beyond a side that absorbs (particle absorption or atmosphere). -/
def Absorbed (s : PBC × PBC × Int) (a : Ax K) : Prop :=
  (a.i < 0 ∧ (s.1 = .absorb ∨ s.1 = .atmosphere)) ∨
  (s.2.2 ≤ a.i ∧ (s.2.1 = .absorb ∨ s.2.1 = .atmosphere))

/-- **C24 (one axis).** For a box of `n ≥ 1` cells and a particle within one cell of the box: inside,
nothing changes; beyond a periodic side, the position and the previous position move by the box
length and the particle is inside; beyond a reflecting side, the position is mirrored about the wall
and the normal momentum flips; at the polar axis the position is mirrored; beyond any other side
position and momentum do not change.  The tag becomes dead exactly beyond an absorbing side. -/
theorem C24_axis (isX2 : Bool) (s : PBC × PBC × Int) (a : Ax K) (tag : Int)
    (hn : 1 ≤ s.2.2) (h1 : -1 ≤ a.i) (h2 : a.i ≤ s.2.2) :
    AxisSpec isX2 s a (bcAxis isX2 s.1 s.2.1 s.2.2 a tag).1 ∧
    (Absorbed s a → (bcAxis isX2 s.1 s.2.1 s.2.2 a tag).2 = Tags.dead) ∧
    (¬ Absorbed s a → (bcAxis isX2 s.1 s.2.1 s.2.2 a tag).2 = tag) := by
  obtain ⟨lo, hi, n⟩ := s
  simp only at hn h2
  rcases lt_or_ge a.i 0 with h | h
  · have hi1 : a.i = -1 := by omega
    have h' : ¬ n ≤ a.i := by omega
    have hc : ((a.i : Int) : K) = -1 := by rw [hi1]; simp
    refine ⟨⟨fun hin => absurd hin.1 (by omega), fun _ => ?_, fun hx => absurd hx h'⟩, ?_, ?_⟩
    · simp only [bcAxis, h, if_true]
      cases lo <;> cases isX2 <;>
        simp [flagsOf, SideSpec, Ax.pos, Ax.prev, Ax.Inside, hc] <;>
        first
          | (refine ⟨by ring, by ring, ?_⟩; omega)
          | (refine ⟨by ring, ?_⟩; omega)
          | omega
    · rintro (⟨-, hb | hb⟩ | ⟨hx, -⟩)
      · simp only at hb; subst hb; simp [bcAxis, h, flagsOf]
      · simp only at hb; subst hb; simp [bcAxis, h, flagsOf]
      · exact absurd hx h'
    · intro hna
      simp only [bcAxis, h, if_true]
      cases lo <;> cases isX2 <;> simp_all [flagsOf, Absorbed]
  · have hneg : ¬ a.i < 0 := by omega
    rcases lt_or_ge a.i n with h' | h'
    · have h'' : ¬ n ≤ a.i := by omega
      simp [bcAxis, hneg, h'', AxisSpec, Absorbed]
    · have hi1 : a.i = n := by omega
      have hc : ((a.i : Int) : K) = n := by rw [hi1]
      refine ⟨⟨fun hin => absurd hin.2 (by simpa using h'), fun hx => absurd hx hneg,
        fun _ => ?_⟩, ?_, ?_⟩
      · simp only [bcAxis, hneg, if_false, ge_iff_le, h', if_true]
        cases hi <;> cases isX2 <;>
          simp [flagsOf, SideSpec, Ax.pos, Ax.prev, Ax.Inside, hc] <;>
          first
            | (refine ⟨by ring, by ring, ?_⟩; omega)
            | (refine ⟨by ring, ?_⟩; omega)
            | omega
      · rintro (⟨hx, -⟩ | ⟨-, hb | hb⟩)
        · exact absurd hx hneg
        · simp only at hb; subst hb; simp [bcAxis, hneg, h', flagsOf]
        · simp only at hb; subst hb; simp [bcAxis, hneg, h', flagsOf]
      · intro hna
        simp only [bcAxis, hneg, if_false, ge_iff_le, h', if_true]
        cases hi <;> cases isX2 <;> simp_all [flagsOf, Absorbed]

/-! ## C24: the whole particle -/

theorem bcAxes_length (k : Nat) (ss : List (PBC × PBC × Int)) (as : List (Ax K)) (tag : Int) :
    (bcAxes k ss as tag).1.length = as.length := by
  induction ss generalizing k as tag with
  | nil => cases as <;> rfl
  | cons s ss ih =>
    cases as with
    | nil => rfl
    | cons a as => simp [bcAxes, ih]

theorem bcAxis_fst_tag (isX2 : Bool) (lo hi : PBC) (n : Int) (a : Ax K) (t t' : Int) :
    (bcAxis isX2 lo hi n a t).1 = (bcAxis isX2 lo hi n a t').1 := by
  simp only [bcAxis]; split_ifs <;> rfl

theorem bcAxes_get (k : Nat) (ss : List (PBC × PBC × Int)) (as : List (Ax K)) (tag : Int)
    (j : Nat) (s : PBC × PBC × Int) (a : Ax K) (hs : ss[j]? = some s) (ha : as[j]? = some a) :
    (bcAxes k ss as tag).1[j]? = some (bcAxis (k + j == 1) s.1 s.2.1 s.2.2 a tag).1 := by
  induction ss generalizing k as tag j with
  | nil => simp at hs
  | cons s0 ss ih =>
    cases as with
    | nil => simp at ha
    | cons a0 as =>
      cases j with
      | zero =>
        simp at hs ha; subst hs ha
        simp [bcAxes]
      | succ j =>
        simp only [List.getElem?_cons_succ] at hs ha
        have := ih (k + 1) as (bcAxis (k == 1) s0.1 s0.2.1 s0.2.2 a0 tag).2 j hs ha
        simp only [bcAxes, List.getElem?_cons_succ, this]
        rw [show k + 1 + j = k + (j + 1) by omega]
        exact congrArg some (bcAxis_fst_tag ..)

theorem bcAxes_tag (k : Nat) (ss : List (PBC × PBC × Int)) (as : List (Ax K)) (tag : Int)
    (hok : ∀ (j : Nat) (s : PBC × PBC × Int) (a : Ax K), ss[j]? = some s → as[j]? = some a →
      1 ≤ s.2.2 ∧ -1 ≤ a.i ∧ a.i ≤ s.2.2) :
    ((∃ (j : Nat) (s : PBC × PBC × Int) (a : Ax K), ss[j]? = some s ∧ as[j]? = some a ∧ Absorbed s a) →
      (bcAxes k ss as tag).2 = Tags.dead) ∧
    ((¬ ∃ (j : Nat) (s : PBC × PBC × Int) (a : Ax K), ss[j]? = some s ∧ as[j]? = some a ∧ Absorbed s a) →
      (bcAxes k ss as tag).2 = tag) := by
  induction ss generalizing k as tag with
  | nil => cases as <;> simp [bcAxes]
  | cons s0 ss ih =>
    cases as with
    | nil => simp [bcAxes]
    | cons a0 as =>
      obtain ⟨h1, h2, h3⟩ := hok 0 s0 a0 rfl rfl
      obtain ⟨-, g1, g2⟩ := C24_axis (k == 1) s0 a0 tag h1 h2 h3
      have hih := fun t => ih (k + 1) as t (fun j s a hs ha => hok (j + 1) s a hs ha)
      simp only [bcAxes]
      by_cases h0 : Absorbed s0 a0
      · rw [g1 h0]
        refine ⟨fun _ => ?_, fun h => absurd ⟨0, s0, a0, rfl, rfl, h0⟩ h⟩
        by_cases hr : ∃ (j : Nat) (s : PBC × PBC × Int) (a : Ax K), ss[j]? = some s ∧ as[j]? = some a ∧ Absorbed s a
        · exact (hih _).1 hr
        · exact (hih _).2 hr
      · rw [g2 h0]
        refine ⟨?_, ?_⟩
        · rintro ⟨j, s, a, hs, ha, hab⟩
          cases j with
          | zero => simp at hs ha; subst hs ha; exact absurd hab h0
          | succ j => exact (hih _).1 ⟨j, s, a, hs, ha, hab⟩
        · intro hn
          exact (hih _).2 fun ⟨j, s, a, hs, ha, hab⟩ => hn ⟨j + 1, s, a, hs, ha, hab⟩

/-- What the boundary conditions may be given: 1 to 3 axes, one pair of sides per axis, every box at
least one cell wide, and the particle at most one cell outside along each axis (as after a move of
less than one cell from inside, C23). -/
structure Near (sides : List (PBC × PBC × Int)) (p : Particle K) : Prop where
  dim : 1 ≤ p.ax.length ∧ p.ax.length ≤ 3
  len : sides.length = p.ax.length
  near : ∀ (k : Nat) s a, sides[k]? = some s → p.ax[k]? = some a →
    1 ≤ s.2.2 ∧ -1 ≤ a.i ∧ a.i ≤ s.2.2

/-- Direction in which a particle is outside the box. -/
def outDir (sides : List (PBC × PBC × Int)) (as : List (Ax K)) : List Int :=
  List.zipWith (fun s a => if a.i < 0 then -1 else if s.2.2 ≤ a.i then 1 else 0) sides as

theorem leaveDir_outFlags (sides : List (PBC × PBC × Int)) (as : List (Ax K))
    (hn : ∀ s ∈ sides, 1 ≤ s.2.2) :
    Tags.leaveDir (outFlags sides as) = outDir sides as ∧
    ∀ x ∈ outFlags sides as, ¬ (x.1 = true ∧ x.2 = true) := by
  induction sides generalizing as with
  | nil => simp [outFlags, outDir, Tags.leaveDir]
  | cons s ss ih =>
    cases as with
    | nil => simp [outFlags, outDir, Tags.leaveDir]
    | cons a as =>
      obtain ⟨i1, i2⟩ := ih as (fun s hs => hn s (by simp [hs]))
      have hns := hn s (by simp)
      simp only [outFlags, outDir, Tags.leaveDir] at i1 i2 ⊢
      refine ⟨?_, ?_⟩
      · simp only [List.zipWith_cons_cons, List.map_cons, i1]
        by_cases h : a.i < 0
        · simp [h]
        · by_cases h' : s.2.2 ≤ a.i <;> simp [h, h']
      · simp only [List.zipWith_cons_cons, List.mem_cons]
        rintro x (rfl | hx)
        · simp; omega
        · exact i2 x hx

/-- **C24 (build with message passing).** For a live particle at most one cell outside the box: each
axis behaves as specified; the particle ends dead exactly if it was beyond an absorbing side along
some axis; otherwise it ends alive with all axes inside the box, or it carries the code of exactly
the direction in which it is still outside. Momentum components without an axis do not change. -/
theorem C24_boundaries (sides : List (PBC × PBC × Int)) (p : Particle K) (hp : Near sides p)
    (ht : p.tag = Tags.alive) :
    ∃ p', boundaryConditions true sides p = .ok p' ∧ p'.uRest = p.uRest ∧
      p'.ax.length = p.ax.length ∧
      (∀ (k : Nat) s a a', sides[k]? = some s → p.ax[k]? = some a → p'.ax[k]? = some a' →
        AxisSpec (k == 1) s a a') ∧
      ((∃ (k : Nat) (s : _) (a : _), sides[k]? = some s ∧ p.ax[k]? = some a ∧ Absorbed s a) →
        p'.tag = Tags.dead) ∧
      ((¬ ∃ (k : Nat) (s : _) (a : _), sides[k]? = some s ∧ p.ax[k]? = some a ∧ Absorbed s a) →
        (p'.tag = Tags.alive ∧
          ∀ (k : Nat) s a', sides[k]? = some s → p'.ax[k]? = some a' → a'.Inside s.2.2) ∨
        (p'.tag ≠ Tags.alive ∧ p'.tag ≠ Tags.dead ∧
          Tags.tag2dir p.ax.length p'.tag = .ok (outDir sides p'.ax))) := by
  have hlen : (bcAxes 0 sides p.ax p.tag).1.length = p.ax.length := bcAxes_length ..
  have hn : ∀ s ∈ sides, 1 ≤ s.2.2 := by
    intro s hs
    obtain ⟨k, hk, rfl⟩ := List.getElem_of_mem hs
    have hk' : k < p.ax.length := hp.len ▸ hk
    exact (hp.near k _ _ (List.getElem?_eq_getElem hk) (List.getElem?_eq_getElem hk')).1
  obtain ⟨hd, hfl⟩ := leaveDir_outFlags sides (bcAxes 0 sides p.ax p.tag).1 hn
  have hfln : (outFlags sides (bcAxes 0 sides p.ax p.tag).1).length = p.ax.length := by
    simp [outFlags, hlen, hp.len]
  obtain ⟨c1, c2, c3⟩ := Tags.C08_send_tag p.ax.length hp.dim.1 hp.dim.2 _ hfln hfl
  have hspec : ∀ (k : Nat) s a a', sides[k]? = some s → p.ax[k]? = some a →
      (bcAxes 0 sides p.ax p.tag).1[k]? = some a' → AxisSpec (k == 1) s a a' := by
    intro k s a a' hs ha ha'
    rw [bcAxes_get 0 sides p.ax p.tag k s a hs ha] at ha'
    obtain ⟨g1, g2, g3⟩ := hp.near k s a hs ha
    have := (C24_axis (k == 1) s a p.tag g1 g2 g3).1
    simp only [Nat.zero_add, Option.some.injEq] at ha'
    rw [← ha']; exact this
  have hbc : ∀ t, Tags.sendTag (bcAxes 0 sides p.ax p.tag).2
      (outFlags sides (bcAxes 0 sides p.ax p.tag).1) = .ok t →
      boundaryConditions true sides p
        = .ok { p with ax := (bcAxes 0 sides p.ax p.tag).1, tag := t } := by
    intro t h
    have hl : ¬ sides.length < p.ax.length := by rw [hp.len]; omega
    simp only [boundaryConditions, hl, if_false, if_true, h, Outcome.bind_ok, Outcome.pure_eq]
  obtain ⟨t1, t2⟩ := bcAxes_tag 0 sides p.ax p.tag hp.near
  by_cases hab : ∃ (k : Nat) (s : _) (a : _), sides[k]? = some s ∧ p.ax[k]? = some a ∧ Absorbed s a
  · refine ⟨_, hbc _ (by rw [t1 hab]; exact c1), rfl, hlen, hspec, fun _ => rfl,
      fun h => absurd hab h⟩
  · by_cases hin : ∀ x ∈ Tags.leaveDir (outFlags sides (bcAxes 0 sides p.ax p.tag).1), x = 0
    · refine ⟨_, hbc _ (by rw [t2 hab, ht]; rw [ht] at hin c2; exact c2 hin), rfl, hlen, hspec,
        fun h => absurd h hab, fun _ => .inl ⟨rfl, ?_⟩⟩
      intro k s a' hs ha'
      simp only at ha'
      have hz : (outDir sides (bcAxes 0 sides p.ax p.tag).1)[k]?
          = some (if a'.i < 0 then -1 else if s.2.2 ≤ a'.i then 1 else 0) := by
        simp [outDir, List.getElem?_zipWith, hs, ha']
      have hm := List.mem_of_getElem? hz
      rw [← hd] at hm
      have := hin _ hm
      simp only [Ax.Inside]
      split_ifs at this <;> first | omega | exact absurd this (by decide)
    · have hex : ∃ x ∈ Tags.leaveDir (outFlags sides (bcAxes 0 sides p.ax p.tag).1), x ≠ 0 := by
        push Not at hin; exact hin
      obtain ⟨c, hc, hcd, hca, -, hdir⟩ := c3 hex
      refine ⟨_, hbc c (by rw [t2 hab, ht]; rw [ht] at hc; exact hc), rfl, hlen, hspec,
        fun h => absurd h hab, fun _ => .inr ⟨hca, hcd, ?_⟩⟩
      rw [hd] at hdir; exact hdir

/-- A boundary kind the pusher itself acts on. -/
def Handled (isX2 : Bool) (b : PBC) : Prop :=
  b = .periodic ∨ b = .absorb ∨ b = .atmosphere ∨ b = .reflect ∨ (isX2 = true ∧ b = .axis)

/-- **C24 (build without message passing, partial).** If every side is of a kind the pusher acts on,
the particle ends dead exactly if it was beyond an absorbing side, and otherwise alive and inside.
Missing: the `custom` kind (and `horizon`), accepted by the input but acted on by no code, for which
a live particle stays outside the box (`C24_custom_counterexample`). -/
theorem C24_serial_partial (sides : List (PBC × PBC × Int)) (p : Particle K) (hp : Near sides p)
    (ht : p.tag = Tags.alive)
    (hh : ∀ (k : Nat) s, sides[k]? = some s → Handled (k == 1) s.1 ∧ Handled (k == 1) s.2.1) :
    ∃ p', boundaryConditions false sides p = .ok p' ∧ p'.uRest = p.uRest ∧
      (∀ (k : Nat) s a a', sides[k]? = some s → p.ax[k]? = some a → p'.ax[k]? = some a' →
        AxisSpec (k == 1) s a a') ∧
      ((∃ (k : Nat) (s : _) (a : _), sides[k]? = some s ∧ p.ax[k]? = some a ∧ Absorbed s a) →
        p'.tag = Tags.dead) ∧
      ((¬ ∃ (k : Nat) (s : _) (a : _), sides[k]? = some s ∧ p.ax[k]? = some a ∧ Absorbed s a) →
        p'.tag = Tags.alive ∧
          ∀ (k : Nat) s a', sides[k]? = some s → p'.ax[k]? = some a' → a'.Inside s.2.2) := by
  have hlen : (bcAxes 0 sides p.ax p.tag).1.length = p.ax.length := bcAxes_length ..
  have hl : ¬ sides.length < p.ax.length := by rw [hp.len]; omega
  have hspec : ∀ (k : Nat) s a a', sides[k]? = some s → p.ax[k]? = some a →
      (bcAxes 0 sides p.ax p.tag).1[k]? = some a' → AxisSpec (k == 1) s a a' := by
    intro k s a a' hs ha ha'
    rw [bcAxes_get 0 sides p.ax p.tag k s a hs ha] at ha'
    obtain ⟨g1, g2, g3⟩ := hp.near k s a hs ha
    have := (C24_axis (k == 1) s a p.tag g1 g2 g3).1
    simp only [Nat.zero_add, Option.some.injEq] at ha'
    rw [← ha']; exact this
  obtain ⟨t1, t2⟩ := bcAxes_tag 0 sides p.ax p.tag hp.near
  refine ⟨{ p with ax := (bcAxes 0 sides p.ax p.tag).1, tag := (bcAxes 0 sides p.ax p.tag).2 },
    by simp [boundaryConditions, hl], rfl, hspec, t1, ?_⟩
  intro hab
  refine ⟨by rw [← ht]; exact t2 hab, ?_⟩
  intro k s a' hs ha'
  simp only at ha'
  have hk : k < p.ax.length := by
    have := (List.getElem?_eq_some_iff.1 ha').1; rw [hlen] at this; exact this
  have ha : p.ax[k]? = some p.ax[k] := List.getElem?_eq_getElem hk
  have sp := hspec k s _ a' hs ha ha'
  obtain ⟨q1, q2⟩ := hh k s hs
  have hna : ¬ Absorbed s p.ax[k] := fun h => hab ⟨k, s, _, hs, ha, h⟩
  rcases lt_or_ge (p.ax[k]).i 0 with h | h
  · have := sp.2.1 h
    rcases q1 with e | e | e | e | ⟨e1, e⟩
    · rw [e] at this; exact this.2.2.2.2
    · exact absurd (.inl ⟨h, .inl e⟩) hna
    · exact absurd (.inl ⟨h, .inr e⟩) hna
    · rw [e] at this; exact this.2.2.2
    · rw [e, e1] at this; exact this.2.2.2
  · rcases lt_or_ge (p.ax[k]).i s.2.2 with h' | h'
    · have := sp.1 ⟨h, h'⟩; rw [this]; exact ⟨h, h'⟩
    · have := sp.2.2 h'
      rcases q2 with e | e | e | e | ⟨e1, e⟩
      · rw [e] at this; exact this.2.2.2.2
      · exact absurd (.inr ⟨h', .inl e⟩) hna
      · exact absurd (.inr ⟨h', .inr e⟩) hna
      · rw [e] at this; exact this.2.2.2
      · rw [e, e1] at this; exact this.2.2.2

end

/-- **C24, the claim fails without message passing for the `custom` kind**: a live particle beyond
such a side keeps its tag and its cell index outside the box. -/
theorem C24_custom_counterexample :
    ∃ (sides : List (PBC × PBC × Int)) (p p' : Particle ℚ),
      Near sides p ∧ p.tag = Tags.alive ∧ boundaryConditions false sides p = .ok p' ∧
      p'.tag = Tags.alive ∧ ∃ a ∈ p'.ax, ¬ a.Inside 8 ∧ sides = [(.custom, .custom, 8)] := by
  refine ⟨[(.custom, .custom, 8)], ⟨[⟨8, 7, 1 / 4, 3 / 4, 1⟩], [0, 0], 1⟩,
    ⟨[⟨8, 7, 1 / 4, 3 / 4, 1⟩], [0, 0], 1⟩, ⟨by simp, by simp, ?_⟩, rfl, ?_, rfl, ?_⟩
  · intro k s a hs ha
    rcases k with _ | k
    · simp at hs ha; subst hs ha; decide
    · simp at hs
  · simp [boundaryConditions, bcAxes, bcAxis, flagsOf]
  · exact ⟨⟨8, 7, 1 / 4, 3 / 4, 1⟩, by simp, by simp [Ax.Inside], rfl⟩

/-- Example (2D): beyond a reflecting lower wall in x1 and the box end of a neighbour in x2, the
particle is mirrored in x1 and tagged for x2. -/
example :
    (match boundaryConditions true [(.reflect, .sync, 8), (.sync, .sync, 4)]
        (⟨[⟨-1, 0, 1 / 4, 1 / 4, -1⟩, ⟨4, 3, 1 / 2, 3 / 4, 1⟩], [0], 1⟩ : Particle ℚ) with
      | .ok p => decide (p.ax = [⟨0, 0, 3 / 4, 1 / 4, 1⟩, ⟨4, 3, 1 / 2, 3 / 4, 1⟩] ∧ p.uRest = [0] ∧
          Tags.dir2tag 2 [0, 1] = .ok p.tag)
      | _ => false) = true := by
  decide +kernel

/-! ## C25 -/

section
variable {K : Type} [Field K] [LinearOrder K] [IsStrictOrderedRing K]

/-- **C25 (partial).** A particle that starts inside with a normalised offset and moves by less than
one cell has a normalised offset after the boundary conditions, unless it lands exactly on the upper
wall.  Missing: that single point, where the claim fails for mirroring walls
(`C25_counterexample`). -/
theorem C25_offset_partial (isX2 : Bool) (lo hi : PBC) (n : Int) (a : Ax K) (tag : Int) (disp : K)
    (ha : a.Norm) (hin : a.Inside n) (h1 : -1 < disp) (h2 : disp < 1)
    (hwall : a.pos + disp ≠ (n : K)) :
    (bcAxis isX2 lo hi n (pushAxis disp a) tag).1.Norm := by
  obtain ⟨⟨c1, c1'⟩, c2, c3, -, -⟩ := C23_push disp a ha h1 h2
  set b := pushAxis disp a with hb
  have hpos : 0 ≤ a.pos := by
    have : (0 : K) ≤ (a.i : K) := by exact_mod_cast hin.1
    simp only [Ax.pos]; linarith [ha.1]
  have hlow : b.i < 0 → 0 < b.dx := by
    intro h
    have hbi : b.i = -1 := by rw [abs_le] at c2; have := hin.1; omega
    have : (b.i : K) = -1 := by rw [hbi]; simp
    simp only [Ax.pos] at c3 hpos
    rw [this] at c3; linarith
  have hhigh : n ≤ b.i → 0 < b.dx := by
    intro h
    have hbi : b.i = n := by rw [abs_le] at c2; have := hin.2; omega
    rcases lt_or_eq_of_le c1 with h0 | h0
    · exact h0
    · exfalso; apply hwall
      rw [← c3]; simp only [Ax.pos, hbi, ← h0]; simp
  simp only [Ax.Norm, bcAxis]
  split_ifs <;> simp only <;>
    first
      | exact ⟨c1, c1'⟩
      | (have := hlow (by assumption); constructor <;> linarith)
      | (have := hhigh (by assumption); constructor <;> linarith)

/-- With periodic sides, absorbing sides or sides left to the exchange there is no exception. -/
theorem C25_no_mirror_partial (isX2 : Bool) (lo hi : PBC) (n : Int) (a : Ax K) (tag : Int) (disp : K)
    (ha : a.Norm) (h1 : -1 < disp) (h2 : disp < 1)
    (hlo : lo ≠ .reflect ∧ lo ≠ .axis) (hhi : hi ≠ .reflect ∧ hi ≠ .axis) :
    (bcAxis isX2 lo hi n (pushAxis disp a) tag).1.Norm := by
  obtain ⟨c, -⟩ := C23_push disp a ha h1 h2
  simp only [bcAxis, flagsOf, hlo.1, hlo.2, hhi.1, hhi.2, decide_false, Bool.and_false,
    Bool.false_eq_true, if_false]
  split_ifs <;> exact c

end

/-- **C25, the claim fails**: a particle landing exactly on a reflecting upper wall is left with the
offset 1, alive. -/
theorem C25_counterexample :
    ∃ (n : Int) (a : Ax ℚ) (disp : ℚ), a.Norm ∧ a.Inside n ∧ -1 < disp ∧ disp < 1 ∧
      (bcAxis false .reflect .reflect n (pushAxis disp a) Tags.alive).2 = Tags.alive ∧
      ¬ (bcAxis false .reflect .reflect n (pushAxis disp a) Tags.alive).1.Norm := by
  refine ⟨8, ⟨7, 7, 1 / 2, 0, 1⟩, 1 / 2, ?_, ?_, by norm_num, by norm_num, ?_, ?_⟩ <;>
    simp [Ax.Norm, Ax.Inside, pushAxis, bcAxis, flagsOf, b2i, b2n] <;> norm_num

/-! ## C28 -/

section
variable {K : Type} [Field K] [LinearOrder K] [IsStrictOrderedRing K] [FloorRing K]

/-- **C28.** For every coordinate not smaller than −1 the conversion returns the cell containing it
and an offset in `[0,1)`, and converting back returns the coordinate. -/
theorem C28_conversion (x : K) (h : -1 ≤ x) :
    ((fromXiToIDi x).1 : K) ≤ x ∧ x < ((fromXiToIDi x).1 : K) + 1 ∧
    0 ≤ (fromXiToIDi x).2 ∧ (fromXiToIDi x).2 < 1 ∧
    iDiToXi (fromXiToIDi x).1 (fromXiToIDi x).2 = x := by
  have h0 : (0 : K) ≤ x + 1 := by linarith
  have hi : fromXiToI x = ⌊x⌋ := by simp [fromXiToI, castInt, h0]
  have h1 := Int.floor_le x
  have h2 := Int.lt_floor_add_one x
  simp only [fromXiToIDi, hi, iDiToXi]
  refine ⟨h1, h2, by linarith, by linarith, by ring⟩

/-- The bound −1 is sharp: below it the conversion always returns a cell that does not contain the
coordinate, unless the coordinate is an integer. -/
theorem C28_below (x : K) (h : x < -1) (hx : ∀ m : Int, x ≠ (m : K)) :
    x < ((fromXiToIDi x).1 : K) ∧ (fromXiToIDi x).2 < 0 := by
  have h0 : ¬ (0 : K) ≤ x + 1 := by linarith
  have hi : fromXiToI x = ⌈x⌉ := by simp [fromXiToI, castInt, h0]
  have h1 := Int.le_ceil x
  have h2 : x < ⌈x⌉ := lt_of_le_of_ne h1 (hx _)
  simp only [fromXiToIDi, hi]
  exact ⟨h2, by linarith⟩

/-- Curvilinear push: if the new code coordinates are all at least −1, every axis ends with a
normalised offset at exactly the new coordinate, and the old position is recorded as previous. -/
theorem C28_curvilinear_push (step : List K → List K) (as : List (Ax K)) (k : Nat) (a a' : Ax K)
    (x : K) (ha : as[k]? = some a) (hx : (step (as.map fun a => iDiToXi a.i a.dx))[k]? = some x)
    (h : -1 ≤ x) (ha' : (pushCurv step as)[k]? = some a') :
    a'.pos = x ∧ a'.Norm ∧ a'.prev = a.pos := by
  obtain ⟨-, -, h3, h4, h5⟩ := C28_conversion x h
  simp only [pushCurv, List.getElem?_zipWith, ha, hx, Option.map_some, Option.bind_some] at ha'
  simp at ha'
  subst ha'
  exact ⟨h5, ⟨h3, h4⟩, rfl⟩

end

example : fromXiToIDi (-1 / 4 : ℚ) = (-1, 3 / 4) := by decide +kernel
example : fromXiToIDi (-3 / 2 : ℚ) = (-1, -1 / 2) := by decide +kernel

/-! ## C63 -/

theorem mem_sq_le_sum (us : List ℝ) (u : ℝ) (hu : u ∈ us) :
    u ^ 2 ≤ (us.map (fun u => u ^ 2)).sum := by
  induction us with
  | nil => simp at hu
  | cons v vs ih =>
    have hnn : 0 ≤ (vs.map (fun u => u ^ 2)).sum :=
      List.sum_nonneg (by simp; intro x _; positivity)
    simp only [List.map_cons, List.sum_cons]
    rcases List.mem_cons.1 hu with rfl | h
    · linarith
    · have := ih h; have := sq_nonneg v; linarith

/-- The time step the code computes: `dt = CFL * dx0` (src/framework/parameters/algorithms.cpp) with
`dx0 = dx / sqrt(D)` (src/metrics/minkowski.h:82-84). -/
noncomputable def timeStep (cfl h : ℝ) (D : Nat) : ℝ := cfl * (h / √(D : ℝ))

/-- **C63.** With a Courant number in `(0,1)` the displacement in a step is less than one cell along
every axis (in fact less than `CFL/√D`, or that bound itself for a photon), for every momentum —
massive particles and photons alike.  (A photon of zero momentum is excluded: the code divides by
its momentum and gets a NaN.) -/
theorem C63_one_cell (massive : Bool) (cfl h : ℝ) (D : Nat) (us : List ℝ) (u : ℝ) (hu : u ∈ us)
    (hc : 0 < cfl) (hc1 : cfl < 1) (hh : 0 < h) (hD : 1 ≤ D)
    (_hph : massive = false → ∃ v ∈ us, v ≠ 0) :
    |u / h * dtInvEnergy massive (timeStep cfl h D) us| ≤ cfl / √(D : ℝ) ∧
    |u / h * dtInvEnergy massive (timeStep cfl h D) us| < 1 := by
  have hD' : (1 : ℝ) ≤ (D : ℝ) := by exact_mod_cast hD
  have hs1 : 1 ≤ √(D : ℝ) := by rw [show (1 : ℝ) = √1 by simp]; exact Real.sqrt_le_sqrt hD'
  have hs0 : 0 < √(D : ℝ) := by linarith
  set S := (us.map (fun u => u ^ 2)).sum with hS
  have huS := mem_sq_le_sum us u hu
  have key : ∀ T : ℝ, S ≤ T → |u / h * (timeStep cfl h D / √T)| ≤ cfl / √(D : ℝ) := by
    intro T hT
    have e : u / h * (timeStep cfl h D / √T) = (cfl / √(D : ℝ)) * (u / √T) := by
      simp only [timeStep]; field_simp
    rw [e, abs_mul, abs_of_pos (by positivity : 0 < cfl / √(D : ℝ))]
    have hu1 : |u / √T| ≤ 1 := by
      rw [abs_div, abs_of_nonneg (Real.sqrt_nonneg T)]
      apply div_le_one_of_le₀ _ (Real.sqrt_nonneg T)
      rw [← Real.sqrt_sq_eq_abs]
      exact Real.sqrt_le_sqrt (by linarith)
    have := mul_le_mul_of_nonneg_left hu1 (by positivity : 0 ≤ cfl / √(D : ℝ))
    linarith
  have h1 : |u / h * dtInvEnergy massive (timeStep cfl h D) us| ≤ cfl / √(D : ℝ) := by
    cases massive
    · simpa [dtInvEnergy] using key S le_rfl
    · simpa [dtInvEnergy] using key (1 + S) (by linarith)
  refine ⟨h1, lt_of_le_of_lt h1 ?_⟩
  rw [div_lt_one hs0]; linarith

/-- **C63 together with C23 and C24**: with the configured time step, one call of the position update
on a live particle that starts inside the box never fails, and ends with the particle dead, tagged
for exchange, or alive and inside. -/
theorem C63_step_safe (massive : Bool) (cfl h : ℝ) (sides : List (PBC × PBC × Int))
    (p : Particle ℝ) (hc : 0 < cfl) (hc1 : cfl < 1) (hh : 0 < h)
    (hdim : 1 ≤ p.ax.length ∧ p.ax.length ≤ 3) (hlen : sides.length = p.ax.length)
    (hin : ∀ (k : Nat) s a, sides[k]? = some s → p.ax[k]? = some a → a.Inside s.2.2 ∧ a.Norm)
    (ht : p.tag = Tags.alive) (hph : massive = false → ∃ v ∈ p.us, v ≠ 0) :
    ∃ p', positionPush massive true (timeStep cfl h p.ax.length) h sides p = .ok p' ∧
      (p'.tag = Tags.dead ∨
       (p'.tag = Tags.alive ∧
         ∀ (k : Nat) s a', sides[k]? = some s → p'.ax[k]? = some a' → a'.Inside s.2.2) ∨
       (p'.tag ≠ Tags.alive ∧ p'.tag ≠ Tags.dead ∧
         Tags.tag2dir p.ax.length p'.tag = .ok (outDir sides p'.ax))) := by
  set q : Particle ℝ := { p with ax := p.ax.map (fun a =>
      pushAxis (a.u / h * dtInvEnergy massive (timeStep cfl h p.ax.length) p.us) a) } with hq
  have hql : q.ax.length = p.ax.length := by simp [hq]
  have hnear : Near sides q := by
    refine ⟨by rw [hql]; exact hdim, by rw [hql]; exact hlen, ?_⟩
    intro k s b hs hb
    simp only [hq, List.getElem?_map, Option.map_eq_some_iff] at hb
    obtain ⟨a, ha, rfl⟩ := hb
    obtain ⟨⟨i1, i2⟩, hno⟩ := hin k s a hs ha
    have hmem : a.u ∈ p.us := by
      simp only [Particle.us, List.mem_append, List.mem_map]
      exact .inl ⟨a, List.mem_of_getElem? ha, rfl⟩
    obtain ⟨-, hlt⟩ := C63_one_cell massive cfl h p.ax.length p.us a.u hmem hc hc1 hh hdim.1 hph
    rw [abs_lt] at hlt
    have c2 := (C23_push _ a hno hlt.1 hlt.2).2.1
    rw [abs_le] at c2
    refine ⟨by omega, by omega, by omega⟩
  obtain ⟨p', h1, -, h3, -, h5, h6⟩ := C24_boundaries sides q hnear ht
  refine ⟨p', h1, ?_⟩
  by_cases hab : ∃ (k : Nat) (s : _) (a : _), sides[k]? = some s ∧ q.ax[k]? = some a ∧ Absorbed s a
  · exact .inl (h5 hab)
  · have := h6 hab
    rw [hql] at this
    exact .inr this

/-! ## C70: where a curvilinear reflection evaluates the metric -/

/-- **C70 (partial).** With a custom particle update the position handed to the boundary conditions is
the midpoint of the step. Missing: the same without a custom update, which is false. -/
theorem C70_midpoint_partial (xNew xOld : ℚ) :
    velAligned true xNew xOld = (xNew + xOld) / 2 := by simp [velAligned]

/-- **C70, the claim fails without a custom update**: the averaging is applied twice, so the
position used is a quarter of the way along the step. -/
theorem C70_counterexample (xNew xOld : ℚ) (h : xNew ≠ xOld) :
    velAligned false xNew xOld = xOld + (xNew - xOld) / 4 ∧
    velAligned false xNew xOld ≠ (xNew + xOld) / 2 := by
  have e : velAligned false xNew xOld = xOld + (xNew - xOld) / 4 := by
    simp [velAligned]; ring
  refine ⟨e, fun h' => h ?_⟩
  rw [e] at h'; linarith

/-! ## C71: curvilinear reflection -/

/-- **C71.** If the two transformations are inverse to each other at the position used, a reflection
flips exactly the contravariant component normal to the wall and leaves the other contravariant
components alone. -/
theorem C71_curvilinear_reflection {K : Type} [Field K] (toU ofU : List K → List K) (k : Nat)
    (u : List K) (hinv : ∀ v, v.length = (toU u).length → toU (ofU v) = v) (j : Nat) :
    (toU (flipCurv toU ofU k u))[j]? = if j = k then (toU u)[j]?.map (fun x => -x) else (toU u)[j]? := by
  simp only [flipCurv]
  rw [hinv _ (by simp), List.getElem?_modify]
  by_cases h : k = j
  · subst h; simp
  · simp [h, Ne.symm h]

end Entity.Push
