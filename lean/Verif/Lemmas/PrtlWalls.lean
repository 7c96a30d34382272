import Verif.Spec.PrtlWalls
import Verif.Lemmas.GaussStep
import Verif.Props.Walls

/-!
# Lemmas: particles at walls
-/

namespace Entity.PrtlWalls

open Entity Entity.Shapes Entity.Push Entity.Tags Entity.Deposit Entity.Ranks Entity.Topology
open Entity.FieldSolver Entity.Kernel Entity.Walls

variable {K : Type} [Field K] [LinearOrder K] [IsStrictOrderedRing K]

/-! ## Push -/

theorem pushAxis_spec {a : Ax K} {d : K} (h0 : 0 ≤ a.dx) (h1 : a.dx ≤ 1) (hd : |d| < 1) :
    (pushAxis d a).iPrev = a.i ∧ (pushAxis d a).dxPrev = a.dx ∧
    0 ≤ (pushAxis d a).dx ∧ (pushAxis d a).dx ≤ 1 ∧
    ((pushAxis d a).i : K) + (pushAxis d a).dx = (a.i : K) + a.dx + d ∧
    a.i - 1 ≤ (pushAxis d a).i ∧ (pushAxis d a).i ≤ a.i + 1 := by
  obtain ⟨d1, d2⟩ := abs_lt.1 hd
  refine ⟨rfl, rfl, ?_⟩
  unfold pushAxis Push.b2i b2n
  by_cases c1 : a.dx + d ≥ 1
  · have c2 : ¬ a.dx + d < 0 := by linarith
    have c3 : ¬ a.dx + d - 1 < 0 := by linarith
    simp only [c1, c2, c3, decide_true, decide_false, if_true, Bool.false_eq_true, if_false]
    refine ⟨by linarith, by linarith, by push_cast; ring, by omega, by omega⟩
  · by_cases c2 : a.dx + d < 0
    · simp only [c1, c2, decide_true, decide_false, if_true, Bool.false_eq_true, if_false, sub_zero]
      refine ⟨by linarith, by linarith, by push_cast; ring, by omega, by omega⟩
    · simp only [c1, c2, decide_false, Bool.false_eq_true, if_false, sub_zero, add_zero]
      refine ⟨by linarith, by linarith, by push_cast; ring, by omega, by omega⟩

/-- One axis: the particle dies, or it is in the box, fit for the deposit. -/
theorem axis_spec (x2 : Bool) {lo hi : PBC} (hlo : lo = .absorb ∨ lo = .reflect)
    (hhi : hi = .absorb ∨ hi = .reflect) {n : Nat} {a : Ax K} (i0 : 0 ≤ a.i) (i1 : a.i < n) (h0 : 0 ≤ a.dx)
    (h1 : a.dx ≤ 1) {d : K} (hd : |d| < 1) (tag : Int) :
    (bcAxis x2 lo hi n (pushAxis d a) tag).2 = dead ∨
    ((bcAxis x2 lo hi n (pushAxis d a) tag).2 = tag ∧ FitAx (bcAxis x2 lo hi n (pushAxis d a) tag).1 ∧
      xOld (bcAxis x2 lo hi n (pushAxis d a) tag).1 = xNew a ∧
      0 ≤ (bcAxis x2 lo hi n (pushAxis d a) tag).1.i ∧ (bcAxis x2 lo hi n (pushAxis d a) tag).1.i < n) := by
  obtain ⟨p1, p2, p3, p4, p5, p6, p7⟩ := pushAxis_spec h0 h1 hd
  obtain ⟨d1, d2⟩ := abs_lt.1 hd
  generalize pushAxis d a = b at *
  have hz : (1 : K) ≤ n := by
    have : (1 : Int) ≤ n := by omega
    exact_mod_cast this
  have k0 : (0 : K) ≤ a.i := by exact_mod_cast i0
  have k1 : (a.i : K) + 1 ≤ n := by
    have : a.i + 1 ≤ (n : Int) := by omega
    exact_mod_cast this
  by_cases c1 : b.i < 0
  · have e1 : a.i = 0 := by omega
    have e2 : b.i = -1 := by omega
    rcases hlo with rfl | rfl
    · left; simp [bcAxis, flagsOf, c1]
    · right
      simp only [bcAxis, flagsOf, c1, if_true]
      simp only [reduceCtorEq, decide_false, Bool.or_self, Bool.false_eq_true, if_false, decide_true, if_true,
        true_and, le_refl]
      rw [e2, e1] at p5
      push_cast at p5
      refine ⟨⟨by rw [p2]; exact h0, by rw [p2]; exact h1, by simp only; linarith, by simp only; linarith, ?_⟩, ?_, by omega⟩
      · simp only [p1, p2, e1]
        push_cast
        rw [abs_lt]
        constructor <;> linarith
      · simp [xOld, xNew, p1, p2]
  · by_cases c2 : b.i ≥ n
    · have e1 : a.i = n - 1 := by omega
      have e2 : b.i = n := by omega
      rcases hhi with rfl | rfl
      · left; simp [bcAxis, flagsOf, c1, c2]
      · right
        simp only [bcAxis, flagsOf, c1, c2, if_true, if_false]
        simp only [reduceCtorEq, decide_false, Bool.or_self, Bool.false_eq_true, if_false, decide_true, if_true,
          true_and]
        rw [e2, e1] at p5
        push_cast at p5
        refine ⟨⟨by rw [p2]; exact h0, by rw [p2]; exact h1, by simp only; linarith, by simp only; linarith, ?_⟩, ?_, by omega, by omega⟩
        · simp only [p1, p2, e1]
          push_cast
          rw [abs_lt]
          constructor <;> linarith
        · simp [xOld, xNew, p1, p2]
    · right
      simp only [bcAxis, c1, c2, if_false, true_and]
      refine ⟨⟨by rw [p2]; exact h0, by rw [p2]; exact h1, p3, p4, ?_⟩, ?_, by omega, by omega⟩
      · rw [p1, p2, p5, abs_lt]
        constructor <;> linarith
      · simp [xOld, xNew, p1, p2]

theorem bcAxes_dead (k : Nat) (sides : List (PBC × PBC × Int)) (as : List (Ax K)) :
    (bcAxes k sides as dead).2 = dead := by
  induction sides generalizing k as with
  | nil => simp [bcAxes]
  | cons s ss ih =>
    cases as with
    | nil => simp [bcAxes]
    | cons a as =>
      simp only [bcAxes]
      have : (bcAxis (k == 1) s.1 s.2.1 s.2.2 a dead).2 = dead := by
        unfold bcAxis; dsimp only; split_ifs <;> rfl
      rw [this]
      exact ih _ _

theorem axes_spec {N : List Nat} {sides : List (PBC × PBC × Int)} (hw : Walled N sides) :
    ∀ (k : Nat) {as : List (Ax K)}, InBox N as →
    ∀ {us ds : List K}, us.length = as.length → ds.length = as.length → (∀ d ∈ ds, |d| < 1) → ∀ tag : Int,
    let r := bcAxes k sides (List.zipWith pushAxis ds (kicked us as)) tag
    r.2 = dead ∨ (r.2 = tag ∧ (∀ a ∈ r.1, FitAx a) ∧ r.1.map xOld = as.map xNew ∧
      InBox N r.1) := by
  induction hw with
  | nil =>
    intro k as ha us ds _ _ _ tag
    cases ha
    right
    simp [kicked, bcAxes, InBox]
  | @cons n s N sides hs _ ih =>
    intro k as ha us ds hu hdl hd tag
    cases ha with
    | @cons _ a _ as ha hr =>
      match us, ds, hu, hdl with
      | u :: us, d :: ds, hu, hdl =>
        simp only [List.length_cons, Nat.succ.injEq] at hu hdl
        simp only [kicked, List.zipWith_cons_cons, bcAxes]
        obtain ⟨s1, s2, s3⟩ := hs
        obtain ⟨a0, a1, a2, a3⟩ := ha
        have key := axis_spec (k == 1) s1 s2 (a := { a with u := u }) a0 a1 a2 a3 (hd d (by simp)) tag
        rw [s3]
        rcases key with e | ⟨e, f, x, y, z⟩
        · left
          rw [e]
          exact bcAxes_dead _ _ _
        · rw [e]
          rcases ih (k + 1) hr hu hdl (fun d' h' => hd d' (by simp [h'])) tag with e' | ⟨e', f', x', y'⟩
          · left; exact e'
          · right
            refine ⟨e', ?_, ?_, ?_⟩
            · intro b hb
              rcases List.mem_cons.1 hb with rfl | hb
              · exact f
              · exact f' b hb
            · rw [List.map_cons, List.map_cons, x]
              congr 1
            · exact .cons ⟨y, z, f.n0, f.n1⟩ y'

/-- A particle after the push: dead, or in the box, fit for the deposit, coming from where it was. -/
theorem pushed_spec {N : List Nat} {sides : List (PBC × PBC × Int)} (hw : Walled N sides) {p p' : DPrtl K}
    (hp : p.tag ≠ dead → InBox N p.ax)
    (h : Pushed sides p p') :
    p'.tag = dead ∨ (p.tag ≠ dead ∧ (∀ a ∈ p'.ax, FitAx a) ∧ p'.ax.map xOld = p.ax.map xNew ∧ p'.weight = p.weight ∧
      InBox N p'.ax) := by
  unfold Pushed at h
  split at h
  · rename_i ha
    have hd : p.tag ≠ dead := by rw [ha]; decide
    obtain ⟨us, ds, q, h1, h2, h3, h4, h5, h6, h7⟩ := h
    unfold boundaryConditions at h4
    split at h4
    · simp at h4
    · simp only [Bool.false_eq_true, if_false, Outcome.ok.injEq] at h4
      subst h4
      dsimp only at h5 h6
      rcases axes_spec hw 0 (hp hd) h1 h2 h3 p.tag with e | ⟨e, f, x, y⟩
      · left; rw [h6]; exact e
      · right; rw [h5]; exact ⟨hd, f, x, h7, y⟩
  · left; rw [h.2]; exact h.1

/-! ## Densities -/

theorem cloud_append (deg : Nat) (a b : List (Gauss.Charge K)) (p : List Int) :
    cloud deg (a ++ b) p = cloud deg a p + cloud deg b p := by simp [cloud]

theorem cloud_perm {deg : Nat} {a b : List (Gauss.Charge K)} (h : a.Perm b) (p : List Int) :
    cloud deg a p = cloud deg b p := by
  unfold cloud; exact (h.map _).sum_eq

/-- Weight of a particle with the axes at `xs`. -/
def wt (deg : Nat) (q : K) (xs : List K) (p : List Int) : K :=
  q * (List.zipWith (fun x (k : Int) => bspline deg (x - (k : K))) xs p).prod

theorem chargeAt_wt (deg : Nat) (ng : Nat) (charge : K) (pos : Ax K → K) (p : List Int) (x : DPrtl K) :
    chargeAt deg ng charge pos (p.map (· + (ng : Int))) x =
      if x.tag = dead then 0 else wt deg (x.weight * charge) (x.ax.map pos) p := by
  unfold chargeAt wt
  split
  · rfl
  · rw [List.zipWith_map_left, List.zipWith_map_right]
    congr 2
    congr 1
    funext a k
    congr 2
    push_cast; ring

theorem cloud_species (deg : Nat) (charge : K) (ps : List (DPrtl K)) (p : List Int) :
    cloud deg ((ps.filter (fun p => p.tag ≠ dead)).map (chargeOf charge)) p =
      (ps.map fun x => if x.tag = dead then 0 else wt deg (x.weight * charge) (x.ax.map xNew) p).sum := by
  induction ps with
  | nil => rfl
  | cons x ps ih =>
    by_cases hx : x.tag = dead
    · rw [List.filter_cons_of_neg (by simp [hx]), ih]; simp [hx]
    · rw [List.filter_cons_of_pos (by simp [hx]), List.map_cons, List.map_cons, List.sum_cons, ← ih, if_neg hx]
      rfl

theorem species_change {N : List Nat} {sides : List (PBC × PBC × Int)} (hw : Walled N sides) (deg ng : Nat)
    (charge : K) (p : List Int) {ps ps' : List (DPrtl K)} (h : List.Forall₂ (Pushed sides) ps ps')
    (hi : ∀ x ∈ ps, x.tag ≠ dead → InBox N x.ax) :
    rho deg ng charge xNew ps' (p.map (· + (ng : Int))) - rho deg ng charge xOld ps' (p.map (· + (ng : Int))) =
      cloud deg ((ps'.filter (fun p => p.tag ≠ dead)).map (chargeOf charge)) p -
      cloud deg ((ps.filter (fun p => p.tag ≠ dead)).map (chargeOf charge)) p +
      cloud deg (((ps.zip ps').filter (fun q => q.1.tag ≠ dead ∧ q.2.tag = dead)).map
        fun q => chargeOf charge q.1) p := by
  rw [cloud_species, cloud_species]
  unfold rho
  rw [show chargeAt deg ng charge xNew (p.map (· + (ng : Int))) = _ from funext (chargeAt_wt deg ng charge xNew p),
    show chargeAt deg ng charge xOld (p.map (· + (ng : Int))) = _ from funext (chargeAt_wt deg ng charge xOld p)]
  induction h with
  | nil => simp [cloud]
  | @cons x x' ps ps' hx _ ih =>
    have := ih fun y hy => hi y (by simp [hy])
    simp only [List.map_cons, List.sum_cons, List.zip_cons_cons]
    rcases pushed_spec hw (hi x (by simp)) hx with e | ⟨e, -, e2, e3, -⟩
    · by_cases ht : x.tag = dead
      · rw [List.filter_cons_of_neg (by simp [ht])]
        simp only [e, ht, if_true]
        linarith
      · rw [List.filter_cons_of_pos (by simp [ht, e])]
        simp only [e, ht, if_true, if_false, List.map_cons]
        have : ∀ l : List (Gauss.Charge K), cloud deg (chargeOf charge x :: l) p =
            wt deg (x.weight * charge) (x.ax.map xNew) p + cloud deg l p := by
          intro l; simp only [cloud, List.map_cons, List.sum_cons]; rfl
        rw [this]
        linarith
    · by_cases ht : x'.tag = dead
      · rw [List.filter_cons_of_pos (by simp [ht, e])]
        simp only [e, ht, if_true, if_false, List.map_cons]
        have : ∀ l : List (Gauss.Charge K), cloud deg (chargeOf charge x :: l) p =
            wt deg (x.weight * charge) (x.ax.map xNew) p + cloud deg l p := by
          intro l; simp only [cloud, List.map_cons, List.sum_cons]; rfl
        rw [this]
        linarith
      · rw [List.filter_cons_of_neg (by simp [ht])]
        simp only [e, ht, if_false, e2, e3]
        linarith

/-- All species. -/
theorem charge_change {N : List Nat} {sides : List (PBC × PBC × Int)} (hw : Walled N sides) (deg ng : Nat)
    (p : List Int) {sps sps1 : List (Sp K)} (h : List.Forall₂ (PushedSp sides) sps sps1) (hi : Inside N sps) :
    Gauss.rankRho deg ng xNew sps1 (p.map (· + (ng : Int))) - Gauss.rankRho deg ng xOld sps1 (p.map (· + (ng : Int))) =
      cloud deg (charges sps1) p - cloud deg (charges sps) p + cloud deg (lost (sps, sps1)) p := by
  unfold Gauss.rankRho charges lost
  induction h with
  | nil => simp [cloud]
  | @cons s s1 sps sps1 hs _ ih =>
    have := ih fun t ht => hi t (by simp [ht])
    simp only [List.map_cons, List.sum_cons, List.flatMap_cons, List.zip_cons_cons, cloud_append]
    obtain ⟨e1, e2, e3⟩ := hs
    by_cases hf : s.frozen = true
    · rw [if_pos hf] at e3
      have hz : (s.ps.zip s1.ps).filter (fun q => decide (q.1.tag ≠ dead ∧ q.2.tag = dead)) = [] := by
        rw [e3, List.filter_eq_nil_iff]
        rintro ⟨a, b⟩ hab
        have : a = b := by
          obtain ⟨i, hi, e⟩ := List.getElem_of_mem hab
          simp at e
          rw [← e.1, ← e.2]
        subst this
        simp
      rw [hz, e1, e2, e3, if_pos hf, if_pos hf]
      simp only [List.map_nil]
      have : cloud deg ([] : List (Gauss.Charge K)) p = 0 := rfl
      rw [this]
      linarith
    · rw [if_neg hf] at e3
      have k := species_change hw deg ng s.charge p e3 (hi s (by simp))
      rw [e1, e2, if_neg hf, if_neg hf]
      linarith

theorem charges_tidied {sps sps' : List (Sp K)} (h : List.Forall₂ Tidied sps sps') :
    (charges sps').Perm (charges sps) := by
  unfold charges
  induction h with
  | nil => exact .refl _
  | cons hs _ ih =>
    obtain ⟨e1, -, e3⟩ := hs
    simp only [List.flatMap_cons, e1]
    exact (e3.map _).append ih

theorem inside_pushed {N : List Nat} {sides : List (PBC × PBC × Int)} (hw : Walled N sides)
    {sps sps1 : List (Sp K)} (h : List.Forall₂ (PushedSp sides) sps sps1) (hi : Inside N sps) :
    Inside N sps1 ∧ ∀ s ∈ sps1, s.frozen = false → ∀ p ∈ s.ps, p.tag ≠ dead → ∀ a ∈ p.ax, FitAx a := by
  induction h with
  | nil => exact ⟨by intro s hs; simp at hs, by intro s hs; simp at hs⟩
  | @cons s s1 sps sps1 hs _ ih =>
    obtain ⟨i1, i2⟩ := ih fun t ht => hi t (by simp [ht])
    obtain ⟨e1, e2, e3⟩ := hs
    have key : (∀ p ∈ s1.ps, p.tag ≠ dead → InBox N p.ax) ∧
        (s1.frozen = false → ∀ p ∈ s1.ps, p.tag ≠ dead → ∀ a ∈ p.ax, FitAx a) := by
      by_cases hf : s.frozen = true
      · rw [if_pos hf] at e3
        rw [e3, e2, hf]
        exact ⟨hi s (by simp), by simp⟩
      · rw [if_neg hf] at e3
        have : ∀ p ∈ s1.ps, ∃ q ∈ s.ps, Pushed sides q p := by
          intro p hp
          obtain ⟨k, hk, rfl⟩ := List.getElem_of_mem hp
          have hk' : k < s.ps.length := by rw [e3.length_eq]; exact hk
          exact ⟨_, List.getElem_mem hk', (List.forall₂_iff_get.1 e3).2 k hk' hk⟩
        refine ⟨fun p hp ht => ?_, fun _ p hp ht => ?_⟩ <;>
        · obtain ⟨q, hq, hpq⟩ := this p hp
          rcases pushed_spec hw (hi s (by simp) q hq) hpq with e | ⟨-, e4, -, -, e5⟩
          · exact absurd e ht
          · assumption
    refine ⟨fun t ht => ?_, fun t ht => ?_⟩
    · rcases List.mem_cons.1 ht with rfl | ht
      · exact key.1
      · exact i1 t ht
    · rcases List.mem_cons.1 ht with rfl | ht
      · exact key.2
      · exact i2 t ht

theorem inside_tidied {N : List Nat} {sps sps' : List (Sp K)} (h : List.Forall₂ Tidied sps sps')
    (hi : Inside N sps) : Inside N sps' := by
  induction h with
  | nil => exact hi
  | @cons s s' sps sps' hs _ ih =>
    have i1 := ih fun t ht => hi t (by simp [ht])
    intro t ht
    rcases List.mem_cons.1 ht with rfl | ht
    · intro p hp htag
      have : p ∈ t.ps.filter (fun p => p.tag ≠ dead) := List.mem_filter.2 ⟨hp, by simpa using htag⟩
      have := hs.2.2.mem_iff.1 this
      exact hi s (by simp) p (List.mem_filter.1 this).1 htag
    · exact i1 t ht

end Entity.PrtlWalls
