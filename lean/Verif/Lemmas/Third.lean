import Verif.Model.Third
import Verif.Props.DepositTotal
import Verif.Props.Deposit

/-!
# The deposit with another constant
-/

namespace Entity.Deposit

open Entity Entity.Push Entity.Shapes Entity.Tags

variable {K : Type} [Field K] [LinearOrder K] [IsStrictOrderedRing K]

/-- The additions to each component times a number. -/
def scaleUpd (f : Nat → K) (u : Upd K) : Upd K := { u with val := f u.comp * u.val }

/-- The constant enters all components in three dimensions, the third one in two dimensions. -/
def factor (t : K) (D c : Nat) : K := if D = 3 ∨ D = 2 ∧ c = 2 then 3 * t else 1

theorem runSum_factor (q k : K) (f : Nat → K) (n : Nat) :
    runSum q (fun i => k * f i) n = k * runSum q f n := by
  induction n with
  | zero => simp only [runSum]; ring
  | succ n ih => simp only [runSum, ih]; ring

theorem esirkepov2At_eq (t : K) (O : Nat) (NG : Int) (q d v3 : K) (a b : Ax K) :
    esirkepov2At t O NG q d v3 a b =
      (do let us ← esirkepov2 O NG q d v3 a b; .ok (us.map (scaleUpd (factor t 2)))) := by
  unfold esirkepov2At esirkepov2
  cases forDeposit O a.iPrev a.dxPrev a.i a.dx with
  | err | ub => all_goals rfl
  | ok y =>
  cases forDeposit O b.iPrev b.dxPrev b.i b.dx with
  | err | ub => all_goals rfl
  | ok z =>
    obtain ⟨y1, y2, y3, y4⟩ := y
    obtain ⟨z1, z2, z3, z4⟩ := z
    have e : ∀ x : K, q * v3 * (t * x) = 3 * t * (q * v3 * (1 / 3 * x)) := by intro x; ring
    simp only [Outcome.bind_ok, Outcome.pure_eq, e]
    simp [factor, List.map_flatMap, Function.comp_def, scaleUpd]

theorem esirkepov3At_eq (t : K) (O : Nat) (NG : Int) (q d : K) (a b c : Ax K) :
    esirkepov3At t O NG q d a b c =
      (do let us ← esirkepov3 O NG q d a b c; .ok (us.map (scaleUpd (factor t 3)))) := by
  unfold esirkepov3At esirkepov3
  cases forDeposit O a.iPrev a.dxPrev a.i a.dx with
  | err | ub => all_goals rfl
  | ok y =>
  cases forDeposit O b.iPrev b.dxPrev b.i b.dx with
  | err | ub => all_goals rfl
  | ok z =>
  cases forDeposit O c.iPrev c.dxPrev c.i c.dx with
  | err | ub => all_goals rfl
  | ok w =>
    obtain ⟨y1, y2, y3, y4⟩ := y
    obtain ⟨z1, z2, z3, z4⟩ := z
    obtain ⟨w1, w2, w3, w4⟩ := w
    have e : ∀ x y : K, t * x * y = 3 * t * (1 / 3 * x * y) := by intro x y; ring
    simp only [factor, true_or, if_true, List.map_append, List.map_flatMap, List.map_map,
      Function.comp_def, scaleUpd, e, runSum_factor, Outcome.bind_ok, Outcome.pure_eq]

theorem depositOneAt_eq (t : K) {O : Nat} (h1 : 1 ≤ O) (NG : Int) (charge dt : K) {D : Nat}
    {p : DPrtl K} (hp : p.tag = dead ∨ p.ax.length = D) :
    depositOneAt t O NG charge dt p =
      (do let us ← depositOne O NG charge dt p; .ok (us.map (scaleUpd (factor t D)))) := by
  obtain ⟨O, rfl⟩ : ∃ k, O = k + 1 := ⟨O - 1, by omega⟩
  unfold depositOneAt depositOne
  split_ifs with hd
  · rfl
  have hl := hp.resolve_left hd
  subst hl
  simp only
  rcases p.ax with _ | ⟨a, _ | ⟨b, _ | ⟨c, _ | ⟨e, r⟩⟩⟩⟩
  · rfl
  · have : ∀ us : List (Upd K), us.map (scaleUpd (factor t [a].length)) = us := by
      intro us
      conv_rhs => rw [← List.map_id us]
      apply List.map_congr_left
      intro u _
      simp [scaleUpd, factor]
    simp only [this]
    cases esirkepov1 (O + 1) NG (p.weight * charge) (1 / dt) p.vp2 p.vp3 a <;> rfl
  · exact esirkepov2At_eq ..
  · exact esirkepov3At_eq ..
  · rfl

theorem depositAllAt_eq (t : K) {O : Nat} (h1 : 1 ≤ O) (NG : Int) (charge dt : K) {D : Nat} :
    ∀ {ps : List (DPrtl K)}, (∀ p ∈ ps, p.tag = dead ∨ p.ax.length = D) →
    depositAllAt t O NG charge dt ps =
      (do let us ← depositAll O NG charge dt ps; .ok (us.map (scaleUpd (factor t D))))
  | [], _ => rfl
  | p :: ps, hp => by
    simp only [depositAllAt, depositAll, depositOneAt_eq t h1 NG charge dt (hp p List.mem_cons_self),
      depositAllAt_eq t h1 NG charge dt fun q hq => hp q (List.mem_cons_of_mem _ hq)]
    cases depositOne O NG charge dt p with
    | err | ub => all_goals rfl
    | ok us =>
      cases depositAll O NG charge dt ps with
      | err | ub => all_goals rfl
      | ok vs => simp [Outcome.bind_ok]

theorem total_scaled (f : Nat → K) (us : List (Upd K)) (c : Nat) (k : List Int) :
    total (us.map (scaleUpd f)) c k = f c * total us c k := by
  induction us with
  | nil => simp
  | cons u us ih =>
    rw [List.map_cons, total_cons, total_cons, ih, mul_add]
    congr 1
    show (if u.comp = c ∧ u.idx = k then f u.comp * u.val else 0) = _
    split_ifs with h
    · rw [h.1]
    · ring

theorem compSum_scaled (f : Nat → K) (us : List (Upd K)) (c : Nat) :
    compSum (us.map (scaleUpd f)) c = f c * compSum us c := by
  induction us with
  | nil => simp [compSum]
  | cons u us ih =>
    have e1 := compSum_append [scaleUpd f u] (us.map (scaleUpd f)) c
    have e2 := compSum_append [u] us c
    simp only [List.singleton_append] at e1 e2
    rw [List.map_cons, e1, e2, ih, mul_add]
    congr 1
    simp only [compSum, List.map_cons, List.map_nil, List.sum_cons, List.sum_nil, add_zero]
    show (if u.comp = c then f u.comp * u.val else 0) = _
    split_ifs with h
    · rw [h]
    · ring

theorem div_scaled (f : Nat → K) (T : Cur K) (n : List Int) (k : K) (h : ∀ d < n.length, f d = k) :
    div (fun c m => f c * T c m) n = k * div T n := by
  unfold div
  rw [← List.sum_map_mul_left]
  congr 1
  apply List.map_congr_left
  intro d hd
  simp only [h d (List.mem_range.mp hd)]
  ring

theorem S7At_eq (t x : K) : S7At t x = S7 x + (1 / 3 - t) * (if x < 1 then x ^ 2 else 0) := by
  unfold S7At S7
  split_ifs <;> ring

end Entity.Deposit
