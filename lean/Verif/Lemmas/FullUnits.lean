import Verif.Lemmas.FullMirror
import Verif.Lemmas.FullWeights
import Verif.Spec.FullUnits

/-!
# A step of the box is homogeneous
-/

set_option linter.unusedSectionVars false

namespace Entity.Full

open Entity Entity.Topology Entity.Kernel Entity.FieldSolver Entity.Push Entity.Prtl Entity.Ranks
open Entity.Deposit Entity.Interp Entity.Tags Entity.Decomp Entity.Gauss Entity.Dir Entity.Filter
open Entity.Shapes

variable {K : Type} [Field K] [LinearOrder K] [IsStrictOrderedRing K] [FloorRing K]

/-- Fields times `l`, currents times `κ`. -/
def ScaleG (D : Nat) (l κ : K) (g g' : GMem K) : Prop :=
  ∀ a c, (a = 0 ∧ c < 6 ∨ a = 1 ∧ c < 3) → ∀ p, p.length = D →
    g' a c p = (if a = 0 then l else κ) * g a c p

theorem ScaleG.at0 {D : Nat} {l κ : K} {g g' : GMem K} (h : ScaleG D l κ g g') (c : Nat) (hc : c < 6)
    (p : List Int) (hp : p.length = D) : g' 0 c p = l * g 0 c p := by
  simpa using h 0 c (.inl ⟨rfl, hc⟩) p hp

theorem ScaleG.at1 {D : Nat} {l κ : K} {g g' : GMem K} (h : ScaleG D l κ g g') (c : Nat) (hc : c < 3)
    (p : List Int) (hp : p.length = D) : g' 1 c p = κ * g 1 c p := by
  simpa using h 1 c (.inr ⟨rfl, hc⟩) p hp

/-- Fields times `l`. -/
def Scale0 (D : Nat) (l : K) (g g' : GMem K) : Prop :=
  ∀ c < 6, ∀ p : List Int, p.length = D → g' 0 c p = l * g 0 c p

theorem one_two_three {α : Type} {l : List α} (h : l.length ∈ [1, 2, 3]) :
    (∃ a, l = [a]) ∨ (∃ a b, l = [a, b]) ∨ ∃ a b c, l = [a, b, c] := by
  simp only [List.mem_cons, List.not_mem_nil, or_false] at h
  rcases h with h | h | h
  · exact .inl (List.length_eq_one_iff.1 h)
  · exact .inr (.inl (List.length_eq_two.1 h))
  · exact .inr (.inr (List.length_eq_three.1 h))

theorem faraday_scaled0 {N : List Nat} (hN : N.length ∈ [1, 2, 3]) {l : K} {g g' : GMem K}
    (h0 : Scale0 N.length l g g') (dT dx : K) (c : Coeffs K) :
    Scale0 N.length l (opG N.length N (.faraday dT dx c) g)
      (opG N.length N (.faraday dT dx c) g') := by
  unfold Scale0 at h0
  rcases one_two_three hN with ⟨n1, rfl⟩ | ⟨n1, n2, rfl⟩ | ⟨n1, n2, n3, rfl⟩
  · intro k hk p hp <;> obtain ⟨x, rfl⟩ := List.length_eq_one_iff.1 hp <;>
    interval_cases k <;>
    · simp [opG, globalStep, FieldSolver.faraday, faraday1, runBody, store, GMem.unroll,
        wrap, here, Loc.at, ebL, eb, Em.toNat, plusEq, h0, List.replicate]
      try first | ring1 | (left; ring1)
  · intro k hk p hp <;> obtain ⟨x, y, rfl⟩ := List.length_eq_two.1 hp <;>
    interval_cases k <;>
    · simp [opG, globalStep, FieldSolver.faraday, faraday2, runBody, store, GMem.unroll,
        wrap, here, Loc.at, ebL, eb, Em.toNat, plusEq, h0, List.replicate]
      try first | ring1 | (left; ring1)
  · intro k hk p hp <;> obtain ⟨x, y, z, rfl⟩ := List.length_eq_three.1 hp <;>
    interval_cases k <;>
    · simp [opG, globalStep, FieldSolver.faraday, faraday3, runBody, store, GMem.unroll,
        wrap, here, Loc.at, ebL, eb, Em.toNat, plusEq, h0, List.replicate]
      try first | ring1 | (left; ring1)

theorem faraday_scaled {N : List Nat} (hN : N.length ∈ [1, 2, 3]) {l κ : K} {g g' : GMem K}
    (h : ScaleG N.length l κ g g') (dT dx : K) (c : Coeffs K) :
    ScaleG N.length l κ (opG N.length N (.faraday dT dx c) g)
      (opG N.length N (.faraday dT dx c) g') := by
  have h1 := h.at1
  rintro a k (⟨rfl, hk⟩ | ⟨rfl, hk⟩) p hp
  · exact faraday_scaled0 hN h.at0 dT dx c k hk p hp
  rcases one_two_three hN with ⟨n1, rfl⟩ | ⟨n1, n2, rfl⟩ | ⟨n1, n2, n3, rfl⟩
  · obtain ⟨x, rfl⟩ := List.length_eq_one_iff.1 hp
    simp [opG, globalStep, FieldSolver.faraday, faraday1, runBody, store, Loc.at, ebL, plusEq, h1, hk,
      wrap, here, List.replicate, GMem.unroll]
  · obtain ⟨x, y, rfl⟩ := List.length_eq_two.1 hp
    simp [opG, globalStep, FieldSolver.faraday, faraday2, runBody, store, Loc.at, ebL, plusEq, h1, hk,
      wrap, here, List.replicate, GMem.unroll]
  · obtain ⟨x, y, z, rfl⟩ := List.length_eq_three.1 hp
    simp [opG, globalStep, FieldSolver.faraday, faraday3, runBody, store, Loc.at, ebL, plusEq, h1, hk,
      wrap, here, List.replicate, GMem.unroll]

theorem ampere_scaled {N : List Nat} (hN : N.length ∈ [1, 2, 3]) {l κ : K} {g g' : GMem K}
    (h : ScaleG N.length l κ g g') (dT dx : K) :
    ScaleG N.length l κ (globalStep N (ampere N.length dT dx) g)
      (globalStep N (ampere N.length dT dx) g') := by
  have h0 := h.at0
  have h1 := h.at1
  rcases one_two_three hN with ⟨n1, rfl⟩ | ⟨n1, n2, rfl⟩ | ⟨n1, n2, n3, rfl⟩
  · rintro a k (⟨rfl, hk⟩ | ⟨rfl, hk⟩) p hp <;> obtain ⟨x, rfl⟩ := List.length_eq_one_iff.1 hp <;>
    interval_cases k <;>
    · simp [globalStep, FieldSolver.ampere, ampere1, runBody, store, GMem.unroll,
        wrap, here, Loc.at, ebL, eb, Em.toNat, plusEq, h0, h1, List.replicate]
      try first | ring1 | (left; ring1)
  · rintro a k (⟨rfl, hk⟩ | ⟨rfl, hk⟩) p hp <;> obtain ⟨x, y, rfl⟩ := List.length_eq_two.1 hp <;>
    interval_cases k <;>
    · simp [globalStep, FieldSolver.ampere, ampere2, runBody, store, GMem.unroll,
        wrap, here, Loc.at, ebL, eb, Em.toNat, plusEq, h0, h1, List.replicate]
      try first | ring1 | (left; ring1)
  · rintro a k (⟨rfl, hk⟩ | ⟨rfl, hk⟩) p hp <;> obtain ⟨x, y, z, rfl⟩ := List.length_eq_three.1 hp <;>
    interval_cases k <;>
    · simp [globalStep, FieldSolver.ampere, ampere3, runBody, store, GMem.unroll,
        wrap, here, Loc.at, ebL, eb, Em.toNat, plusEq, h0, h1, List.replicate]
      try first | ring1 | (left; ring1)

/-- The currents enter with the right unit; what is left in the array of the currents is used again
nowhere. -/
theorem currents_scaled {N : List Nat} (hN : N.length ∈ [1, 2, 3]) {l κ : K} {g g' : GMem K}
    (h : ScaleG N.length l κ g g') {co co' : K} (hc : co' * κ = l * co) (ppc0 ppc0' : K) {c : Nat}
    (hc6 : c < 6) {p : List Int} (hp : p.length = N.length) :
    globalStep N (currentsAmpere N.length co' ppc0') g' 0 c p =
      l * globalStep N (currentsAmpere N.length co ppc0) g 0 c p := by
  have h0 := h.at0
  have h1 := h.at1
  have key : ∀ x : K, κ * x * co' = l * (x * co) := by
    intro x
    calc κ * x * co' = (co' * κ) * x := by ring
      _ = _ := by rw [hc]; ring
  rcases one_two_three hN with ⟨n1, rfl⟩ | ⟨n1, n2, rfl⟩ | ⟨n1, n2, n3, rfl⟩
  · obtain ⟨x, rfl⟩ := List.length_eq_one_iff.1 hp
    interval_cases c <;>
    · simp [globalStep, FieldSolver.currentsAmpere, runBody, store, GMem.unroll,
        wrap, here, Loc.at, ebL, eb, jcL, jc, Cc.toNat, Em.toNat, plusEq, h0, h1, List.replicate, key,
        mul_add]
  · obtain ⟨x, y, rfl⟩ := List.length_eq_two.1 hp
    interval_cases c <;>
    · simp [globalStep, FieldSolver.currentsAmpere, runBody, store, GMem.unroll,
        wrap, here, Loc.at, ebL, eb, jcL, jc, Cc.toNat, Em.toNat, plusEq, h0, h1, List.replicate, key,
        mul_add]
  · obtain ⟨x, y, z, rfl⟩ := List.length_eq_three.1 hp
    interval_cases c <;>
    · simp [globalStep, FieldSolver.currentsAmpere, runBody, store, GMem.unroll,
        wrap, here, Loc.at, ebL, eb, jcL, jc, Cc.toNat, Em.toNat, plusEq, h0, h1, List.replicate, key,
        mul_add]

theorem filter_scaled {N : List Nat} (hN : N.length ∈ [1, 2, 3]) {l κ : K} {g g' : GMem K}
    (h : ScaleG N.length l κ g g') : ScaleG N.length l κ (stepG N g) (stepG N g') := by
  have h0 := h.at0
  have h1 := h.at1
  rcases one_two_three hN with ⟨n1, rfl⟩ | ⟨n1, n2, rfl⟩ | ⟨n1, n2, n3, rfl⟩
  · rintro a k (⟨rfl, hk⟩ | ⟨rfl, hk⟩) p hp <;> obtain ⟨x, rfl⟩ := List.length_eq_one_iff.1 hp <;>
    interval_cases k <;>
    · simp [stepG, copyG, plainFilter, interior1, Filter.inv, arr, globalStep, runBody, store,
        GMem.unroll, wrap, here, Loc.at, bf, bfL, h0, h1, List.replicate]
      try first | ring1 | (left; ring1)
  · rintro a k (⟨rfl, hk⟩ | ⟨rfl, hk⟩) p hp <;> obtain ⟨x, y, rfl⟩ := List.length_eq_two.1 hp <;>
    interval_cases k <;>
    · simp [stepG, copyG, plainFilter, interior2, Filter.inv, arr, globalStep, runBody, store,
        GMem.unroll, wrap, here, Loc.at, bf, bfL, h0, h1, List.replicate]
      try first | ring1 | (left; ring1)
  · rintro a k (⟨rfl, hk⟩ | ⟨rfl, hk⟩) p hp <;> obtain ⟨x, y, z, rfl⟩ := List.length_eq_three.1 hp <;>
    interval_cases k <;>
    · simp [stepG, copyG, plainFilter, interior3, Filter.inv, arr, globalStep, runBody, store,
        GMem.unroll, wrap, here, Loc.at, bf, bfL, h0, h1, List.replicate]
      try first | ring1 | (left; ring1)

theorem filters_scaled {N : List Nat} (hN : N.length ∈ [1, 2, 3]) {l κ : K} (n : Nat) {g g' : GMem K}
    (h : ScaleG N.length l κ g g') : ScaleG N.length l κ ((stepG N)^[n] g) ((stepG N)^[n] g') := by
  induction n with
  | zero => exact h
  | succ n ih =>
    rw [Function.iterate_succ_apply', Function.iterate_succ_apply']
    exact filter_scaled hN ih

/-! ## Interpolation -/

theorem sumOver_scaled {l : K} {v v' : Int → Outcome K}
    (h : ∀ n, v' n = (do let x ← v n; .ok (l * x))) : ∀ (w : List K) (m : Int),
    Interp.sumOver v' m w = (do let x ← Interp.sumOver v m w; .ok (l * x))
  | [], _ => by simp [Interp.sumOver]
  | w :: ws, m => by
    simp only [Interp.sumOver, sumOver_scaled h ws, h]
    cases v m with
    | err | ub => all_goals rfl
    | ok x =>
      cases Interp.sumOver v (m + 1) ws with
      | err | ub => all_goals rfl
      | ok y =>
        simp only [Outcome.bind_ok, Outcome.pure_eq, Outcome.ok.injEq]
        ring

theorem nested_scaled {l : K} {F F' : List Int → K} {D : Nat} (h : ∀ p, p.length = D → F' p = l * F p) :
    ∀ (W : List (Int × List K)) (acc : List Int), acc.length + W.length = D →
    Interp.nested (fun p => .ok (F' p)) W acc =
      (do let x ← Interp.nested (fun p => .ok (F p)) W acc; .ok (l * x))
  | [], acc, e => by simp [Interp.nested, h acc (by simpa using e)]
  | (m, w) :: W, acc, e => by
    simp only [Interp.nested]
    exact sumOver_scaled (fun n => nested_scaled h W (n :: acc) (by simp at e ⊢; omega)) w m

theorem allWeights_length {O : Nat} : ∀ (ss : List Bool) (ps : List (Int × K)) {W},
    allWeights O ss ps = .ok W → W.length = ss.length
  | [], [], W, h => by cases h; rfl
  | [], _ :: _, W, h => by cases h
  | _ :: _, [], W, h => by cases h
  | s :: ss, (i, dx) :: ps, W, h => by
    simp only [allWeights] at h
    cases h1 : axisWeights O s i dx with
    | err | ub => all_goals rw [h1] at h; cases h
    | ok w =>
      cases h2 : allWeights O ss ps with
      | err | ub => all_goals rw [h1, h2] at h; cases h
      | ok ws =>
        rw [h1, h2] at h
        cases h
        simp [allWeights_length ss ps h2]

theorem boxField_scaled {P P' : StepPrm K} (hO : P'.O = P.O) (hdx : P'.dx = P.dx) {N : List Nat}
    (hN : N.length ∈ [1, 2, 3]) {l : K} {g g' : GMem K} (h : Scale0 N.length l g g')
    (ν : K) (v : View K) (c : Comp) :
    boxField P' N g' (weighView ν v) c = l * boxField P N g v c := by
  unfold boxField interpFrom
  rw [hO, hdx]
  simp only [weighView]
  cases e : allWeights P.O (staggering N.length c) (v.cell.zip v.dx) with
  | err | ub => all_goals exact (mul_zero l).symm
  | ok W =>
    have hl : W.length = N.length := by
      rw [allWeights_length _ _ e]
      rcases one_two_three hN with ⟨n1, rfl⟩ | ⟨n1, n2, rfl⟩ | ⟨n1, n2, n3, rfl⟩ <;> cases c <;> rfl
    simp only [Outcome.bind_ok]
    rw [nested_scaled (l := l) (F := fun idx => g 0 (slot c) (wrap N idx)) (D := N.length)
      (fun p hp => h (slot c) (by cases c <;> decide) _ (by simp [wrap, hp])) W.reverse []
      (by simpa using hl)]
    cases nested (fun p => Outcome.ok (g 0 (slot c) (wrap N p))) W.reverse [] with
    | err | ub => all_goals exact (mul_zero l).symm
    | ok x =>
      simp only [Outcome.bind_ok]
      ring

/-! ## Particles -/

section
variable {P P' : StepPrm K} (hO : P'.O = P.O) (hdx : P'.dx = P.dx) (hdt : P'.dt = P.dt) {N : List Nat}
  (hN : N.length ∈ [1, 2, 3]) {l μ ν : K} {s s' : SpPrm K} (hs : Rescaled l μ s s') (x0 : List K)
  (t : Nat) {g g' : GMem K} (h : Scale0 N.length l g g') (v : View K)
include hO hdx hN hs h

theorem boxKick_scaled : boxKick P' s' x0 t N g' (weighView ν v) = boxKick P s x0 t N g v := by
  unfold boxKick
  simp only [boxField_scaled hO hdx hN h, hdx]
  exact hs.kick t _ ⟨_, _, _⟩ ⟨_, _, _⟩ _

theorem boxMoved_scaled : boxMoved P' s' x0 t N g' (weighView ν v) = boxMoved P s x0 t N g v := by
  unfold boxMoved
  simp only [boxKick_scaled hO hdx hN hs x0 t h v, hdx, hs.dtE]
  rfl

theorem boxPush_scaled : boxPush P' s' x0 t N g' (weighView ν v) = weighView ν (boxPush P s x0 t N g v) := by
  unfold boxPush
  rw [hs.frozen]
  split_ifs
  · rfl
  · simp only
    rw [boxKick_scaled hO hdx hN hs x0 t h v, boxMoved_scaled hO hdx hN hs x0 t h v]
    rfl

include hdt in
theorem boxDeposit_scaled (c : Nat) (p : List Int) :
    landed N (boxDeposit P' s' x0 t N g' (weighView ν v)) c p =
      μ * ν * landed N (boxDeposit P s x0 t N g v) c p := by
  unfold boxDeposit
  simp only
  rw [boxKick_scaled hO hdx hN hs x0 t h v, boxMoved_scaled hO hdx hN hs x0 t h v, hO, hdx, hdt, hs.invE]
  generalize boxMoved P s x0 t N g v = ax
  generalize boxKick P s x0 t N g v = u
  have key : ∀ v2 v3 : K, depositOne P.O 0 s'.charge P.dt ⟨ax, (weighView ν v).weight, v2, v3, alive⟩ =
      (do let us ← depositOne P.O 0 s.charge P.dt ⟨ax, v.weight, v2, v3, alive⟩
          .ok (us.map (updScale (μ * ν)))) := by
    intro v2 v3
    unfold depositOne
    simp only [weighView, hs.charge, show ν * v.weight * (μ * s.charge) = μ * ν * (v.weight * s.charge) by ring]
    split_ifs
    · rfl
    match P.O, ax with
    | 0, [a] => exact congrArg _ (zigzag1_scale ..)
    | 0, [a, b] => exact congrArg _ (zigzag2_scale ..)
    | 0, [a, b, c] => exact congrArg _ (zigzag3_scale ..)
    | O + 1, [a] => exact esirkepov1_scale
    | O + 1, [a, b] => exact esirkepov2_scale
    | O + 1, [a, b, c] => exact esirkepov3_scale
    | 0, [] => rfl
    | 0, _ :: _ :: _ :: _ :: _ => rfl
    | O + 1, [] => rfl
    | O + 1, _ :: _ :: _ :: _ :: _ => rfl
  rw [key]
  cases depositOne P.O 0 s.charge P.dt ⟨ax, v.weight, u.y / cellSize N.length P.dx 1 * s.invE u,
      u.z / cellSize N.length P.dx 2 * s.invE u, alive⟩ with
  | err | ub => all_goals simp [landed]
  | ok us => exact landed_scale N (μ * ν) us c p

include hdt in
theorem boxCurrentOf_scaled {L L' : List (View K)} (hL : L'.Perm (L.map (weighView ν))) (c : Nat)
    (p : List Int) : boxCurrentOf P' s' x0 t N g' L' c p = μ * ν * boxCurrentOf P s x0 t N g L c p := by
  have key : (L'.map fun v => landed N (boxDeposit P' s' x0 t N g' v) c p).sum =
      μ * ν * (L.map fun v => landed N (boxDeposit P s x0 t N g v) c p).sum := by
    rw [(hL.map _).sum_eq, List.map_map, ← List.sum_map_mul_left]
    congr 1
    apply List.map_congr_left
    intro v _
    exact boxDeposit_scaled hO hdx hdt hN hs x0 t h v c p
  unfold boxCurrentOf
  rw [hs.frozen, hs.charge]
  by_cases hf : s.frozen = true
  · simp [hf]
  · by_cases hq : s.charge = 0
    · simp [hq]
    · by_cases hμ : μ = 0
      · simp [hμ]
      · rw [if_neg (by simp [hf, hq, hμ]), if_neg (by simp [hf, hq])]
        exact key

end

/-! ## Steps -/

/-- Fields times `l`, weights times `ν`. -/
structure ScaleBox (D : Nat) (l ν : K) (sps : List (SpPrm K)) (B B' : Box K) : Prop where
  fields : Scale0 D l B.g B'.g
  prtl : ∀ i s, sps[i]? = some s → (B'.prtl i).Perm ((B.prtl i).map (weighView ν))

theorem forall₂_getElem? {α β : Type} {R : α → β → Prop} {l : List α} {l' : List β}
    (h : List.Forall₂ R l l') (i : Nat) :
    (∃ a b, l[i]? = some a ∧ l'[i]? = some b ∧ R a b) ∨ (l[i]? = none ∧ l'[i]? = none) := by
  induction h generalizing i with
  | nil => right; simp
  | cons h _ ih =>
    cases i with
    | zero => left; exact ⟨_, _, rfl, rfl, h⟩
    | succ i => simpa using ih i

variable {l μ ν : K} {P : StepPrm K} {q0 B0 V0 ppc0 : K} {sps sps' : List (SpPrm K)} {N : List Nat}

theorem boxCurrent_scaled {P' : StepPrm K} (hO : P'.O = P.O) (hdx : P'.dx = P.dx) (hdt : P'.dt = P.dt)
    (hN : N.length ∈ [1, 2, 3]) (x0 : List K) (t : Nat) {g g' : GMem K}
    (h : Scale0 N.length l g g') (c : Nat) (p : List Int)
    (hs : List.Forall₂ (Rescaled l μ) sps sps') {L L' : Nat → List (View K)}
    (hL : ∀ i s, sps[i]? = some s → (L' i).Perm ((L i).map (weighView ν))) :
    boxCurrent P' sps' x0 t N g' L' c p = μ * ν * boxCurrent P sps x0 t N g L c p := by
  unfold boxCurrent
  induction hs generalizing L L' with
  | nil => simp
  | cons hs _ ih =>
    rw [List.mapIdx_cons, List.mapIdx_cons, List.sum_cons, List.sum_cons, mul_add,
      boxCurrentOf_scaled hO hdx hdt hN hs x0 t h (hL 0 _ rfl)]
    congr 1
    exact ih (L := fun i => L (i + 1)) (L' := fun i => L' (i + 1)) fun i s e => hL (i + 1) s (by simpa using e)

theorem boxStep_scaled (hN : N.length ∈ [1, 2, 3]) (hs : List.Forall₂ (Rescaled l μ) sps sps')
    (hc : q0 / (B0 * V0) * (μ * ν) = l * (P.q0 / (P.B0 * P.V0))) (x0 : List K) (t : Nat) {B B' : Box K}
    (h : ScaleBox N.length l ν sps B B') :
    ScaleBox N.length l ν sps (boxStep P sps x0 t N B)
      (boxStep { P with q0 := q0, B0 := B0, V0 := V0, ppc0 := ppc0 } sps' x0 t N B') := by
  have hc' : StepPrm.coeff { P with q0 := q0, B0 := B0, V0 := V0, ppc0 := ppc0 } * (μ * ν) =
      l * P.coeff := by
    unfold StepPrm.coeff
    linear_combination (-P.dt) * hc
  have g1 := faraday_scaled0 hN h.fields (1 / 2 * P.correction * P.dt) P.dx P.c
  have far := fun (g g' : GMem K) (h : ScaleG N.length l (μ * ν) g g') =>
    faraday_scaled hN h (1 / 2 * P.correction * P.dt) P.dx P.c
  unfold boxStep
  simp only
  generalize opG N.length N (.faraday (1 / 2 * P.correction * P.dt) P.dx P.c) B.g = f1 at g1 ⊢
  generalize opG N.length N (.faraday (1 / 2 * P.correction * P.dt) P.dx P.c) B'.g = f1' at g1 ⊢
  constructor
  · intro c hc6 p hp
    refine currents_scaled hN (ampere_scaled hN (far _ _ (filters_scaled hN P.nf ?_)) _ _) hc' P.ppc0 ppc0 hc6 hp
    rintro a k (⟨rfl, hk⟩ | ⟨rfl, hk⟩) p hp
    · have e1 : selEB 0 k = true := by interval_cases k <;> rfl
      simp only [e1, if_true]
      exact g1 k hk p hp
    · have e1 : ∀ k, selEB 1 k = false := fun k => rfl
      simp only [e1, Bool.false_eq_true, if_false]
      rw [if_neg (by decide)]
      exact boxCurrent_scaled rfl rfl rfl hN x0 t g1 k p hs h.prtl
  · intro i s e
    obtain ⟨a, b, e1, e2, hab⟩ | ⟨e1, -⟩ := forall₂_getElem? hs i
    · rw [e] at e1
      cases e1
      simp only [e, e2]
      refine ((h.prtl i s e).map _).trans (.of_eq ?_)
      rw [List.map_map, List.map_map]
      apply List.map_congr_left
      intro v _
      exact boxPush_scaled rfl rfl hN hab x0 t g1 v
    · rw [e] at e1
      cases e1

theorem boxRun_scaled (hN : N.length ∈ [1, 2, 3]) (hs : List.Forall₂ (Rescaled l μ) sps sps')
    (hc : q0 / (B0 * V0) * (μ * ν) = l * (P.q0 / (P.B0 * P.V0))) (x0 : List K) (n : Nat) {B B' : Box K}
    (h : ScaleBox N.length l ν sps B B') :
    ScaleBox N.length l ν sps (boxRun P sps x0 N n B)
      (boxRun { P with q0 := q0, B0 := B0, V0 := V0, ppc0 := ppc0 } sps' x0 N n B') := by
  induction n with
  | zero => exact h
  | succ n ih => exact boxStep_scaled hN hs hc x0 n ih

end Entity.Full
