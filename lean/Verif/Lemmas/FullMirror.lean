import Verif.Lemmas.FullRotate
import Verif.Spec.FullMirror

/-!
# A step of the box commutes with exchanging the first two axes
-/

set_option linter.unusedSectionVars false

namespace Entity.Full

open Entity Entity.Topology Entity.Kernel Entity.FieldSolver Entity.Push Entity.Prtl Entity.Ranks
open Entity.Deposit Entity.Interp Entity.Tags Entity.Decomp Entity.Gauss Entity.Dir Entity.Filter
open Entity.Shapes

/-- Two or three entries. -/
theorem two_three {α : Type} {l : List α} (h : l.length = 2 ∨ l.length = 3) :
    (∃ a b, l = [a, b]) ∨ ∃ a b c, l = [a, b, c] := by
  rcases h with h | h
  · obtain ⟨a, b, e⟩ := List.length_eq_two.1 h; exact .inl ⟨a, b, e⟩
  · obtain ⟨a, b, c, e⟩ := List.length_eq_three.1 h; exact .inr ⟨a, b, c, e⟩

theorem swap_length {α : Type} (l : List α) : (swap l).length = l.length := by
  match l with
  | [] => rfl
  | [_] => rfl
  | _ :: _ :: _ => rfl

theorem swap_swap {α : Type} (l : List α) : swap (swap l) = l := by
  match l with
  | [] => rfl
  | [_] => rfl
  | _ :: _ :: _ => rfl

theorem swap_wrap {N : List Nat} {p : List Int} (h : p.length = N.length) :
    wrap (swap N) (swap p) = swap (wrap N p) := by
  match N, p, h with
  | [], [], _ => rfl
  | [_], [_], _ => rfl
  | _ :: _ :: _, _ :: _ :: _, _ => rfl

variable {K : Type} [Field K] [LinearOrder K] [IsStrictOrderedRing K] [FloorRing K]

/-! ## Fields -/

/-- The sign of a component of one of the arrays. -/
def sgn (a c : Nat) : K := if a = 0 then swapSign c else 1

/-- The second field is the mirror image of the first. -/
def SwapG (D : Nat) (g g' : GMem K) : Prop :=
  ∀ a c, (a = 0 ∧ c < 6 ∨ a = 1 ∧ c < 3) → ∀ p, p.length = D →
    g' a c p = sgn a c * g a (swapC c) (swap p)

theorem SwapG.at0 {D : Nat} {g g' : GMem K} (h : SwapG D g g') (c : Nat) (hc : c < 6) (p : List Int)
    (hp : p.length = D) : g' 0 c p = (if c < 3 then 1 else -1) * g 0 (swapC c) (swap p) :=
  h 0 c (.inl ⟨rfl, hc⟩) p hp

theorem SwapG.at1 {D : Nat} {g g' : GMem K} (h : SwapG D g g') (c : Nat) (hc : c < 3) (p : List Int)
    (hp : p.length = D) : g' 1 c p = g 1 (swapC c) (swap p) := by
  have := h 1 c (.inr ⟨rfl, hc⟩) p hp
  simpa [sgn] using this

theorem faraday_swap {N : List Nat} (hN : N.length = 2 ∨ N.length = 3) {g g' : GMem K}
    (h : SwapG N.length g g') (dT dx : K) (c : Coeffs K) :
    SwapG N.length (opG N.length N (.faraday dT dx c) g)
      (opG N.length (swap N) (.faraday dT dx (swapCoeffs c)) g') := by
  have h0 := h.at0
  have h1 := h.at1
  rcases two_three hN with ⟨n1, n2, rfl⟩ | ⟨n1, n2, n3, rfl⟩
  · rintro a k (⟨rfl, hk⟩ | ⟨rfl, hk⟩) p hp <;> obtain ⟨x, y, rfl⟩ := List.length_eq_two.1 hp <;>
    interval_cases k <;>
    · simp [opG, globalStep, FieldSolver.faraday, faraday2, runBody, store, GMem.unroll, swap, swapC,
        wrap, here, Loc.at, ebL, eb, Em.toNat, plusEq, swapCoeffs, h0, h1, List.replicate, sgn, swapSign]
      try first | ring1 | (left; ring1)
  · rintro a k (⟨rfl, hk⟩ | ⟨rfl, hk⟩) p hp <;> obtain ⟨x, y, z, rfl⟩ := List.length_eq_three.1 hp <;>
    interval_cases k <;>
    · simp [opG, globalStep, FieldSolver.faraday, faraday3, runBody, store, GMem.unroll, swap, swapC,
        wrap, here, Loc.at, ebL, eb, Em.toNat, plusEq, swapCoeffs, h0, h1, List.replicate, sgn, swapSign]
      try first | ring1 | (left; ring1)

theorem ampere_swap {N : List Nat} (hN : N.length = 2 ∨ N.length = 3) {g g' : GMem K}
    (h : SwapG N.length g g') (dT dx : K) :
    SwapG N.length (globalStep N (ampere N.length dT dx) g)
      (globalStep (swap N) (ampere N.length dT dx) g') := by
  have h0 := h.at0
  have h1 := h.at1
  rcases two_three hN with ⟨n1, n2, rfl⟩ | ⟨n1, n2, n3, rfl⟩
  · rintro a k (⟨rfl, hk⟩ | ⟨rfl, hk⟩) p hp <;> obtain ⟨x, y, rfl⟩ := List.length_eq_two.1 hp <;>
    interval_cases k <;>
    · simp [globalStep, FieldSolver.ampere, ampere2, runBody, store, GMem.unroll, swap, swapC,
        wrap, here, Loc.at, ebL, eb, Em.toNat, plusEq, h0, h1, List.replicate, sgn, swapSign]
      try first | ring1 | (left; ring1)
  · rintro a k (⟨rfl, hk⟩ | ⟨rfl, hk⟩) p hp <;> obtain ⟨x, y, z, rfl⟩ := List.length_eq_three.1 hp <;>
    interval_cases k <;>
    · simp [globalStep, FieldSolver.ampere, ampere3, runBody, store, GMem.unroll, swap, swapC,
        wrap, here, Loc.at, ebL, eb, Em.toNat, plusEq, h0, h1, List.replicate, sgn, swapSign]
      try first | ring1 | (left; ring1)

theorem currents_swap {N : List Nat} (hN : N.length = 2 ∨ N.length = 3) {g g' : GMem K}
    (h : SwapG N.length g g') (coeff ppc0 : K) :
    SwapG N.length (globalStep N (currentsAmpere N.length coeff ppc0) g)
      (globalStep (swap N) (currentsAmpere N.length coeff ppc0) g') := by
  have h0 := h.at0
  have h1 := h.at1
  rcases two_three hN with ⟨n1, n2, rfl⟩ | ⟨n1, n2, n3, rfl⟩
  · rintro a k (⟨rfl, hk⟩ | ⟨rfl, hk⟩) p hp <;> obtain ⟨x, y, rfl⟩ := List.length_eq_two.1 hp <;>
    interval_cases k <;>
    · simp [globalStep, FieldSolver.currentsAmpere, runBody, store, GMem.unroll, swap, swapC,
        wrap, here, Loc.at, ebL, eb, jcL, jc, Cc.toNat, Em.toNat, plusEq, h0, h1, List.replicate, sgn,
        swapSign]
      try first | ring1 | (left; ring1)
  · rintro a k (⟨rfl, hk⟩ | ⟨rfl, hk⟩) p hp <;> obtain ⟨x, y, z, rfl⟩ := List.length_eq_three.1 hp <;>
    interval_cases k <;>
    · simp [globalStep, FieldSolver.currentsAmpere, runBody, store, GMem.unroll, swap, swapC,
        wrap, here, Loc.at, ebL, eb, jcL, jc, Cc.toNat, Em.toNat, plusEq, h0, h1, List.replicate, sgn,
        swapSign]
      try first | ring1 | (left; ring1)

theorem filter_swap {N : List Nat} (hN : N.length = 2) {g g' : GMem K} (h : SwapG N.length g g') :
    SwapG N.length (stepG N g) (stepG (swap N) g') := by
  have h0 := h.at0
  have h1 := h.at1
  obtain ⟨n1, n2, rfl⟩ := List.length_eq_two.1 hN
  rintro a k (⟨rfl, hk⟩ | ⟨rfl, hk⟩) p hp <;> obtain ⟨x, y, rfl⟩ := List.length_eq_two.1 hp <;>
  interval_cases k <;>
  · simp [stepG, copyG, plainFilter, interior2, Filter.inv, arr, globalStep, runBody, store, GMem.unroll, swap, swapC,
      wrap, here, Loc.at, bf, bfL, h0, h1, List.replicate, sgn, swapSign]
    try first | ring1 | (left; ring1)

theorem filters_swap {N : List Nat} (hN : N.length = 2) (n : Nat) {g g' : GMem K}
    (h : SwapG N.length g g') : SwapG N.length ((stepG N)^[n] g) ((stepG (swap N))^[n] g') := by
  induction n with
  | zero => exact h
  | succ n ih =>
    rw [Function.iterate_succ_apply', Function.iterate_succ_apply']
    exact filter_swap hN ih

/-! ## Interpolation -/

theorem wsum_mul (f : Int → K) (k : K) (w : List K) (m : Int) :
    wsum (fun n => k * f n) m w = k * wsum f m w := by
  have := wsum_lin f (fun _ => 0) k w m
  simp only [add_zero, wsum_zero] at this
  rw [mul_comm k, ← this]
  congr 1
  funext n
  ring

theorem interp_swap3 {O : Nat} {F F' : List Int → K} {σ : K}
    (hF : ∀ x y z, F' [x, y, z] = σ * F [y, x, z]) (s1 s2 s3 : Bool) (p1 p2 p3 : Int × K) (k : K) :
    (match interpFrom O F' [s2, s1, s3] [p2, p1, p3] with | .ok x => x * k | _ => 0) =
    σ * (match interpFrom O F [s1, s2, s3] [p1, p2, p3] with | .ok x => x * k | _ => 0) := by
  obtain ⟨i1, d1⟩ := p1
  obtain ⟨i2, d2⟩ := p2
  obtain ⟨i3, d3⟩ := p3
  unfold interpFrom
  simp only [allWeights]
  cases axisWeights O s1 i1 d1 with
  | err | ub =>
    all_goals cases axisWeights O s2 i2 d2 <;> cases axisWeights O s3 i3 d3 <;>
      exact (mul_zero σ).symm
  | ok w1 =>
    cases axisWeights O s2 i2 d2 with
    | err | ub => all_goals cases axisWeights O s3 i3 d3 <;> exact (mul_zero σ).symm
    | ok w2 =>
      cases axisWeights O s3 i3 d3 with
      | err | ub => all_goals exact (mul_zero σ).symm
      | ok w3 =>
        simp only [Outcome.bind_ok, Outcome.pure_eq, List.reverse_cons, List.reverse_nil,
          List.nil_append, List.cons_append, nested, sumOver_ok, hF, wsum_mul]
        rw [mul_assoc]
        congr 2
        congr 1
        funext n
        rw [wsum_comm]

theorem interp_swap2 {O : Nat} {F F' : List Int → K} {σ : K}
    (hF : ∀ x y, F' [x, y] = σ * F [y, x]) (s1 s2 : Bool) (p1 p2 : Int × K) (k : K) :
    (match interpFrom O F' [s2, s1] [p2, p1] with | .ok x => x * k | _ => 0) =
    σ * (match interpFrom O F [s1, s2] [p1, p2] with | .ok x => x * k | _ => 0) := by
  obtain ⟨i1, d1⟩ := p1
  obtain ⟨i2, d2⟩ := p2
  unfold interpFrom
  simp only [allWeights]
  cases axisWeights O s1 i1 d1 with
  | err | ub => all_goals cases axisWeights O s2 i2 d2 <;> exact (mul_zero σ).symm
  | ok w1 =>
    cases axisWeights O s2 i2 d2 with
    | err | ub => all_goals exact (mul_zero σ).symm
    | ok w2 =>
      simp only [Outcome.bind_ok, Outcome.pure_eq, List.reverse_cons, List.reverse_nil,
        List.nil_append, List.cons_append, nested, sumOver_ok, hF, wsum_mul]
      rw [mul_assoc, wsum_comm]

/-- The component that the mirror shows as `c`. -/
def swapComp : Comp → Comp
  | .ex1 => .ex2
  | .ex2 => .ex1
  | .ex3 => .ex3
  | .bx1 => .bx2
  | .bx2 => .bx1
  | .bx3 => .bx3

theorem boxField_swap {P : StepPrm K} (co : Coeffs K) {N : List Nat}
    (hN : N.length = 2 ∨ N.length = 3) {g g' : GMem K} (h : SwapG N.length g g') {v : View K}
    (hv : Sized N v) (c : Comp) :
    boxField { P with c := co } (swap N) g' (swapView v) c =
      swapSign (slot c) * boxField P N g v (swapComp c) := by
  obtain ⟨h1, -, h3⟩ := hv
  have e : slot (swapComp c) = swapC (slot c) := by cases c <;> rfl
  have hF : ∀ p, p.length = N.length → g' 0 (slot c) (wrap (swap N) p) =
      swapSign (slot c) * g 0 (slot (swapComp c)) (wrap N (swap p)) := by
    intro p hp
    have := h 0 (slot c) (.inl ⟨rfl, by cases c <;> decide⟩) (wrap (swap N) p)
      (by simp [wrap, swap_length, hp])
    rw [this, e, ← swap_wrap (by rw [swap_length, hp]), swap_swap]
    rfl
  unfold boxField
  rw [swap_length]
  rcases two_three hN with ⟨n1, n2, rfl⟩ | ⟨n1, n2, n3, rfl⟩
  · obtain ⟨i1, i2, e1⟩ := List.length_eq_two.1 h1
    obtain ⟨d1, d2, e3⟩ := List.length_eq_two.1 h3
    have := interp_swap2 (O := P.O) (σ := swapSign (slot c))
      (F := fun idx => g 0 (slot (swapComp c)) (wrap [n1, n2] idx))
      (F' := fun idx => g' 0 (slot c) (wrap (swap [n1, n2]) idx)) (fun x y => hF [x, y] rfl)
    simp only [swapView, e1, e3, swap]
    cases c <;> exact this _ _ _ _ _
  · obtain ⟨i1, i2, i3, e1⟩ := List.length_eq_three.1 h1
    obtain ⟨d1, d2, d3, e3⟩ := List.length_eq_three.1 h3
    have := interp_swap3 (O := P.O) (σ := swapSign (slot c))
      (F := fun idx => g 0 (slot (swapComp c)) (wrap [n1, n2, n3] idx))
      (F' := fun idx => g' 0 (slot c) (wrap (swap [n1, n2, n3]) idx)) (fun x y z => hF [x, y, z] rfl)
    simp only [swapView, e1, e3, swap]
    cases c <;> exact this _ _ _ _ _ _ _

/-! ## Particles -/

theorem boxKick_swap {P : StepPrm K} (co : Coeffs K) {s : SpPrm K} {N : List Nat}
    (hN : N.length = 2 ∨ N.length = 3) (hs : Mirrored N.length s) {x0 : List K}
    (hx : x0.length = N.length) (t : Nat) {g g' : GMem K} (h : SwapG N.length g g')
    {v : View K} (hv : Sized N v) (hu : v.u.length = 3) :
    boxKick { P with c := co } s (swap x0) t (swap N) g' (swapView v) =
      swapV (boxKick P s x0 t N g v) := by
  unfold boxKick
  simp only [boxField_swap co hN h hv, swapComp]
  obtain ⟨h1, -, h3⟩ := hv
  rw [← hs.kick _ _ _ _ _ (by simp [h1, h3, hx])]
  obtain ⟨u1, u2, u3, e4⟩ := List.length_eq_three.1 hu
  congr 1
  · rw [← hx] at h1 h3 hN
    rcases two_three hN with ⟨a, b, rfl⟩ | ⟨a, b, c, rfl⟩
    · obtain ⟨i1, i2, e1⟩ := List.length_eq_two.1 h1
      obtain ⟨d1, d2, e3⟩ := List.length_eq_two.1 h3
      simp only [swapView, e1, e3, swap, List.zip_cons_cons, List.zip_nil_right,
        List.zipWith_cons_cons, List.zipWith_nil_left]
    · obtain ⟨i1, i2, i3, e1⟩ := List.length_eq_three.1 h1
      obtain ⟨d1, d2, d3, e3⟩ := List.length_eq_three.1 h3
      simp only [swapView, e1, e3, swap, List.zip_cons_cons, List.zip_nil_right,
        List.zipWith_cons_cons, List.zipWith_nil_left]
  · simp [slot, swapSign, swapV]
  · simp [slot, swapSign, swapA]
  · simp [swapView, e4, swap, vecOf, swapV]

theorem boxMoved_swap {P : StepPrm K} (co : Coeffs K) {s : SpPrm K} {N : List Nat}
    (hN : N.length = 2 ∨ N.length = 3) (hs : Mirrored N.length s) {x0 : List K}
    (hx : x0.length = N.length) (t : Nat) {g g' : GMem K} (h : SwapG N.length g g')
    {v : View K} (hv : Sized N v) (hu : v.u.length = 3) :
    boxMoved { P with c := co } s (swap x0) t (swap N) g' (swapView v) =
      swap (boxMoved P s x0 t N g v) := by
  unfold boxMoved
  simp only [boxKick_swap co hN hs hx t h hv hu, hs.dtE]
  obtain ⟨h1, -, h3⟩ := hv
  rcases hN with e | e <;> rw [e] at h1 h3
  · obtain ⟨i1, i2, e1⟩ := List.length_eq_two.1 h1
    obtain ⟨d1, d2, e3⟩ := List.length_eq_two.1 h3
    simp [swapView, e1, e3, swap, axesOf, List.range_succ, swapV, pushAxis]
  · obtain ⟨i1, i2, i3, e1⟩ := List.length_eq_three.1 h1
    obtain ⟨d1, d2, d3, e3⟩ := List.length_eq_three.1 h3
    simp [swapView, e1, e3, swap, axesOf, List.range_succ, swapV, pushAxis]

theorem boxPush_swap {P : StepPrm K} (co : Coeffs K) {s : SpPrm K} {N : List Nat}
    (hN : N.length = 2 ∨ N.length = 3) (hs : Mirrored N.length s) {x0 : List K}
    (hx : x0.length = N.length) (t : Nat) {g g' : GMem K} (h : SwapG N.length g g')
    {v : View K} (hv : Sized N v) (hu : v.u.length = 3) :
    boxPush { P with c := co } s (swap x0) t (swap N) g' (swapView v) =
      swapView (boxPush P s x0 t N g v) := by
  unfold boxPush
  split_ifs
  · rfl
  · simp only
    rw [boxKick_swap co hN hs hx t h hv hu, boxMoved_swap co hN hs hx t h hv hu]
    have hl := boxMoved_length (P := P) (s := s) (x0 := x0) (t := t) (g := g) hv
    rcases two_three hN with ⟨n1, n2, rfl⟩ | ⟨n1, n2, n3, rfl⟩
    · obtain ⟨a, b, e⟩ := List.length_eq_two.1 hl
      rw [e]
      rfl
    · obtain ⟨a, b, c, e⟩ := List.length_eq_three.1 hl
      rw [e]
      rfl

/-! ## Deposit -/

section
variable {n1 n2 n3 : Nat} {x y z : Int}

theorem ite_swap2 (a b : Int) (v : K) :
    (if wrap (swap [n1, n2]) [b, a] = [x, y] then v else 0) =
    (if wrap [n1, n2] [a, b] = [y, x] then v else 0) := by
  simp only [swap, wrap, List.zipWith_cons_cons, List.zipWith_nil_left, List.cons.injEq, and_true]
  congr 1
  exact propext ⟨fun ⟨h1, h2⟩ => ⟨h2, h1⟩, fun ⟨h1, h2⟩ => ⟨h2, h1⟩⟩

theorem ite_swap3 (a b c : Int) (v : K) :
    (if wrap (swap [n1, n2, n3]) [b, a, c] = [x, y, z] then v else 0) =
    (if wrap [n1, n2, n3] [a, b, c] = [y, x, z] then v else 0) := by
  simp only [swap, wrap, List.zipWith_cons_cons, List.zipWith_nil_left, List.cons.injEq, and_true]
  congr 1
  exact propext ⟨fun ⟨h1, h2, h3⟩ => ⟨h2, h1, h3⟩, fun ⟨h1, h2, h3⟩ => ⟨h2, h1, h3⟩⟩

theorem zigzag2_swap (NG : Int) (q d v3 : K) (a b : Ax K) {k : Nat} (hk : k < 3) :
    landed (swap [n1, n2]) (zigzag2 NG q d v3 b a) k [x, y] =
      landed [n1, n2] (zigzag2 NG q d v3 a b) (swapC k) [y, x] := by
  unfold zigzag2
  obtain ⟨w11, w12, f11, f12⟩ := zzAxis a (q * d)
  obtain ⟨w21, w22, f21, f22⟩ := zzAxis b (q * d)
  obtain ⟨δ, hδ⟩ : ∃ δ : Int → Int → K, ∀ a b v,
      (if wrap [n1, n2] [a, b] = [y, x] then v else 0) = v * δ a b :=
    ⟨fun a b => if wrap [n1, n2] [a, b] = [y, x] then 1 else 0, by
      intro a b v; rw [mul_ite, mul_one, mul_zero]⟩
  interval_cases k <;>
  · simp [landed, swapC, ite_swap2, hδ]
    try ring

theorem zigzag3_swap (NG : Int) (q d : K) (a b c : Ax K) {k : Nat} (hk : k < 3) :
    landed (swap [n1, n2, n3]) (zigzag3 NG q d b a c) k [x, y, z] =
      landed [n1, n2, n3] (zigzag3 NG q d a b c) (swapC k) [y, x, z] := by
  unfold zigzag3
  obtain ⟨w11, w12, f11, f12⟩ := zzAxis a (q * d)
  obtain ⟨w21, w22, f21, f22⟩ := zzAxis b (q * d)
  obtain ⟨w31, w32, f31, f32⟩ := zzAxis c (q * d)
  obtain ⟨δ, hδ⟩ : ∃ δ : Int → Int → Int → K, ∀ a b c v,
      (if wrap [n1, n2, n3] [a, b, c] = [y, x, z] then v else 0) = v * δ a b c :=
    ⟨fun a b c => if wrap [n1, n2, n3] [a, b, c] = [y, x, z] then 1 else 0, by
      intro a b c v; rw [mul_ite, mul_one, mul_zero]⟩
  interval_cases k <;>
  · simp [landed, swapC, ite_swap3, hδ]
    try ring

theorem esirkepov2_swap (O : Nat) (NG : Int) (q d v3 : K) (a b : Ax K) {k : Nat} (hk : k < 3) :
    landed (swap [n1, n2]) (match esirkepov2 O NG q d v3 b a with | .ok us => us | _ => []) k [x, y] =
      landed [n1, n2] (match esirkepov2 O NG q d v3 a b with | .ok us => us | _ => []) (swapC k)
        [y, x] := by
  unfold esirkepov2
  cases forDeposit O a.iPrev a.dxPrev a.i a.dx with
  | err | ub => all_goals cases forDeposit O b.iPrev b.dxPrev b.i b.dx <;> rfl
  | ok s1 =>
    cases forDeposit O b.iPrev b.dxPrev b.i b.dx with
    | err | ub => all_goals rfl
    | ok s2 =>
      obtain ⟨l1, u1, iS1, fS1⟩ := s1
      obtain ⟨l2, u2, iS2, fS2⟩ := s2
      simp only [Outcome.bind_ok, Outcome.pure_eq, landed_append, landed_ranges, landed_range]
      interval_cases k <;>
      · simp only [swapC, ite_swap2, true_and, zero_ne_one, one_ne_zero, false_and, if_false,
          OfNat.ofNat_ne_zero, OfNat.ofNat_ne_one, OfNat.one_ne_ofNat, OfNat.zero_ne_ofNat,
          Finset.sum_const_zero, add_zero, zero_add]
        refine Eq.trans ?_ Finset.sum_comm
        refine Finset.sum_congr rfl fun j _ => Finset.sum_congr rfl fun i _ => ?_
        congr 1
        first
          | (congr 1; funext j'; ring1)
          | ring1

theorem sum3_swap (d1 d2 d3 : Nat) (f : Nat → Nat → Nat → K) :
    ∑ j ∈ Finset.range d2, ∑ i ∈ Finset.range d1, ∑ k ∈ Finset.range d3, f i j k =
    ∑ i ∈ Finset.range d1, ∑ j ∈ Finset.range d2, ∑ k ∈ Finset.range d3, f i j k := Finset.sum_comm

theorem esirkepov3_swap (O : Nat) (NG : Int) (q d : K) (a b c : Ax K) {k : Nat} (hk : k < 3) :
    landed (swap [n1, n2, n3]) (match esirkepov3 O NG q d b a c with | .ok us => us | _ => []) k
        [x, y, z] =
      landed [n1, n2, n3] (match esirkepov3 O NG q d a b c with | .ok us => us | _ => []) (swapC k)
        [y, x, z] := by
  unfold esirkepov3
  cases forDeposit O a.iPrev a.dxPrev a.i a.dx with
  | err | ub =>
    all_goals cases forDeposit O b.iPrev b.dxPrev b.i b.dx <;>
      cases forDeposit O c.iPrev c.dxPrev c.i c.dx <;> rfl
  | ok s1 =>
    cases forDeposit O b.iPrev b.dxPrev b.i b.dx with
    | err | ub => all_goals cases forDeposit O c.iPrev c.dxPrev c.i c.dx <;> rfl
    | ok s2 =>
      cases forDeposit O c.iPrev c.dxPrev c.i c.dx with
      | err | ub => all_goals rfl
      | ok s3 =>
        obtain ⟨l1, u1, iS1, fS1⟩ := s1
        obtain ⟨l2, u2, iS2, fS2⟩ := s2
        obtain ⟨l3, u3, iS3, fS3⟩ := s3
        simp only [Outcome.bind_ok, Outcome.pure_eq, landed_append, landed_ranges, landed_range]
        interval_cases k <;>
        · simp only [swapC, ite_swap3, true_and, zero_ne_one, one_ne_zero, false_and, if_false,
            OfNat.ofNat_ne_zero, OfNat.ofNat_ne_one, OfNat.one_ne_ofNat, OfNat.zero_ne_ofNat,
            Finset.sum_const_zero, add_zero, zero_add]
          refine Eq.trans ?_ (sum3_swap _ _ _ _)
          refine Finset.sum_congr rfl fun j _ => Finset.sum_congr rfl fun i _ =>
            Finset.sum_congr rfl fun k _ => ?_
          congr 1 <;> first
            | rfl
            | (congr 1; funext j'; ring1)

end

theorem boxDeposit_swap {P : StepPrm K} (co : Coeffs K) {s : SpPrm K} {N : List Nat}
    (hN : N.length = 2 ∨ N.length = 3) (hs : Mirrored N.length s) {x0 : List K}
    (hx : x0.length = N.length) (t : Nat) {g g' : GMem K} (h : SwapG N.length g g')
    {v : View K} (hv : Sized N v) (hu : v.u.length = 3) {k : Nat} (hk : k < 3) {p : List Int}
    (hp : p.length = N.length) :
    landed (swap N) (boxDeposit { P with c := co } s (swap x0) t (swap N) g' (swapView v)) k p =
      landed N (boxDeposit P s x0 t N g v) (swapC k) (swap p) := by
  unfold boxDeposit
  simp only
  rw [boxMoved_swap co hN hs hx t h hv hu, boxKick_swap co hN hs hx t h hv hu, hs.invE, swap_length]
  have hl := boxMoved_length (P := P) (s := s) (x0 := x0) (t := t) (g := g) hv
  unfold depositOne
  have ha : ¬ (alive = dead) := by decide
  simp only [ha, if_false]
  rcases two_three hN with ⟨n1, n2, rfl⟩ | ⟨n1, n2, n3, rfl⟩
  · obtain ⟨a, b, e⟩ := List.length_eq_two.1 hl
    obtain ⟨x, y, rfl⟩ := List.length_eq_two.1 hp
    rw [e]
    cases P.O with
    | zero => exact zigzag2_swap 0 _ _ _ a b hk
    | succ O => exact esirkepov2_swap (O + 1) 0 _ _ _ a b hk
  · obtain ⟨a, b, c, e⟩ := List.length_eq_three.1 hl
    obtain ⟨x, y, z, rfl⟩ := List.length_eq_three.1 hp
    rw [e]
    cases P.O with
    | zero => exact zigzag3_swap 0 _ _ a b c hk
    | succ O => exact esirkepov3_swap (O + 1) 0 _ _ a b c hk

theorem boxCurrent_swap {P : StepPrm K} (co : Coeffs K) {sps : List (SpPrm K)} {N : List Nat}
    (hN : N.length = 2 ∨ N.length = 3) (hs : ∀ s ∈ sps, Mirrored N.length s) {x0 : List K}
    (hx : x0.length = N.length) (t : Nat) {g g' : GMem K} (h : SwapG N.length g g')
    {L L' : Nat → List (View K)}
    (hv : ∀ i s, sps[i]? = some s → ∀ v ∈ L i, Sized N v ∧ v.u.length = 3)
    (hL : ∀ i s, sps[i]? = some s → (L' i).Perm ((L i).map swapView)) {k : Nat} (hk : k < 3)
    {p : List Int} (hp : p.length = N.length) :
    boxCurrent { P with c := co } sps (swap x0) t (swap N) g' L' k p =
      boxCurrent P sps x0 t N g L (swapC k) (swap p) := by
  unfold boxCurrent
  congr 1
  apply List.ext_getElem
  · simp
  · intro i b1 b2
    have hi : i < sps.length := by simpa using b1
    simp only [List.getElem_mapIdx]
    have hsp : sps[i]? = some sps[i] := List.getElem?_eq_getElem hi
    unfold boxCurrentOf
    split_ifs
    · rfl
    · rw [((hL i _ hsp).map _).sum_eq, List.map_map]
      congr 1
      apply List.map_congr_left
      intro v hv'
      obtain ⟨h1, h2⟩ := hv i _ hsp v hv'
      exact boxDeposit_swap co hN (hs _ (List.getElem_mem hi)) hx t h h1 h2 hk hp

/-! ## Steps -/

/-- The second box is the mirror image of the first. -/
structure SwapBox (N : List Nat) (sps : List (SpPrm K)) (B B' : Box K) : Prop where
  fields : SwapG N.length B.g B'.g
  sized : ∀ i s, sps[i]? = some s → ∀ v ∈ B.prtl i, Sized N v ∧ v.u.length = 3
  prtl : ∀ i s, sps[i]? = some s → (B'.prtl i).Perm ((B.prtl i).map swapView)

theorem boxStep_swap {P : StepPrm K} {sps : List (SpPrm K)} {N : List Nat}
    (hN : N.length = 2 ∨ N.length = 3) (hf : P.nf = 0 ∨ N.length = 2)
    (hs : ∀ s ∈ sps, Mirrored N.length s) {x0 : List K} (hx : x0.length = N.length) (t : Nat)
    {B B' : Box K} (h : SwapBox N sps B B') :
    SwapBox N sps (boxStep P sps x0 t N B)
      (boxStep { P with c := swapCoeffs P.c } sps (swap x0) t (swap N) B') := by
  have g1 := faraday_swap hN h.fields (1 / 2 * P.correction * P.dt) P.dx P.c
  have far := fun (g g' : GMem K) (h : SwapG N.length g g') =>
    faraday_swap hN h (1 / 2 * P.correction * P.dt) P.dx P.c
  unfold boxStep
  simp only [swap_length]
  generalize opG N.length N (.faraday (1 / 2 * P.correction * P.dt) P.dx P.c) B.g = f1 at g1 ⊢
  generalize opG N.length (swap N) (.faraday (1 / 2 * P.correction * P.dt) P.dx (swapCoeffs P.c)) B'.g
    = f1' at g1 ⊢
  refine ⟨?_, ?_, ?_⟩
  · refine currents_swap hN (ampere_swap hN (far _ _ ?_) _ _) _ _
    have g2 : SwapG N.length
        (fun a c p => if selEB a c then f1 a c p else boxCurrent P sps x0 t N f1 B.prtl c p)
        (fun a c p => if selEB a c then f1' a c p else
          boxCurrent { P with c := swapCoeffs P.c } sps (swap x0) t (swap N) f1' B'.prtl c p) := by
      rintro a k (⟨rfl, hk⟩ | ⟨rfl, hk⟩) p hp
      · have e1 : selEB 0 k = true := by interval_cases k <;> rfl
        have e2 : selEB 0 (swapC k) = true := by interval_cases k <;> rfl
        simp only [e1, e2, if_true]
        exact g1 0 k (.inl ⟨rfl, hk⟩) p hp
      · have e1 : ∀ k, selEB 1 k = false := fun k => rfl
        simp only [e1, Bool.false_eq_true, if_false]
        rw [boxCurrent_swap (swapCoeffs P.c) hN hs hx t g1 h.sized h.prtl hk hp]
        simp [sgn]
    rcases hf with hf | hf
    · rw [hf]
      exact g2
    · exact filters_swap hf P.nf g2
  · intro i s hsp v hv
    simp only [hsp, List.mem_map] at hv
    obtain ⟨w, hw, rfl⟩ := hv
    obtain ⟨a, b⟩ := h.sized i s hsp w hw
    exact ⟨boxPush_sized a, boxPush_u b⟩
  · intro i s hsp
    simp only [hsp]
    refine ((h.prtl i s hsp).map _).trans (.of_eq ?_)
    rw [List.map_map, List.map_map]
    apply List.map_congr_left
    intro v hv
    obtain ⟨a, b⟩ := h.sized i s hsp v hv
    exact boxPush_swap (swapCoeffs P.c) hN (hs s (List.mem_of_getElem? hsp)) hx t g1 a b

theorem boxRun_swap {P : StepPrm K} {sps : List (SpPrm K)} {N : List Nat}
    (hN : N.length = 2 ∨ N.length = 3) (hf : P.nf = 0 ∨ N.length = 2)
    (hs : ∀ s ∈ sps, Mirrored N.length s) {x0 : List K} (hx : x0.length = N.length) (n : Nat)
    {B B' : Box K} (h : SwapBox N sps B B') :
    SwapBox N sps (boxRun P sps x0 N n B)
      (boxRun { P with c := swapCoeffs P.c } sps (swap x0) (swap N) n B') := by
  induction n with
  | zero => exact h
  | succ n ih => exact boxStep_swap hN hf hs hx n ih

end Entity.Full
