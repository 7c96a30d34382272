import Verif.Lemmas.FullTranslate
import Verif.Spec.FullRotate

/-!
# A step of the box commutes with renaming the axes
-/

set_option linter.unusedSectionVars false

namespace Entity.Full

open Entity Entity.Topology Entity.Kernel Entity.FieldSolver Entity.Push Entity.Prtl Entity.Ranks
open Entity.Deposit Entity.Interp Entity.Tags Entity.Decomp Entity.Gauss Entity.Dir Entity.Filter
open Entity.Shapes

theorem rot_wrap {N : List Nat} (hN : N.length = 3) {p : List Int} (hp : p.length = 3) :
    wrap (rot N) (rot p) = rot (wrap N p) := by
  obtain ⟨a, b, c, rfl⟩ := List.length_eq_three.1 hN
  obtain ⟨x, y, z, rfl⟩ := List.length_eq_three.1 hp
  rfl

variable {K : Type} [Field K] [LinearOrder K] [IsStrictOrderedRing K] [FloorRing K]

/-! ## Fields -/

/-- The second field is the first one with the axes renamed. -/
def RotG (g g' : GMem K) : Prop :=
  ∀ a c, (a = 0 ∧ c < 6 ∨ a = 1 ∧ c < 3) → ∀ x y z, g' a c [x, y, z] = g a (rotC c) [z, x, y]

theorem faraday_rot {N : List Nat} (hN : N.length = 3) {g g' : GMem K} (h : RotG g g')
    (dT dx : K) (c : Coeffs K) :
    RotG (opG 3 N (.faraday dT dx c) g) (opG 3 (rot N) (.faraday dT dx (rotCoeffs c)) g') := by
  obtain ⟨n1, n2, n3, rfl⟩ := List.length_eq_three.1 hN
  have h0 : ∀ c, c < 6 → ∀ x y z, g' 0 c [x, y, z] = g 0 (rotC c) [z, x, y] :=
    fun c hc => h 0 c (.inl ⟨rfl, hc⟩)
  rintro a k (⟨rfl, hk⟩ | ⟨rfl, hk⟩) x y z <;> interval_cases k <;>
  · simp [opG, globalStep, FieldSolver.faraday, faraday3, runBody, store, GMem.unroll, rot, rotC, wrap, here,
      Loc.at, ebL, eb, Em.toNat, plusEq, rotCoeffs, h0, h 1, List.replicate]
    try (left; ring)

theorem electric_rot {N : List Nat} (hN : N.length = 3) {g g' : GMem K} (h : RotG g g')
    (dT dx coeff ppc0 : K) :
    RotG (opG 3 N (.electric dT dx (some (coeff, ppc0))) g)
      (opG 3 (rot N) (.electric dT dx (some (coeff, ppc0))) g') := by
  obtain ⟨n1, n2, n3, rfl⟩ := List.length_eq_three.1 hN
  have h0 : ∀ c, c < 6 → ∀ x y z, g' 0 c [x, y, z] = g 0 (rotC c) [z, x, y] :=
    fun c hc => h 0 c (.inl ⟨rfl, hc⟩)
  have h1 : ∀ c, c < 3 → ∀ x y z, g' 1 c [x, y, z] = g 1 (rotC c) [z, x, y] :=
    fun c hc => h 1 c (.inr ⟨rfl, hc⟩)
  have ha : RotG (globalStep [n1, n2, n3] (ampere 3 dT dx) g)
      (globalStep (rot [n1, n2, n3]) (ampere 3 dT dx) g') := by
    rintro a k (⟨rfl, hk⟩ | ⟨rfl, hk⟩) x y z <;> interval_cases k <;>
    · simp [globalStep, FieldSolver.ampere, ampere3, runBody, store, GMem.unroll, rot, rotC, wrap, here,
        Loc.at, ebL, eb, Em.toNat, plusEq, h0, h1, List.replicate]
      try ring
  show RotG (globalStep [n1, n2, n3] (currentsAmpere 3 coeff ppc0)
      (globalStep [n1, n2, n3] (ampere 3 dT dx) g))
    (globalStep (rot [n1, n2, n3]) (currentsAmpere 3 coeff ppc0)
      (globalStep (rot [n1, n2, n3]) (ampere 3 dT dx) g'))
  generalize globalStep [n1, n2, n3] (ampere 3 dT dx) g = f at ha
  generalize globalStep (rot [n1, n2, n3]) (ampere 3 dT dx) g' = f' at ha
  have h0' : ∀ c, c < 6 → ∀ x y z, f' 0 c [x, y, z] = f 0 (rotC c) [z, x, y] :=
    fun c hc => ha 0 c (.inl ⟨rfl, hc⟩)
  have h1' : ∀ c, c < 3 → ∀ x y z, f' 1 c [x, y, z] = f 1 (rotC c) [z, x, y] :=
    fun c hc => ha 1 c (.inr ⟨rfl, hc⟩)
  rintro a k (⟨rfl, hk⟩ | ⟨rfl, hk⟩) x y z <;> interval_cases k <;>
  · simp [globalStep, FieldSolver.currentsAmpere, runBody, store, GMem.unroll, rot, rotC, wrap, here,
      Loc.at, ebL, jcL, jc, Cc.toNat, Em.toNat, plusEq, h0', h1', List.replicate]
    try ring

/-! ## Interpolation -/

/-- A sum with weights. -/
def wsum (f : Int → K) : Int → List K → K
  | _, [] => 0
  | m, w :: ws => f m * w + wsum f (m + 1) ws

omit [LinearOrder K] [IsStrictOrderedRing K] [FloorRing K] in
theorem sumOver_ok (f : Int → K) : ∀ (w : List K) (m : Int),
    Interp.sumOver (fun n => .ok (f n)) m w = .ok (wsum f m w)
  | [], _ => rfl
  | w :: ws, m => by
    simp only [Interp.sumOver, sumOver_ok f ws (m + 1), Outcome.bind_ok]
    rfl

omit [LinearOrder K] [IsStrictOrderedRing K] [FloorRing K] in
theorem wsum_zero : ∀ (w : List K) (m : Int), wsum (fun _ => (0 : K)) m w = 0
  | [], _ => rfl
  | w :: ws, m => by simp [wsum, wsum_zero ws]

omit [LinearOrder K] [IsStrictOrderedRing K] [FloorRing K] in
theorem wsum_lin (f g : Int → K) (k : K) : ∀ (w : List K) (m : Int),
    wsum (fun n => f n * k + g n) m w = wsum f m w * k + wsum g m w
  | [], _ => by simp [wsum]
  | w :: ws, m => by
    simp only [wsum, wsum_lin f g k ws]
    ring

omit [LinearOrder K] [IsStrictOrderedRing K] [FloorRing K] in
theorem wsum_comm (f : Int → Int → K) (v : List K) (l : Int) : ∀ (w : List K) (m : Int),
    wsum (fun a => wsum (fun b => f a b) l v) m w = wsum (fun b => wsum (fun a => f a b) m w) l v
  | [], m => by simp only [wsum, wsum_zero]
  | w :: ws, m => by
    simp only [wsum]
    rw [wsum_comm f v l ws (m + 1), wsum_lin]

theorem interp_rot {O : Nat} {F F' : List Int → K} (hF : ∀ x y z, F' [x, y, z] = F [z, x, y])
    (s1 s2 s3 : Bool) (p1 p2 p3 : Int × K) (k : K) :
    (match interpFrom O F' [s2, s3, s1] [p2, p3, p1] with | .ok x => x * k | _ => 0) =
    (match interpFrom O F [s1, s2, s3] [p1, p2, p3] with | .ok x => x * k | _ => 0) := by
  obtain ⟨i1, d1⟩ := p1
  obtain ⟨i2, d2⟩ := p2
  obtain ⟨i3, d3⟩ := p3
  unfold interpFrom
  simp only [allWeights]
  cases axisWeights O s1 i1 d1 with
  | err | ub => 
    all_goals cases axisWeights O s2 i2 d2 <;> cases axisWeights O s3 i3 d3 <;> rfl
  | ok w1 =>
    cases axisWeights O s2 i2 d2 with
    | err | ub => all_goals cases axisWeights O s3 i3 d3 <;> rfl
    | ok w2 =>
      cases axisWeights O s3 i3 d3 with
      | err | ub => all_goals rfl
      | ok w3 =>
        simp only [Outcome.bind_ok, Outcome.pure_eq, List.reverse_cons, List.reverse_nil,
          List.nil_append, List.cons_append, nested, sumOver_ok, hF]
        congr 1
        rw [wsum_comm]
        congr 1
        funext n
        rw [wsum_comm]

/-- The component that is renamed to `c`. -/
def rotComp : Comp → Comp
  | .ex1 => .ex2
  | .ex2 => .ex3
  | .ex3 => .ex1
  | .bx1 => .bx2
  | .bx2 => .bx3
  | .bx3 => .bx1

theorem boxField_rot {P : StepPrm K} (co : Coeffs K) {N : List Nat} (hN : N.length = 3) {g g' : GMem K}
    (h : RotG g g') {v : View K} (hv : Sized N v) (c : Comp) :
    boxField { P with c := co } (rot N) g' (rotView v) c = boxField P N g v (rotComp c) := by
  obtain ⟨n1, n2, n3, rfl⟩ := List.length_eq_three.1 hN
  obtain ⟨h1, -, h3⟩ := hv
  obtain ⟨i1, i2, i3, e1⟩ := List.length_eq_three.1 h1
  obtain ⟨d1, d2, d3, e3⟩ := List.length_eq_three.1 h3
  have hF : ∀ x y z, (fun idx => g' 0 (slot c) (wrap (rot [n1, n2, n3]) idx)) [x, y, z] =
      (fun idx => g 0 (slot (rotComp c)) (wrap [n1, n2, n3] idx)) [z, x, y] := by
    intro x y z
    have : slot (rotComp c) = rotC (slot c) := by cases c <;> rfl
    simp only [this]
    exact h 0 _ (.inl ⟨rfl, by cases c <;> decide⟩) _ _ _
  have := interp_rot (O := P.O) (F := fun idx => g 0 (slot (rotComp c)) (wrap [n1, n2, n3] idx))
    (F' := fun idx => g' 0 (slot c) (wrap (rot [n1, n2, n3]) idx)) hF
  unfold boxField
  simp only [rotView, e1, e3, rot]
  cases c <;> exact this _ _ _ _ _ _ _

/-! ## Particles -/

theorem boxKick_rot {P : StepPrm K} (co : Coeffs K) {s : SpPrm K} (hs : Isotropic s) {x0 : List K}
    (hx : x0.length = 3) (t : Nat) {N : List Nat} (hN : N.length = 3) {g g' : GMem K} (h : RotG g g')
    {v : View K} (hv : Sized N v) (hu : v.u.length = 3) :
    boxKick { P with c := co } s (rot x0) t (rot N) g' (rotView v) = rotV (boxKick P s x0 t N g v) := by
  unfold boxKick
  simp only [boxField_rot co hN h hv, rotComp]
  obtain ⟨h1, -, h3⟩ := hv
  rw [hN] at h1 h3
  obtain ⟨i1, i2, i3, e1⟩ := List.length_eq_three.1 h1
  obtain ⟨d1, d2, d3, e3⟩ := List.length_eq_three.1 h3
  obtain ⟨u1, u2, u3, e4⟩ := List.length_eq_three.1 hu
  obtain ⟨a, b, c, rfl⟩ := List.length_eq_three.1 hx
  simp only [rotView, e1, e3, e4]
  exact hs.kick t [_, _, _] ⟨_, _, _⟩ ⟨_, _, _⟩ ⟨_, _, _⟩ rfl

theorem boxMoved_rot {P : StepPrm K} (co : Coeffs K) {s : SpPrm K} (hs : Isotropic s) {x0 : List K}
    (hx : x0.length = 3) (t : Nat) {N : List Nat} (hN : N.length = 3) {g g' : GMem K} (h : RotG g g')
    {v : View K} (hv : Sized N v) (hu : v.u.length = 3) :
    boxMoved { P with c := co } s (rot x0) t (rot N) g' (rotView v) = rot (boxMoved P s x0 t N g v) := by
  unfold boxMoved
  simp only [boxKick_rot co hs hx t hN h hv hu, hs.dtE]
  obtain ⟨h1, -, h3⟩ := hv
  rw [hN] at h1 h3
  obtain ⟨i1, i2, i3, e1⟩ := List.length_eq_three.1 h1
  obtain ⟨d1, d2, d3, e3⟩ := List.length_eq_three.1 h3
  simp [rotView, e1, e3, rot, axesOf, List.range_succ, rotV, pushAxis]

theorem boxPush_rot {P : StepPrm K} (co : Coeffs K) {s : SpPrm K} (hs : Isotropic s) {x0 : List K}
    (hx : x0.length = 3) (t : Nat) {N : List Nat} (hN : N.length = 3) {g g' : GMem K} (h : RotG g g')
    {v : View K} (hv : Sized N v) (hu : v.u.length = 3) :
    boxPush { P with c := co } s (rot x0) t (rot N) g' (rotView v) = rotView (boxPush P s x0 t N g v) := by
  unfold boxPush
  split_ifs
  · rfl
  · simp only
    rw [boxKick_rot co hs hx t hN h hv hu, boxMoved_rot co hs hx t hN h hv hu]
    have hl := boxMoved_length (P := P) (s := s) (x0 := x0) (t := t) (g := g) hv
    rw [hN] at hl
    obtain ⟨a, b, c, e⟩ := List.length_eq_three.1 hl
    obtain ⟨n1, n2, n3, rfl⟩ := List.length_eq_three.1 hN
    rw [e]
    rfl

theorem boxPush_u {P : StepPrm K} {s : SpPrm K} {x0 : List K} {t : Nat} {N : List Nat} {g : GMem K}
    {v : View K} (hu : v.u.length = 3) : (boxPush P s x0 t N g v).u.length = 3 := by
  unfold boxPush
  split_ifs
  · exact hu
  · rfl

/-! ## Deposit -/

section
variable {n1 n2 n3 : Nat} {x y z : Int}

/-- One addition, seen in both boxes. -/
theorem ite_rot (a b c : Int) (v : K) :
    (if wrap (rot [n1, n2, n3]) [b, c, a] = [x, y, z] then v else 0) =
    (if wrap [n1, n2, n3] [a, b, c] = [z, x, y] then v else 0) := by
  simp only [rot, wrap, List.zipWith_cons_cons, List.zipWith_nil_left, List.cons.injEq, and_true]
  congr 1
  exact propext ⟨fun ⟨h1, h2, h3⟩ => ⟨h3, h1, h2⟩, fun ⟨h1, h2, h3⟩ => ⟨h2, h3, h1⟩⟩

theorem zigzag3_rot (NG : Int) (q d : K) (a b c : Ax K) {k : Nat} (hk : k < 3) :
    landed (rot [n1, n2, n3]) (zigzag3 NG q d b c a) k [x, y, z] =
      landed [n1, n2, n3] (zigzag3 NG q d a b c) (rotC k) [z, x, y] := by
  unfold zigzag3
  obtain ⟨w11, w12, f11, f12⟩ := zzAxis a (q * d)
  obtain ⟨w21, w22, f21, f22⟩ := zzAxis b (q * d)
  obtain ⟨w31, w32, f31, f32⟩ := zzAxis c (q * d)
  obtain ⟨δ, hδ⟩ : ∃ δ : Int → Int → Int → K, ∀ a b c v,
      (if wrap [n1, n2, n3] [a, b, c] = [z, x, y] then v else 0) = v * δ a b c :=
    ⟨fun a b c => if wrap [n1, n2, n3] [a, b, c] = [z, x, y] then 1 else 0, by
      intro a b c v; rw [mul_ite, mul_one, mul_zero]⟩
  interval_cases k <;>
  · simp [landed, rotC, ite_rot, hδ]
    try ring

theorem landed_flatMap {α : Type} (N : List Nat) (l : List α) (f : α → List (Upd K)) (c : Nat)
    (p : List Int) : landed N (l.flatMap f) c p = (l.map fun i => landed N (f i) c p).sum := by
  induction l with
  | nil => rfl
  | cons a l ih => simp only [List.flatMap_cons, landed_append, ih, List.map_cons, List.sum_cons]

theorem landed_range (N : List Nat) (n : Nat) (f : Nat → Upd K) (c : Nat) (p : List Int) :
    landed N ((List.range n).map f) c p =
      ∑ i ∈ Finset.range n, if (f i).comp = c ∧ wrap N (f i).idx = p then (f i).val else 0 := by
  unfold landed
  rw [List.map_map]
  rfl

theorem landed_ranges (N : List Nat) (n : Nat) (f : Nat → List (Upd K)) (c : Nat) (p : List Int) :
    landed N ((List.range n).flatMap f) c p = ∑ i ∈ Finset.range n, landed N (f i) c p := by
  rw [landed_flatMap]
  rfl

omit [LinearOrder K] [IsStrictOrderedRing K] [FloorRing K] in
theorem sum3_rot (d1 d2 d3 : Nat) (f : Nat → Nat → Nat → K) :
    ∑ j ∈ Finset.range d2, ∑ k ∈ Finset.range d3, ∑ i ∈ Finset.range d1, f i j k =
    ∑ i ∈ Finset.range d1, ∑ j ∈ Finset.range d2, ∑ k ∈ Finset.range d3, f i j k := by
  have : ∀ j, ∑ k ∈ Finset.range d3, ∑ i ∈ Finset.range d1, f i j k =
      ∑ i ∈ Finset.range d1, ∑ k ∈ Finset.range d3, f i j k := fun j => Finset.sum_comm
  simp only [this]
  exact Finset.sum_comm

theorem esirkepov3_rot (O : Nat) (NG : Int) (q d : K) (a b c : Ax K) {k : Nat} (hk : k < 3) :
    landed (rot [n1, n2, n3]) (match esirkepov3 O NG q d b c a with | .ok us => us | _ => []) k [x, y, z] =
      landed [n1, n2, n3] (match esirkepov3 O NG q d a b c with | .ok us => us | _ => []) (rotC k)
        [z, x, y] := by
  unfold esirkepov3
  cases forDeposit O a.iPrev a.dxPrev a.i a.dx with
  | err | ub =>
    all_goals cases forDeposit O b.iPrev b.dxPrev b.i b.dx <;>
      cases forDeposit O c.iPrev c.dxPrev c.i c.dx <;> rfl
  | ok s1 =>
    cases forDeposit O b.iPrev b.dxPrev b.i b.dx with
    | err | ub => all_goals cases forDeposit O c.iPrev c.dxPrev c.i c.dx <;> rfl
    | ok s2 =>
      cases forDeposit O c.iPrev c.dxPrev c.i c.dx with
      | err | ub => all_goals rfl
      | ok s3 =>
        obtain ⟨l1, u1, iS1, fS1⟩ := s1
        obtain ⟨l2, u2, iS2, fS2⟩ := s2
        obtain ⟨l3, u3, iS3, fS3⟩ := s3
        simp only [Outcome.bind_ok, Outcome.pure_eq, landed_append, landed_ranges, landed_range]
        interval_cases k
        · simp only [rotC, ite_rot, true_and, zero_ne_one, one_ne_zero, false_and, if_false,
            OfNat.ofNat_ne_zero, OfNat.ofNat_ne_one, OfNat.one_ne_ofNat, OfNat.zero_ne_ofNat,
            Finset.sum_const_zero, add_zero, zero_add]
          refine Eq.trans ?_ (sum3_rot _ _ _ _)
          refine Finset.sum_congr rfl fun j _ => Finset.sum_congr rfl fun k _ =>
            Finset.sum_congr rfl fun i _ => ?_
          congr 2
          funext j'
          ring
        · simp only [rotC, ite_rot, true_and, zero_ne_one, one_ne_zero, false_and, if_false,
            OfNat.ofNat_ne_zero, OfNat.ofNat_ne_one, OfNat.one_ne_ofNat, OfNat.zero_ne_ofNat,
            Finset.sum_const_zero, add_zero, zero_add]
          refine Eq.trans ?_ (sum3_rot _ _ _ _)
          refine Finset.sum_congr rfl fun j _ => Finset.sum_congr rfl fun k _ =>
            Finset.sum_congr rfl fun i _ => ?_
          congr 2
          funext j'
          ring
        · simp only [rotC, ite_rot, true_and, zero_ne_one, one_ne_zero, false_and, if_false,
            OfNat.ofNat_ne_zero, OfNat.ofNat_ne_one, OfNat.one_ne_ofNat, OfNat.zero_ne_ofNat,
            Finset.sum_const_zero, add_zero, zero_add]
          refine Eq.trans ?_ (sum3_rot _ _ _ _)
          refine Finset.sum_congr rfl fun j _ => Finset.sum_congr rfl fun k _ =>
            Finset.sum_congr rfl fun i _ => ?_
          congr 2
          funext j'
          ring

end

theorem depositOne_rot (O : Nat) (NG : Int) (charge dt w v2 v3 v2' v3' : K) (tag : Int)
    {n1 n2 n3 : Nat} {x y z : Int} (a b c : Ax K) {k : Nat} (hk : k < 3) :
    landed (rot [n1, n2, n3]) (match depositOne O NG charge dt ⟨[b, c, a], w, v2', v3', tag⟩ with
      | .ok us => us | _ => []) k [x, y, z] =
    landed [n1, n2, n3] (match depositOne O NG charge dt ⟨[a, b, c], w, v2, v3, tag⟩ with
      | .ok us => us | _ => []) (rotC k) [z, x, y] := by
  unfold depositOne
  simp only
  split_ifs
  · rfl
  · cases O with
    | zero => exact zigzag3_rot NG _ _ a b c hk
    | succ O => exact esirkepov3_rot (O + 1) NG _ _ a b c hk

theorem boxDeposit_rot {P : StepPrm K} (co : Coeffs K) {s : SpPrm K} (hs : Isotropic s) {x0 : List K}
    (hx : x0.length = 3) (t : Nat) {N : List Nat} (hN : N.length = 3) {g g' : GMem K} (h : RotG g g')
    {v : View K} (hv : Sized N v) (hu : v.u.length = 3) {k : Nat} (hk : k < 3) (x y z : Int) :
    landed (rot N) (boxDeposit { P with c := co } s (rot x0) t (rot N) g' (rotView v)) k [x, y, z] =
      landed N (boxDeposit P s x0 t N g v) (rotC k) [z, x, y] := by
  unfold boxDeposit
  simp only
  rw [boxMoved_rot co hs hx t hN h hv hu]
  have hl := boxMoved_length (P := P) (s := s) (x0 := x0) (t := t) (g := g) hv
  rw [hN] at hl
  obtain ⟨a, b, c, e⟩ := List.length_eq_three.1 hl
  obtain ⟨n1, n2, n3, rfl⟩ := List.length_eq_three.1 hN
  rw [e]
  exact depositOne_rot _ _ _ _ _ _ _ _ _ _ a b c hk

theorem boxCurrent_rot {P : StepPrm K} (co : Coeffs K) {sps : List (SpPrm K)}
    (hs : ∀ s ∈ sps, Isotropic s) {x0 : List K} (hx : x0.length = 3) (t : Nat) {N : List Nat}
    (hN : N.length = 3) {g g' : GMem K} (h : RotG g g') {L L' : Nat → List (View K)}
    (hv : ∀ i s, sps[i]? = some s → ∀ v ∈ L i, Sized N v ∧ v.u.length = 3)
    (hL : ∀ i s, sps[i]? = some s → (L' i).Perm ((L i).map rotView)) {k : Nat} (hk : k < 3)
    (x y z : Int) :
    boxCurrent { P with c := co } sps (rot x0) t (rot N) g' L' k [x, y, z] =
      boxCurrent P sps x0 t N g L (rotC k) [z, x, y] := by
  unfold boxCurrent
  congr 1
  apply List.ext_getElem
  · simp
  · intro i b1 b2
    have hi : i < sps.length := by simpa using b1
    simp only [List.getElem_mapIdx]
    have hsp : sps[i]? = some sps[i] := List.getElem?_eq_getElem hi
    unfold boxCurrentOf
    split_ifs
    · rfl
    · rw [((hL i _ hsp).map _).sum_eq, List.map_map]
      congr 1
      apply List.map_congr_left
      intro v hv'
      obtain ⟨h1, h2⟩ := hv i _ hsp v hv'
      exact boxDeposit_rot co (hs _ (List.getElem_mem hi)) hx t hN h h1 h2 hk x y z

/-! ## Steps -/

/-- The second box is the first one with the axes renamed. -/
structure RotBox (N : List Nat) (sps : List (SpPrm K)) (B B' : Box K) : Prop where
  fields : RotG B.g B'.g
  sized : ∀ i s, sps[i]? = some s → ∀ v ∈ B.prtl i, Sized N v ∧ v.u.length = 3
  prtl : ∀ i s, sps[i]? = some s → (B'.prtl i).Perm ((B.prtl i).map rotView)

theorem boxStep_rot {P : StepPrm K} (hf : P.nf = 0) {sps : List (SpPrm K)}
    (hs : ∀ s ∈ sps, Isotropic s) {x0 : List K} (hx : x0.length = 3) (t : Nat) {N : List Nat}
    (hN : N.length = 3) {B B' : Box K} (h : RotBox N sps B B') :
    RotBox N sps (boxStep P sps x0 t N B)
      (boxStep { P with c := rotCoeffs P.c } sps (rot x0) t (rot N) B') := by
  have hN' : (rot N).length = 3 := by
    obtain ⟨n1, n2, n3, rfl⟩ := List.length_eq_three.1 hN
    rfl
  have g1 := faraday_rot hN h.fields (1 / 2 * P.correction * P.dt) P.dx P.c
  unfold boxStep
  simp only [hN, hN', hf, Function.iterate_zero, id_eq]
  generalize opG 3 N (.faraday (1 / 2 * P.correction * P.dt) P.dx P.c) B.g = f1 at g1 ⊢
  generalize opG 3 (rot N) (.faraday (1 / 2 * P.correction * P.dt) P.dx (rotCoeffs P.c)) B'.g = f1'
    at g1 ⊢
  refine ⟨?_, ?_, ?_⟩
  · refine electric_rot hN (faraday_rot hN ?_ _ _ _) _ _ _ _
    rintro a k (⟨rfl, hk⟩ | ⟨rfl, hk⟩) x y z
    · have e1 : selEB 0 k = true := by interval_cases k <;> rfl
      have e2 : selEB 0 (rotC k) = true := by interval_cases k <;> rfl
      simp only [e1, e2, if_true]
      exact g1 0 k (.inl ⟨rfl, hk⟩) x y z
    · have e1 : ∀ k, selEB 1 k = false := fun k => rfl
      simp only [e1, Bool.false_eq_true, if_false]
      exact boxCurrent_rot (rotCoeffs P.c) hs hx t hN g1 h.sized h.prtl hk x y z
  · intro i s hsp v hv
    simp only [hsp, List.mem_map] at hv
    obtain ⟨w, hw, rfl⟩ := hv
    obtain ⟨a, b⟩ := h.sized i s hsp w hw
    exact ⟨boxPush_sized a, boxPush_u b⟩
  · intro i s hsp
    simp only [hsp]
    refine ((h.prtl i s hsp).map _).trans (.of_eq ?_)
    rw [List.map_map, List.map_map]
    apply List.map_congr_left
    intro v hv
    obtain ⟨a, b⟩ := h.sized i s hsp v hv
    exact boxPush_rot (rotCoeffs P.c) (hs s (List.mem_of_getElem? hsp)) hx t hN g1 a b

theorem boxRun_rot {P : StepPrm K} (hf : P.nf = 0) {sps : List (SpPrm K)}
    (hs : ∀ s ∈ sps, Isotropic s) {x0 : List K} (hx : x0.length = 3) {N : List Nat}
    (hN : N.length = 3) (n : Nat) {B B' : Box K} (h : RotBox N sps B B') :
    RotBox N sps (boxRun P sps x0 N n B)
      (boxRun { P with c := rotCoeffs P.c } sps (rot x0) (rot N) n B') := by
  induction n with
  | zero => exact h
  | succ n ih => exact boxStep_rot hf hs hx n hN ih

end Entity.Full
