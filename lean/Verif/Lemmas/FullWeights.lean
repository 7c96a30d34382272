import Verif.Lemmas.FullMain
import Verif.Spec.FullWeights

/-!
# The deposit is proportional to the weight
-/

namespace Entity.Full

open Entity Entity.Topology Entity.Kernel Entity.FieldSolver Entity.Push Entity.Prtl Entity.Ranks
open Entity.Deposit Entity.Shapes Entity.Interp Entity.Tags Entity.Decomp Entity.Gauss Entity.Dir Entity.Filter

variable {K : Type} [Field K] [LinearOrder K] [IsStrictOrderedRing K]

/-- An addition times a number. -/
def updScale (w : K) (u : Upd K) : Upd K := { u with val := w * u.val }

theorem runSum_scale (w q : K) (f : Nat → K) (n : Nat) : runSum (w * q) f n = w * runSum q f n := by
  induction n with
  | zero => simp only [runSum]; ring
  | succ n ih => simp only [runSum, ih]; ring

theorem zzAxis_scale (a : Ax K) (w q : K) : zzAxis a (w * q) =
    ((zzAxis a q).1, (zzAxis a q).2.1, w * (zzAxis a q).2.2.1, w * (zzAxis a q).2.2.2) := by
  unfold zzAxis
  simp only [Prod.mk.injEq, true_and]
  constructor <;> ring

theorem zigzag1_scale (NG : Int) (w q invDt vp2 vp3 : K) (a : Ax K) :
    zigzag1 NG (w * q) invDt vp2 vp3 a = (zigzag1 NG q invDt vp2 vp3 a).map (updScale w) := by
  unfold zigzag1
  rw [show w * q * invDt = w * (q * invDt) by ring, zzAxis_scale a w (q * invDt)]
  simp only [List.map_cons, List.map_nil, updScale, List.cons.injEq, Upd.mk.injEq, true_and, and_true]
  refine ⟨?_, ?_, ?_, ?_, ?_, ?_, ?_, ?_⟩ <;> ring

theorem zigzag2_scale (NG : Int) (w q invDt vp3 : K) (a b : Ax K) :
    zigzag2 NG (w * q) invDt vp3 a b = (zigzag2 NG q invDt vp3 a b).map (updScale w) := by
  unfold zigzag2
  rw [show w * q * invDt = w * (q * invDt) by ring, zzAxis_scale a w (q * invDt),
    zzAxis_scale b w (q * invDt)]
  simp only [List.map_cons, List.map_nil, updScale, List.cons.injEq, Upd.mk.injEq, true_and, and_true]
  refine ⟨?_, ?_, ?_, ?_, ?_, ?_, ?_, ?_, ?_, ?_, ?_, ?_, ?_, ?_, ?_, ?_⟩ <;> ring

theorem zigzag3_scale (NG : Int) (w q invDt : K) (a b c : Ax K) :
    zigzag3 NG (w * q) invDt a b c = (zigzag3 NG q invDt a b c).map (updScale w) := by
  unfold zigzag3
  rw [show w * q * invDt = w * (q * invDt) by ring, zzAxis_scale a w (q * invDt),
    zzAxis_scale b w (q * invDt), zzAxis_scale c w (q * invDt)]
  simp only [List.map_cons, List.map_nil, updScale, List.cons.injEq, Upd.mk.injEq, true_and, and_true]
  refine ⟨?_, ?_, ?_, ?_, ?_, ?_, ?_, ?_, ?_, ?_, ?_, ?_, ?_, ?_, ?_, ?_,
    ?_, ?_, ?_, ?_, ?_, ?_, ?_, ?_⟩ <;> ring

theorem esirkepov1_scale {O : Nat} {NG : Int} {w q invDt vp2 vp3 : K} {a : Ax K} :
    esirkepov1 O NG (w * q) invDt vp2 vp3 a =
      (do let us ← esirkepov1 O NG q invDt vp2 vp3 a; .ok (us.map (updScale w))) := by
  unfold esirkepov1
  cases forDeposit O a.iPrev a.dxPrev a.i a.dx with
  | err => rfl
  | ub => rfl
  | ok y =>
    obtain ⟨y1, y2, y3, y4⟩ := y
    simp only [Outcome.bind_ok, Outcome.pure_eq, Outcome.ok.injEq, List.map_append, List.map_map,
      Function.comp_def, updScale, show w * q * invDt = w * (q * invDt) by ring, runSum_scale,
      show ∀ x y : K, w * q * x * y = w * (q * x * y) from fun x y => by ring]

theorem esirkepov2_scale {O : Nat} {NG : Int} {w q invDt vp3 : K} {a b : Ax K} :
    esirkepov2 O NG (w * q) invDt vp3 a b =
      (do let us ← esirkepov2 O NG q invDt vp3 a b; .ok (us.map (updScale w))) := by
  unfold esirkepov2
  cases forDeposit O a.iPrev a.dxPrev a.i a.dx with
  | err => rfl
  | ub => rfl
  | ok y =>
  cases forDeposit O b.iPrev b.dxPrev b.i b.dx with
  | err => rfl
  | ub => rfl
  | ok z =>
    obtain ⟨y1, y2, y3, y4⟩ := y
    obtain ⟨z1, z2, z3, z4⟩ := z
    simp only [Outcome.bind_ok, Outcome.pure_eq, Outcome.ok.injEq, List.map_append, List.map_map,
      List.map_flatMap, Function.comp_def, updScale, show w * q * invDt = w * (q * invDt) by ring,
      runSum_scale, show ∀ x y : K, w * q * x * y = w * (q * x * y) from fun x y => by ring]

theorem esirkepov3_scale {O : Nat} {NG : Int} {w q invDt : K} {a b c : Ax K} :
    esirkepov3 O NG (w * q) invDt a b c =
      (do let us ← esirkepov3 O NG q invDt a b c; .ok (us.map (updScale w))) := by
  unfold esirkepov3
  cases forDeposit O a.iPrev a.dxPrev a.i a.dx with
  | err => rfl
  | ub => rfl
  | ok y =>
  cases forDeposit O b.iPrev b.dxPrev b.i b.dx with
  | err => rfl
  | ub => rfl
  | ok z =>
  cases forDeposit O c.iPrev c.dxPrev c.i c.dx with
  | err => rfl
  | ub => rfl
  | ok z' =>
    obtain ⟨y1, y2, y3, y4⟩ := y
    obtain ⟨z1, z2, z3, z4⟩ := z
    obtain ⟨x1, x2, x3, x4⟩ := z'
    simp only [Outcome.bind_ok, Outcome.pure_eq, Outcome.ok.injEq, List.map_append, List.map_map,
      List.map_flatMap, Function.comp_def, updScale, show w * q * invDt = w * (q * invDt) by ring,
      runSum_scale]

theorem depositOne_scale (O : Nat) (NG : Int) (charge dt w : K) (ax : List (Ax K)) (v2 v3 : K)
    (tag : Int) : depositOne O NG charge dt ⟨ax, w, v2, v3, tag⟩ =
      (do let us ← depositOne O NG charge dt ⟨ax, 1, v2, v3, tag⟩; .ok (us.map (updScale w))) := by
  unfold depositOne
  simp only [one_mul]
  split_ifs
  · rfl
  match O, ax with
  | 0, [a] => exact congrArg _ (zigzag1_scale ..)
  | 0, [a, b] => exact congrArg _ (zigzag2_scale ..)
  | 0, [a, b, c] => exact congrArg _ (zigzag3_scale ..)
  | O + 1, [a] => exact esirkepov1_scale
  | O + 1, [a, b] => exact esirkepov2_scale
  | O + 1, [a, b, c] => exact esirkepov3_scale
  | 0, [] => rfl
  | 0, _ :: _ :: _ :: _ :: _ => rfl
  | O + 1, [] => rfl
  | O + 1, _ :: _ :: _ :: _ :: _ => rfl

theorem landed_scale (N : List Nat) (w : K) (us : List (Upd K)) (c : Nat) (p : List Int) :
    landed N (us.map (updScale w)) c p = w * landed N us c p := by
  unfold landed
  rw [List.map_map, ← List.sum_map_mul_left]
  congr 1
  apply List.map_congr_left
  intro u _
  show (if u.comp = c ∧ wrap N u.idx = p then w * u.val else 0) =
    w * if u.comp = c ∧ wrap N u.idx = p then u.val else 0
  by_cases h : u.comp = c ∧ wrap N u.idx = p
  · rw [if_pos h, if_pos h]
  · rw [if_neg h, if_neg h, mul_zero]

variable [FloorRing K]

/-! ## What of a particle matters -/

/-- A particle with given position, momentum and weight, all else arbitrary. -/
def bare (cell : List Int) (dx u : List K) (w : K) : View K :=
  ⟨cell, [], dx, [], u, w, none, [], []⟩

theorem boxField_bare (P : StepPrm K) (N : List Nat) (g : GMem K) (v : View K) (w : K) (c : Comp) :
    boxField P N g v c = boxField P N g (bare v.cell v.dx v.u w) c := rfl

theorem boxKick_bare (P : StepPrm K) (s : SpPrm K) (x0 : List K) (t : Nat) (N : List Nat) (g : GMem K)
    (v : View K) (w : K) : boxKick P s x0 t N g v = boxKick P s x0 t N g (bare v.cell v.dx v.u w) := rfl

theorem boxMoved_bare (P : StepPrm K) (s : SpPrm K) (x0 : List K) (t : Nat) (N : List Nat)
    (g : GMem K) (v : View K) (w : K) :
    boxMoved P s x0 t N g v = boxMoved P s x0 t N g (bare v.cell v.dx v.u w) := by
  unfold boxMoved
  simp only
  rw [← boxKick_bare]
  unfold axesOf
  simp only [List.map_map]
  rfl

theorem boxPush_bare (P : StepPrm K) (s : SpPrm K) (x0 : List K) (t : Nat) (N : List Nat)
    (g : GMem K) (v : View K) :
    (boxPush P s x0 t N g v).weight = v.weight ∧
    (boxPush P s x0 t N g v).cell = (boxPush P s x0 t N g (bare v.cell v.dx v.u 1)).cell ∧
    (boxPush P s x0 t N g v).dx = (boxPush P s x0 t N g (bare v.cell v.dx v.u 1)).dx ∧
    (boxPush P s x0 t N g v).u = (boxPush P s x0 t N g (bare v.cell v.dx v.u 1)).u := by
  unfold boxPush
  split_ifs
  · exact ⟨rfl, rfl, rfl, rfl⟩
  · simp only [← boxMoved_bare, ← boxKick_bare]
    exact ⟨trivial, trivial, trivial, trivial⟩

theorem boxDeposit_weight (P : StepPrm K) (s : SpPrm K) (x0 : List K) (t : Nat) (N : List Nat)
    (g : GMem K) (v : View K) (c : Nat) (p : List Int) :
    landed N (boxDeposit P s x0 t N g v) c p =
      v.weight * landed N (boxDeposit P s x0 t N g (bare v.cell v.dx v.u 1)) c p := by
  rw [← landed_scale]
  congr 1
  unfold boxDeposit
  simp only
  rw [← boxMoved_bare, ← boxKick_bare, depositOne_scale]
  show _ = List.map _ (match depositOne P.O 0 s.charge P.dt ⟨boxMoved P s x0 t N g v, 1, _, _, alive⟩ with
    | .ok us => us | _ => [])
  cases depositOne P.O 0 s.charge P.dt ⟨boxMoved P s x0 t N g v, 1, _, _, alive⟩ <;> rfl

/-! ## Steps -/

theorem push_dist {P : StepPrm K} {s : SpPrm K} {x0 : List K} {t : Nat} {N : List Nat} {g : GMem K}
    {l l' : List (View K)} (h : SameDist l l') :
    SameDist (l.map (boxPush P s x0 t N g)) (l'.map (boxPush P s x0 t N g)) := by
  intro φ
  have key : ∀ v : View K, (boxPush P s x0 t N g v).weight * φ (boxPush P s x0 t N g v).cell
      (boxPush P s x0 t N g v).dx (boxPush P s x0 t N g v).u =
      v.weight * (fun c d u => φ (boxPush P s x0 t N g (bare c d u 1)).cell
        (boxPush P s x0 t N g (bare c d u 1)).dx (boxPush P s x0 t N g (bare c d u 1)).u)
        v.cell v.dx v.u := by
    intro v
    obtain ⟨e1, e2, e3, e4⟩ := boxPush_bare P s x0 t N g v
    rw [e1, e2, e3, e4]
  rw [List.map_map, List.map_map]
  simp only [Function.comp_def, key]
  exact h fun c d u => φ (boxPush P s x0 t N g (bare c d u 1)).cell
    (boxPush P s x0 t N g (bare c d u 1)).dx (boxPush P s x0 t N g (bare c d u 1)).u

theorem current_dist {P : StepPrm K} {s : SpPrm K} {x0 : List K} {t : Nat} {N : List Nat} {g : GMem K}
    {l l' : List (View K)} (h : Charged s → SameDist l l') (c : Nat) (p : List Int) :
    boxCurrentOf P s x0 t N g l c p = boxCurrentOf P s x0 t N g l' c p := by
  unfold boxCurrentOf
  split_ifs with hc
  · rfl
  · have : Charged s := by
      push Not at hc
      exact ⟨by simpa using hc.1, hc.2⟩
    have key : ∀ l : List (View K), (l.map fun v => landed N (boxDeposit P s x0 t N g v) c p) =
        l.map fun v => v.weight * landed N (boxDeposit P s x0 t N g (bare v.cell v.dx v.u 1)) c p :=
      fun l => List.map_congr_left fun v _ => boxDeposit_weight P s x0 t N g v c p
    rw [key, key]
    exact h this fun cell dx u => landed N (boxDeposit P s x0 t N g (bare cell dx u 1)) c p

/-- Two boxes with the same fields; the charged species have the same distribution. -/
structure SameBox (sps : List (SpPrm K)) (B B' : Box K) : Prop where
  fields : B.g = B'.g
  prtl : ∀ i s, sps[i]? = some s → Charged s → SameDist (B.prtl i) (B'.prtl i)

theorem boxStep_fields {P : StepPrm K} {sps : List (SpPrm K)} {x0 : List K} {t : Nat} {N : List Nat}
    {B B' : Box K} (h : SameBox sps B B') :
    (boxStep P sps x0 t N B).g = (boxStep P sps x0 t N B').g := by
  unfold boxStep
  simp only
  rw [h.fields]
  congr 3
  funext a c p
  split_ifs
  · rfl
  · unfold boxCurrent
    congr 1
    apply List.ext_getElem
    · simp
    · intro i b1 b2
      have hi : i < sps.length := by simpa using b1
      simp only [List.getElem_mapIdx]
      exact current_dist (h.prtl i _ (List.getElem?_eq_getElem hi)) c p

theorem boxStep_dist {P : StepPrm K} {sps : List (SpPrm K)} {x0 : List K} {t : Nat} {N : List Nat}
    {B B' : Box K} (h : B.g = B'.g) {i : Nat} (hd : SameDist (B.prtl i) (B'.prtl i)) :
    SameDist ((boxStep P sps x0 t N B).prtl i) ((boxStep P sps x0 t N B').prtl i) := by
  unfold boxStep
  simp only
  rw [h]
  cases sps[i]? with
  | none => exact hd
  | some s => exact push_dist hd

theorem boxRun_dist {P : StepPrm K} {sps : List (SpPrm K)} {x0 : List K} {N : List Nat}
    {B B' : Box K} (h : SameBox sps B B') (n : Nat) :
    SameBox sps (boxRun P sps x0 N n B) (boxRun P sps x0 N n B') ∧
    ∀ i, SameDist (B.prtl i) (B'.prtl i) →
      SameDist ((boxRun P sps x0 N n B).prtl i) ((boxRun P sps x0 N n B').prtl i) := by
  induction n with
  | zero => exact ⟨h, fun _ h => h⟩
  | succ n ih =>
    exact ⟨⟨boxStep_fields ih.1, fun i s e hc => boxStep_dist ih.1.fields (ih.1.prtl i s e hc)⟩,
      fun i hi => boxStep_dist ih.1.fields (ih.2 i hi)⟩

end Entity.Full
