import Verif.Model.FullStep
import Verif.Lemmas.Fold
import Verif.Lemmas.Deposit

/-!
# Interpolation and deposit do not depend on where the origin of the indices is
-/

namespace Entity.Full

open Entity Entity.Push Entity.Shapes Entity.Deposit Entity.Interp Entity.Tags Entity.Topology
open Entity.Ranks Entity.Kernel

variable {K : Type} [Field K] [LinearOrder K] [IsStrictOrderedRing K]

theorem orderBase_shift (O : Nat) (st : Bool) (i s : Int) (di : K) :
    orderBase O st (i + s) di = (orderBase O st i di).map fun x => (x.1 + s, x.2) := by
  unfold orderBase
  split <;> (try split_ifs) <;>
    simp only [Option.map_some, Option.map_none, Option.some.injEq, Prod.mk.injEq, and_true] <;> ring

theorem order_shift {O : Nat} {st : Bool} {i : Int} {di : K} {x : Int × (Nat → K)}
    (h : order st O i di = .ok x) (s : Int) : order st O (i + s) di = .ok (x.1 + s, x.2) := by
  have gen : ∀ (O : Nat) (st : Bool), (match orderBase O st i di with
      | some (iMin, c) => (.ok (iMin, fun n => shape O |c + di - (n : K)|) : Outcome (Int × (Nat → K)))
      | none => .err) = .ok x → (match orderBase O st (i + s) di with
      | some (iMin, c) => (.ok (iMin, fun n => shape O |c + di - (n : K)|) : Outcome (Int × (Nat → K)))
      | none => .err) = .ok (x.1 + s, x.2) := by
    intro O st h
    rw [orderBase_shift]
    cases e : orderBase O st i di with
    | none => rw [e] at h; cases h
    | some y => rw [e] at h; cases h; rfl
  match O, st, h with
  | 0, false, h => exact gen 0 false h
  | 0, true, h => exact gen 0 true h
  | 1, false, h => cases h; rfl
  | 1, true, h =>
    simp only [order] at h ⊢
    split_ifs at h ⊢
    · cases h; simp only [Outcome.ok.injEq, Prod.mk.injEq, and_true]; ring
    · cases h; rfl
  | 2, false, h =>
    simp only [order] at h ⊢
    split_ifs at h ⊢
    · cases h; simp only [Outcome.ok.injEq, Prod.mk.injEq, and_true]; ring
    · cases h; rfl
  | 2, true, h =>
    cases h
    simp only [order, Outcome.ok.injEq, Prod.mk.injEq, and_true]; ring
  | O + 3, false, h => exact gen (O + 3) false h
  | O + 3, true, h => exact gen (O + 3) true h

/-! ## Interpolation -/

section
variable [FloorRing K]

theorem axisWeights_shift {O : Nat} {dual : Bool} {i : Int} {dx : K} {x : Int × List K}
    (h : axisWeights O dual i dx = .ok x) (s : Int) :
    axisWeights O dual (i + s) dx = .ok (x.1 + s, x.2) := by
  unfold axisWeights at h ⊢
  split_ifs at h ⊢
  · cases h; simp only [Outcome.ok.injEq, Prod.mk.injEq, and_true]; ring
  · cases h; rfl
  · obtain ⟨y, hy, e⟩ := Outcome.bind_eq_ok.1 h
    cases e
    rw [order_shift hy s]; rfl

theorem allWeights_shift {O : Nat} : ∀ {ss : List Bool} {ps : List (Int × K)}
    {x : List (Int × List K)} (s : List Int), s.length = ps.length → allWeights O ss ps = .ok x →
    x.length = ps.length ∧
    allWeights O ss (List.zipWith (fun p (t : Int) => (p.1 + t, p.2)) ps s) =
      .ok (List.zipWith (fun p (t : Int) => (p.1 + t, p.2)) x s)
  | [], [], _, s, hs, h => by cases h; cases s <;> simp_all [allWeights]
  | [], _ :: _, _, _, _, h => by cases h
  | _ :: _, [], _, _, _, h => by cases h
  | b :: ss, p :: ps, x, s, hs, h => by
    cases s with
    | nil => cases hs
    | cons t s =>
      obtain ⟨i, dx⟩ := p
      simp only [allWeights] at h
      obtain ⟨w, hw, h⟩ := Outcome.bind_eq_ok.1 h
      obtain ⟨ws, hws, h⟩ := Outcome.bind_eq_ok.1 h
      cases h
      obtain ⟨h1, h2⟩ := allWeights_shift (x := ws) s (by simpa using hs) hws
      refine ⟨by simp [h1], ?_⟩
      simp only [List.zipWith_cons_cons, allWeights]
      rw [axisWeights_shift hw t, h2]
      rfl

theorem sumOver_shift {f g : Int → Outcome K} {s : Int} (hfg : ∀ n x, f n = .ok x → g (n + s) = .ok x) :
    ∀ {w : List K} {m : Int} {x : K}, Interp.sumOver f m w = .ok x → Interp.sumOver g (m + s) w = .ok x := by
  intro w
  induction w with
  | nil => intro m x h; exact h
  | cons a w ih =>
    intro m x h
    obtain ⟨v, hv, h⟩ := Outcome.bind_eq_ok.1 h
    obtain ⟨r, hr, h⟩ := Outcome.bind_eq_ok.1 h
    simp only [Interp.sumOver]
    rw [hfg _ _ hv, show m + s + 1 = (m + 1) + s by ring, ih hr]
    exact h

theorem nested_shift {read read' : List Int → Outcome K} : ∀ {axes : List (Int × List K)}
    {ss tail st : List Int} {x : K}, ss.length = axes.length → st.length = tail.length →
    (∀ idx x, idx.length = axes.length + tail.length → read idx = .ok x →
      read' (List.zipWith (· + ·) idx (ss.reverse ++ st)) = .ok x) →
    nested read axes tail = .ok x →
    nested read' (List.zipWith (fun p (t : Int) => (p.1 + t, p.2)) axes ss)
      (List.zipWith (· + ·) tail st) = .ok x := by
  intro axes
  induction axes with
  | nil =>
    intro ss tail st x hs ht hr h
    cases ss with
    | cons _ _ => cases hs
    | nil => exact hr tail x (by simp) h
  | cons a axes ih =>
    intro ss tail st x hs ht hr h
    cases ss with
    | nil => cases hs
    | cons s ss =>
      obtain ⟨m, w⟩ := a
      simp only [nested, List.zipWith_cons_cons] at h ⊢
      refine sumOver_shift (fun n y hy => ?_) h
      have := ih (ss := ss) (tail := n :: tail) (st := s :: st) (by simpa using hs)
        (by simpa using ht) (fun idx z hz hi => by
          have := hr idx z (by simp at hz ⊢; omega) hi
          simpa using this) hy
      simpa using this

/-- Interpolation from values given at all cells, without an array. -/
def interpFrom (O : Nat) (F : List Int → K) (st : List Bool) (pos : List (Int × K)) : Outcome K := do
  let ws ← allWeights O st pos
  nested (fun idx => .ok (F idx)) ws.reverse []

theorem interpolate_from {O : Nat} {NG : Int} {nAll : List Nat} {EB : Comp → List Int → K} {c : Comp}
    {pos : List (Int × K)} {x : K} {off : List Int} (ho : off.length = pos.length)
    {F : List Int → K}
    (hF : ∀ idx, inArray nAll idx = true →
      F (List.zipWith (· + ·) idx (off.map (· - NG))) = EB c idx)
    (h : interpolate O NG nAll EB c pos = .ok x) :
    interpFrom O F (staggering pos.length c)
      (List.zipWith (fun p (t : Int) => (p.1 + t, p.2)) pos off) = .ok x := by
  obtain ⟨ws, hws, h⟩ := Outcome.bind_eq_ok.1 h
  obtain ⟨h1, h2⟩ := allWeights_shift (off.map (· - NG)) (by simp [ho]) hws
  have e : List.zipWith (fun p (t : Int) => (p.1 + t, p.2))
      (pos.map (fun p => (p.1 + NG, p.2))) (off.map (· - NG)) =
      List.zipWith (fun p (t : Int) => (p.1 + t, p.2)) pos off := by
    apply List.ext_getElem
    · simp
    · intro i h1 h2
      simp only [List.getElem_zipWith, List.getElem_map, Prod.mk.injEq, and_true]
      ring
  rw [e] at h2
  unfold interpFrom
  rw [h2]
  simp only [List.length_map] at h1
  simp only [Outcome.bind_ok]
  have hz : (List.zipWith (fun (p : Int × List K) (t : Int) => (p.1 + t, p.2)) ws
      (off.map (· - NG))).reverse =
      List.zipWith (fun (p : Int × List K) (t : Int) => (p.1 + t, p.2)) ws.reverse
        (off.map (· - NG)).reverse := by
    rw [List.reverse_zipWith]; simp [h1, ho]
  rw [hz]
  have := nested_shift (read := readAt nAll (EB c)) (read' := fun idx => .ok (F idx))
    (axes := ws.reverse) (ss := (off.map (· - NG)).reverse) (tail := []) (st := [])
    (by simp [h1, ho]) rfl (fun idx y _ hy => by
      unfold readAt at hy
      split_ifs at hy with hin
      cases hy
      simp only [List.reverse_reverse, List.append_nil]
      rw [hF idx hin]) h
  exact this
end

/-! ## Deposit -/

/-- A particle whose cells are counted from another origin. -/
def axShift (a : Ax K) (t : Int) : Ax K := { a with i := a.i + t, iPrev := a.iPrev + t }

/-- An addition to a cell counted from another origin. -/
def updShift (s : List Int) (u : Upd K) : Upd K := { u with idx := List.zipWith (· + ·) u.idx s }

theorem zzAxis_shift (a : Ax K) (t : Int) (q : K) : zzAxis (axShift a t) q = zzAxis a q := by
  unfold zzAxis axShift
  simp only [add_left_inj, gt_iff_lt, add_lt_add_iff_right, add_sub_add_right_eq_sub]
  rw [show ∀ x : Int, x + (a.iPrev + t) - (a.i + t) = x + a.iPrev - a.i from fun x => by ring]

theorem forDeposit_shift {O : Nat} {i j : Int} {di dj : K} {x : Int × Int × (Nat → K) × (Nat → K)}
    (h : forDeposit O i di j dj = .ok x) (s : Int) :
    forDeposit O (i + s) di (j + s) dj = .ok (x.1 + s, x.2.1 + s, x.2.2) := by
  unfold forDeposit at h ⊢
  obtain ⟨y, hy, h⟩ := Outcome.bind_eq_ok.1 h
  obtain ⟨z, hz, h⟩ := Outcome.bind_eq_ok.1 h
  rw [order_shift hy s, order_shift hz s]
  simp only [Outcome.bind_ok, add_lt_add_iff_right, gt_iff_lt] at h ⊢
  split_ifs at h ⊢ <;> cases h <;> simp only [Outcome.pure_eq, Outcome.ok.injEq, Prod.mk.injEq, and_true, true_and] <;> ring

theorem esirkepov1_shift {O : Nat} {NG NG' : Int} {coeff invDt vp2 vp3 : K} {a : Ax K}
    {us : List (Upd K)} (h : esirkepov1 O NG coeff invDt vp2 vp3 a = .ok us) (t : Int) :
    esirkepov1 O NG' coeff invDt vp2 vp3 (axShift a t) =
      .ok (us.map (updShift [t + NG' - NG])) := by
  unfold esirkepov1 at h ⊢
  obtain ⟨y, hy, h⟩ := Outcome.bind_eq_ok.1 h
  simp only [axShift]
  rw [forDeposit_shift hy t]
  obtain ⟨y1, y2, y3, y4⟩ := y
  simp only [Outcome.bind_ok, Outcome.pure_eq, Outcome.ok.injEq] at h ⊢
  subst h
  simp only [List.map_append, List.map_map, Function.comp_def, updShift, List.zipWith_cons_cons,
    List.zipWith_nil_left]
  have e1 : ∀ i : Nat, y1 + t + NG' + (i : Int) = y1 + NG + i + (t + NG' - NG) := fun i => by ring
  simp only [show y2 + t + NG' - (y1 + t + NG') = y2 + NG - (y1 + NG) by ring, e1]

theorem esirkepov2_shift {O : Nat} {NG NG' : Int} {coeff invDt vp3 : K} {a b : Ax K}
    {us : List (Upd K)} (h : esirkepov2 O NG coeff invDt vp3 a b = .ok us) (t r : Int) :
    esirkepov2 O NG' coeff invDt vp3 (axShift a t) (axShift b r) =
      .ok (us.map (updShift [t + NG' - NG, r + NG' - NG])) := by
  unfold esirkepov2 at h ⊢
  obtain ⟨y, hy, h⟩ := Outcome.bind_eq_ok.1 h
  obtain ⟨z, hz, h⟩ := Outcome.bind_eq_ok.1 h
  simp only [axShift]
  rw [forDeposit_shift hy t, forDeposit_shift hz r]
  obtain ⟨y1, y2, y3, y4⟩ := y
  obtain ⟨z1, z2, z3, z4⟩ := z
  simp only [Outcome.bind_ok, Outcome.pure_eq, Outcome.ok.injEq] at h ⊢
  subst h
  simp only [List.map_append, List.map_flatMap, List.map_map, Function.comp_def, updShift,
    List.zipWith_cons_cons, List.zipWith_nil_left]
  have e1 : ∀ i : Nat, y1 + t + NG' + (i : Int) = y1 + NG + i + (t + NG' - NG) := fun i => by ring
  have e2 : ∀ i : Nat, z1 + r + NG' + (i : Int) = z1 + NG + i + (r + NG' - NG) := fun i => by ring
  simp only [show y2 + t + NG' - (y1 + t + NG') = y2 + NG - (y1 + NG) by ring, e1,
    show z2 + r + NG' - (z1 + r + NG') = z2 + NG - (z1 + NG) by ring, e2]

theorem esirkepov3_shift {O : Nat} {NG NG' : Int} {coeff invDt : K} {a b c : Ax K}
    {us : List (Upd K)} (h : esirkepov3 O NG coeff invDt a b c = .ok us) (t r s : Int) :
    esirkepov3 O NG' coeff invDt (axShift a t) (axShift b r) (axShift c s) =
      .ok (us.map (updShift [t + NG' - NG, r + NG' - NG, s + NG' - NG])) := by
  unfold esirkepov3 at h ⊢
  obtain ⟨y, hy, h⟩ := Outcome.bind_eq_ok.1 h
  obtain ⟨z, hz, h⟩ := Outcome.bind_eq_ok.1 h
  obtain ⟨w, hw, h⟩ := Outcome.bind_eq_ok.1 h
  simp only [axShift]
  rw [forDeposit_shift hy t, forDeposit_shift hz r, forDeposit_shift hw s]
  obtain ⟨y1, y2, y3, y4⟩ := y
  obtain ⟨z1, z2, z3, z4⟩ := z
  obtain ⟨w1, w2, w3, w4⟩ := w
  simp only [Outcome.bind_ok, Outcome.pure_eq, Outcome.ok.injEq] at h ⊢
  subst h
  simp only [List.map_append, List.map_flatMap, List.map_map, Function.comp_def, updShift,
    List.zipWith_cons_cons, List.zipWith_nil_left]
  have e1 : ∀ i : Nat, y1 + t + NG' + (i : Int) = y1 + NG + i + (t + NG' - NG) := fun i => by ring
  have e2 : ∀ i : Nat, z1 + r + NG' + (i : Int) = z1 + NG + i + (r + NG' - NG) := fun i => by ring
  have e3 : ∀ i : Nat, w1 + s + NG' + (i : Int) = w1 + NG + i + (s + NG' - NG) := fun i => by ring
  simp only [show y2 + t + NG' - (y1 + t + NG') = y2 + NG - (y1 + NG) by ring, e1,
    show z2 + r + NG' - (z1 + r + NG') = z2 + NG - (z1 + NG) by ring, e2,
    show w2 + s + NG' - (w1 + s + NG') = w2 + NG - (w1 + NG) by ring, e3]

theorem zigzag1_shift {NG NG' : Int} {coeff invDt vp2 vp3 : K} {a : Ax K} (t : Int) :
    zigzag1 NG' coeff invDt vp2 vp3 (axShift a t) =
      (zigzag1 NG coeff invDt vp2 vp3 a).map (updShift [t + NG' - NG]) := by
  unfold zigzag1
  rw [zzAxis_shift]
  have e (i : Int) : i + t + NG' = i + NG + (t + NG' - NG) := by ring
  have e' (i : Int) : i + NG + (t + NG' - NG) + 1 = i + NG + 1 + (t + NG' - NG) := by ring
  simp only [axShift, List.map_cons, List.map_nil, updShift, List.zipWith_cons_cons,
    List.zipWith_nil_left, e, e']

theorem zigzag2_shift {NG NG' : Int} {coeff invDt vp3 : K} {a b : Ax K} (t r : Int) :
    zigzag2 NG' coeff invDt vp3 (axShift a t) (axShift b r) =
      (zigzag2 NG coeff invDt vp3 a b).map (updShift [t + NG' - NG, r + NG' - NG]) := by
  unfold zigzag2
  rw [zzAxis_shift, zzAxis_shift]
  have e (i t : Int) : i + t + NG' = i + NG + (t + NG' - NG) := by ring
  have e' (i t : Int) : i + NG + (t + NG' - NG) + 1 = i + NG + 1 + (t + NG' - NG) := by ring
  simp only [axShift, List.map_cons, List.map_nil, updShift, List.zipWith_cons_cons,
    List.zipWith_nil_left, e, e']

theorem zigzag3_shift {NG NG' : Int} {coeff invDt : K} {a b c : Ax K} (t r s : Int) :
    zigzag3 NG' coeff invDt (axShift a t) (axShift b r) (axShift c s) =
      (zigzag3 NG coeff invDt a b c).map
        (updShift [t + NG' - NG, r + NG' - NG, s + NG' - NG]) := by
  unfold zigzag3
  rw [zzAxis_shift, zzAxis_shift, zzAxis_shift]
  have e (i t : Int) : i + t + NG' = i + NG + (t + NG' - NG) := by ring
  have e' (i t : Int) : i + NG + (t + NG' - NG) + 1 = i + NG + 1 + (t + NG' - NG) := by ring
  simp only [axShift, List.map_cons, List.map_nil, updShift, List.zipWith_cons_cons,
    List.zipWith_nil_left, e, e']

theorem depositOne_shift {O : Nat} {NG NG' : Int} {charge dt : K} {p : DPrtl K} {us : List (Upd K)}
    (h : depositOne O NG charge dt p = .ok us) (t : List Int) (ht : t.length = p.ax.length) :
    depositOne O NG' charge dt { p with ax := List.zipWith axShift p.ax t } =
      .ok (us.map (updShift (t.map (· + NG' - NG)))) := by
  obtain ⟨ax, wt, v2, v3, tag⟩ := p
  unfold depositOne at h ⊢
  simp only at h ht ⊢
  split_ifs at h ⊢ with hd
  · cases h; rfl
  match O, ax, t, ht, h with
  | 0, [a], [t], _, h => cases h; exact congrArg _ (zigzag1_shift t)
  | 0, [a, b], [t, r], _, h => cases h; exact congrArg _ (zigzag2_shift t r)
  | 0, [a, b, c], [t, r, s], _, h => cases h; exact congrArg _ (zigzag3_shift t r s)
  | O + 1, [a], [t], _, h => exact esirkepov1_shift h t
  | O + 1, [a, b], [t, r], _, h => exact esirkepov2_shift h t r
  | O + 1, [a, b, c], [t, r, s], _, h => exact esirkepov3_shift h t r s
  | 0, [], _, _, h => cases h
  | 0, _ :: _ :: _ :: _ :: _, _, _, h => cases h
  | O + 1, [], _, _, h => cases h
  | O + 1, _ :: _ :: _ :: _ :: _, _, _, h => cases h

/-! ## Sums of additions -/

theorem fin0_delta (D : Nat) (u : Upd K) (c : Nat) :
    Fin0 D (fun n => if u.comp = c ∧ u.idx = n then u.val else 0) := by
  refine (Set.finite_singleton u.idx).subset ?_
  rintro n ⟨_, h2⟩
  beta_reduce at h2
  split_ifs at h2 with h
  · exact h.2.symm
  · exact absurd rfl h2

theorem fold_delta {N : List Nat} {o : List Int} (u : Upd K) (hu : u.idx.length = N.length) (c : Nat)
    (p : List Int) :
    fold N o (fun n => if u.comp = c ∧ u.idx = n then u.val else 0) p =
      if u.comp = c ∧ wrap N (List.zipWith (· + ·) u.idx o) = p then u.val else 0 := by
  unfold fold
  rw [finsum_eq_single _ u.idx]
  · by_cases hw : wrap N (List.zipWith (· + ·) u.idx o) = p
    · have hm : u.idx ∈ images N o p := ⟨hu, hw⟩
      simp [hm, hw]
    · have hm : u.idx ∉ images N o p := fun h => hw h.2
      simp [hm, hw]
  · intro n hn
    have : ¬ (u.comp = c ∧ u.idx = n) := fun h => hn h.2.symm
    simp [this]

/-- What additions bring to the cell `p` of a periodic box. -/
def landed (N : List Nat) (us : List (Upd K)) (c : Nat) (p : List Int) : K :=
  (us.map fun u => if u.comp = c ∧ wrap N u.idx = p then u.val else 0).sum

theorem landed_nil (N : List Nat) (c : Nat) (p : List Int) : landed (K := K) N [] c p = 0 := rfl

theorem landed_append (N : List Nat) (us vs : List (Upd K)) (c : Nat) (p : List Int) :
    landed N (us ++ vs) c p = landed N us c p + landed N vs c p := by
  simp [landed]

theorem fin0_total (D : Nat) (us : List (Upd K)) (c : Nat) : Fin0 D (total us c) :=
  fin0_list us fun u _ => fin0_delta D u c

theorem fold_total {N : List Nat} {o : List Int} {us : List (Upd K)}
    (hu : ∀ u ∈ us, u.idx.length = N.length) (c : Nat) (p : List Int) :
    fold N o (total us c) p = landed N (us.map (updShift o)) c p := by
  have := fold_list (N := N) (o := o) us (fun u _ => fin0_delta N.length u c) p
  refine this.trans ?_
  unfold landed
  rw [List.map_map]
  refine congrArg _ (List.map_congr_left fun u h => ?_)
  exact fold_delta u (hu u h) c p

end Entity.Full
