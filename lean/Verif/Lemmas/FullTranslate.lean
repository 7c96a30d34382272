import Verif.Lemmas.FullMain
import Verif.Spec.FullTranslate

/-!
# A step of the box commutes with translations by whole cells
-/

namespace Entity.Full

open Entity Entity.Topology Entity.Kernel Entity.FieldSolver Entity.Push Entity.Prtl Entity.Ranks
open Entity.Deposit Entity.Interp Entity.Tags Entity.Decomp Entity.Gauss Entity.Dir Entity.Filter

/-! ## Cells -/

theorem moveCell_wrap (N : List Nat) (k p : List Int) : moveCell N k (wrap N p) = moveCell N k p := by
  unfold moveCell wrap
  apply List.ext_getElem
  · simp
  · intro a h1 h2
    simp

theorem moveCell_length {N : List Nat} {k p : List Int} (hk : k.length = N.length)
    (hp : p.length = N.length) : (moveCell N k p).length = N.length := by
  simp [moveCell, wrap, hk, hp]

theorem wrap_moveCell (N : List Nat) (k p : List Int) : wrap N (moveCell N k p) = moveCell N k p := by
  unfold moveCell wrap
  apply List.ext_getElem
  · simp
  · intro a h1 h2
    simp

theorem zip_comm (a b : List Int) : List.zipWith (· + ·) a b = List.zipWith (· + ·) b a := by
  apply List.ext_getElem
  · simp [min_comm]
  · intro i h1 h2; simp [add_comm]

/-- Moving a cell and then taking a neighbour. -/
theorem wrap_near_move (N : List Nat) (k p o : List Int) :
    wrap N (List.zipWith (· + ·) (moveCell N k p) o) = moveCell N k (List.zipWith (· + ·) p o) := by
  unfold moveCell wrap
  apply List.ext_getElem
  · simp; omega
  · intro a h1 h2
    simp only [List.getElem_zipWith, Int.emod_add_emod]
    congr 1; ring

theorem moveCell_inj {N : List Nat} {k p q : List Int} (hk : k.length = N.length)
    (hp : p.length = N.length) (hq : q.length = N.length)
    (h : moveCell N k p = moveCell N k q) : wrap N p = wrap N q := by
  unfold moveCell wrap at *
  apply List.ext_getElem
  · simp [hp, hq]
  · intro a h1 h2
    have h3 : a < N.length := by simp at h1; omega
    have := List.getElem_of_eq h (i := a) (by simp; omega)
    simp only [List.getElem_zipWith] at this ⊢
    have e1 := Int.emod_emod_of_dvd (p[a] + k[a]) (dvd_refl (N[a] : Int))
    rw [Int.emod_eq_emod_iff_emod_sub_eq_zero] at this ⊢
    rw [← this]; congr 1; ring

/-- The whole translation of a cell that a given one undergoes. -/
def stretch (N : List Nat) (k p : List Int) : List Int :=
  List.zipWith (· - ·) (moveCell N k p) p

theorem stretch_length {N : List Nat} {k p : List Int} (hk : k.length = N.length)
    (hp : p.length = N.length) : (stretch N k p).length = N.length := by
  simp [stretch, moveCell_length hk hp, hp]

theorem stretch_add {N : List Nat} {k p : List Int} (hk : k.length = N.length)
    (hp : p.length = N.length) :
    List.zipWith (· + ·) p (stretch N k p) = moveCell N k p := by
  have := moveCell_length hk hp
  apply List.ext_getElem
  · simp [stretch, this, hp]
  · intro a h1 h2
    simp [stretch]

theorem stretch_mod {N : List Nat} {k p : List Int} (hk : k.length = N.length)
    (hp : p.length = N.length) (x : List Int) :
    wrap N (List.zipWith (· + ·) x (stretch N k p)) = moveCell N k x := by
  unfold moveCell
  apply wrap_mod
  · rw [stretch_length hk hp, hk]
  · intro a ha
    have h1 : a < (stretch N k p).length := by rw [stretch_length hk hp]; exact ha
    have h2 : a < k.length := by omega
    simp only [List.getD_eq_getElem?_getD, List.getElem?_eq_getElem h1, List.getElem?_eq_getElem h2,
      List.getElem?_eq_getElem ha, Option.getD_some]
    simp only [stretch, moveCell, wrap, List.getElem_zipWith]
    have : (p[a] + k[a]) % (N[a] : Int) - p[a] - k[a] = -((N[a] : Int) * ((p[a] + k[a]) / (N[a] : Int))) := by
      have := Int.emod_add_mul_ediv (p[a] + k[a]) (N[a] : Int)
      linarith
    rw [this]
    exact (Dvd.intro _ rfl).neg_right

variable {K : Type} [Field K] [LinearOrder K] [IsStrictOrderedRing K] [FloorRing K]

/-! ## Fields -/

/-- The second field is the first one translated. -/
def MovedG (N : List Nat) (k : List Int) (g g' : GMem K) : Prop :=
  ∀ a c p, p.length = N.length → g' a c (moveCell N k p) = g a c (wrap N p)

theorem globalStep_moved {ng : Nat} {N : List Nat} {k : List Int} (hk : k.length = N.length)
    {as : List (Assign K)} (hr : Reach N.length ng as) {g g' : GMem K} (h : MovedG N k g g') :
    MovedG N k (globalStep N as g) (globalStep N as g') := by
  intro a c p hp
  unfold globalStep
  refine runBody_congr as (S := fun l => l.idx.length = N.length) (fun l hl => (hr l hl).1) ?_ _
    (by simp [here])
  intro l hl
  show g' l.arr l.comp (wrap N (l.at (moveCell N k p)).idx) = g l.arr l.comp (wrap N (l.at (wrap N p)).idx)
  have e1 : wrap N (l.at (moveCell N k p)).idx = moveCell N k (l.at p).idx := by
    simp only [Loc.at]
    exact wrap_near_move N k p l.idx
  have e2 : wrap N (l.at (wrap N p)).idx = wrap N (l.at p).idx := by
    simp only [Loc.at, wrap]
    apply List.ext_getElem
    · simp
    · intro a h1 h2
      simp
  rw [e1, e2]
  exact h _ _ _ (by simp [Loc.at, hl, hp])

theorem copyG_moved {N : List Nat} {k : List Int} {g g' : GMem K} (h : MovedG N k g g') :
    MovedG N k (copyG g) (copyG g') := by
  intro a c p hp
  unfold copyG
  split_ifs
  · exact h _ _ _ hp
  · exact h _ _ _ hp

theorem stepG_moved {N : List Nat} (hD : N.length ∈ [1, 2, 3]) {k : List Int}
    (hk : k.length = N.length) {g g' : GMem K} (h : MovedG N k g g') (n : Nat) :
    MovedG N k ((stepG N)^[n] g) ((stepG N)^[n] g') := by
  induction n with
  | zero => exact h
  | succ n ih =>
    rw [Function.iterate_succ_apply', Function.iterate_succ_apply']
    exact globalStep_moved hk (plainFilter_reach hD (ng := 1) le_rfl) (copyG_moved ih)

/-! ## Interpolation -/

theorem interpFrom_shift {O : Nat} {F F' : List Int → K} {st : List Bool} {pos : List (Int × K)}
    {s : List Int} (hs : s.length = pos.length)
    (hF : ∀ idx, idx.length = pos.length → F' (List.zipWith (· + ·) idx s) = F idx) {x : K}
    (h : interpFrom O F st pos = .ok x) :
    interpFrom O F' st (List.zipWith (fun p (t : Int) => (p.1 + t, p.2)) pos s) = .ok x := by
  obtain ⟨ws, hws, h⟩ := Outcome.bind_eq_ok.1 h
  obtain ⟨h1, h2⟩ := allWeights_shift s hs hws
  unfold interpFrom
  rw [h2]
  simp only [Outcome.bind_ok]
  have hz : (List.zipWith (fun (p : Int × List K) (t : Int) => (p.1 + t, p.2)) ws s).reverse =
      List.zipWith (fun (p : Int × List K) (t : Int) => (p.1 + t, p.2)) ws.reverse s.reverse := by
    rw [List.reverse_zipWith]; simp [h1, hs]
  rw [hz]
  exact nested_shift (read := fun idx => .ok (F idx)) (read' := fun idx => .ok (F' idx))
    (axes := ws.reverse) (ss := s.reverse) (tail := []) (st := []) (by simp [h1, hs]) rfl
    (fun idx y hi hy => by
      cases hy
      simp only [List.reverse_reverse, List.append_nil]
      rw [hF idx (by simpa [h1] using hi)]) h

/-- Both succeed or both fail. -/
theorem interpFrom_shift_eq {O : Nat} {F F' : List Int → K} {st : List Bool} {pos : List (Int × K)}
    {s : List Int} (hs : s.length = pos.length)
    (hF : ∀ idx, idx.length = pos.length → F' (List.zipWith (· + ·) idx s) = F idx) :
    (match interpFrom O F' st (List.zipWith (fun p (t : Int) => (p.1 + t, p.2)) pos s) with
      | .ok x => some x | _ => none) =
    (match interpFrom O F st pos with | .ok x => some x | _ => none) := by
  cases e : interpFrom O F st pos with
  | ok x => rw [interpFrom_shift hs hF e]
  | err | ub =>
    all_goals
      cases e' : interpFrom O F' st (List.zipWith (fun p (t : Int) => (p.1 + t, p.2)) pos s) with
      | ok x =>
        exfalso
        have := interpFrom_shift (F' := F) (s := s.map (- ·)) (by simp [hs]) (fun idx hi => by
          have := hF (List.zipWith (· + ·) idx (s.map (- ·))) (by simp at hi ⊢; omega)
          rw [← this]
          congr 1
          apply List.ext_getElem
          · simp at hi ⊢; omega
          · intro a h1 h2
            simp) e'
        have e2 : List.zipWith (fun (p : Int × K) (t : Int) => (p.1 + t, p.2))
            (List.zipWith (fun (p : Int × K) (t : Int) => (p.1 + t, p.2)) pos s) (s.map (- ·)) = pos := by
          apply List.ext_getElem
          · simp [hs]
          · intro a h1 h2
            simp
        rw [e2, e] at this
        cases this
      | err => rfl
      | ub => rfl

/-! ## Particles -/

/-- A particle with as many coordinates as the box has. -/
def Sized (N : List Nat) (v : View K) : Prop :=
  v.cell.length = N.length ∧ v.cellPrev.length = N.length ∧ v.dx.length = N.length

theorem zip_stretch {N : List Nat} {k : List Int} (hk : k.length = N.length) {v : View K}
    (hv : Sized N v) : (moveView N k v).cell.zip (moveView N k v).dx =
      List.zipWith (fun p (t : Int) => (p.1 + t, p.2)) (v.cell.zip v.dx) (stretch N k v.cell) := by
  obtain ⟨h1, -, h3⟩ := hv
  show (moveCell N k v.cell).zip v.dx = _
  rw [← stretch_add hk h1]
  have := stretch_length hk h1
  apply List.ext_getElem
  · simp [h1, h3, this]
  · intro a b1 b2
    simp

theorem boxField_moved {P : StepPrm K} {N : List Nat} {k : List Int} (hk : k.length = N.length)
    {g g' : GMem K} (h : MovedG N k g g') {v : View K} (hv : Sized N v) (c : Comp) :
    boxField P N g' (moveView N k v) c = boxField P N g v c := by
  obtain ⟨h1, h2, h3⟩ := hv
  have hl : (v.cell.zip v.dx).length = N.length := by simp [h1, h3]
  have := interpFrom_shift_eq (O := P.O) (F := fun idx => g 0 (slot c) (wrap N idx))
    (F' := fun idx => g' 0 (slot c) (wrap N idx)) (st := staggering N.length c)
    (pos := v.cell.zip v.dx) (s := stretch N k v.cell) (by rw [hl, stretch_length hk h1])
    (fun idx hi => by
      rw [stretch_mod hk h1]
      exact h 0 _ idx (by rw [hi, hl]))
  unfold boxField
  rw [zip_stretch hk ⟨h1, h2, h3⟩]
  revert this
  cases interpFrom P.O (fun idx => g 0 (slot c) (wrap N idx)) (staggering N.length c)
    (v.cell.zip v.dx) <;>
  cases interpFrom P.O (fun idx => g' 0 (slot c) (wrap N idx)) (staggering N.length c)
    (List.zipWith (fun p (t : Int) => (p.1 + t, p.2)) (v.cell.zip v.dx) (stretch N k v.cell)) <;>
  intro this <;> simp_all

theorem boxKick_moved {P : StepPrm K} {s : SpPrm K} (hs : Uniform s) (x0 x0' : List K) (t : Nat)
    {N : List Nat} {k : List Int} (hk : k.length = N.length) {g g' : GMem K} (h : MovedG N k g g')
    {v : View K} (hv : Sized N v) :
    boxKick P s x0' t N g' (moveView N k v) = boxKick P s x0 t N g v := by
  unfold boxKick
  simp only [boxField_moved hk h hv]
  exact hs _ _ _ _ _ _

theorem axesOf_length (v : View K) : (axesOf v).length = v.cell.length := by simp [axesOf]

theorem pushAxis_shift (d : K) (i j j' t : Int) (dx dp u : K) :
    pushAxis d ⟨i + t, j', dx, dp, u⟩ = axShift (pushAxis d ⟨i, j, dx, dp, u⟩) t := by
  unfold pushAxis axShift
  simp only [Ax.mk.injEq, and_true, true_and]
  ring

theorem boxMoved_moved {P : StepPrm K} {s : SpPrm K} (hs : Uniform s) (x0 x0' : List K) (t : Nat)
    {N : List Nat} {k : List Int} (hk : k.length = N.length) {g g' : GMem K} (h : MovedG N k g g')
    {v : View K} (hv : Sized N v) :
    boxMoved P s x0' t N g' (moveView N k v) =
      List.zipWith axShift (boxMoved P s x0 t N g v) (stretch N k v.cell) := by
  have e := boxKick_moved (P := P) hs x0 x0' t hk h hv
  unfold boxMoved
  rw [e]
  obtain ⟨h1, h2, h3⟩ := hv
  have hm := moveCell_length hk h1
  have hl := stretch_length hk h1
  apply List.ext_getElem
  · simp [axesOf, moveView, hm, h1, hl]
  · intro a b1 b2
    have ha : a < N.length := by simp [axesOf, moveView, hm] at b1; exact b1
    have e1 : (moveCell N k v.cell).getD a 0 = v.cell.getD a 0 + (stretch N k v.cell)[a] := by
      have := stretch_add hk h1
      have b3 : a < v.cell.length := by omega
      have b4 : a < (moveCell N k v.cell).length := by omega
      simp only [List.getD_eq_getElem?_getD, List.getElem?_eq_getElem b3,
        List.getElem?_eq_getElem b4, Option.getD_some]
      simp only [← this, List.getElem_zipWith]
    simp only [axesOf, moveView, List.getElem_map, List.getElem_range, List.getElem_zipWith]
    rw [e1]
    exact pushAxis_shift _ _ _ _ _ _ _ _

theorem boxMoved_length {P : StepPrm K} {s : SpPrm K} {x0 : List K} {t : Nat}
    {N : List Nat} {g : GMem K} {v : View K} (hv : Sized N v) :
    (boxMoved P s x0 t N g v).length = N.length := by
  simp [boxMoved, axesOf, hv.1]

theorem boxPush_sized {P : StepPrm K} {s : SpPrm K} {x0 : List K} {t : Nat}
    {N : List Nat} {g : GMem K} {v : View K} (hv : Sized N v) :
    Sized N (boxPush P s x0 t N g v) := by
  unfold boxPush
  split_ifs
  · exact hv
  · have := boxMoved_length (P := P) (s := s) (x0 := x0) (t := t) (g := g) hv
    simp [Sized, wrap, this]

theorem boxPush_moved {P : StepPrm K} {s : SpPrm K} (hs : Uniform s) (x0 x0' : List K) (t : Nat)
    {N : List Nat} {k : List Int} (hk : k.length = N.length) {g g' : GMem K} (h : MovedG N k g g')
    {v : View K} (hv : Sized N v) :
    boxPush P s x0' t N g' (moveView N k v) = moveView N k (boxPush P s x0 t N g v) := by
  unfold boxPush
  split_ifs
  · rfl
  · simp only
    rw [boxKick_moved (P := P) hs x0 x0' t hk h hv, boxMoved_moved hs x0 x0' t hk h hv]
    have hl := boxMoved_length (P := P) (s := s) (x0 := x0) (t := t) (g := g) hv
    generalize boxMoved P s x0 t N g v = ax at hl
    have hst := stretch_length hk hv.1
    have f1 : (List.zipWith axShift ax (stretch N k v.cell)).map (·.i) =
        List.zipWith (· + ·) (ax.map (·.i)) (stretch N k v.cell) := by
      apply List.ext_getElem
      · simp
      · intro a b1 b2; simp [axShift]
    have f2 : (List.zipWith axShift ax (stretch N k v.cell)).map (·.iPrev) =
        List.zipWith (· + ·) (ax.map (·.iPrev)) (stretch N k v.cell) := by
      apply List.ext_getElem
      · simp
      · intro a b1 b2; simp [axShift]
    have f3 : (List.zipWith axShift ax (stretch N k v.cell)).map (·.dx) = ax.map (·.dx) := by
      apply List.ext_getElem
      · simp [hl, hst]
      · intro a b1 b2; simp [axShift]
    have f4 : (List.zipWith axShift ax (stretch N k v.cell)).map (·.dxPrev) = ax.map (·.dxPrev) := by
      apply List.ext_getElem
      · simp [hl, hst]
      · intro a b1 b2; simp [axShift]
    simp only [f1, f2, f3, f4, stretch_mod hk hv.1, moveView, moveCell_wrap]

/-! ## Deposit -/

/-- All additions are to cells with `n` indices. -/
def AllLen (n : Nat) (us : List (Upd K)) : Prop := ∀ u ∈ us, u.idx.length = n

omit [Field K] [LinearOrder K] [IsStrictOrderedRing K] [FloorRing K] in
theorem AllLen.append {n : Nat} {us vs : List (Upd K)} (h1 : AllLen n us) (h2 : AllLen n vs) :
    AllLen n (us ++ vs) := by
  intro u hu
  rcases List.mem_append.1 hu with h | h
  · exact h1 u h
  · exact h2 u h

omit [Field K] [LinearOrder K] [IsStrictOrderedRing K] [FloorRing K] in
theorem AllLen.map {n : Nat} {α : Type} {l : List α} {f : α → Upd K}
    (h : ∀ x, (f x).idx.length = n) : AllLen n (l.map f) := by
  intro u hu
  obtain ⟨x, -, rfl⟩ := List.mem_map.1 hu
  exact h x

omit [Field K] [LinearOrder K] [IsStrictOrderedRing K] [FloorRing K] in
theorem AllLen.flatMap {n : Nat} {α : Type} {l : List α} {f : α → List (Upd K)}
    (h : ∀ x, AllLen n (f x)) : AllLen n (l.flatMap f) := by
  intro u hu
  obtain ⟨x, -, hx⟩ := List.mem_flatMap.1 hu
  exact h x u hx

omit [FloorRing K] in
theorem esirkepov1_len {O : Nat} {NG : Int} {coeff invDt vp2 vp3 : K} {a : Ax K}
    {us : List (Upd K)} (h : esirkepov1 O NG coeff invDt vp2 vp3 a = .ok us) : AllLen 1 us := by
  unfold esirkepov1 at h
  obtain ⟨y, -, h⟩ := Outcome.bind_eq_ok.1 h
  cases h
  repeat' first
    | refine AllLen.append ?_ ?_
    | refine AllLen.flatMap fun x => ?_
    | refine AllLen.map fun x => ?_
    | rfl

omit [FloorRing K] in
theorem esirkepov2_len {O : Nat} {NG : Int} {coeff invDt vp3 : K} {a b : Ax K}
    {us : List (Upd K)} (h : esirkepov2 O NG coeff invDt vp3 a b = .ok us) : AllLen 2 us := by
  unfold esirkepov2 at h
  obtain ⟨y, -, h⟩ := Outcome.bind_eq_ok.1 h
  obtain ⟨z, -, h⟩ := Outcome.bind_eq_ok.1 h
  cases h
  repeat' first
    | refine AllLen.append ?_ ?_
    | refine AllLen.flatMap fun x => ?_
    | refine AllLen.map fun x => ?_
    | rfl

omit [FloorRing K] in
theorem esirkepov3_len {O : Nat} {NG : Int} {coeff invDt : K} {a b c : Ax K}
    {us : List (Upd K)} (h : esirkepov3 O NG coeff invDt a b c = .ok us) : AllLen 3 us := by
  unfold esirkepov3 at h
  obtain ⟨y, -, h⟩ := Outcome.bind_eq_ok.1 h
  obtain ⟨z, -, h⟩ := Outcome.bind_eq_ok.1 h
  obtain ⟨w, -, h⟩ := Outcome.bind_eq_ok.1 h
  cases h
  repeat' first
    | refine AllLen.append ?_ ?_
    | refine AllLen.flatMap fun x => ?_
    | refine AllLen.map fun x => ?_
    | rfl

omit [FloorRing K] in
theorem depositOne_len {O : Nat} {NG : Int} {charge dt : K} {p : DPrtl K} {us : List (Upd K)}
    (h : depositOne O NG charge dt p = .ok us) : AllLen p.ax.length us := by
  obtain ⟨ax, wt, v2, v3, tag⟩ := p
  unfold depositOne at h
  simp only at h ⊢
  split_ifs at h
  · cases h; intro u hu; cases hu
  match O, ax, h with
  | 0, [a], h => 
    cases h
    intro u hu
    have : (zigzag1 NG (wt * charge) (1 / dt) v2 v3 a).all (fun u => u.idx.length == 1) = true := by
      unfold zigzag1; rfl
    simpa using List.all_eq_true.1 this u hu
  | 0, [a, b], h =>
    cases h
    intro u hu
    have : (zigzag2 NG (wt * charge) (1 / dt) v3 a b).all (fun u => u.idx.length == 2) = true := by
      unfold zigzag2; rfl
    simpa using List.all_eq_true.1 this u hu
  | 0, [a, b, c], h =>
    cases h
    intro u hu
    have : (zigzag3 NG (wt * charge) (1 / dt) a b c).all (fun u => u.idx.length == 3) = true := by
      unfold zigzag3; rfl
    simpa using List.all_eq_true.1 this u hu
  | O + 1, [a], h => exact esirkepov1_len h
  | O + 1, [a, b], h => exact esirkepov2_len h
  | O + 1, [a, b, c], h => exact esirkepov3_len h
  | 0, [], h => cases h
  | 0, _ :: _ :: _ :: _ :: _, h => cases h
  | O + 1, [], h => cases h
  | O + 1, _ :: _ :: _ :: _ :: _, h => cases h

theorem zip_axShift_neg (ax : List (Ax K)) (s : List Int) (hs : s.length = ax.length) :
    List.zipWith axShift (List.zipWith axShift ax s) (s.map (- ·)) = ax := by
  apply List.ext_getElem
  · simp [hs]
  · intro a b1 b2
    simp [axShift]

theorem depositOne_shift_eq {O : Nat} {charge dt : K} (p : DPrtl K) (s : List Int)
    (hs : s.length = p.ax.length) :
    (match depositOne O 0 charge dt { p with ax := List.zipWith axShift p.ax s } with
      | .ok us => us | _ => []) =
    (match depositOne O 0 charge dt p with | .ok us => us | _ => []).map (updShift s) := by
  have key : ∀ (p : DPrtl K) (s : List Int), s.length = p.ax.length → ∀ us,
      depositOne O 0 charge dt p = .ok us →
      depositOne O 0 charge dt { p with ax := List.zipWith axShift p.ax s } =
        .ok (us.map (updShift s)) := by
    intro p s hs us h
    have := depositOne_shift (NG' := 0) h s hs
    simpa using this
  cases e : depositOne O 0 charge dt p with
  | ok us => rw [key p s hs us e]
  | err | ub =>
    all_goals
      cases e' : depositOne O 0 charge dt { p with ax := List.zipWith axShift p.ax s } with
      | ok us =>
        exfalso
        have := key _ (s.map (- ·)) (by simp [hs]) us e'
        simp only [zip_axShift_neg p.ax s hs] at this
        rw [e] at this
        cases this
      | err => rfl
      | ub => rfl

theorem landed_moved {N : List Nat} {k p0 : List Int} (hk : k.length = N.length)
    (hp0 : p0.length = N.length) {us : List (Upd K)} (hu : ∀ u ∈ us, u.idx.length = N.length)
    (c : Nat) {p : List Int} (hp : p.length = N.length) :
    landed N (us.map (updShift (stretch N k p0))) c (moveCell N k p) = landed N us c (wrap N p) := by
  unfold landed
  rw [List.map_map]
  congr 1
  apply List.map_congr_left
  intro u hu'
  have e : wrap N (updShift (stretch N k p0) u).idx = moveCell N k u.idx := stretch_mod hk hp0 _
  have e' : (wrap N (updShift (stretch N k p0) u).idx = moveCell N k p) ↔ wrap N u.idx = wrap N p := by
    rw [e]
    refine ⟨moveCell_inj hk (hu u hu') hp, fun h => ?_⟩
    rw [← moveCell_wrap, h, moveCell_wrap]
  simp only [Function.comp_apply, e']
  rfl

theorem boxDeposit_moved {P : StepPrm K} {s : SpPrm K} (hs : Uniform s) (x0 x0' : List K) (t : Nat)
    {N : List Nat} {k : List Int} (hk : k.length = N.length) {g g' : GMem K} (h : MovedG N k g g')
    {v : View K} (hv : Sized N v) (c : Nat) {p : List Int} (hp : p.length = N.length) :
    landed N (boxDeposit P s x0' t N g' (moveView N k v)) c (moveCell N k p) =
      landed N (boxDeposit P s x0 t N g v) c (wrap N p) := by
  have hl := boxMoved_length (P := P) (s := s) (x0 := x0) (t := t) (g := g) hv
  have e : boxDeposit P s x0' t N g' (moveView N k v) =
      (boxDeposit P s x0 t N g v).map (updShift (stretch N k v.cell)) := by
    unfold boxDeposit
    simp only
    rw [boxKick_moved (P := P) hs x0 x0' t hk h hv, boxMoved_moved hs x0 x0' t hk h hv]
    exact depositOne_shift_eq (O := P.O) (charge := s.charge) (dt := P.dt) ⟨boxMoved P s x0 t N g v, v.weight,
      (boxKick P s x0 t N g v).y / cellSize N.length P.dx 1 * s.invE (boxKick P s x0 t N g v),
      (boxKick P s x0 t N g v).z / cellSize N.length P.dx 2 * s.invE (boxKick P s x0 t N g v), alive⟩
      (stretch N k v.cell) (by simp [stretch_length hk hv.1, hl])
  rw [e]
  refine landed_moved hk hv.1 ?_ c hp
  unfold boxDeposit
  simp only
  split
  · rename_i us hus
    intro u hu
    rw [depositOne_len hus u hu]
    exact hl
  · simp

theorem boxCurrent_moved {P : StepPrm K} {sps : List (SpPrm K)} (hs : ∀ s ∈ sps, Uniform s)
    (x0 x0' : List K) (t : Nat) {N : List Nat} {k : List Int} (hk : k.length = N.length)
    {g g' : GMem K} (h : MovedG N k g g') {L L' : Nat → List (View K)}
    (hv : ∀ i s, sps[i]? = some s → ∀ v ∈ L i, Sized N v)
    (hL : ∀ i s, sps[i]? = some s → (L' i).Perm ((L i).map (moveView N k))) (c : Nat) {p : List Int}
    (hp : p.length = N.length) :
    boxCurrent P sps x0' t N g' L' c (moveCell N k p) = boxCurrent P sps x0 t N g L c (wrap N p) := by
  unfold boxCurrent
  congr 1
  apply List.ext_getElem
  · simp
  · intro i b1 b2
    have hi : i < sps.length := by simpa using b1
    simp only [List.getElem_mapIdx]
    have hsp : sps[i]? = some sps[i] := List.getElem?_eq_getElem hi
    unfold boxCurrentOf
    split_ifs
    · rfl
    · rw [((hL i _ hsp).map _).sum_eq, List.map_map]
      congr 1
      apply List.map_congr_left
      intro v hv'
      exact boxDeposit_moved (hs _ (List.getElem_mem hi)) x0 x0' t hk h (hv i _ hsp v hv') c hp

/-! ## Steps -/

/-- The second box is the first one translated. -/
structure MovedBox (N : List Nat) (k : List Int) (sps : List (SpPrm K)) (B B' : Box K) : Prop where
  fields : MovedG N k B.g B'.g
  sized : ∀ i s, sps[i]? = some s → ∀ v ∈ B.prtl i, Sized N v
  prtl : ∀ i s, sps[i]? = some s → (B'.prtl i).Perm ((B.prtl i).map (moveView N k))

theorem boxStep_moved {P : StepPrm K} {sps : List (SpPrm K)} (hs : ∀ s ∈ sps, Uniform s)
    (x0 x0' : List K) (t : Nat) {N : List Nat} (hD : N.length ∈ [1, 2, 3]) {k : List Int}
    (hk : k.length = N.length) {B B' : Box K} (h : MovedBox N k sps B B') :
    MovedBox N k sps (boxStep P sps x0 t N B) (boxStep P sps x0' t N B') := by
  have g1 : MovedG N k (opG N.length N (.faraday (1 / 2 * P.correction * P.dt) P.dx P.c) B.g)
      (opG N.length N (.faraday (1 / 2 * P.correction * P.dt) P.dx P.c) B'.g) :=
    globalStep_moved hk (faraday_reach hD (ng := 2) le_rfl _ _ _) h.fields
  refine ⟨?_, ?_, ?_⟩
  · unfold boxStep
    simp only
    have g2 := stepG_moved (K := K) hD hk (g := fun a c p =>
        if selEB a c then opG N.length N (.faraday (1 / 2 * P.correction * P.dt) P.dx P.c) B.g a c p
        else boxCurrent P sps x0 t N
          (opG N.length N (.faraday (1 / 2 * P.correction * P.dt) P.dx P.c) B.g) B.prtl c p)
      (g' := fun a c p =>
        if selEB a c then opG N.length N (.faraday (1 / 2 * P.correction * P.dt) P.dx P.c) B'.g a c p
        else boxCurrent P sps x0' t N
          (opG N.length N (.faraday (1 / 2 * P.correction * P.dt) P.dx P.c) B'.g) B'.prtl c p)
      (fun a c p hp => by
        simp only
        split_ifs
        · exact g1 a c p hp
        · exact boxCurrent_moved hs x0 x0' t hk g1 h.sized h.prtl c hp) P.nf
    exact globalStep_moved hk (currentsAmpere_reach0 hD _ _)
      (globalStep_moved hk (ampere_reach hD (ng := 2) le_rfl _ _)
        (globalStep_moved hk (faraday_reach hD (ng := 2) le_rfl _ _ _) g2))
  · intro i s hsp v hv
    unfold boxStep at hv
    simp only [hsp, List.mem_map] at hv
    obtain ⟨w, hw, rfl⟩ := hv
    exact boxPush_sized (h.sized i s hsp w hw)
  · intro i s hsp
    unfold boxStep
    simp only [hsp]
    refine ((h.prtl i s hsp).map _).trans (.of_eq ?_)
    rw [List.map_map, List.map_map]
    apply List.map_congr_left
    intro v hv
    exact boxPush_moved (hs s (List.mem_of_getElem? hsp)) x0 x0' t hk g1 (h.sized i s hsp v hv)

theorem boxRun_moved {P : StepPrm K} {sps : List (SpPrm K)} (hs : ∀ s ∈ sps, Uniform s)
    (x0 x0' : List K) {N : List Nat} (hD : N.length ∈ [1, 2, 3]) {k : List Int}
    (hk : k.length = N.length) (n : Nat) {B B' : Box K} (h : MovedBox N k sps B B') :
    MovedBox N k sps (boxRun P sps x0 N n B) (boxRun P sps x0' N n B') := by
  induction n with
  | zero => exact h
  | succ n ih => exact boxStep_moved hs x0 x0' n hD hk ih

end Entity.Full
