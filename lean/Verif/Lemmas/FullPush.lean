import Verif.Lemmas.FullTopo
import Verif.Props.Push

/-!
# The push of one particle on a rank is the push in the box
-/

namespace Entity.Full

open Entity Entity.Topology Entity.Kernel Entity.FieldSolver Entity.Push Entity.Prtl Entity.Ranks
open Entity.Deposit Entity.Interp Entity.Tags Entity.Decomp Entity.Gauss Entity.Dir

variable {m : Meta} {dN : List (List Nat)}

section
variable {K : Type}

/-! ## Columns -/

theorem axes_length {D : Nat} (hD : D ∈ [1, 2, 3]) (q : Prtl K) : (axes D q).length = D := by
  simp at hD
  rcases hD with rfl | rfl | rfl <;> rfl

theorem axes_setAxes {D : Nat} (hD : D ∈ [1, 2, 3]) {ax : List (Ax K)} (hl : ax.length = D)
    (q : Prtl K) : axes D (setAxes ax q) = ax := by
  subst hl
  match ax, hD with
  | [_], _ => rfl
  | [_, _], _ => rfl
  | [_, _, _], _ => rfl
  | _ :: _ :: _ :: _ :: _, hD => simp at hD

theorem view_axes {k : Kind} (hD : k.D ∈ [1, 2, 3]) (q : Prtl K) :
    (k.view q).cell = (axes k.D q).map (·.i) ∧ (k.view q).cellPrev = (axes k.D q).map (·.iPrev) ∧
    (k.view q).dx = (axes k.D q).map (·.dx) ∧ (k.view q).dxPrev = (axes k.D q).map (·.dxPrev) := by
  obtain ⟨D, c, nr, ni⟩ := k
  simp at hD
  rcases hD with rfl | rfl | rfl <;> exact ⟨rfl, rfl, rfl, rfl⟩

theorem setAxes_rest (ax : List (Ax K)) (q : Prtl K) :
    (setAxes ax q).weight = q.weight ∧ (setAxes ax q).phi = q.phi ∧ (setAxes ax q).pld_r = q.pld_r ∧
    (setAxes ax q).pld_i = q.pld_i ∧ (setAxes ax q).tag = q.tag := by
  unfold setAxes
  split <;> exact ⟨rfl, rfl, rfl, rfl, rfl⟩

theorem setAxes_mom {D : Nat} (hD : D ∈ [1, 2, 3]) {ax : List (Ax K)} (hl : ax.length = D)
    (q : Prtl K) (hu : ax.map (·.u) = (axes D q).map (·.u)) :
    momentum (setAxes ax q) = momentum q := by
  subst hl
  match ax, hD with
  | [a], _ =>
    simp only [List.length_cons, List.length_nil, axes, List.take_succ_cons, List.take_zero,
      List.map_cons, List.map_nil, List.cons.injEq, and_true, Nat.zero_add] at hu
    simp [setAxes, momentum, hu]
  | [a, b], _ =>
    simp only [List.length_cons, List.length_nil, axes, List.take_succ_cons, List.take_zero,
      List.map_cons, List.map_nil, List.cons.injEq, and_true, Nat.zero_add] at hu
    simp [setAxes, momentum, hu]
  | [a, b, c], _ =>
    simp only [List.length_cons, List.length_nil, axes, List.take_succ_cons, List.take_zero,
      List.map_cons, List.map_nil, List.cons.injEq, and_true, Nat.zero_add] at hu
    simp [setAxes, momentum, hu]
  | _ :: _ :: _ :: _ :: _, hD => simp at hD

end

variable {K : Type} [Field K] [LinearOrder K] [IsStrictOrderedRing K] [FloorRing K]

/-! ## Boundaries of a subdomain -/

/-- How far the boundary condition moves a particle along an axis. -/
def turn (m : Meta) (r a : Nat) (i : Int) : Int :=
  if m.counts.getD a 0 = 1 then
    if i < 0 then ((sizes m r).getD a 0 : Int)
    else if ((sizes m r).getD a 0 : Int) ≤ i then -((sizes m r).getD a 0 : Int) else 0
  else 0

theorem bc_get (h : Built m dN) (hp : AllPeriodic m) {r : Nat} (hr : r < m.doms.length)
    {ax : List (Ax K)} (hl : ax.length = dN.length) {p : Particle K}
    (hb : boundaryConditions true (sidesOf m r) ⟨ax, [], alive⟩ = .ok p) :
    p.ax = (List.range dN.length).map (fun (a : Nat) =>
      axShift (ax.getD a ⟨0, 0, 0, 0, 0⟩) (turn m r a (ax.getD a ⟨0, 0, 0, 0, 0⟩).i)) := by
  have hs := sidesOf_length h r
  unfold boundaryConditions at hb
  rw [if_neg (by rw [hs, hl]; omega)] at hb
  simp only [if_true] at hb
  obtain ⟨t, ht, e⟩ := Outcome.bind_eq_ok.1 hb
  cases e
  simp only
  apply List.ext_getElem?
  intro a
  by_cases ha : a < dN.length
  · have hax : ax[a]? = some ax[a] := List.getElem?_eq_getElem (by omega)
    rw [bcAxes_get 0 _ _ _ a _ _ (sidesOf_get h hp hr ha) hax]
    simp only [List.getElem?_map, List.getElem?_range ha, Option.map_some,
      List.getD_eq_getElem?_getD, hax, Option.getD_some]
    congr 1
    unfold turn axShift bcAxis flagsOf
    simp only [List.getD_eq_getElem?_getD]
    by_cases h1 : m.counts[a]?.getD 0 = 1
    · by_cases hi : ax[a].i < 0
      · simp [h1, hi]
      · by_cases hi2 : ((sizes m r)[a]?.getD 0 : Int) ≤ ax[a].i
        · simp [h1, hi, hi2, sub_eq_add_neg]
        · simp [h1, hi, hi2]
    · simp [h1]
  · rw [List.getElem?_eq_none (by rw [bcAxes_length]; omega), List.getElem?_eq_none (by simp; omega)]

/-- The displacement is a multiple of the extent of the box. -/
theorem turn_mod (h : Built m dN) {r : Nat} (hr : r < m.doms.length) {a : Nat} (ha : a < dN.length)
    (i : Int) : ((dN.map List.sum).getD a 0 : Int) ∣ turn m r a i := by
  unfold turn
  split_ifs with h1 h2 h3
  · rw [size_of_one h hr ha h1]
  · rw [size_of_one h hr ha h1]; exact (dvd_neg).2 dvd_rfl
  · exact dvd_zero _
  · exact dvd_zero _

/-- Displacements of the axes of a particle. -/
def turns (m : Meta) (dN : List (List Nat)) (r : Nat) (ax : List (Ax K)) : List Int :=
  (List.range dN.length).map fun (a : Nat) => turn m r a (ax.getD a ⟨0, 0, 0, 0, 0⟩).i

theorem bc_zip (h : Built m dN) (hp : AllPeriodic m) {r : Nat} (hr : r < m.doms.length)
    {ax : List (Ax K)} (hl : ax.length = dN.length) {p : Particle K}
    (hb : boundaryConditions true (sidesOf m r) ⟨ax, [], alive⟩ = .ok p) :
    p.ax = List.zipWith axShift ax (turns m dN r ax) := by
  rw [bc_get h hp hr hl hb]
  apply List.ext_getElem
  · simp [turns, hl]
  · intro a h1 h2
    have ha : a < ax.length := by simp at h1; omega
    simp [turns, ha]

theorem wrap_mod {N : List Nat} {x s s' : List Int} (hl : s.length = s'.length)
    (hd : ∀ a < N.length, (N.getD a 0 : Int) ∣ s.getD a 0 - s'.getD a 0) :
    wrap N (List.zipWith (· + ·) x s) = wrap N (List.zipWith (· + ·) x s') := by
  apply List.ext_getElem
  · simp [wrap, hl]
  · intro a h1 h2
    simp only [wrap, List.length_zipWith] at h1
    have ha : a < N.length := by omega
    have hs : a < s.length := by omega
    have hs' : a < s'.length := by omega
    have := hd a ha
    simp only [List.getD_eq_getElem?_getD, List.getElem?_eq_getElem hs, List.getElem?_eq_getElem hs',
      List.getElem?_eq_getElem ha, Option.getD_some] at this
    simp only [wrap, List.getElem_zipWith]
    apply Int.emod_emod_of_dvd _ dvd_rfl |>.symm.trans
    rw [Int.emod_emod_of_dvd _ dvd_rfl]
    apply Int.emod_eq_emod_iff_emod_sub_eq_zero.2
    have e : x[a] + s[a] - (x[a] + s'[a]) = s[a] - s'[a] := by ring
    rw [e]; exact Int.emod_eq_zero_of_dvd this

/-! ## Fields at a particle -/

theorem inArray_length {nAll : List Nat} {i : List Int} (h : Deposit.inArray nAll i = true) :
    i.length = nAll.length := by
  induction nAll generalizing i with
  | nil => cases i <;> simp_all [Deposit.inArray]
  | cons n ns ih =>
    cases i with
    | nil => simp [Deposit.inArray] at h
    | cons x xs =>
      simp only [Deposit.inArray, Bool.and_eq_true] at h
      simp [ih h.2]

theorem slot_eq (c : Comp) : slot c = compNo c ∧ slot c % 3 = compAxis c := by cases c <;> exact ⟨rfl, rfl⟩

theorem cellSize_eq (D : Nat) (dx : K) (k : Nat) : cellSize D dx k = scale D dx k := by
  unfold cellSize scale
  split_ifs <;> first | rfl | omega

theorem selEB_comp (c : Comp) : selEB 0 (compNo c) = true := by cases c <;> rfl

theorem fieldAt_box (h : Built m dN) {P : StepPrm K} {r : Nat} (hr : r < m.doms.length)
    {M : MMem K} {g : GMem K} (hg : Shows m (dN.map List.sum) P.ng selEB M g) {ax : List (Ax K)}
    (hl : ax.length = dN.length) {c : Comp} {x : K}
    (hx : fieldAt P dN.length (sizes m r) (M r) (ax.map fun a => (a.i, a.dx)) c = .ok x) {w : View K}
    (h1 : w.cell = List.zipWith (· + ·) (ax.map (·.i)) (offI m r)) (h2 : w.dx = ax.map (·.dx)) :
    boxField P (dN.map List.sum) g w c = x := by
  unfold fieldAt at hx
  obtain ⟨y, hy, e⟩ := Outcome.bind_eq_ok.1 hx
  cases e
  have ho := offI_length h hr
  have := interpolate_from (off := offI m r) (F := fun idx => g 0 (compNo c) (wrap (dN.map List.sum) idx))
    (by simp [ho, hl]) (fun idx hi => by
      have hin := inArray_of h hr hi
      have hil : idx.length = dN.length := by
        have := inArray_length hi
        rw [List.length_map, sizes_length h hr] at this
        exact this
      have hgp := globalPos_origin h P.ng hr hil
      rw [origin_eq] at hgp
      exact (hg 0 (compNo c) (selEB_comp c) r idx _ hin hgp).symm) hy
  unfold boxField
  rw [(slot_eq c).2, (slot_eq c).1, cellSize_eq]
  have e1 : w.cell.zip w.dx = List.zipWith (fun p (t : Int) => (p.1 + t, p.2))
      (ax.map fun a => (a.i, a.dx)) (offI m r) := by
    rw [h1, h2]
    apply List.ext_getElem
    · simp [ho, hl]
    · intro a b1 b2
      simp
  rw [e1]
  simp only [List.length_map] at this ⊢
  rw [hl] at this
  rw [this]

/-! ## The push -/

/-- The outcome of a push. -/
theorem pushOne_inv {P : StepPrm K} {s : SpPrm K} {t : Nat} {low : List K}
    {sides : List (PBC × PBC × Int)} {n : List Nat} {v : Mem K} {q q' : Prtl K} (hq : q.tag = alive)
    (hr : pushOne P s t low sides n v q = .ok q') :
    ∃ e1 e2 e3 b1 b2 b3 u p,
      fieldAt P s.kind.D n v ((axes s.kind.D q).map fun a => (a.i, a.dx)) .ex1 = .ok e1 ∧
      fieldAt P s.kind.D n v ((axes s.kind.D q).map fun a => (a.i, a.dx)) .ex2 = .ok e2 ∧
      fieldAt P s.kind.D n v ((axes s.kind.D q).map fun a => (a.i, a.dx)) .ex3 = .ok e3 ∧
      fieldAt P s.kind.D n v ((axes s.kind.D q).map fun a => (a.i, a.dx)) .bx1 = .ok b1 ∧
      fieldAt P s.kind.D n v ((axes s.kind.D q).map fun a => (a.i, a.dx)) .bx2 = .ok b2 ∧
      fieldAt P s.kind.D n v ((axes s.kind.D q).map fun a => (a.i, a.dx)) .bx3 = .ok b3 ∧
      u = s.kick t (List.zipWith (fun (a : Ax K) x => iDiToXi a.i a.dx * P.dx + x)
        (axes s.kind.D q) low) ⟨e1, e2, e3⟩ ⟨b1, b2, b3⟩ (momentum q) ∧
      boundaryConditions true sides ⟨(axes s.kind.D { q with ux1 := u.x, ux2 := u.y, ux3 := u.z }).map
        fun a => pushAxis (a.u / P.dx * s.dtE u) a, [], alive⟩ = .ok p ∧
      q' = setAxes p.ax { q with ux1 := u.x, ux2 := u.y, ux3 := u.z, tag := p.tag } := by
  unfold pushOne at hr
  rw [if_neg (by simpa using hq)] at hr
  simp only at hr
  obtain ⟨e1, h1, hr⟩ := Outcome.bind_eq_ok.1 hr
  obtain ⟨e2, h2, hr⟩ := Outcome.bind_eq_ok.1 hr
  obtain ⟨e3, h3, hr⟩ := Outcome.bind_eq_ok.1 hr
  obtain ⟨b1, h4, hr⟩ := Outcome.bind_eq_ok.1 hr
  obtain ⟨b2, h5, hr⟩ := Outcome.bind_eq_ok.1 hr
  obtain ⟨b3, h6, hr⟩ := Outcome.bind_eq_ok.1 hr
  obtain ⟨p, h7, hr⟩ := Outcome.bind_eq_ok.1 hr
  rw [hq] at h7
  cases hr
  exact ⟨e1, e2, e3, b1, b2, b3, _, p, h1, h2, h3, h4, h5, h6, rfl, h7, rfl⟩

theorem axes_get {D : Nat} (hD : D ∈ [1, 2, 3]) (q : Prtl K) (u : V3 K) {a : Nat} (ha : a < D) :
    (axes D { q with ux1 := u.x, ux2 := u.y, ux3 := u.z }).getD a ⟨0, 0, 0, 0, 0⟩ =
      ⟨((axes D q).map (·.i)).getD a 0, ((axes D q).map (·.iPrev)).getD a 0, ((axes D q).map (·.dx)).getD a 0, ((axes D q).map (·.dxPrev)).getD a 0,
        [u.x, u.y, u.z].getD a 0⟩ := by
  simp at hD
  rcases hD with rfl | rfl | rfl <;> interval_cases a <;> rfl

theorem moved_box (h : Built m dN) (hD : dN.length ∈ [1, 2, 3]) {r : Nat} (hr : r < m.doms.length)
    {k : Kind} (hk : k.D = dN.length) {q : Prtl K}
    (hin : ∀ a < k.D, 0 ≤ (k.view q).cell.getD a 0 ∧ (k.view q).cell.getD a 0 < (sizes m r).getD a 0)
    (u : V3 K) (f : K → K) :
    (axesOf { gview m dN r k q with u := [u.x, u.y, u.z] }).map (fun a => pushAxis (f a.u) a) =
      List.zipWith axShift ((axes k.D { q with ux1 := u.x, ux2 := u.y, ux3 := u.z }).map
        fun a => pushAxis (f a.u) a) (offI m r) := by
  have hD' : k.D ∈ [1, 2, 3] := hk ▸ hD
  obtain ⟨v1, v2, v3, v4⟩ := view_axes hD' q
  have ho := offI_length h hr
  have hl := axes_length hD' q
  have hc : (gview m dN r k q).cell = List.zipWith (· + ·) ((axes k.D q).map (·.i)) (offI m r) := by
    show globalCells m dN r (k.view q).cell = _
    rw [globalCells_inside h hr (by rw [v1, List.length_map, hl, hk]) (by rw [← hk]; exact hin), v1]
  have hcl : (gview m dN r k q).cell.length = k.D := by
    rw [hc, List.length_zipWith, List.length_map, hl, ho, hk, min_self]
  apply List.ext_getElem
  · simp only [axesOf, List.length_map, List.length_range, List.length_zipWith, hcl,
      axes_length hD', ho]
    rw [hk, min_self]
  · intro a h1 h2
    have ha : a < k.D := by
      simp only [axesOf, List.length_map, List.length_range, hcl] at h1; exact h1
    have hax : a < (axes k.D { q with ux1 := u.x, ux2 := u.y, ux3 := u.z }).length := by
      rw [axes_length hD']; exact ha
    have e := axes_get hD' q u ha
    rw [List.getD_eq_getElem?_getD, List.getElem?_eq_getElem hax, Option.getD_some] at e
    simp only [axesOf, List.getElem_map, List.getElem_range, List.getElem_zipWith]
    rw [e, hc]
    have h3 : (gview m dN r k q).dx = (axes k.D q).map (·.dx) := v3
    rw [h3]
    have e2 : (List.zipWith (· + ·) ((axes k.D q).map (·.i)) (offI m r)).getD a 0 =
        ((axes k.D q).map (·.i)).getD a 0 + (offI m r)[a]'(by omega) := by
      have b1 : a < (axes k.D q).length := by omega
      have b2 : a < (offI m r).length := by omega
      simp [b1, b2]
    rw [e2]
    unfold pushAxis axShift
    simp only [Ax.mk.injEq, true_and, and_true]
    ring

theorem pushAxis_i (x : K) (a : Ax K) : (pushAxis x a).i - a.i ≤ 1 ∧ a.i - (pushAxis x a).i ≤ 1 ∧
    (pushAxis x a).u = a.u ∧ (pushAxis x a).iPrev = a.i := by
  unfold pushAxis Push.b2i
  refine ⟨?_, ?_, rfl, rfl⟩ <;> simp only <;> split_ifs <;> omega

theorem depositOne_tag (O : Nat) (NG : Int) (charge dt : K) (p : DPrtl K) (t : Int)
    (hp : p.tag ≠ dead) (ht : t ≠ dead) :
    depositOne O NG charge dt { p with tag := t } = depositOne O NG charge dt p := by
  unfold depositOne
  rw [if_neg ht, if_neg hp]

theorem landed_congr {N : List Nat} {s s' : List Int} (hl : s.length = s'.length)
    (hd : ∀ a < N.length, (N.getD a 0 : Int) ∣ s.getD a 0 - s'.getD a 0) (us : List (Upd K)) (c : Nat)
    (p : List Int) : landed N (us.map (updShift s)) c p = landed N (us.map (updShift s')) c p := by
  unfold landed
  rw [List.map_map, List.map_map]
  congr 1
  apply List.map_congr_left
  intro u _
  have e : wrap N (updShift s u).idx = wrap N (updShift s' u).idx := wrap_mod hl hd
  simp only [Function.comp_apply, e]
  rfl

theorem zip_assoc (x s t : List Int) : List.zipWith (· + ·) (List.zipWith (· + ·) x s) t =
    List.zipWith (· + ·) x (List.zipWith (· + ·) s t) := by
  induction x generalizing s t with
  | nil => rfl
  | cons a x ih =>
    cases s with
    | nil => rfl
    | cons b s =>
      cases t with
      | nil => rfl
      | cons c t => simp [ih, add_assoc]

theorem zip_i (ax : List (Ax K)) (t : List Int) :
    (List.zipWith axShift ax t).map (·.i) = List.zipWith (· + ·) (ax.map (·.i)) t ∧
    (List.zipWith axShift ax t).map (·.iPrev) = List.zipWith (· + ·) (ax.map (·.iPrev)) t := by
  induction ax generalizing t with
  | nil => exact ⟨rfl, rfl⟩
  | cons a ax ih =>
    cases t with
    | nil => exact ⟨rfl, rfl⟩
    | cons b t => simp [ih t, axShift]

theorem zip_dx (ax : List (Ax K)) (t : List Int) (hl : ax.length = t.length) :
    (List.zipWith axShift ax t).map (·.dx) = ax.map (·.dx) ∧
    (List.zipWith axShift ax t).map (·.dxPrev) = ax.map (·.dxPrev) := by
  induction ax generalizing t with
  | nil => exact ⟨rfl, rfl⟩
  | cons a ax ih =>
    cases t with
    | nil => simp at hl
    | cons b t => simp [ih t (by simpa using hl), axShift]

theorem zip_axShift (ax : List (Ax K)) (s t : List Int) :
    List.zipWith axShift (List.zipWith axShift ax s) t =
      List.zipWith axShift ax (List.zipWith (· + ·) s t) := by
  induction ax generalizing s t with
  | nil => rfl
  | cons a ax ih =>
    cases s with
    | nil => rfl
    | cons b s =>
      cases t with
      | nil => rfl
      | cons c t => simp [ih, axShift, add_assoc]

/-- A particle of rank `r` that left the subdomain in direction `d`, by one cell. -/
def Left (m : Meta) (r : Nat) (d : Direction) (i : List Int) : Prop :=
  ∀ a < d.length, (d.getD a 0 = -1 → i.getD a 0 = -1) ∧
    (d.getD a 0 = 1 → i.getD a 0 = ((sizes m r).getD a 0 : Int)) ∧
    (d.getD a 0 = 0 → 0 ≤ i.getD a 0 ∧ i.getD a 0 < (sizes m r).getD a 0)

/-- The kicked momentum is that of the box. -/
theorem kick_box (h : Built m dN) (hD : dN.length ∈ [1, 2, 3]) {P : StepPrm K} {s : SpPrm K}
    (hk : s.kind.D = dN.length) {r : Nat} (hr : r < m.doms.length) {x0 : List K} {t : Nat}
    {M : MMem K} {g : GMem K} (hg : Shows m (dN.map List.sum) P.ng selEB M g) {q : Prtl K}
    (hin : ∀ a < s.kind.D, 0 ≤ (s.kind.view q).cell.getD a 0 ∧
      (s.kind.view q).cell.getD a 0 < (sizes m r).getD a 0) {e1 e2 e3 b1 b2 b3 : K}
    (f1 : fieldAt P s.kind.D (sizes m r) (M r) ((axes s.kind.D q).map fun a => (a.i, a.dx)) .ex1 = .ok e1)
    (f2 : fieldAt P s.kind.D (sizes m r) (M r) ((axes s.kind.D q).map fun a => (a.i, a.dx)) .ex2 = .ok e2)
    (f3 : fieldAt P s.kind.D (sizes m r) (M r) ((axes s.kind.D q).map fun a => (a.i, a.dx)) .ex3 = .ok e3)
    (f4 : fieldAt P s.kind.D (sizes m r) (M r) ((axes s.kind.D q).map fun a => (a.i, a.dx)) .bx1 = .ok b1)
    (f5 : fieldAt P s.kind.D (sizes m r) (M r) ((axes s.kind.D q).map fun a => (a.i, a.dx)) .bx2 = .ok b2)
    (f6 : fieldAt P s.kind.D (sizes m r) (M r) ((axes s.kind.D q).map fun a => (a.i, a.dx)) .bx3 = .ok b3) :
    boxKick P s x0 t (dN.map List.sum) g (gview m dN r s.kind q) =
      s.kick t (List.zipWith (fun (a : Ax K) x => iDiToXi a.i a.dx * P.dx + x)
        (axes s.kind.D q) (lowCorner m P.dx x0 r)) ⟨e1, e2, e3⟩ ⟨b1, b2, b3⟩ (momentum q) := by
  have hD' : s.kind.D ∈ [1, 2, 3] := hk ▸ hD
  obtain ⟨v1, v2, v3, v4⟩ := view_axes hD' q
  have ho := offI_length h hr
  have hl := axes_length hD' q
  have hl' : (axes s.kind.D q).length = dN.length := hl.trans hk
  have hc : (gview m dN r s.kind q).cell =
      List.zipWith (· + ·) ((axes s.kind.D q).map (·.i)) (offI m r) := by
    show globalCells m dN r (s.kind.view q).cell = _
    rw [globalCells_inside h hr (by rw [v1, List.length_map, hl, hk]) (by rw [← hk]; exact hin), v1]
  have hdx : (gview m dN r s.kind q).dx = (axes s.kind.D q).map (·.dx) := v3
  rw [hk] at f1 f2 f3 f4 f5 f6
  rw [← hk, hk] at f1
  have key := fun {c : Comp} {x : K} (hx : fieldAt P dN.length (sizes m r) (M r)
      ((axes dN.length q).map fun a => (a.i, a.dx)) c = .ok x) =>
    fieldAt_box h hr hg (ax := axes dN.length q) (by rw [← hk]; exact hl) hx
      (w := gview m dN r s.kind q) (by rw [hc, hk]) (by rw [hdx, hk])
  unfold boxKick
  rw [key f1, key f2, key f3, key f4, key f5, key f6]
  have ex : List.zipWith (fun (p : Int × K) x => iDiToXi p.1 p.2 * P.dx + x)
      ((gview m dN r s.kind q).cell.zip (gview m dN r s.kind q).dx) x0 =
      List.zipWith (fun (a : Ax K) x => iDiToXi a.i a.dx * P.dx + x)
        (axes s.kind.D q) (lowCorner m P.dx x0 r) := by
    rw [hc, hdx]
    have hol : (offsets m r).length = dN.length := by rw [offsets_eq]; exact offs_length h hr
    apply List.ext_getElem
    · simp only [List.length_zipWith, List.length_zip, List.length_map, lowCorner, hl', ho, hol]
      omega
    · intro a h1 h2
      simp only [List.getElem_zipWith, List.getElem_zip, List.getElem_map, lowCorner, iDiToXi, offI,
        offsets_eq]
      push_cast
      ring
  rw [ex]
  rfl

theorem push_live (h : Built m dN) (hp : AllPeriodic m) (hD : dN.length ∈ [1, 2, 3])
    {P : StepPrm K} {s : SpPrm K} (hk : s.kind.D = dN.length) (hf : s.frozen = false) {r : Nat}
    (hr : r < m.doms.length) {x0 : List K} {t : Nat} {M : MMem K} {g : GMem K}
    (hg : Shows m (dN.map List.sum) P.ng selEB M g) {q q' : Prtl K} (hq : q.tag = alive)
    (hin : ∀ a < s.kind.D, 0 ≤ (s.kind.view q).cell.getD a 0 ∧
      (s.kind.view q).cell.getD a 0 < (sizes m r).getD a 0)
    (hpush : pushOne P s t (lowCorner m P.dx x0 r) (sidesOf m r) (sizes m r) (M r) q = .ok q') :
    gview m dN r s.kind q' = boxPush P s x0 t (dN.map List.sum) g (gview m dN r s.kind q) ∧
    (PldOk s.kind q → PldOk s.kind q') ∧
    ((q'.tag = alive ∧ ∀ a < s.kind.D, 0 ≤ (s.kind.view q').cell.getD a 0 ∧
        (s.kind.view q').cell.getD a 0 < (sizes m r).getD a 0) ∨
      (q'.tag ≠ alive ∧ q'.tag ≠ dead ∧ ∃ d ∈ allDirs s.kind.D, dir2tag s.kind.D d = .ok q'.tag ∧
        Left m r d (s.kind.view q').cell)) ∧
    (∀ us, depositOne P.O P.ng s.charge P.dt (toD P s q') = .ok us → ∀ c p,
      landed (dN.map List.sum) (us.map (updShift (origin m P.ng r))) c p =
        landed (dN.map List.sum) (boxDeposit P s x0 t (dN.map List.sum) g (gview m dN r s.kind q))
          c p) := by
  have hD' : s.kind.D ∈ [1, 2, 3] := hk ▸ hD
  obtain ⟨e1, e2, e3, b1, b2, b3, u, p, f1, f2, f3, f4, f5, f6, hu, hb, hq'⟩ := pushOne_inv hq hpush
  have hkick := kick_box h hD hk hr (x0 := x0) (t := t) hg hin f1 f2 f3 f4 f5 f6
  rw [← hu] at hkick
  have hmv := moved_box h hD hr hk hin u (fun x => x / P.dx * s.dtE u)
  set mv := (axes s.kind.D { q with ux1 := u.x, ux2 := u.y, ux3 := u.z }).map
        fun a => pushAxis (a.u / P.dx * s.dtE u) a with hmvd
  have hmoved : boxMoved P s x0 t (dN.map List.sum) g (gview m dN r s.kind q) =
      List.zipWith axShift mv (offI m r) := by
    unfold boxMoved
    rw [hkick]
    exact hmv
  have hml : mv.length = dN.length := by rw [hmvd, List.length_map, axes_length hD', hk]
  have hpax := bc_zip h hp hr hml hb
  set T := turns m dN r mv with hT
  have hTl : T.length = dN.length := by simp [hT, turns]
  have hpl : p.ax.length = s.kind.D := by
    rw [hpax, List.length_zipWith, hml, hTl, min_self, hk]
  have hax : axes s.kind.D q' = p.ax := by rw [hq']; exact axes_setAxes hD' hpl _
  have hmom : momentum q' = u := by
    rw [hq', setAxes_mom hD' hpl]
    · rfl
    · rw [hpax]
      apply List.ext_getElem
      · simp only [List.length_map, List.length_zipWith, hml, hTl, axes_length hD', hk, min_self]
        rw [axes_length (hk ▸ hD)]
      · intro a h1 h2
        simp only [hmvd, List.getElem_map, List.getElem_zipWith, axShift]
        exact (pushAxis_i _ _).2.2.1
  have hTd : ∀ a < (dN.map List.sum).length, ((dN.map List.sum).getD a 0 : Int) ∣ T.getD a 0 := by
    intro a ha
    have ha' : a < dN.length := by simpa using ha
    have e : T.getD a 0 = turn m r a (mv.getD a ⟨0, 0, 0, 0, 0⟩).i := by
      simp [hT, turns, List.getD_eq_getElem?_getD, ha']
    rw [e]
    exact turn_mod h hr ha' _
  have ho := offI_length h hr
  have hwrap : ∀ x : List Int, wrap (dN.map List.sum)
      (List.zipWith (· + ·) (List.zipWith (· + ·) x T) (offI m r)) =
      wrap (dN.map List.sum) (List.zipWith (· + ·) x (offI m r)) := by
    intro x
    rw [zip_assoc]
    refine wrap_mod (by simp [hTl, ho]) ?_
    intro a ha
    have ha' : a < dN.length := by simpa using ha
    have := hTd a ha
    have b1 : a < T.length := by omega
    have b2 : a < (offI m r).length := by omega
    simp only [List.getD_eq_getElem?_getD, List.getElem?_zipWith, List.getElem?_eq_getElem b1,
      List.getElem?_eq_getElem b2, Option.getD_some, Option.map₂_some_some] at this ⊢
    rw [add_sub_cancel_right]
    exact this
  obtain ⟨v1, v2, v3, v4⟩ := view_axes hD' q'
  rw [hax, hpax] at v1 v2 v3 v4
  rw [(zip_i mv T).1] at v1
  rw [(zip_i mv T).2] at v2
  rw [(zip_dx mv T (by rw [hml, hTl])).1] at v3
  rw [(zip_dx mv T (by rw [hml, hTl])).2] at v4
  obtain ⟨r1, r2, r3, r4, r5⟩ := setAxes_rest p.ax { q with ux1 := u.x, ux2 := u.y, ux3 := u.z, tag := p.tag }
  rw [← hq'] at r1 r2 r3 r4 r5
  simp only at r1 r2 r3 r4 r5
  have hu3 : (s.kind.view q').u = [u.x, u.y, u.z] := by
    have := hmom
    unfold momentum at this
    rw [← this]
    rfl
  have hthird : (q'.tag = alive ∧ ∀ a < s.kind.D, 0 ≤ (s.kind.view q').cell.getD a 0 ∧
        (s.kind.view q').cell.getD a 0 < (sizes m r).getD a 0) ∨
      (q'.tag ≠ alive ∧ q'.tag ≠ dead ∧ ∃ d ∈ allDirs s.kind.D, dir2tag s.kind.D d = .ok q'.tag ∧
        Left m r d (s.kind.view q').cell) := by
    have hi : ∀ (a : Nat) (ha : a < mv.length), -1 ≤ (mv[a]).i ∧
        (mv[a]).i ≤ ((sizes m r).getD a 0 : Int) ∧ 1 ≤ ((sizes m r).getD a 0 : Int) := by
      intro a ha
      have ha' : a < s.kind.D := by omega
      have hax0 : a < (axes s.kind.D { q with ux1 := u.x, ux2 := u.y, ux3 := u.z }).length := by
        rw [axes_length hD']; exact ha'
      have e := axes_get hD' q u ha'
      rw [List.getD_eq_getElem?_getD, List.getElem?_eq_getElem hax0, Option.getD_some] at e
      have hc := hin a ha'
      rw [(view_axes hD' q).1] at hc
      have hm : mv[a].i = (pushAxis ((axes s.kind.D { q with ux1 := u.x, ux2 := u.y, ux3 := u.z })[a].u
          / P.dx * s.dtE u) (axes s.kind.D { q with ux1 := u.x, ux2 := u.y, ux3 := u.z })[a]).i := by
        simp only [hmvd, List.getElem_map]
      have hpi := pushAxis_i ((axes s.kind.D { q with ux1 := u.x, ux2 := u.y, ux3 := u.z })[a].u
          / P.dx * s.dtE u) (axes s.kind.D { q with ux1 := u.x, ux2 := u.y, ux3 := u.z })[a]
      rw [← hm] at hpi
      have hai : (axes s.kind.D { q with ux1 := u.x, ux2 := u.y, ux3 := u.z })[a].i =
          ((axes s.kind.D q).map (·.i)).getD a 0 := by rw [e]
      rw [hai] at hpi
      omega
    have hnear : Near (sidesOf m r) ⟨mv, [], alive⟩ := by
      refine ⟨?_, by rw [sidesOf_length h r, hml], ?_⟩
      · simp only [hml]
        simp at hD
        omega
      · intro a sd ax h1 h2
        simp only at h2
        obtain ⟨ha, rfl⟩ := List.getElem?_eq_some_iff.1 h2
        rw [sidesOf_get h hp hr (by omega)] at h1
        cases h1
        have := hi a ha
        simp only
        omega
    obtain ⟨p', hb', -, -, -, -, hfin⟩ := C24_boundaries _ _ hnear rfl
    rw [hb] at hb'
    cases hb'
    have hna : ¬ ∃ (k : Nat) (s : _) (a : _), (sidesOf m r)[k]? = some s ∧ mv[k]? = some a ∧
        Absorbed s a := by
      rintro ⟨a, sd, ax, h1, h2, h3⟩
      obtain ⟨ha, rfl⟩ := List.getElem?_eq_some_iff.1 h2
      rw [sidesOf_get h hp hr (by omega)] at h1
      cases h1
      unfold Absorbed at h3
      simp only at h3
      split_ifs at h3 <;> simp at h3
    have hcell : (s.kind.view q').cell = p.ax.map (·.i) := by rw [(view_axes hD' q').1, hax]
    rw [r5, hcell]
    rcases hfin hna with ⟨ht, hins⟩ | ⟨ht1, ht2, htd⟩
    · left
      refine ⟨ht, fun a ha => ?_⟩
      have ha' : a < p.ax.length := by omega
      have := hins a _ _ (sidesOf_get h hp hr (by omega)) (List.getElem?_eq_getElem ha')
      unfold Ax.Inside at this
      simp only [List.getD_eq_getElem?_getD, List.getElem?_map, List.getElem?_eq_getElem ha',
        Option.map_some, Option.getD_some] at this ⊢
      exact this
    · right
      have hml' : (⟨mv, [], alive⟩ : Particle K).ax.length = s.kind.D := by rw [hk]; exact hml
      rw [hml'] at htd
      simp at hD'
      obtain ⟨hd1, hd2⟩ := tag_dir (by omega) (by omega) htd
      refine ⟨ht1, ht2, _, hd1, hd2, ?_⟩
      intro a ha
      have hlo : (outDir (sidesOf m r) p.ax).length = dN.length := by
        simp [outDir, sidesOf_length h r, hpl, hk]
      have hadN : a < dN.length := by omega
      have ha' : a < p.ax.length := by omega
      have ham : a < mv.length := by omega
      have haT : a < T.length := by omega
      have e1 : (p.ax.map (·.i)).getD a 0 = (p.ax[a]).i := by simp [ha']
      have e2 : (outDir (sidesOf m r) p.ax).getD a 0 = if (p.ax[a]).i < 0 then -1 else
          if ((sizes m r).getD a 0 : Int) ≤ (p.ax[a]).i then 1 else 0 := by
        have hs' : a < (sidesOf m r).length := by rw [sidesOf_length h r]; exact hadN
        have hsg := sidesOf_get h hp hr hadN
        rw [List.getElem?_eq_getElem hs'] at hsg
        have hsg' := Option.some.inj hsg
        simp only [outDir, List.getD_eq_getElem?_getD, List.getElem?_zipWith,
          List.getElem?_eq_getElem hs', List.getElem?_eq_getElem ha', Option.map₂_some_some,
          Option.getD_some, hsg']
      have e3 : (p.ax[a]).i = (mv[a]).i + turn m r a (mv[a]).i := by
        have hT' : T[a] = turn m r a (mv[a]).i := by
          simp [hT, turns, ham]
        simp only [hpax, List.getElem_zipWith, axShift, hT']
      rw [e1, e2]
      have hia := hi a ham
      unfold turn at e3
      generalize (p.ax[a]).i = X at e3 ⊢
      generalize (mv[a]).i = Y at e3 hia
      refine ⟨fun hd => ?_, fun hd => ?_, fun hd => ?_⟩ <;>
        (split_ifs at e3 hd <;> first | omega | (exfalso; revert hd; decide))
  refine ⟨?_, ?_, hthird, ?_⟩
  · unfold boxPush
    rw [hkick, hmoved]
    rw [if_neg (by rw [hf]; simp)]
    simp only
    rw [(zip_i mv (offI m r)).1, (zip_i mv (offI m r)).2, (zip_dx mv (offI m r) (by rw [hml, ho])).1,
      (zip_dx mv (offI m r) (by rw [hml, ho])).2]
    have g1 := globalCells_eq h hr (l := List.zipWith (· + ·) (mv.map (·.i)) T) (by simp [hml, hTl])
    have g2 := globalCells_eq h hr (l := List.zipWith (· + ·) (mv.map (·.iPrev)) T)
      (by simp [hml, hTl])
    rw [hwrap] at g1 g2
    simp only [gview, v1, v2, v3, v4, hu3, g1, g2]
    simp only [Kind.view, r1, r2, r3, r4]
  · intro hpl
    unfold PldOk at hpl ⊢
    rw [r3, r4]
    exact hpl
  · intro us hus c p0
    have htag : q'.tag ≠ dead := by
      rcases hthird with ⟨e, -⟩ | ⟨-, e, -⟩
      · rw [e]; decide
      · exact e
    have htag' : (toD P s q').tag ≠ dead := htag
    have := depositOne_shift (NG' := 0) hus
      (List.zipWith (fun x y => x - y) (offI m r) T) (by
        show _ = (axes s.kind.D q').length
        rw [hax, hpl, hk, List.length_zipWith, ho, hTl, min_self])
    have e1 : List.zipWith axShift (toD P s q').ax (List.zipWith (fun x y => x - y) (offI m r) T) =
        boxMoved P s x0 t (dN.map List.sum) g (gview m dN r s.kind q) := by
      rw [hmoved]
      show List.zipWith axShift (axes s.kind.D q') _ = _
      rw [hax, hpax, zip_axShift]
      congr 1
      apply List.ext_getElem
      · simp [hTl, ho]
      · intro a b1 b2
        simp
    rw [e1] at this
    have e2 : (toD P s q').weight = (gview m dN r s.kind q).weight := r1
    have hux2 : q'.ux2 = u.y := congrArg V3.y hmom
    have hux3 : q'.ux3 = u.z := congrArg V3.z hmom
    have hbd : boxDeposit P s x0 t (dN.map List.sum) g (gview m dN r s.kind q) =
        us.map (updShift ((List.zipWith (fun x y => x - y) (offI m r) T).map (· + 0 - (P.ng : Int)))) := by
      unfold boxDeposit
      rw [hkick]
      have e3 : (⟨boxMoved P s x0 t (dN.map List.sum) g (gview m dN r s.kind q),
          (gview m dN r s.kind q).weight, u.y / scale (dN.map List.sum).length P.dx 1 * s.invE u,
          u.z / scale (dN.map List.sum).length P.dx 2 * s.invE u, alive⟩ : DPrtl K) =
          { ({ toD P s q' with ax := boxMoved P s x0 t (dN.map List.sum) g (gview m dN r s.kind q) } :
              DPrtl K) with tag := alive } := by
        rw [← e2]
        simp only [toD, hmom, hux2, hux3, List.length_map, hk]
      simp only [cellSize_eq]
      have e4 := (congrArg (depositOne P.O 0 s.charge P.dt) e3).trans
        ((depositOne_tag P.O 0 s.charge P.dt
          { toD P s q' with ax := boxMoved P s x0 t (dN.map List.sum) g (gview m dN r s.kind q) }
          alive htag' (by decide)).trans this)
      rw [e4]
    rw [hbd]
    refine landed_congr ?_ ?_ us c p0
    · rw [origin_eq]; simp [ho, hTl]
    · intro a ha
      have ha' : a < dN.length := by simpa using ha
      have hd := hTd a ha
      have b1 : a < T.length := by omega
      have b2 : a < (offI m r).length := by omega
      rw [origin_eq]
      simp only [List.getD_eq_getElem?_getD, List.getElem?_zipWith, List.getElem?_map,
        List.getElem?_eq_getElem b1,
        List.getElem?_eq_getElem b2, Option.getD_some, Option.map₂_some_some, Option.map_some] at hd ⊢
      have e : (offI m r)[a] - (P.ng : Int) - ((offI m r)[a] - T[a] + 0 - P.ng) = T[a] := by ring
      rw [e]
      exact hd

end Entity.Full
