import Verif.Lemmas.FullMain
import Verif.Spec.FullSafe
import Verif.Props.Interp
import Verif.Props.DepositBounds
import Verif.Props.Gauss

/-!
# No part of a step fails
-/

namespace Entity.Full

open Entity Entity.Topology Entity.Kernel Entity.FieldSolver Entity.Push Entity.Prtl Entity.Ranks
open Entity.Deposit Entity.Interp Entity.Tags Entity.Decomp Entity.Gauss Entity.Dir Entity.Filter

variable {m : Meta} {dN : List (List Nat)}

/-! ## The pusher -/

theorem fold_set_ok {α : Type} {f : α → Outcome α} {body : List α → Nat → Outcome (List α)}
    (hb : ∀ arr p, body arr p = match arr[p]? with
      | none => .ub
      | some q => f q >>= fun q' => pure (arr.set p q')) {σ : List Nat} (hσ : σ.Nodup)
    {arr : List α} (h : ∀ p ∈ σ, ∃ q q', arr[p]? = some q ∧ f q = .ok q') :
    ∃ arr', σ.foldlM body arr = .ok arr' := by
  induction σ generalizing arr with
  | nil => exact ⟨arr, rfl⟩
  | cons x σ ih =>
    obtain ⟨hx, hn⟩ := List.nodup_cons.1 hσ
    obtain ⟨q, q', h1, h2⟩ := h x (by simp)
    rw [List.foldlM_cons, hb, h1]
    simp only
    rw [h2, Outcome.bind_ok]
    refine ih hn fun p hp => ?_
    obtain ⟨a, b, c1, c2⟩ := h p (by simp [hp])
    have : x ≠ p := fun e => hx (e ▸ hp)
    exact ⟨a, b, by rw [List.getElem?_set_ne this, c1], c2⟩

variable {K : Type} [Field K] [LinearOrder K] [IsStrictOrderedRing K] [FloorRing K]

theorem fieldAt_ok {P : StepPrm K} (hng : P.ng = nGhosts P.O) (hO : P.O ≤ 11) {n : List Nat}
    (hn : n.length ∈ [1, 2, 3]) {D : Nat} (v : Mem K) {pos : List (Int × K)}
    (hp : List.Forall₂ Interp.InBox n pos) (c : Comp) : ∃ x, fieldAt P D n v pos c = .ok x := by
  obtain ⟨x, hx⟩ := C33_interpolation_in_bounds P.O hO n hn pos hp
    (fun c idx => v ⟨0, compNo c, idx⟩) c
  rw [← hng] at hx
  exact ⟨x * scale D P.dx (compAxis c), by unfold fieldAt; rw [hx]; rfl⟩

theorem bc_ok (h : Built m dN) (hD : dN.length ∈ [1, 2, 3]) {r : Nat}
    {ax : List (Ax K)} (hl : ax.length = dN.length) (t : Int) :
    ∃ p, boundaryConditions true (sidesOf m r) ⟨ax, [], t⟩ = .ok p := by
  have hs := sidesOf_length h r
  unfold boundaryConditions
  rw [if_neg (by rw [hs, hl]; omega)]
  simp only [if_true]
  have hlen : (outFlags (sidesOf m r) (bcAxes 0 (sidesOf m r) ax t).1).length = dN.length := by
    unfold outFlags
    rw [List.length_zipWith, bcAxes_length, hs, hl, min_self]
  generalize outFlags (sidesOf m r) (bcAxes 0 (sidesOf m r) ax t).1 = L at *
  have : ∃ y, sendTag (bcAxes 0 (sidesOf m r) ax t).2 L = .ok y := by
    simp only [List.mem_cons, List.not_mem_nil, or_false] at hD
    match L, hlen with
    | [(a, b)], _ => exact ⟨_, rfl⟩
    | [(a, b), (c, d)], _ => exact ⟨_, rfl⟩
    | [(a, b), (c, d), (e, f)], _ => exact ⟨_, rfl⟩
    | [], hlen => simp at hlen; omega
    | _ :: _ :: _ :: _ :: _, hlen => simp at hlen; omega
  obtain ⟨y, hy⟩ := this
  rw [hy]
  exact ⟨_, rfl⟩

theorem forall₂_getD {α β : Type} {R : α → β → Prop} {l : List α} {l' : List β} (x : α) (y : β)
    (hl : l.length = l'.length) (h : ∀ a < l.length, R (l.getD a x) (l'.getD a y)) :
    List.Forall₂ R l l' := by
  rw [List.forall₂_iff_get]
  refine ⟨hl, fun a h1 h2 => ?_⟩
  have := h a h1
  simpa [List.getD_eq_getElem?_getD, h1, h2] using this

theorem getD_map {α β : Type} {f : α → β} {l : List α} {a : Nat} (x : α) (y : β)
    (ha : a < l.length) : (l.map f).getD a y = f (l.getD a x) := by
  simp [List.getD_eq_getElem?_getD, ha]

/-- A live particle is pushed. -/
theorem pushOne_ok (h : Built m dN) (hD : dN.length ∈ [1, 2, 3])
    {P : StepPrm K} (hng : P.ng = nGhosts P.O) (hO : P.O ≤ 11) {s : SpPrm K}
    (hk : s.kind.D = dN.length) {r : Nat} (hr : r < m.doms.length) (low : List K) (t : Nat)
    (v : Mem K) {q : Prtl K} (hq : q.tag = 0 ∨ q.tag = 1)
    (hin : q.tag = 1 → ∀ a < s.kind.D, 0 ≤ (s.kind.view q).cell.getD a 0 ∧
      (s.kind.view q).cell.getD a 0 < (sizes m r).getD a 0)
    (hdx : q.tag = 1 → OffsetOk (s.kind.view q)) :
    ∃ q', pushOne P s t low (sidesOf m r) (sizes m r) v q = .ok q' := by
  have hD' : s.kind.D ∈ [1, 2, 3] := hk ▸ hD
  unfold pushOne
  rcases hq with e | e
  · refine ⟨q, ?_⟩
    rw [if_pos (by rw [e]; decide), if_neg (by rw [e]; decide)]
  · rw [if_neg (by rw [e]; decide)]
    have hpos : List.Forall₂ Interp.InBox (sizes m r)
        ((axes s.kind.D q).map fun a => (a.i, a.dx)) := by
      obtain ⟨v1, -, v3, -⟩ := view_axes hD' q
      have hal := axes_length hD' q
      refine forall₂_getD 0 (0, 0) (by rw [sizes_length h hr, List.length_map, hal, hk]) ?_
      intro a ha
      rw [sizes_length h hr] at ha
      have ha' : a < (axes s.kind.D q).length := by omega
      rw [getD_map ⟨0, 0, 0, 0, 0⟩ _ ha']
      have c1 := hin e a (by omega)
      rw [v1, getD_map ⟨0, 0, 0, 0, 0⟩ _ ha'] at c1
      have c2 := hdx e ((axes s.kind.D q)[a].dx) (by
        rw [v3]; exact List.mem_map_of_mem (List.getElem_mem ha'))
      have e2 : (axes s.kind.D q).getD a ⟨0, 0, 0, 0, 0⟩ = (axes s.kind.D q)[a] := by
        simp [List.getD_eq_getElem?_getD, ha']
      rw [e2] at c1 ⊢
      exact ⟨c1.1, c1.2, c2.1, c2.2.le⟩
    have hF := fun c => fieldAt_ok (D := s.kind.D) hng hO
      (by rw [sizes_length h hr]; exact hD) v hpos c
    obtain ⟨e1, g1⟩ := hF .ex1
    obtain ⟨e2, g2⟩ := hF .ex2
    obtain ⟨e3, g3⟩ := hF .ex3
    obtain ⟨b1, g4⟩ := hF .bx1
    obtain ⟨b2, g5⟩ := hF .bx2
    obtain ⟨b3, g6⟩ := hF .bx3
    simp only [g1, g2, g3, g4, g5, g6, Outcome.bind_ok]
    obtain ⟨p, hp⟩ := bc_ok (K := K) h hD (r := r)
      (ax := (axes s.kind.D { q with
          ux1 := (s.kick t (List.zipWith (fun (a : Ax K) x => iDiToXi a.i a.dx * P.dx + x)
            (axes s.kind.D q) low) ⟨e1, e2, e3⟩ ⟨b1, b2, b3⟩ (momentum q)).x
          ux2 := (s.kick t (List.zipWith (fun (a : Ax K) x => iDiToXi a.i a.dx * P.dx + x)
            (axes s.kind.D q) low) ⟨e1, e2, e3⟩ ⟨b1, b2, b3⟩ (momentum q)).y
          ux3 := (s.kick t (List.zipWith (fun (a : Ax K) x => iDiToXi a.i a.dx * P.dx + x)
            (axes s.kind.D q) low) ⟨e1, e2, e3⟩ ⟨b1, b2, b3⟩ (momentum q)).z }).map fun a =>
        pushAxis (a.u / P.dx * s.dtE (s.kick t (List.zipWith
          (fun (a : Ax K) x => iDiToXi a.i a.dx * P.dx + x)
            (axes s.kind.D q) low) ⟨e1, e2, e3⟩ ⟨b1, b2, b3⟩ (momentum q))) a)
      (by rw [List.length_map, axes_length hD', hk]) q.tag
    rw [hp]
    exact ⟨_, rfl⟩

theorem pushStore_ok (h : Built m dN) (hD : dN.length ∈ [1, 2, 3])
    {P : StepPrm K} (hng : P.ng = nGhosts P.O) (hO : P.O ≤ 11) {s : SpPrm K}
    (hk : s.kind.D = dN.length) {r : Nat} (hr : r < m.doms.length) (low : List K) (t : Nat)
    (v : Mem K) {st : Store K} (ht : Tame m s.kind r st)
    (hdx : ∀ q ∈ st.live, OffsetOk (s.kind.view q)) {σ : List Nat}
    (hσ : σ.Perm (List.range st.npart)) :
    ∃ st', pushStore P s t low (sidesOf m r) (sizes m r) v σ st = .ok st' := by
  unfold pushStore
  split_ifs with h0
  · exact ⟨_, rfl⟩
  · obtain ⟨arr', ha⟩ := fold_set_ok (f := pushOne P s t low (sidesOf m r) (sizes m r) v)
      (body := pushBody P s t low (sidesOf m r) (sizes m r) v)
      (fun arr p => by unfold pushBody; cases arr[p]? <;> rfl)
      (hσ.nodup_iff.2 List.nodup_range) (arr := st.arr) (by
        intro p hp
        have hpn : p < st.npart := List.mem_range.1 (hσ.mem_iff.1 hp)
        have hlt : p < st.arr.length := by
          have := ht.npart; unfold Store.maxnpart at this; omega
        have hu : st.arr[p] ∈ st.used := by
          unfold Store.used
          rw [List.mem_take_iff_getElem]; exact ⟨p, by omega, rfl⟩
        obtain ⟨q', hq'⟩ := pushOne_ok h hD hng hO hk hr low t v (ht.tags _ hu)
          (fun e => ht.inside _ (List.mem_filter.2 ⟨hu, decide_eq_true e⟩))
          (fun e => hdx _ (List.mem_filter.2 ⟨hu, decide_eq_true e⟩))
        exact ⟨_, q', List.getElem?_eq_getElem hlt, hq'⟩)
    rw [ha]
    exact ⟨_, rfl⟩

/-! ## The deposit -/

theorem pushAxis_dx {a : Ax K} {d : K} (hdx : 0 ≤ a.dx ∧ a.dx < 1) (hd : |d| < 1) :
    0 ≤ (pushAxis d a).dx ∧ (pushAxis d a).dx < 1 := by
  obtain ⟨h1, h2⟩ := abs_lt.1 hd
  unfold pushAxis Push.b2n
  simp only
  by_cases c1 : a.dx + d ≥ 1
  · have c3 : ¬ a.dx + d - 1 < 0 := by linarith
    simp only [c1, decide_true, decide_false, if_true, if_false, Bool.false_eq_true, c3]
    constructor <;> linarith
  · by_cases c2 : a.dx + d < 0
    · have c3 : a.dx + d - 0 < 0 := by linarith
      simp only [c1, decide_true, decide_false, if_true, if_false, Bool.false_eq_true, c3]
      constructor <;> linarith
    · have c3 : ¬ a.dx + d - 0 < 0 := by linarith
      simp only [c1, decide_false, if_false, Bool.false_eq_true, c3]
      constructor <;> linarith

/-- One axis of a pushed particle. -/
theorem axis_within {O : Nat} (hO : O = 0 ∨ O % 2 = 1) {n : Nat} (hn : 1 ≤ n) {a : Ax K} {d : K}
    {t : Int} (hi : 0 ≤ a.i ∧ a.i < n) (hdx : 0 ≤ a.dx ∧ a.dx < 1) (hd : |d| < 1)
    (ht : t = 0 ∨ (t = n ∧ (pushAxis d a).i < 0) ∨ (t = -(n : Int) ∧ (n : Int) ≤ (pushAxis d a).i)) :
    Within O n (axShift (pushAxis d a) t) := by
  obtain ⟨h1, h2⟩ := abs_lt.1 hd
  have hR : reach O n = (n : K) + 1 := by unfold reach; rw [if_pos hO]
  have hx : (pushAxis d a).dx = a.dx + d - (((pushAxis d a).i - a.i : Int) : K) ∧
      0 ≤ (pushAxis d a).dx ∧ (pushAxis d a).dx < 1 ∧ (pushAxis d a).iPrev = a.i ∧
      (pushAxis d a).dxPrev = a.dx ∧
      (pushAxis d a).i - a.i ≤ 1 ∧ a.i - (pushAxis d a).i ≤ 1 := by
    unfold pushAxis Push.b2i Push.b2n
    simp only
    by_cases c1 : a.dx + d ≥ 1
    · have c2 : ¬ a.dx + d < 0 := by linarith
      have c3 : ¬ a.dx + d - 1 < 0 := by linarith
      simp only [c1, c2, decide_true, decide_false, if_true, if_false, Bool.false_eq_true, c3]
      refine ⟨by push_cast; ring, by linarith, by linarith, trivial, trivial, by omega, by omega⟩
    · by_cases c2 : a.dx + d < 0
      · have c3 : a.dx + d - 0 < 0 := by linarith
        simp only [c1, c2, decide_true, decide_false, if_true, if_false, Bool.false_eq_true, c3]
        refine ⟨by push_cast; ring, by linarith, by linarith, trivial, trivial, by omega, by omega⟩
      · have c3 : ¬ a.dx + d - 0 < 0 := by linarith
        simp only [c1, c2, decide_true, decide_false, if_true, if_false, Bool.false_eq_true, c3]
        refine ⟨by push_cast; ring, by linarith, by linarith, trivial, trivial, by omega, by omega⟩
  obtain ⟨x1, x2, x3, x4, x5, x6, x7⟩ := hx
  set b := pushAxis d a with hb
  have hnew : xNew (axShift b t) = (b.i : K) + t + b.dx := by
    unfold xNew axShift; push_cast; ring
  have hold : xOld (axShift b t) = (a.i : K) + t + a.dx := by
    unfold xOld axShift; rw [x4, x5]; push_cast; ring
  have hsub : (b.i : K) + b.dx = (a.i : K) + a.dx + d := by rw [x1]; push_cast; ring
  have i0 : (0 : K) ≤ a.i := by exact_mod_cast hi.1
  have i1 : (a.i : K) + 1 ≤ n := by exact_mod_cast (by omega : a.i + 1 ≤ n)
  have hbi : (-1 : Int) ≤ b.i ∧ b.i ≤ n := by omega
  refine ⟨⟨?_, ?_, ?_, ?_, ?_⟩, ?_, ?_, ?_, ?_⟩
  · show 0 ≤ b.dxPrev; rw [x5]; exact hdx.1
  · show b.dxPrev ≤ 1; rw [x5]; exact hdx.2.le
  · exact x2
  · exact x3.le
  · show |(((b.i + t : Int) : K) + b.dx) - (((b.iPrev + t : Int) : K) + b.dxPrev)| < 1
    rw [x4, x5]
    push_cast
    have : (b.i : K) + t + b.dx - (a.i + t + a.dx) = d := by linarith
    rw [this]; exact hd
  all_goals
    first | rw [hold] | rw [hnew]
    rcases ht with rfl | ⟨rfl, hc⟩ | ⟨rfl, hc⟩
    all_goals try rw [hR]
    all_goals push_cast
  all_goals
    first
    | (have g1 : (b.i : K) ≤ -1 := by exact_mod_cast (by omega : b.i ≤ -1)
       have g2 : (-1 : K) ≤ b.i := by exact_mod_cast hbi.1
       have g3 : a.i = 0 := by omega
       have g4 : (a.i : K) = 0 := by rw [g3]; simp
       linarith)
    | (have g1 : (n : K) ≤ b.i := by exact_mod_cast hc
       have g2 : (b.i : K) ≤ n := by exact_mod_cast hbi.2
       have g3 : a.i = n - 1 := by omega
       have g4 : (a.i : K) = n - 1 := by rw [g3]; push_cast; ring
       linarith)
    | linarith
    | (have g1 : (-1 : K) ≤ b.i := by exact_mod_cast hbi.1
       have g2 : (b.i : K) ≤ n := by exact_mod_cast hbi.2
       linarith)

/-- A pushed particle can be deposited. -/
theorem push_within (h : Built m dN) (hp : AllPeriodic m) (hD : dN.length ∈ [1, 2, 3])
    {P : StepPrm K} {O : Nat} (hO : O = 0 ∨ O % 2 = 1) {s : SpPrm K} (hk : s.kind.D = dN.length)
    (hs : Slow P s) {r : Nat} (hr : r < m.doms.length) {low : List K} {t : Nat} {v : Mem K}
    {q q' : Prtl K} (hq : q.tag = alive)
    (hin : ∀ a < s.kind.D, 0 ≤ (s.kind.view q).cell.getD a 0 ∧
      (s.kind.view q).cell.getD a 0 < (sizes m r).getD a 0) (hdx : OffsetOk (s.kind.view q))
    (hpush : pushOne P s t low (sidesOf m r) (sizes m r) v q = .ok q') :
    List.Forall₂ (Within O) (sizes m r) (axes s.kind.D q') := by
  have hD' : s.kind.D ∈ [1, 2, 3] := hk ▸ hD
  obtain ⟨e1, e2, e3, b1, b2, b3, u, p, -, -, -, -, -, -, -, hb, hq'⟩ := pushOne_inv hq hpush
  set mv := (axes s.kind.D { q with ux1 := u.x, ux2 := u.y, ux3 := u.z }).map
        fun a => pushAxis (a.u / P.dx * s.dtE u) a with hmvd
  have hml : mv.length = dN.length := by rw [hmvd, List.length_map, axes_length hD', hk]
  have hpax := bc_zip h hp hr hml hb
  set T := turns m dN r mv with hT
  have hTl : T.length = dN.length := by simp [hT, turns]
  have hpl : p.ax.length = s.kind.D := by
    rw [hpax, List.length_zipWith, hml, hTl, min_self, hk]
  have hax : axes s.kind.D q' = p.ax := by rw [hq']; exact axes_setAxes hD' hpl _
  rw [hax, List.forall₂_iff_get]
  refine ⟨by rw [sizes_length h hr, hpl, hk], fun a h1 h2 => ?_⟩
  rw [sizes_length h hr] at h1
  have ha : a < s.kind.D := by omega
  have ham : a < mv.length := by omega
  have hax0 : a < (axes s.kind.D { q with ux1 := u.x, ux2 := u.y, ux3 := u.z }).length := by
    rw [axes_length hD']; exact ha
  have e := axes_get hD' q u ha
  rw [List.getD_eq_getElem?_getD, List.getElem?_eq_getElem hax0, Option.getD_some] at e
  obtain ⟨v1, -, v3, -⟩ := view_axes hD' q
  have hc := hin a ha
  rw [v1] at hc
  have haq : a < (axes s.kind.D q).length := by rw [axes_length hD']; exact ha
  have hx := hdx (((axes s.kind.D q).map (·.dx)).getD a 0) (by
    rw [v3, getD_map ⟨0, 0, 0, 0, 0⟩ _ haq]
    exact List.mem_map_of_mem (by
      rw [List.getD_eq_getElem?_getD, List.getElem?_eq_getElem haq, Option.getD_some]
      exact List.getElem_mem haq))
  have hsz : (sizes m r).getD a 0 = (sizes m r)[a]'(by rw [sizes_length h hr]; exact h1) := by
    rw [List.getD_eq_getElem?_getD, List.getElem?_eq_getElem, Option.getD_some]
  have hTa : T[a]'(by omega) = turn m r a (mv[a]).i := by simp [hT, turns, ham]
  have hmva : mv[a] = pushAxis ((axes s.kind.D { q with ux1 := u.x, ux2 := u.y, ux3 := u.z })[a].u
          / P.dx * s.dtE u) (axes s.kind.D { q with ux1 := u.x, ux2 := u.y, ux3 := u.z })[a] := by
    simp only [hmvd, List.getElem_map]
  have hpa : p.ax.get ⟨a, h2⟩ = axShift (mv[a]) (T[a]'(by omega)) := by
    simp only [List.get_eq_getElem, hpax, List.getElem_zipWith]
  rw [hpa, hTa]
  set A := (axes s.kind.D { q with ux1 := u.x, ux2 := u.y, ux3 := u.z })[a] with hA
  have hd : |A.u / P.dx * s.dtE u| < 1 := by
    have hu : A.u = [u.x, u.y, u.z].getD a 0 := by rw [e]
    rw [hu]
    obtain ⟨s1, s2, s3⟩ := hs u
    have key : ∀ b < 3, |[u.x, u.y, u.z].getD b 0 / P.dx * s.dtE u| < 1 := by
      intro b hb
      interval_cases b
      · exact s1
      · exact s2
      · exact s3
    exact key a (by simp at hD; omega)
  show Within O ((sizes m r)[a]'(by rw [sizes_length h hr]; exact h1)) _
  rw [← hsz, hmva]
  refine axis_within hO (by omega) (by rw [e]; exact hc) (by rw [e]; exact hx) hd ?_
  unfold turn
  split_ifs with c1 c2 c3
  · exact Or.inr (Or.inl ⟨rfl, c2⟩)
  · exact Or.inr (Or.inr ⟨rfl, c3⟩)
  · exact Or.inl rfl
  · exact Or.inl rfl

/-- All particles of a species after the push. -/
theorem used_within (h : Built m dN) (hp : AllPeriodic m) (hD : dN.length ∈ [1, 2, 3])
    {P : StepPrm K} {O : Nat} (hO : O = 0 ∨ O % 2 = 1) {s : SpPrm K} (hk : s.kind.D = dN.length)
    (hf : s.frozen = false) (hs : Slow P s) {r : Nat} (hr : r < m.doms.length) {low : List K}
    {t : Nat} {v : Mem K} {st st' : Store K} (ht : Tame m s.kind r st)
    (hdx : ∀ q ∈ st.live, OffsetOk (s.kind.view q)) {σ : List Nat}
    (hσ : σ.Perm (List.range st.npart))
    (hpush : pushStore P s t low (sidesOf m r) (sizes m r) v σ st = .ok st') :
    ∀ q' ∈ st'.used, q'.tag = dead ∨ List.Forall₂ (Within O) (sizes m r) (axes s.kind.D q') := by
  obtain ⟨-, -, i3, -⟩ := pushStore_spec hσ hf hpush
  intro q' hq'
  obtain ⟨j, hj, rfl⟩ := List.getElem_of_mem hq'
  have hl := i3.length_eq
  have hm : st.used[j] ∈ st.used := List.getElem_mem _
  have e := (List.forall₂_iff_get.1 i3).2 j (by omega) hj
  simp only [List.get_eq_getElem] at e
  rcases ht.tags _ hm with e0 | e0
  · left
    unfold pushOne at e
    rw [if_pos (by rw [e0]; decide), if_neg (by rw [e0]; decide)] at e
    have e' := Outcome.ok.inj e
    have e2 : st'.used[j] = st.used[j] := e'.symm
    rw [e2]
    exact e0
  · right
    have hm' : st.used[j] ∈ st.live := List.mem_filter.2 ⟨hm, decide_eq_true e0⟩
    exact push_within h hp hD hO hk hs hr e0 (ht.inside _ hm') (hdx _ hm') e

theorem mapM_ok {α β : Type} {f : α → Outcome β} {l : List α} (h : ∀ x ∈ l, ∃ y, f x = .ok y) :
    ∃ ys, l.mapM f = .ok ys ∧ ∀ y ∈ ys, ∃ x ∈ l, f x = .ok y := by
  induction l with
  | nil => exact ⟨[], rfl, by simp⟩
  | cons x l ih =>
    obtain ⟨y, hy⟩ := h x (by simp)
    obtain ⟨ys, e1, e2⟩ := ih fun z hz => h z (by simp [hz])
    refine ⟨y :: ys, by rw [List.mapM_cons, hy, Outcome.bind_ok, e1]; rfl, ?_⟩
    intro z hz
    rcases List.mem_cons.1 hz with rfl | hz
    · exact ⟨x, by simp, hy⟩
    · obtain ⟨w, a, b⟩ := e2 z hz
      exact ⟨w, by simp [a], b⟩

theorem applyAll_ok {nAll : List Nat} {us : List (Upd K)}
    (h : ∀ u ∈ us, Deposit.inArray nAll u.idx = true) (J : Cur K) :
    ∃ J', applyAll nAll us J = .ok J' := by
  induction us generalizing J with
  | nil => exact ⟨J, rfl⟩
  | cons u us ih =>
    simp only [applyAll, List.foldlM_cons, applyUpd, h u (by simp), if_true, Outcome.bind_ok]
    exact ih (fun w hw => h w (by simp [hw])) _

theorem inArray_of_applyAll {nAll : List Nat} {us : List (Upd K)} {J J' : Cur K}
    (h : applyAll nAll us J = .ok J') : ∀ u ∈ us, Deposit.inArray nAll u.idx = true := by
  induction us generalizing J with
  | nil => simp
  | cons u us ih =>
    rw [applyAll, List.foldlM_cons] at h
    obtain ⟨J1, h1, h2⟩ := Outcome.bind_eq_ok.1 h
    intro w hw
    rcases List.mem_cons.1 hw with rfl | hw
    · unfold applyUpd at h1
      split_ifs at h1 with c
      exact c
    · exact ih h2 w hw

/-- The deposit of a rank succeeds. -/
theorem deposit_ok (h : Built m dN) (hD : dN.length ∈ [1, 2, 3]) {P : StepPrm K}
    (hng : P.ng = nGhosts P.O) (hO : P.O ≤ 11) {sps : List (SpPrm K)} {st : Nat → Nat → Store K}
    {r : Nat} (hr : r < m.doms.length)
    (hw : ∀ s sp, sps[s]? = some sp → sp.frozen = false → ∀ q ∈ (st s r).used,
      q.tag = dead ∨ List.Forall₂ (Within P.O) (sizes m r) (axes sp.kind.D q)) :
    ∃ uss, ((depositors P sps st r).filter deposits).mapM
        (fun s => depositAll P.O P.ng s.charge P.dt s.ps) = .ok uss ∧
      ∀ vs, vs.Perm uss.flatten →
        ∃ J, applyAll ((sizes m r).map (· + 2 * P.ng)) vs (fun _ _ => 0) = .ok J := by
  have key : ∀ x ∈ (depositors P sps st r).filter deposits, ∃ us,
      depositAll P.O P.ng x.charge P.dt x.ps = .ok us ∧
      ∀ u ∈ us, Deposit.inArray ((sizes m r).map (· + 2 * P.ng)) u.idx = true := by
    intro x hx
    obtain ⟨hx1, hx2⟩ := List.mem_filter.1 hx
    obtain ⟨s, hs, rfl⟩ := List.mem_mapIdx.1 hx1
    have hfr : sps[s].frozen = false := by
      unfold deposits at hx2
      simp only [Bool.and_eq_true, Bool.not_eq_true'] at hx2
      exact hx2.1.1
    obtain ⟨us, g1, g2⟩ := C33_deposit_in_bounds_partial P.O hO (sizes m r)
      (by rw [sizes_length h hr]; exact hD) sps[s].charge P.dt
      (((st s r).arr.take (st s r).npart).map (toD P sps[s])) (by
        intro p hp
        obtain ⟨q, hq, rfl⟩ := List.mem_map.1 hp
        exact hw s _ (List.getElem?_eq_getElem hs) hfr q hq)
    rw [← hng] at g1 g2
    obtain ⟨J, hJ⟩ := g2 us (.refl _) (fun _ _ => 0)
    exact ⟨us, g1, inArray_of_applyAll hJ⟩
  obtain ⟨uss, k1, k2⟩ := mapM_ok (fun x hx => (key x hx).imp fun _ e => e.1)
  refine ⟨uss, k1, fun vs hvs => applyAll_ok (fun u hu => ?_) _⟩
  obtain ⟨us, hus, hu'⟩ := List.mem_flatten.1 (hvs.mem_iff.1 hu)
  obtain ⟨x, hx, e⟩ := k2 us hus
  obtain ⟨us', e1, e2⟩ := key x hx
  rw [e] at e1
  cases e1
  exact e2 u hu'

/-! ## The exchange -/

variable [Inhabited K]

/-- Arrays with more room. -/
def pad (k : Kind) (n : Nat) (s : Store K) : Store K :=
  ⟨s.arr ++ List.replicate n ⟨0, 0, 0, 0, 0, 0, 0, 0, 0, 0, 0, 0, 0, 0, 0, 0, 0,
    List.replicate k.npldr 0, List.replicate k.npldi 0, 0⟩, s.npart⟩

theorem pad_used {k : Kind} {n : Nat} {s : Store K} (hs : s.npart ≤ s.maxnpart) :
    (pad k n s).used = s.used := by
  unfold Store.used pad
  unfold Store.maxnpart at hs
  simp only
  rw [List.take_append_of_le_length hs]

theorem pad_live {k : Kind} {n : Nat} {s : Store K} (hs : s.npart ≤ s.maxnpart) :
    (pad k n s).live = s.live := by
  unfold Store.live; rw [pad_used hs]

theorem pad_max (k : Kind) (n : Nat) (s : Store K) : (pad k n s).maxnpart = s.maxnpart + n := by
  unfold Store.maxnpart pad; simp

theorem pad_pushed {k : Kind} {r n : Nat} {s : Store K} (hs : Pushed m k r s) :
    Pushed m k r (pad k n s) := by
  refine ⟨?_, ?_, ?_⟩
  · rw [pad_max]; have := hs.npart; show s.npart ≤ _; omega
  · rw [pad_used hs.npart]; exact hs.after
  · intro q hq
    rcases List.mem_append.1 hq with hq | hq
    · exact hs.payload q hq
    · rw [(List.mem_replicate.1 hq).2]
      exact ⟨by simp, by simp⟩

theorem pushed_ready (h : Built m dN) (hp : AllPeriodic m) (hD : dN.length ∈ [1, 2, 3]) {k : Kind}
    (hk : k.D = dN.length) {f : Nat → Store K}
    (hf : ∀ r, r < m.doms.length → Pushed m k r (f r)) : Ready m k f := by
  have h1 : 1 ≤ k.D := by rw [hk]; simp at hD; omega
  have h3 : k.D ≤ 3 := by rw [hk]; simp at hD; omega
  refine ⟨fun r hr => (hf r hr).npart, fun r hr q hq => ?_, fun r hr q hq =>
    (hf r hr).payload q (List.mem_of_mem_take hq)⟩
  rcases (hf r hr).after q hq with e | ⟨e, -⟩ | ⟨-, -, d, hd, e, -⟩
  · exact Or.inl e
  · exact Or.inr (Or.inl e)
  · exact Or.inr (Or.inr ⟨d, hd, e, Or.inl (sendTo_some h hp hk h1 h3 hd hr)⟩)

/-- What arrives at a rank is at most what there is in the box. -/
theorem arrivals_le (h : Built m dN) (hp : AllPeriodic m) (hD : dN.length ∈ [1, 2, 3])
    (hpos : ∀ l ∈ dN, ∀ x ∈ l, 0 < x) {k : Kind} (hk : k.D = dN.length) {f : Nat → Store K}
    (hf : ∀ r, r < m.doms.length → Pushed m k r (f r)) {r : Nat} (hr : r < m.doms.length) :
    (arrivals m k f r).length ≤ ((List.range m.doms.length).flatMap fun (r : Nat) =>
      (moving (f r)).map (gview m dN r k)).length := by
  have h1 : 1 ≤ k.D := by rw [hk]; simp at hD; omega
  have h3 : k.D ≤ 3 := by rw [hk]; simp at hD; omega
  have harr : ∀ (g g' : Nat → Store K), (∀ r, r < m.doms.length → (g r).used = (g' r).used) →
      ∀ r, r < m.doms.length → arrivals m k g r = arrivals m k g' r := by
    intro g g' hg r hr
    unfold arrivals
    apply flatMap_congr'
    intro d hd
    cases hrf : recvFrom m r d with
    | none => rfl
    | some q =>
      simp only
      have hsl := (partner h hp.good hk h1 h3 hd hr).2.2.1 q hrf
      unfold leaving
      rw [hg q hsl]
  set n : Nat → Nat := fun r => (f r).npart + (arrivals m k f r).length + 1 with hn
  set g : Nat → Store K := fun r => pad k (n r) (f r) with hg
  set st := (List.range m.doms.length).map g with hst
  have hF : ∀ r, r < m.doms.length → st.getD r ⟨[], 0⟩ = g r := by intro r hr; simp [hst, hr]
  have hu : ∀ r, r < m.doms.length → (g r).used = (f r).used := fun r hr =>
    pad_used (hf r hr).npart
  have hgp : ∀ r, r < m.doms.length → Pushed m k r (g r) := fun r hr => pad_pushed (hf r hr)
  have ha : ∀ r, r < m.doms.length →
      arrivals m k (fun r => st.getD r ⟨[], 0⟩) r = arrivals m k f r :=
    harr _ _ fun r hr => by simp only [hF r hr]; exact hu r hr
  let S : Nat → Scheds := fun _ => ⟨List.range, List.range, fun _ => List.range, List.range⟩
  have hS : ∀ r, r < m.doms.length → AnyOrder (S r) := fun r _ =>
    ⟨fun _ => .refl _, fun _ => .refl _, fun _ _ => .refl _, fun _ => .refl _⟩
  have hready : Ready m k fun r => st.getD r ⟨[], 0⟩ := by
    have := pushed_ready h hp hD hk hgp
    exact ⟨fun r hr => by simp only [hF r hr]; exact this.npart r hr,
      fun r hr q hq => by simp only [hF r hr] at hq; exact this.marked r hr q hq,
      fun r hr q hq => by simp only [hF r hr] at hq; exact this.payload r hr q hq⟩
  obtain ⟨l, e1, e2, e3⟩ := C16_exchange m dN h hp.good k hk h1 h3 st hready S
    (fun r hr => by obtain ⟨a, b, c, d⟩ := hS r hr; exact ⟨a, b, c, d⟩) (by
      intro r hr
      rw [ha r hr, hF r hr]
      simp only [hg, pad_max]
      show (f r).npart + _ < _
      simp only [hn]; omega)
  have hl : ∀ r, r < m.doms.length → l[r]? = some (l.getD r ⟨[], 0⟩) := by
    intro r hr
    rw [List.getD_eq_getElem?_getD, List.getElem?_eq_getElem (by omega), Option.getD_some]
  obtain ⟨-, x2, -⟩ := exch_species h hp hD hpos hk hgp hS e1 hl
  have hmv : ((List.range m.doms.length).flatMap fun (r : Nat) =>
      (moving (g r)).map (gview m dN r k)) = (List.range m.doms.length).flatMap fun (r : Nat) =>
      (moving (f r)).map (gview m dN r k) := by
    apply flatMap_congr'
    intro r hr
    unfold moving
    rw [hu r (List.mem_range.1 hr)]
  rw [← hmv, ← x2.length_eq]
  obtain ⟨s', y1, -, -, -, -, y6⟩ := e3 r hr
  have ys : l.getD r ⟨[], 0⟩ = s' := by
    rw [List.getD_eq_getElem?_getD, y1]; rfl
  have hle : s'.live.length ≤ (held m dN k fun r => l.getD r ⟨[], 0⟩).length := by
    unfold held
    rw [List.length_flatMap]
    have hmem : (s'.live.map (gview m dN r k)).length ∈ (List.range m.doms.length).map
        (fun (r : Nat) => ((l.getD r ⟨[], 0⟩).live.map (gview m dN r k)).length) := by
      refine List.mem_map.2 ⟨r, List.mem_range.2 hr, ?_⟩
      simp only [ys]
    have := List.single_le_sum (by simp) _ hmem
    simpa using this
  have := y6.length_eq
  rw [List.length_map, List.length_append, ha r hr] at this
  omega

theorem exchange_ok (h : Built m dN) (hp : AllPeriodic m) (hD : dN.length ∈ [1, 2, 3])
    (hpos : ∀ l ∈ dN, ∀ x ∈ l, 0 < x) {k : Kind} (hk : k.D = dN.length) {f : Nat → Store K}
    (hf : ∀ r, r < m.doms.length → Pushed m k r (f r)) {C T : Nat}
    (hT : ((List.range m.doms.length).flatMap fun (r : Nat) =>
      (moving (f r)).map (gview m dN r k)).length ≤ T)
    (hu : ∀ r, r < m.doms.length → (f r).npart ≤ C)
    (hc : ∀ r, r < m.doms.length → C + T < (f r).maxnpart) {S : Nat → Scheds}
    (hS : ∀ r, r < m.doms.length → AnyOrder (S r)) :
    ∃ l, communicateParticles m k ((List.range m.doms.length).map f) S = .ok l ∧
      l.length = m.doms.length := by
  have h1 : 1 ≤ k.D := by rw [hk]; simp at hD; omega
  have h3 : k.D ≤ 3 := by rw [hk]; simp at hD; omega
  set st := (List.range m.doms.length).map f with hst
  have hF : ∀ r, r < m.doms.length → st.getD r ⟨[], 0⟩ = f r := by intro r hr; simp [hst, hr]
  have hgp : ∀ r, r < m.doms.length → Pushed m k r (st.getD r ⟨[], 0⟩) := fun r hr => by
    rw [hF r hr]; exact hf r hr
  obtain ⟨l, e1, e2, -⟩ := C16_exchange m dN h hp.good k hk h1 h3 st
    (pushed_ready h hp hD hk hgp) S
    (fun r hr => by obtain ⟨a, b, c, d⟩ := hS r hr; exact ⟨a, b, c, d⟩) (by
      intro r hr
      have ha := arrivals_le h hp hD hpos hk hgp hr
      have hmv : ((List.range m.doms.length).flatMap fun (r : Nat) =>
          (moving (st.getD r ⟨[], 0⟩)).map (gview m dN r k)) =
          (List.range m.doms.length).flatMap fun (r : Nat) =>
          (moving (f r)).map (gview m dN r k) := by
        apply flatMap_congr'
        intro r hr
        rw [hF r (List.mem_range.1 hr)]
      rw [hmv] at ha
      rw [hF r hr]
      have := hu r hr
      have := hc r hr
      omega)
  exact ⟨l, e1, e2⟩

/-! ## Removal and sorting -/

section
variable {k : Kind} {r : Nat} {a b : Store K}

omit [Field K] [LinearOrder K] [IsStrictOrderedRing K] [FloorRing K] [Inhabited K] in
theorem live_le (hn : a.npart ≤ a.maxnpart) : a.live.length ≤ a.npart := by
  unfold Store.live
  refine (List.length_filter_le _ _).trans ?_
  unfold Store.used Store.maxnpart at *
  rw [List.length_take]; omega

omit [Field K] [LinearOrder K] [IsStrictOrderedRing K] [FloorRing K] [Inhabited K] in
theorem tidy_room {n : List Nat} (h1 : 1 ≤ k.D) (h3 : k.D ≤ 3) (ha : Tame m k r a)
    (h : Tidy k n a b) : b.npart ≤ a.npart ∧ b.maxnpart = a.maxnpart := by
  induction h with
  | refl => exact ⟨le_rfl, rfl⟩
  | clear hab s1 s2 s3 h ih =>
    obtain ⟨i1, i2⟩ := ih
    have hb := (tidy_tame h1 h3 ha hab).1
    obtain ⟨s', e1, e2, e3, -⟩ := C18_remove_dead k h1 h3 _ hb.npart s1 s2 s3
      (fun q hq => (hb.tags q hq).symm)
    rw [h] at e1
    cases e1
    have := live_le hb.npart
    exact ⟨by omega, e2.trans i2⟩
  | sort hab hp h ih =>
    obtain ⟨i1, i2⟩ := ih
    have hb := (tidy_tame h1 h3 ha hab).1
    obtain ⟨e1, e2, -⟩ := sort_perm hb.npart hp h
    refine ⟨by omega, ?_⟩
    rw [← i2]
    unfold Store.maxnpart
    exact e2.length_eq

omit [Field K] [LinearOrder K] [IsStrictOrderedRing K] [FloorRing K] [Inhabited K] in
theorem tidy_ok (h : Built m dN) (hD : dN.length ∈ [1, 2, 3]) (hk : k.D = dN.length)
    (hr : r < m.doms.length) (hsz : ∀ x ∈ sizes m r, x ≤ 2 ^ 32) (hb : Tame m k r b) :
    (∀ σ₁ σ₂ σ₃ : Sched, (∀ n, (σ₁ n).Perm (List.range n)) → (∀ n, (σ₂ n).Perm (List.range n)) →
      (∀ n, (σ₃ n).Perm (List.range n)) → ∃ c, removeDead k b σ₁ σ₂ σ₃ = .ok c) ∧
    ∀ perm, BinSortSpec ((b.arr.take b.npart).map (tileIndex k.D (sizes m r) 1)) perm →
      ∃ c, sortSpatially k.D (sizes m r) b perm = .ok c := by
  have h1 : 1 ≤ k.D := by rw [hk]; simp at hD; omega
  have h3 : k.D ≤ 3 := by rw [hk]; simp at hD; omega
  refine ⟨fun σ₁ σ₂ σ₃ s1 s2 s3 => ?_, fun perm hp => ?_⟩
  · obtain ⟨s', e1, -⟩ := C18_remove_dead k h1 h3 b hb.npart s1 s2 s3
      (fun q hq => (hb.tags q hq).symm)
    exact ⟨s', e1⟩
  · obtain ⟨s', e1, -⟩ := C20_spatial_sort k.D h1 h3 (sizes m r) (by rw [sizes_length h hr, hk]) hsz b
      hb.npart (by
        intro q hq ht
        intro a n han
        have hal : a < k.D := by
          have := (List.getElem?_eq_some_iff.1 han).1
          rw [sizes_length h hr] at this; omega
        have := hb.inside q (List.mem_filter.2 ⟨hq, decide_eq_true ht⟩) a hal
        have e : (k.view q).cell.getD a 0 = [q.i1, q.i2, q.i3].getD a 0 := by
          simp only [Kind.view, List.getD_eq_getElem?_getD, List.getElem?_take_of_lt hal]
        rw [e, List.getD_eq_getElem?_getD (l := sizes m r), han] at this
        exact this) perm hp
    exact ⟨s', e1⟩
end

/-! ## The step -/

/-- What a step and a run need. -/
structure Ok (m : Meta) (dN : List (List Nat)) (P : StepPrm K) (sps : List (SpPrm K)) : Prop where
  built : Built m dN
  periodic : AllPeriodic m
  dim : dN.length ∈ [1, 2, 3]
  ghosts : P.ng = nGhosts P.O
  order : P.O ≤ 11
  parity : P.O = 0 ∨ P.O % 2 = 1
  wide : Wide dN P.ng
  sizes : ∀ r, r < m.doms.length → ∀ x ∈ sizes m r, x ≤ 2 ^ 32
  kinds : ∀ s ∈ sps, s.kind.D = dN.length
  slow : ∀ s ∈ sps, s.frozen = false → Slow P s

omit [Inhabited K] in
theorem Ok.two {P : StepPrm K} {sps : List (SpPrm K)} (o : Ok m dN P sps) : 2 ≤ P.ng := by
  rw [o.ghosts]; unfold nGhosts
  split_ifs with e
  · exact le_rfl
  · have := o.parity; omega

omit [Inhabited K] in
theorem held_mem {k : Kind} {f : Nat → Store K} {Q : View K → Prop}
    (h : ∀ v ∈ held m dN k f, Q v) {r : Nat} (hr : r < m.doms.length) :
    ∀ q ∈ (f r).live, Q (gview m dN r k q) := fun q hq =>
  h _ (List.mem_flatMap.2 ⟨r, List.mem_range.2 hr, List.mem_map_of_mem hq⟩)

omit [Inhabited K] in
theorem pushStore_room {P : StepPrm K} {s : SpPrm K} {t : Nat} {low : List K}
    {sides : List (PBC × PBC × Int)} {n : List Nat} {v : Mem K} {σ : List Nat} {st st' : Store K}
    (hσ : σ.Perm (List.range st.npart)) (h : pushStore P s t low sides n v σ st = .ok st') :
    st'.npart = st.npart ∧ st'.maxnpart = st.maxnpart := by
  by_cases hf : s.frozen = true
  · unfold pushStore at h
    rw [if_pos (Or.inl hf)] at h
    cases h
    exact ⟨rfl, rfl⟩
  · obtain ⟨a, b, -⟩ := pushStore_spec hσ (by simpa using hf) h
    exact ⟨a, b⟩

omit [Inhabited K] in
theorem box_offsets {P : StepPrm K} {s : SpPrm K} (hs : s.frozen = false → Slow P s) (x0 : List K)
    (t : Nat) (N : List Nat) (g : GMem K) {v : View K} (hv : OffsetOk v) :
    OffsetOk (boxPush P s x0 t N g v) := by
  unfold boxPush
  split_ifs with hf
  · exact hv
  · intro x hx
    simp only [boxMoved, axesOf, List.map_map, List.mem_map, List.mem_range] at hx
    obtain ⟨a, ha, rfl⟩ := hx
    simp only [Function.comp_apply]
    set u := boxKick P s x0 t N g v
    have hd : |[u.x, u.y, u.z].getD a 0 / P.dx * s.dtE u| < 1 := by
      obtain ⟨s1, s2, s3⟩ := hs (by simpa using hf) u
      rcases lt_or_ge a 3 with h3 | h3
      · have key : ∀ b < 3, |[u.x, u.y, u.z].getD b 0 / P.dx * s.dtE u| < 1 := by
          intro b hb
          interval_cases b
          · exact s1
          · exact s2
          · exact s3
        exact key a h3
      · have : [u.x, u.y, u.z].getD a 0 = 0 := by
          rw [List.getD_eq_getElem?_getD, List.getElem?_eq_none (by simpa using h3)]; rfl
        rw [this]; simp
    have h0 : 0 ≤ v.dx.getD a 0 ∧ v.dx.getD a 0 < 1 := by
      rw [List.getD_eq_getElem?_getD]
      cases e : v.dx[a]? with
      | none => simp
      | some y => exact hv y (List.mem_of_getElem? e)
    exact pushAxis_dx h0 hd

theorem step_push_ok {P : StepPrm K} {sps : List (SpPrm K)} (o : Ok m dN P sps) {A : State K}
    (ht : AllTame m sps A.prtl) {C T : Nat → Nat} (hF : Fits m dN sps C T A) (x0 : List K) (t : Nat)
    (M1 : MMem K) {s : Nat} {sp : SpPrm K} (e : sps[s]? = some sp) {r : Nat} (hr : r < m.doms.length)
    {σ : List Nat} (hσ : σ.Perm (List.range (A.prtl s r).npart)) :
    ∃ s', pushStore P sp t (lowCorner m P.dx x0 r) (sidesOf m r) (sizes m r) (M1 r) σ
        (A.prtl s r) = .ok s' :=
  pushStore_ok o.built o.dim o.ghosts o.order (o.kinds sp (List.mem_of_getElem? e)) hr _ t (M1 r)
    (ht s sp e r hr) (held_mem (Q := OffsetOk) (hF.offsets s sp e) hr) hσ

theorem step_deposit_ok {P : StepPrm K} {sps : List (SpPrm K)} (o : Ok m dN P sps) {A : State K}
    (ht : AllTame m sps A.prtl) {C T : Nat → Nat} (hF : Fits m dN sps C T A) {x0 : List K} {t : Nat}
    {M1 : MMem K} {st1 : Nat → Nat → Store K} (hP : PushAll m P sps x0 t M1 A.prtl st1) {r : Nat}
    (hr : r < m.doms.length) : ∃ uss,
        ((depositors P sps st1 r).filter deposits).mapM
          (fun s => depositAll P.O P.ng s.charge P.dt s.ps) = .ok uss ∧
        ∀ vs, vs.Perm uss.flatten →
          ∃ J, applyAll ((sizes m r).map (· + 2 * P.ng)) vs (fun _ _ => 0) = .ok J := by
  refine deposit_ok o.built o.dim o.ghosts o.order hr fun s sp e hf => ?_
  obtain ⟨σ, hσ, hps⟩ := hP s sp e r hr
  have hm := List.mem_of_getElem? e
  exact used_within o.built o.periodic o.dim o.parity (o.kinds sp hm) hf (o.slow sp hm hf) hr
    (ht s sp e r hr) (held_mem (Q := OffsetOk) (hF.offsets s sp e) hr) hσ hps

/-- After the push. -/
theorem pushed_room {P : StepPrm K} {sps : List (SpPrm K)} (o : Ok m dN P sps) {A : State K}
    (ht : AllTame m sps A.prtl) {C T : Nat → Nat} (hF : Fits m dN sps C T A) {x0 : List K} {t : Nat}
    {M1 : MMem K} {g : GMem K} (hg : Shows m (dN.map List.sum) P.ng selEB M1 g)
    {st1 : Nat → Nat → Store K} (hP : PushAll m P sps x0 t M1 A.prtl st1) {s : Nat} {sp : SpPrm K}
    (e : sps[s]? = some sp) :
    (∀ r, r < m.doms.length → Pushed m sp.kind r (st1 s r)) ∧
    ((List.range m.doms.length).flatMap fun (r : Nat) =>
      (moving (st1 s r)).map (gview m dN r sp.kind)).length ≤ T s ∧
    (∀ r, r < m.doms.length → (st1 s r).npart ≤ C s) ∧
    (∀ r, r < m.doms.length → C s + T s < (st1 s r).maxnpart) := by
  have hk := o.kinds sp (List.mem_of_getElem? e)
  have hR := hF.room s sp e
  have key : ∀ r, r < m.doms.length → Pushed m sp.kind r (st1 s r) ∧
      (moving (st1 s r)).map (gview m dN r sp.kind) =
        ((A.prtl s r).live.map (gview m dN r sp.kind)).map (boxPush P sp x0 t (dN.map List.sum) g) ∧
      (st1 s r).npart = (A.prtl s r).npart ∧ (st1 s r).maxnpart = (A.prtl s r).maxnpart := by
    intro r hr
    obtain ⟨σ, hσ, hps⟩ := hP s sp e r hr
    obtain ⟨a, b, -⟩ := push_rank o.built o.periodic o.dim hk hr hg hσ (ht s sp e r hr) hps
    obtain ⟨c, d⟩ := pushStore_room hσ hps
    exact ⟨a, b, c, d⟩
  refine ⟨fun r hr => (key r hr).1, ?_, fun r hr => ?_, fun r hr => ?_⟩
  · have : ((List.range m.doms.length).flatMap fun (r : Nat) =>
        (moving (st1 s r)).map (gview m dN r sp.kind)) =
        (held m dN sp.kind (A.prtl s)).map (boxPush P sp x0 t (dN.map List.sum) g) := by
      unfold held
      rw [List.map_flatMap]
      apply flatMap_congr'
      intro r hr
      exact (key r (List.mem_range.1 hr)).2.1
    rw [this, List.length_map]
    exact hR.total
  · rw [(key r hr).2.2.1]; exact hR.used r hr
  · rw [(key r hr).2.2.2]; exact hR.cap r hr

theorem step_exchange_ok {P : StepPrm K} {sps : List (SpPrm K)} (o : Ok m dN P sps) {A : State K}
    (ht : AllTame m sps A.prtl) {C T : Nat → Nat} (hF : Fits m dN sps C T A) {x0 : List K} {t : Nat}
    {M1 : MMem K} {g : GMem K} (hg : Shows m (dN.map List.sum) P.ng selEB M1 g)
    {st1 : Nat → Nat → Store K} (hP : PushAll m P sps x0 t M1 A.prtl st1) {s : Nat} {sp : SpPrm K}
    (e : sps[s]? = some sp) {S : Nat → Scheds} (hS : ∀ r, r < m.doms.length → AnyOrder (S r)) :
    ∃ l, communicateParticles m sp.kind ((List.range m.doms.length).map (st1 s)) S = .ok l ∧
      l.length = m.doms.length := by
  obtain ⟨a, b, c, d⟩ := pushed_room o ht hF hg hP e
  exact exchange_ok o.built o.periodic o.dim (fun l hl x hx => (o.wide l hl x hx).1)
    (o.kinds sp (List.mem_of_getElem? e)) a b c d hS

/-- After the exchange. -/
theorem step_exchanged {P : StepPrm K} {sps : List (SpPrm K)} (o : Ok m dN P sps) {A : State K}
    (ht : AllTame m sps A.prtl) {C T : Nat → Nat} (hF : Fits m dN sps C T A) {x0 : List K} {t : Nat}
    {M1 : MMem K} {g : GMem K} (hg : Shows m (dN.map List.sum) P.ng selEB M1 g)
    {st1 st2 : Nat → Nat → Store K} (hP : PushAll m P sps x0 t M1 A.prtl st1)
    (hE : ExchangeAll m sps st1 st2) {s : Nat} {sp : SpPrm K} (e : sps[s]? = some sp) :
    (∀ r, r < m.doms.length → Tame m sp.kind r (st2 s r)) ∧
    Room m dN sp.kind (C s) (T s) (st2 s) := by
  obtain ⟨a, b, c, d⟩ := pushed_room o ht hF hg hP e
  obtain ⟨S, l, e1, e2, e3⟩ := hE s sp e
  obtain ⟨x1, x2, x3⟩ := exch_species o.built o.periodic o.dim
    (fun l hl x hx => (o.wide l hl x hx).1) (o.kinds sp (List.mem_of_getElem? e)) a e1 e2 e3
  have hR := hF.room s sp e
  have hle := hR.le
  have htot : (held m dN sp.kind (st2 s)).length ≤ T s := by rw [x2.length_eq]; exact b
  refine ⟨x1, htot, hle, fun r hr => ?_, fun r hr => ?_⟩
  · have h1 := (x3 r hr).2
    have h2 := c r hr
    have h3 : (st2 s r).live.length ≤ (held m dN sp.kind (st2 s)).length := by
      unfold held
      rw [List.length_flatMap]
      have hmem : ((st2 s r).live.map (gview m dN r sp.kind)).length ∈
          (List.range m.doms.length).map
            (fun (r : Nat) => ((st2 s r).live.map (gview m dN r sp.kind)).length) :=
        List.mem_map.2 ⟨r, List.mem_range.2 hr, rfl⟩
      have := List.single_le_sum (by simp) _ hmem
      simpa using this
    rcases le_total (st1 s r).npart (st2 s r).live.length with h | h
    · rw [max_eq_right h] at h1; omega
    · rw [max_eq_left h] at h1; omega
  · rw [(x3 r hr).1]; exact d r hr

theorem step_safe {P : StepPrm K} {sps : List (SpPrm K)} (o : Ok m dN P sps) {A : State K} {B : Box K}
    (hB : Holds m dN P sps A B) {C T : Nat → Nat} (hF : Fits m dN sps C T A) (x0 : List K) (t : Nat) :
    StepSafe m dN.length P sps x0 t A := by
  intro M1 s1
  obtain ⟨M1', hl1, hc1⟩ := s1
  have g1 := kernel_comm_shows o.built o.periodic o.dim o.wide (faraday_own o.dim _ _ _)
    (faraday_reach o.dim o.two _ _ _) (faraday_sel o.dim _ _ _) hB.fields hl1 hc1
  have k1 : ∀ sp ∈ sps, 1 ≤ sp.kind.D ∧ sp.kind.D ≤ 3 := by
    intro sp hsp
    rw [o.kinds sp hsp]
    have := o.dim
    simp at this; omega
  refine ⟨fun s sp e r hr σ hσ => step_push_ok o hB.tame hF x0 t M1 e hr hσ,
    fun st1 hP => ⟨fun r hr => step_deposit_ok o hB.tame hF hP hr, fun s sp e S hS => ?_,
      fun st2 hE s sp e r hr b hb => ?_⟩⟩
  · obtain ⟨l, hl, -⟩ := step_exchange_ok o hB.tame hF g1 hP e hS
    exact ⟨l, hl⟩
  · have hm := List.mem_of_getElem? e
    obtain ⟨x1, -⟩ := step_exchanged o hB.tame hF g1 hP hE e
    exact tidy_ok o.built o.dim (o.kinds sp hm) hr (o.sizes r hr)
      (tidy_tame (k1 sp hm).1 (k1 sp hm).2 (x1 r hr) hb).1

theorem step_fits {P : StepPrm K} {sps : List (SpPrm K)} (o : Ok m dN P sps) {A A' : State K}
    {B : Box K} (hB : Holds m dN P sps A B) {C T : Nat → Nat} (hF : Fits m dN sps C T A)
    {x0 : List K} {t : Nat} (hs : FullStep m dN.length P sps x0 t A A') : Fits m dN sps C T A' := by
  obtain ⟨M1, M2, M3, st1, st2, s1, s2, s3, s4, s5, s6, s7⟩ := hs
  obtain ⟨M1', hl1, hc1⟩ := s1
  have g1 := kernel_comm_shows o.built o.periodic o.dim o.wide (faraday_own o.dim _ _ _)
    (faraday_reach o.dim o.two _ _ _) (faraday_sel o.dim _ _ _) hB.fields hl1 hc1
  have k1 : ∀ sp ∈ sps, 1 ≤ sp.kind.D ∧ sp.kind.D ≤ 3 := by
    intro sp hsp
    rw [o.kinds sp hsp]
    have := o.dim
    simp at this; omega
  refine ⟨fun s sp e => ?_, fun s sp e => ?_⟩
  · have hm := List.mem_of_getElem? e
    obtain ⟨S, l, c1, c2, c3⟩ := s4 s sp e
    have := (prtl_step o.built o.periodic o.dim o.wide (o.kinds sp hm) g1 (hB.tame s sp e)
      (s2 s sp e) c1 c2 c3 (s7 s sp e)).2
    intro v hv
    obtain ⟨w, hw, rfl⟩ := List.mem_map.1 (this.mem_iff.1 hv)
    exact box_offsets (o.slow sp hm) x0 t _ _ (hF.offsets s sp e w hw)
  · have hm := List.mem_of_getElem? e
    obtain ⟨x1, hR⟩ := step_exchanged o hB.tame hF g1 s2 s4 e
    have hT := tidy_held (dN := dN) (k1 sp hm).1 (k1 sp hm).2 x1 (s7 s sp e)
    refine ⟨by rw [hT.2.length_eq]; exact hR.total, hR.le, fun r hr => ?_, fun r hr => ?_⟩
    · exact (tidy_room (k1 sp hm).1 (k1 sp hm).2 (x1 r hr) (s7 s sp e r hr)).1.trans (hR.used r hr)
    · rw [(tidy_room (k1 sp hm).1 (k1 sp hm).2 (x1 r hr) (s7 s sp e r hr)).2]; exact hR.cap r hr

/-- A step can be taken. -/
theorem exists_full_step {P : StepPrm K} {sps : List (SpPrm K)} (o : Ok m dN P sps) {A : State K}
    {B : Box K} (hB : Holds m dN P sps A B) {C T : Nat → Nat} (hF : Fits m dN sps C T A)
    (x0 : List K) (t : Nat) : ∃ A', FullStep m dN.length P sps x0 t A A' := by
  obtain ⟨M1, h1⟩ := exists_does o.built o.periodic o.dim o.wide
    (.faraday (1 / 2 * P.correction * P.dt) P.dx P.c) A.M
  obtain ⟨f1, f2⟩ := step_safe o hB hF x0 t M1 h1
  have e1 : ∃ st1, PushAll m P sps x0 t M1 A.prtl st1 := by
    have : ∀ s r, ∃ x, ∀ sp, sps[s]? = some sp → r < m.doms.length → ∃ σ : List Nat,
        σ.Perm (List.range (A.prtl s r).npart) ∧
        pushStore P sp t (lowCorner m P.dx x0 r) (sidesOf m r) (sizes m r) (M1 r) σ (A.prtl s r) =
          .ok x := by
      intro s r
      by_cases hr : r < m.doms.length
      · cases e : sps[s]? with
        | none => exact ⟨A.prtl s r, fun sp e' => by cases e'⟩
        | some sp =>
          obtain ⟨x, hx⟩ := f1 s sp e r hr _ (.refl _)
          exact ⟨x, fun sp' e' _ => by cases e'; exact ⟨_, .refl _, hx⟩⟩
      · exact ⟨A.prtl s r, fun _ _ hr' => absurd hr' hr⟩
    choose st1 hst using this
    exact ⟨st1, fun s sp e r hr => hst s r sp e hr⟩
  obtain ⟨st1, hP⟩ := e1
  obtain ⟨f3, f4, f5⟩ := f2 st1 hP
  have e2 : ∃ st2, ExchangeAll m sps st1 st2 := by
    have : ∀ s, ∃ x : Nat → Store K, ∀ sp, sps[s]? = some sp → ∃ (S : Nat → Scheds)
        (l : List (Store K)), (∀ r, r < m.doms.length → AnyOrder (S r)) ∧
        communicateParticles m sp.kind ((List.range m.doms.length).map (st1 s)) S = .ok l ∧
        ∀ r, r < m.doms.length → l[r]? = some (x r) := by
      intro s
      cases e : sps[s]? with
      | none => exact ⟨A.prtl s, fun sp e' => by cases e'⟩
      | some sp =>
        obtain ⟨M1', hl1, hc1⟩ := h1
        have g1 := kernel_comm_shows o.built o.periodic o.dim o.wide (faraday_own o.dim _ _ _)
          (faraday_reach o.dim o.two _ _ _) (faraday_sel o.dim _ _ _) hB.fields hl1 hc1
        have hS : ∀ r, r < m.doms.length → AnyOrder
            (⟨List.range, List.range, fun _ => List.range, List.range⟩ : Scheds) := fun r _ =>
          ⟨fun _ => .refl _, fun _ => .refl _, fun _ _ => .refl _, fun _ => .refl _⟩
        obtain ⟨l, hl, hll⟩ := step_exchange_ok o hB.tame hF g1 hP e hS
        refine ⟨fun r => l.getD r ⟨[], 0⟩, fun sp' e' => ?_⟩
        cases e'
        refine ⟨_, l, hS, hl, fun r hr => ?_⟩
        simp only
        rw [List.getD_eq_getElem?_getD, List.getElem?_eq_getElem (by omega), Option.getD_some]
    choose st2 hst using this
    exact ⟨st2, hst⟩
  obtain ⟨st2, hE⟩ := e2
  have e3 : ∃ M2, DepositPhase m P (depositors P sps st1) M1 M2 := by
    have : ∀ r, ∃ v', r < m.doms.length → DepositRank P.O P.ng P.dt (sizes m r)
        (depositors P sps st1 r) (M1 r) v' := by
      intro r
      by_cases hr : r < m.doms.length
      · obtain ⟨uss, u1, u2⟩ := f3 r hr
        obtain ⟨J, hJ⟩ := u2 _ (.refl _)
        exact ⟨fun l => if l.arr = 1 then J l.comp l.idx else M1 r l,
          fun _ => ⟨uss, _, J, u1, .refl _, hJ, fun l => rfl⟩⟩
      · exact ⟨M1 r, fun h => absurd h hr⟩
    choose v' hv using this
    obtain ⟨M3, h3⟩ := exists_sync o.built o.periodic o.dim o.wide selJ v'
    have l1 : 1 ≤ dN.length := by have := o.dim; simp at this; omega
    have l3 : dN.length ≤ 3 := by have := o.dim; simp at this; omega
    obtain ⟨M4, h4⟩ := exists_comm o.built o.periodic o.dim o.wide selJ M3
    obtain ⟨M5, h5⟩ := exists_passes o.built o.periodic o.dim o.wide P.nf M4
    exact ⟨M5, v', M3, M4, hv, h3, h4, h5⟩
  obtain ⟨M2, h2⟩ := e3
  obtain ⟨M3, h3⟩ := exists_does o.built o.periodic o.dim o.wide
    (.faraday (1 / 2 * P.correction * P.dt) P.dx P.c) M2
  obtain ⟨M4, h4⟩ := exists_does o.built o.periodic o.dim o.wide
    (.electric (1 * P.correction * P.dt) P.dx (some (P.coeff, P.ppc0))) M3
  exact ⟨⟨M4, st2⟩, M1, M2, M3, st1, st2, h1, hP, h2, hE, h3, h4, fun s sp e r hr => .refl _⟩

end Entity.Full
