import Verif.Spec.Moments
import Verif.Lemmas.Deposit
import Verif.Lemmas.Prtl
import Mathlib.Data.List.Nodup
import Mathlib.Algebra.BigOperators.Ring.List
import Mathlib.Tactic.IntervalCases

/-!
# Lemmas about the moments
-/

namespace Entity.Moments

open Entity Entity.Push Entity.Shapes Entity.Deposit Entity.Tags Finset

variable {K : Type} [Field K] [LinearOrder K] [IsStrictOrderedRing K]

/-! ## Weights along one axis -/

theorem mem_offsets {w : Nat} {d : Int} : d ∈ offsets w ↔ -(w : Int) ≤ d ∧ d ≤ w := by
  unfold offsets
  simp only [List.mem_map, List.mem_range]
  constructor
  · rintro ⟨k, hk, rfl⟩; omega
  · rintro ⟨h1, h2⟩
    exact ⟨(d + w).toNat, by omega, by omega⟩

theorem offsets_nodup (w : Nat) : (offsets w).Nodup := by
  unfold offsets
  refine List.Nodup.map ?_ List.nodup_range
  intro a b h; simpa using h

theorem offsets_sum (w : Nat) (f : Int → K) :
    ((offsets w).map f).sum = ∑ k ∈ range (2 * w + 1), f ((k : Int) - w) := by
  unfold offsets
  rw [List.map_map]
  induction (2 * w + 1) with
  | zero => simp
  | succ n ih => rw [List.range_succ, Finset.sum_range_succ, ← ih]; simp

theorem spline_sum {O : Nat} (h1 : 1 ≤ O) (h2 : O ≤ 11) {dx : K} (d0 : 0 ≤ dx) (d1 : dx ≤ 1) :
    ((offsets ((O + 1) / 2)).map (fun d => shape O (dist dx d))).sum = 1 := by
  rw [offsets_sum]
  set w := (O + 1) / 2 with hw
  have e : ∀ k : Nat, shape O (dist dx ((k : Int) - w)) = bspline O ((dx + w - 1/2) - (k : K)) := by
    intro k
    unfold dist
    rw [shape_bspline O h1 h2]
    congr 1; push_cast; ring
  simp only [e]
  rcases Nat.even_or_odd' O with ⟨m, hm | hm⟩
  · have : w = m := by omega
    have hO : (O : K) = 2 * (w : K) := by rw [hm, this]; push_cast; ring
    rw [show 2 * w + 1 = O + 1 by omega]
    exact window_sum O h1 _ (by rw [hO]; linarith) (by rw [hO]; linarith)
  · have : w = m + 1 := by omega
    have hO : (O : K) = 2 * (w : K) - 1 := by rw [hm, this]; push_cast; ring
    have hOw : 2 * w = O + 1 := by omega
    rw [hOw]
    rcases le_total dx (1/2) with hd | hd
    · rw [sum_range_succ, window_sum O h1 _ (by rw [hO]; linarith) (by rw [hO]; linarith)]
      have : bspline O (dx + w - 1/2 - ((O + 1 : Nat) : K)) = 0 := by
        have hle : dx + w - 1/2 - ((O + 1 : Nat) : K) ≤ -(((O : K) + 1) / 2) := by
          push_cast; rw [hO]; linarith
        rcases lt_or_eq_of_le hle with h | h
        · exact bspline_lo O _ h
        · rw [h]; exact bspline_left O h1
      rw [this, add_zero]
    · rw [sum_range_succ']
      have : bspline O (dx + w - 1/2 - ((0 : Nat) : K)) = 0 := by
        apply bspline_hi; rw [hO]; push_cast; linarith
      rw [this, add_zero]
      refine Eq.trans (sum_congr rfl fun k _ => ?_)
        (window_sum O h1 (dx + w - 3/2) (by rw [hO]; linarith) (by rw [hO]; linarith))
      congr 1; push_cast; ring

theorem shapeFunction_ok {cfg : Cfg K} {nAct : List Nat} {mass : K} (h : Sensible cfg nAct mass) :
    ∃ S, shapeFunction cfg = .ok S := by
  have ho : cfg.ord = cfg.order := Nat.mod_eq_of_lt h.order
  unfold shapeFunction
  by_cases hc : cfg.smoothing = .const
  · rw [hc]; exact ⟨_, rfl⟩
  · obtain ⟨h1, h2⟩ := h.spline hc
    rw [h1, ho]
    dsimp only
    by_cases h0 : cfg.order = 0
    · rw [if_pos h0]; exact ⟨_, rfl⟩
    · rw [if_neg h0, if_pos h2]; exact ⟨_, rfl⟩

theorem axis_sum {cfg : Cfg K} {nAct : List Nat} {mass : K} (h : Sensible cfg nAct mass) {S : K → K}
    (hS : shapeFunction cfg = .ok S) {dx : K} (d0 : 0 ≤ dx) (d1 : dx ≤ 1) :
    ((offsets cfg.window).map (fun d => S (dist dx d))).sum = 1 := by
  have ho : cfg.ord = cfg.order := Nat.mod_eq_of_lt h.order
  unfold shapeFunction at hS
  unfold Cfg.window
  by_cases hc : cfg.smoothing = .const
  · rw [hc] at hS
    dsimp only at hS
    cases hS
    rw [offsets_sum]
    unfold Cfg.window
    have : (2 * (((cfg.ord + 1) / 2 : Nat) : K) + 1) ≠ 0 := by positivity
    simp only [sum_const, card_range, nsmul_eq_mul]
    push_cast
    rw [mul_one_div]
    exact div_self this
  · obtain ⟨h1, h2⟩ := h.spline hc
    rw [h1, ho] at hS
    rw [ho]
    dsimp only at hS
    by_cases h0 : cfg.order = 0
    · rw [if_pos h0] at hS
      cases hS
      rw [h0]; simp [offsets]
    · rw [if_neg h0, if_pos h2] at hS
      cases hS
      exact spline_sum (by omega) h2 d0 d1

theorem sum_indicator {ι : Type} [DecidableEq ι] (l : List ι) (hl : l.Nodup) (a : ι) (f : ι → K) :
    (l.map (fun x => if x = a then f x else 0)).sum = if a ∈ l then f a else 0 := by
  induction l with
  | nil => simp
  | cons b l ih =>
    rw [List.map_cons, List.sum_cons, ih hl.of_cons]
    by_cases h : b = a
    · subst h
      have : b ∉ l := (List.nodup_cons.mp hl).1
      simp [this]
    · have : a ≠ b := fun e => h e.symm
      simp [h, this]

/-- The weights along one axis, at one index. -/
theorem axis_at {cfg : Cfg K} {nAct : List Nat} {mass : K} (h : Sensible cfg nAct mass) {S : K → K}
    (hS : shapeFunction cfg = .ok S) (i : Int) {dx : K} (d0 : 0 ≤ dx) (d1 : dx ≤ 1) (n : Int) :
    ((offsets cfg.window).map (fun d => if i + d + cfg.NG = n then S (dist dx d) else 0)).sum =
      share cfg.smoothing cfg.order i dx (n - cfg.NG) := by
  have ho : cfg.ord = cfg.order := Nat.mod_eq_of_lt h.order
  have e : ∀ d : Int, (if i + d + cfg.NG = n then S (dist dx d) else 0) =
      if d = n - cfg.NG - i then S (dist dx d) else 0 := by
    intro d
    by_cases hd : i + d + cfg.NG = n
    · rw [if_pos hd, if_pos (by omega)]
    · rw [if_neg hd, if_neg (by omega)]
  simp only [e]
  rw [sum_indicator _ (offsets_nodup _)]
  simp only [mem_offsets]
  unfold shapeFunction at hS
  unfold Cfg.window share
  by_cases hc : cfg.smoothing = .const
  · rw [hc] at hS ⊢
    dsimp only at hS ⊢
    cases hS
    unfold Cfg.window
    rw [ho]
    by_cases hd : |n - cfg.NG - i| ≤ (((cfg.order + 1) / 2 : Nat) : Int)
    · rw [if_pos hd, if_pos (abs_le.mp hd)]
    · rw [if_neg hd, if_neg (fun h => hd (abs_le.mpr h))]
  · obtain ⟨h1, h2⟩ := h.spline hc
    rw [h1, ho] at hS
    rw [ho, h1]
    dsimp only at hS ⊢
    by_cases h0 : cfg.order = 0
    · rw [if_pos h0] at hS
      cases hS
      rw [if_pos h0, h0]
      by_cases hd : n - cfg.NG = i
      · rw [if_pos hd, if_pos (by push_cast; omega)]
      · rw [if_neg hd, if_neg (by push_cast; omega)]
    · rw [if_neg h0, if_pos h2] at hS
      cases hS
      rw [if_neg h0]
      have hb : 1 ≤ cfg.order := by omega
      set m := n - cfg.NG - i with hm
      set O := cfg.order with hO
      have ee : ((i : K) + dx - (((n - cfg.NG : Int) : K) + 1/2)) = dx - ((m : K) + 1/2) := by
        have : ((n - cfg.NG : Int) : K) = (m : K) + (i : K) := by
          rw [hm]; push_cast; ring
        rw [this]; ring
      rw [ee]
      by_cases hd : -(((O + 1) / 2 : Nat) : Int) ≤ m ∧ m ≤ (((O + 1) / 2 : Nat) : Int)
      · rw [if_pos hd]
        unfold dist
        rw [shape_bspline O hb h2]
      · rw [if_neg hd]
        have hw : (O : K) ≤ 2 * (((O + 1) / 2 : Nat) : K) := by
          have : O ≤ 2 * ((O + 1) / 2) := by omega
          exact_mod_cast this
        symm
        by_cases hlo : m < -(((O + 1) / 2 : Nat) : Int)
        · apply bspline_hi
          have : (m : K) ≤ -(((O + 1) / 2 : Nat) : K) - 1 := by
            have : m ≤ -(((O + 1) / 2 : Nat) : Int) - 1 := by omega
            exact_mod_cast this
          linarith
        · have : (((O + 1) / 2 : Nat) : K) + 1 ≤ (m : K) := by
            have : ((((O + 1) / 2 : Nat) : Int) + 1) ≤ m := by omega
            have := (Int.cast_le (R := K)).mpr this
            rw [Int.cast_add, Int.cast_natCast, Int.cast_one] at this
            exact this
          have hle : dx - ((m : K) + 1/2) ≤ -(((O : K) + 1) / 2) := by linarith
          rcases lt_or_eq_of_le hle with h | h
          · exact bspline_lo O _ h
          · rw [h]; exact bspline_left O hb

/-! ## The coefficient -/

theorem factor_eq (u0 : K) (u : V3 K) {c : Nat} (hc : c ≤ 3) : factor u0 u c = .ok (four u0 u c) := by
  interval_cases c <;> rfl

theorem coeff_ok {cfg : Cfg K} {env : Env K} {nAct : List Nat} {mass charge : K} {p : Prtl K}
    (h : Sensible cfg nAct mass) (hp : Inside cfg env nAct mass p) (ht : p.tag ≠ dead) :
    coeff cfg env mass charge p = .ok (contribution cfg env mass charge p) := by
  obtain ⟨-, hu, hd⟩ := hp.resolve_left ht
  unfold coeff contribution
  rw [if_neg ht]
  have hc1 : cfg.c1 = cfg.comps.getD 0 0 := by
    unfold Cfg.c1; cases cfg.comps <;> rfl
  cases hk : cfg.kind with
  | Rho =>
    simp only [Outcome.bind_ok, reduceCtorEq, if_false, Outcome.pure_eq, contrib, quantity, hk]
    split_ifs <;> congr 1 <;> ring
  | Charge =>
    simp only [Outcome.bind_ok, reduceCtorEq, if_false, Outcome.pure_eq, contrib, quantity, hk]
    split_ifs <;> congr 1 <;> ring
  | N =>
    simp only [Outcome.bind_ok, reduceCtorEq, if_false, Outcome.pure_eq, contrib, quantity, hk]
    split_ifs <;> congr 1 <;> ring
  | Nppc => simp only [Outcome.bind_ok, if_true, Outcome.pure_eq, contrib]
  | T =>
    obtain ⟨hl, hc⟩ := h.compT hk
    have hc2 : cfg.c2 = cfg.comps.getD 1 0 := by
      unfold Cfg.c2
      split_ifs with h2
      · rfl
      · rcases hq : cfg.comps with _ | ⟨a, _ | ⟨b, l⟩⟩
        · rfl
        · rfl
        · rw [hq] at hl h2; simp at hl h2; simp [hl] at h2
    have h1 : cfg.comps.getD 0 0 ≤ 3 := by
      rcases hq : cfg.comps with _ | ⟨a, l⟩
      · simp
      · exact hc a (by rw [hq]; simp)
    have h2 : cfg.comps.getD 1 0 ≤ 3 := by
      rcases hq : cfg.comps with _ | ⟨a, _ | ⟨b, l⟩⟩
      · simp
      · simp
      · exact hc b (by rw [hq]; simp)
    simp only [stressEnergy, hc1, hc2, factor_eq _ _ h1, factor_eq _ _ h2, Outcome.bind_ok,
      Outcome.pure_eq, reduceCtorEq, if_false, quantity, hk, energy, physSR]
    by_cases hg : cfg.gr = true
    · simp only [hg, if_true, four]
      split_ifs <;> congr 1 <;> ring
    · simp only [hg, Bool.false_eq_true, if_false]
      split_ifs <;> congr 1 <;> ring
  | V =>
    obtain ⟨c, hc, h3, hsr⟩ := h.compV hk
    have hcc : cfg.comps.getD 0 0 = c := by
      rcases hq : cfg.comps with _ | ⟨a, l⟩
      · rw [hq] at hc; simp at hc
      · rw [hq] at hc; simp at hc; simpa using hc
    by_cases hg : cfg.gr = true
    · have hne := hu (.inr hk)
      rw [if_pos hg] at hne
      simp only [hg, if_true, eckartFlux, hc1, hcc, quantity, hk, reduceCtorEq, if_false]
      by_cases c0 : c = 0
      · subst c0
        simp only [if_true, Outcome.bind_ok, Outcome.pure_eq, four]
        rw [mul_div_assoc _ (env.contra0 p), div_self hne]
        split_ifs <;> congr 1 <;> ring
      · have : elem3 (env.contra p) (c - 1) = .ok (four (env.contra0 p) (env.contra p) c) := by
          interval_cases c <;> first | rfl | omega
        rw [if_neg c0, this]
        simp only [Outcome.bind_ok, Outcome.pure_eq]
        split_ifs <;> congr 1 <;> ring
    · have c1 := hsr (by simpa using hg)
      obtain ⟨g, e4, this⟩ : ∃ g : V3 K → K, (∀ a v, four a v c = g v) ∧
          ∀ v, elem3 v (c - 1) = .ok (g v) := by
        refine ⟨fun v => four 0 v c, ?_, ?_⟩ <;> intros <;> interval_cases c <;> rfl
      simp only [hg, Bool.false_eq_true, if_false, bulkVelocity, hc1, hcc, quantity, hk, reduceCtorEq]
      rw [if_neg (by omega), this]
      simp only [Outcome.bind_ok, Outcome.pure_eq, energy, physSR, e4]
      split_ifs <;> congr 1 <;> ring

/-! ## Lists of additions -/

theorem sum_prod2 (l m : List Int) (c : K) (f g : Int → K) :
    (l.flatMap (fun y => m.map (fun x => c * (f x * g y)))).sum =
      c * ((m.map f).sum * (l.map g).sum) := by
  induction l with
  | nil => simp
  | cons y l ih =>
    rw [List.flatMap_cons, List.sum_append, ih, List.map_cons, List.sum_cons, List.sum_map_mul_left,
      List.sum_map_mul_right]
    ring

theorem sum_prod3 (l m r : List Int) (c : K) (f g h : Int → K) :
    (l.flatMap (fun z => m.flatMap (fun y => r.map (fun x => c * (f x * g y * h z))))).sum =
      c * ((r.map f).sum * (m.map g).sum * (l.map h).sum) := by
  induction l with
  | nil => simp
  | cons z l ih =>
    rw [List.flatMap_cons, List.sum_append, ih, List.map_cons, List.sum_cons]
    have : (m.flatMap (fun y => r.map (fun x => c * (f x * g y * h z)))).sum =
        (c * h z) * ((r.map f).sum * (m.map g).sum) := by
      rw [← sum_prod2]
      congr 1
      congr 1
      funext y
      congr 1
      funext x
      ring
    rw [this]; ring

/-- Sum of all values added. -/
def valSum (us : List (Upd K)) : K := (us.map (·.val)).sum

theorem applyAll_append (nAll : List Nat) (us vs : List (Upd K)) (J : Cur K) :
    applyAll nAll (us ++ vs) J = (applyAll nAll us J >>= applyAll nAll vs) := by
  unfold applyAll
  exact List.foldlM_append

theorem launch_eq (cfg : Cfg K) (env : Env K) (nAll : List Nat) (mass charge : K)
    (f : Prtl K → List (Upd K)) (ps : List (Prtl K))
    (h : ∀ p ∈ ps, momentOne cfg env mass charge p = .ok (f p)) (J : Cur K) :
    launch cfg env nAll mass charge ps J = applyAll nAll (ps.flatMap f) J := by
  unfold launch
  induction ps generalizing J with
  | nil => rfl
  | cons p ps ih =>
    rw [List.foldlM_cons, List.flatMap_cons, applyAll_append, h p (by simp), Outcome.bind_ok]
    cases applyAll nAll (f p) J with
    | ok J1 =>
      simp only [Outcome.bind_ok]
      exact ih (fun q hq => h q (by simp [hq])) J1
    | err => rfl
    | ub => rfl

/-! ## Sums over the array -/

theorem sum_arrIdx_single (nAll : List Nat) (x : List Int) (v : K) (hx : inArray nAll x = true) :
    ((arrIdx nAll).map (fun n => if x = n then v else 0)).sum = v := by
  induction nAll generalizing x with
  | nil =>
    cases x with
    | nil => simp [arrIdx]
    | cons a b => simp [inArray] at hx
  | cons n ns ih =>
    cases x with
    | nil => simp [inArray] at hx
    | cons a x =>
      simp only [inArray, Bool.and_eq_true, decide_eq_true_eq] at hx
      obtain ⟨⟨h0, h1⟩, h2⟩ := hx
      unfold arrIdx
      have : ∀ k : Nat, ((List.range k).flatMap (fun (i : Nat) => (arrIdx ns).map ((i : Int) :: ·))).map
          (fun m => if a :: x = m then v else 0) =
          (List.range k).flatMap (fun (i : Nat) => (arrIdx ns).map
            (fun m => if a = (i : Int) ∧ x = m then v else 0)) := by
        intro k
        rw [List.map_flatMap]
        simp [Function.comp_def]
      rw [this]
      have key : ∀ k : Nat, ((List.range k).flatMap (fun (i : Nat) => (arrIdx ns).map
            (fun m => if a = (i : Int) ∧ x = m then v else 0))).sum = if a < k then v else 0 := by
        intro k
        induction k with
        | zero => simp; intro h; omega
        | succ k ihk =>
          rw [List.range_succ, List.flatMap_append, List.sum_append, ihk]
          simp only [List.flatMap_cons, List.flatMap_nil, List.append_nil]
          by_cases hk : a = (k : Int)
          · have : ((arrIdx ns).map (fun m => if a = (k : Int) ∧ x = m then v else 0)).sum = v := by
              simp only [hk, true_and]
              exact ih x h2
            rw [this, if_neg (by omega), if_pos (by push_cast; omega), zero_add]
          · have : ((arrIdx ns).map (fun m => if a = (k : Int) ∧ x = m then v else 0)).sum = 0 := by
              simp [hk]
            rw [this, add_zero]
            by_cases h : a < (k : Int)
            · rw [if_pos h, if_pos (by push_cast; omega)]
            · rw [if_neg h, if_neg (by push_cast; omega)]
      rw [key n, if_pos h1]

theorem regionSum_add {nAll : List Nat} {P : List Int → Bool} {c : Nat} (us : List (Upd K))
    (hin : ∀ u ∈ us, inArray nAll u.idx = true) (hc : ∀ u ∈ us, u.comp = c ∧ P u.idx = true)
    (J J' : Cur K) (h : ∀ n, J' c n = J c n + total us c n) :
    regionSum nAll P J' c = regionSum nAll P J c + valSum us := by
  have h1 : regionSum nAll P J' c = regionSum nAll P J c +
      ((arrIdx nAll).map (fun n => if P n then total us c n else 0)).sum := by
    unfold regionSum
    rw [← List.sum_map_add]
    congr 1
    apply List.map_congr_left
    intro n _
    by_cases hP : P n = true
    · simp only [hP, if_true, h]
    · simp [hP]
  rw [h1]
  congr 1
  clear h h1
  induction us with
  | nil => simp [valSum]
  | cons u us ih =>
    have hu := hc u (by simp)
    have e : ∀ n, (if P n then total (u :: us) c n else 0) =
        (if u.idx = n then u.val else 0) + (if P n then total us c n else 0) := by
      intro n
      rw [total_cons]
      simp only [hu.1, true_and]
      by_cases hn : u.idx = n
      · subst hn; simp [hu.2]
      · simp [hn]
    simp only [e]
    rw [List.sum_map_add, sum_arrIdx_single _ _ _ (hin u (by simp)),
      ih (fun v hv => hin v (by simp [hv])) (fun v hv => hc v (by simp [hv]))]
    simp [valSum]

/-! ## One particle -/

/-- Product of the shares along the axes. -/
def shares (s : Smoothing) (O NG : Nat) (pos : List (Int × K)) (n : List Int) : K :=
  (List.zipWith (fun a m => share s O a.1 a.2 (m - (NG : Int))) pos n).prod

theorem row_plain {cfg : Cfg K} (h1 : cfg.axisMin = false) (h2 : cfg.axisMax = false) (j : Int) :
    row cfg j = j + cfg.NG := by
  unfold row; simp [h1, h2]

theorem row_range {cfg : Cfg K} {j : Int} {w : Nat} (hw : w ≤ cfg.NG) (h1 : -(w : Int) ≤ j)
    (h2 : j < (cfg.ni2 : Int) + w) (h3 : 0 < cfg.ni2) :
    0 ≤ row cfg j ∧ row cfg j < (cfg.ni2 : Int) + 2 * cfg.NG := by
  unfold row
  split_ifs <;> omega

/-- Everything about the additions of one live particle. -/
structure OneSpec (cfg : Cfg K) (nAct : List Nat) (p : Prtl K) (c : K) (us : List (Upd K)) : Prop where
  comp : ∀ u ∈ us, u.comp = cfg.buffIdx
  inside : ∀ u ∈ us, inArray (nAct.map (· + 2 * cfg.NG)) u.idx = true
  sum : valSum us = c
  at_ : cfg.axisMin = false → cfg.axisMax = false → ∀ n : List Int, n.length = nAct.length →
    total us cfg.buffIdx n = c * shares cfg.smoothing cfg.order cfg.NG p.pos n
  rows : 2 ≤ nAct.length → ∀ u ∈ us, ∃ a : Int × K, ∃ d : Int, p.pos[1]? = some a ∧
    -(cfg.window : Int) ≤ d ∧ d ≤ cfg.window ∧ u.idx.getD 1 0 = row cfg (a.1 + d)

theorem window_le {cfg : Cfg K} {nAct : List Nat} {mass : K} (h : Sensible cfg nAct mass) :
    cfg.window ≤ cfg.NG := by
  have ho : cfg.ord = cfg.order := Nat.mod_eq_of_lt h.order
  unfold Cfg.window; rw [ho]; exact h.window

theorem mul_ite2 (c x y : K) (P Q : Prop) [Decidable P] [Decidable Q] :
    (if P ∧ Q then c * (x * y) else 0) = c * ((if P then x else 0) * (if Q then y else 0)) := by
  by_cases hP : P <;> by_cases hQ : Q <;> simp [hP, hQ]

theorem mul_ite3 (c x y z : K) (P Q R : Prop) [Decidable P] [Decidable Q] [Decidable R] :
    (if P ∧ Q ∧ R then c * (x * y * z) else 0) =
      c * ((if P then x else 0) * (if Q then y else 0) * (if R then z else 0)) := by
  by_cases hP : P <;> by_cases hQ : Q <;> by_cases hR : R <;> simp [hP, hQ, hR]

theorem momentOne_ok {cfg : Cfg K} {env : Env K} {nAct : List Nat} {mass charge : K} {p : Prtl K}
    (h : Sensible cfg nAct mass) (hp : Inside cfg env nAct mass p) (ht : p.tag ≠ dead) :
    ∃ us, momentOne cfg env mass charge p = .ok us ∧
      OneSpec cfg nAct p (contribution cfg env mass charge p) us := by
  obtain ⟨S, hS⟩ := shapeFunction_ok h
  have hF := (hp.resolve_left ht).1
  have hw := window_le h
  unfold momentOne
  rw [if_neg ht, coeff_ok h hp ht, hS]
  simp only [Outcome.bind_ok, Outcome.pure_eq]
  have hdim := h.dim
  have h3 := h.dim3
  have h1 := h.dim1
  rcases hpos : p.pos with _ | ⟨a1, _ | ⟨a2, _ | ⟨a3, _ | ⟨a4, r⟩⟩⟩⟩ <;> rw [hpos] at hF
  · cases hF; simp at hdim; omega
  · -- one dimension
    obtain ⟨n1, l, hn1, hl, rfl⟩ := List.forall₂_cons_left_iff.mp hF
    cases hl
    refine ⟨_, rfl, ?_, ?_, ?_, ?_, ?_⟩
    · intro u hu; simp only [deposit1, List.mem_map] at hu; obtain ⟨d, -, rfl⟩ := hu; rfl
    · intro u hu; simp only [deposit1, List.mem_map, mem_offsets] at hu
      obtain ⟨d, hd, rfl⟩ := hu
      simp only [inArray, List.map_cons, List.map_nil, Bool.and_eq_true, decide_eq_true_eq,
        and_true]
      push_cast
      omega
    · unfold valSum deposit1
      rw [List.map_map]
      simp only [Function.comp_def]
      rw [List.sum_map_mul_left, axis_sum h hS hn1.2.2.1 hn1.2.2.2, mul_one]
    · intro _ _ n hn
      rcases n with _ | ⟨m, _ | ⟨m2, n⟩⟩
      · simp at hn
      · unfold total deposit1
        rw [List.map_map]
        have e : ∀ d : Int, (if ([a1.1 + d + cfg.NG] : List Int) = [m] then
            contribution cfg env mass charge p * S (dist a1.2 d) else 0) =
            contribution cfg env mass charge p *
              (if a1.1 + d + cfg.NG = m then S (dist a1.2 d) else 0) := by
          intro d; simp [mul_ite]
        simp only [Function.comp_def, true_and, e]
        rw [List.sum_map_mul_left, axis_at h hS _ hn1.2.2.1 hn1.2.2.2]
        simp [shares, hpos]
      · simp at hn
    · intro h; simp at h
  · -- two dimensions
    obtain ⟨n1, l1, hn1, hl1, rfl⟩ := List.forall₂_cons_left_iff.mp hF
    obtain ⟨n2, l2, hn2, hl2, rfl⟩ := List.forall₂_cons_left_iff.mp hl1
    cases hl2
    have hni := h.ni2 n2 rfl
    refine ⟨_, rfl, ?_, ?_, ?_, ?_, ?_⟩
    · intro u hu; simp only [deposit2, List.mem_flatMap, List.mem_map] at hu
      obtain ⟨d, -, d', -, rfl⟩ := hu; rfl
    · intro u hu; simp only [deposit2, List.mem_flatMap, List.mem_map, mem_offsets] at hu
      obtain ⟨d, hd, d', hd', rfl⟩ := hu
      have := row_range (cfg := cfg) (j := a2.1 + d) hw (by omega) (by omega) (by omega)
      simp only [inArray, List.map_cons, List.map_nil, Bool.and_eq_true, decide_eq_true_eq,
        and_true]
      push_cast
      omega
    · unfold valSum deposit2
      rw [List.map_flatMap]
      simp only [List.map_map, Function.comp_def]
      rw [sum_prod2 _ _ _ (fun d => S (dist a1.2 d)) (fun d => S (dist a2.2 d)),
        axis_sum h hS hn1.2.2.1 hn1.2.2.2, axis_sum h hS hn2.2.2.1 hn2.2.2.2]
      ring
    · intro x1 x2 n hn
      rcases n with _ | ⟨m, _ | ⟨m2, _ | ⟨m3, n⟩⟩⟩
      · simp at hn
      · simp at hn
      · unfold total deposit2
        rw [List.map_flatMap]
        simp only [List.map_map, Function.comp_def, true_and, row_plain x1 x2, List.cons.injEq,
          and_true, mul_ite2]
        rw [sum_prod2 _ _ _ (fun d => if a1.1 + d + cfg.NG = m then S (dist a1.2 d) else 0)
          (fun d => if a2.1 + d + cfg.NG = m2 then S (dist a2.2 d) else 0),
          axis_at h hS _ hn1.2.2.1 hn1.2.2.2, axis_at h hS _ hn2.2.2.1 hn2.2.2.2]
        simp [shares, hpos]
      · simp at hn
    · intro _ u hu; simp only [deposit2, List.mem_flatMap, List.mem_map, mem_offsets] at hu
      obtain ⟨d, hd, d', hd', rfl⟩ := hu
      exact ⟨a2, d, by rw [hpos]; rfl, hd.1, hd.2, rfl⟩
  · -- three dimensions
    obtain ⟨n1, l1, hn1, hl1, rfl⟩ := List.forall₂_cons_left_iff.mp hF
    obtain ⟨n2, l2, hn2, hl2, rfl⟩ := List.forall₂_cons_left_iff.mp hl1
    obtain ⟨n3, l3, hn3, hl3, rfl⟩ := List.forall₂_cons_left_iff.mp hl2
    cases hl3
    have hni := h.ni2 n2 rfl
    refine ⟨_, rfl, ?_, ?_, ?_, ?_, ?_⟩
    · intro u hu; simp only [deposit3, List.mem_flatMap, List.mem_map] at hu
      obtain ⟨d, -, d', -, d'', -, rfl⟩ := hu; rfl
    · intro u hu; simp only [deposit3, List.mem_flatMap, List.mem_map, mem_offsets] at hu
      obtain ⟨d'', hd'', d, hd, d', hd', rfl⟩ := hu
      have := row_range (cfg := cfg) (j := a2.1 + d) hw (by omega) (by omega) (by omega)
      simp only [inArray, List.map_cons, List.map_nil, Bool.and_eq_true, decide_eq_true_eq,
        and_true]
      push_cast
      omega
    · unfold valSum deposit3
      simp only [List.map_flatMap, List.map_map, Function.comp_def]
      rw [sum_prod3 _ _ _ _ (fun d => S (dist a1.2 d)) (fun d => S (dist a2.2 d))
          (fun d => S (dist a3.2 d)),
        axis_sum h hS hn1.2.2.1 hn1.2.2.2, axis_sum h hS hn2.2.2.1 hn2.2.2.2,
        axis_sum h hS hn3.2.2.1 hn3.2.2.2]
      ring
    · intro x1 x2 n hn
      rcases n with _ | ⟨m, _ | ⟨m2, _ | ⟨m3, _ | ⟨m4, n⟩⟩⟩⟩
      · simp at hn
      · simp at hn
      · simp at hn
      · unfold total deposit3
        simp only [List.map_flatMap, List.map_map, Function.comp_def, true_and, row_plain x1 x2,
          List.cons.injEq, and_true, mul_ite3]
        rw [sum_prod3 _ _ _ _ (fun d => if a1.1 + d + cfg.NG = m then S (dist a1.2 d) else 0)
          (fun d => if a2.1 + d + cfg.NG = m2 then S (dist a2.2 d) else 0)
          (fun d => if a3.1 + d + cfg.NG = m3 then S (dist a3.2 d) else 0),
          axis_at h hS _ hn1.2.2.1 hn1.2.2.2, axis_at h hS _ hn2.2.2.1 hn2.2.2.2,
          axis_at h hS _ hn3.2.2.1 hn3.2.2.2]
        simp [shares, hpos, mul_assoc]
      · simp at hn
    · intro _ u hu; simp only [deposit3, List.mem_flatMap, List.mem_map, mem_offsets] at hu
      obtain ⟨d'', hd'', d, hd, d', hd', rfl⟩ := hu
      exact ⟨a2, d, by rw [hpos]; rfl, hd.1, hd.2, rfl⟩
  · have := hF.length_eq; simp at this; omega

/-- The additions of one particle. -/
def upds (cfg : Cfg K) (env : Env K) (mass charge : K) (p : Prtl K) : List (Upd K) :=
  match momentOne cfg env mass charge p with
  | .ok us => us
  | _ => []

theorem upds_dead {cfg : Cfg K} {env : Env K} {mass charge : K} {p : Prtl K} (ht : p.tag = dead) :
    momentOne cfg env mass charge p = .ok [] ∧ upds cfg env mass charge p = [] := by
  unfold upds momentOne; rw [if_pos ht]; exact ⟨rfl, rfl⟩

theorem upds_ok {cfg : Cfg K} {env : Env K} {nAct : List Nat} {mass charge : K} {p : Prtl K}
    (h : Sensible cfg nAct mass) (hp : Inside cfg env nAct mass p) :
    momentOne cfg env mass charge p = .ok (upds cfg env mass charge p) := by
  by_cases ht : p.tag = dead
  · rw [(upds_dead ht).2]; exact (upds_dead ht).1
  · obtain ⟨us, h1, -⟩ := momentOne_ok (charge := charge) h hp ht
    unfold upds; rw [h1]

theorem upds_spec {cfg : Cfg K} {env : Env K} {nAct : List Nat} {mass charge : K} {p : Prtl K}
    (h : Sensible cfg nAct mass) (hp : Inside cfg env nAct mass p) (ht : p.tag ≠ dead) :
    OneSpec cfg nAct p (contribution cfg env mass charge p) (upds cfg env mass charge p) := by
  obtain ⟨us, h1, h2⟩ := momentOne_ok (charge := charge) h hp ht
  unfold upds; rw [h1]; exact h2

/-! ## All species -/

theorem checks_ok {cfg : Cfg K} {nAct : List Nat} {mass : K} (h : Sensible cfg nAct mass) :
    checks cfg mass = .ok () := by
  unfold checks Outcome.errorIf
  rw [if_neg (by have := h.buff; omega), if_neg (by have := window_le h; omega),
    if_neg (fun e => h.massive e.1 e.2), if_neg (fun e => by have := h.bcs e.1 e.2.1; omega)]
  rfl

/-- All additions of a list of species. -/
def allUpds (cfg : Cfg K) (env : Env K) (sched : Nat → List (Prtl K) → List (Prtl K))
    (species : List (Species K)) (sel : List Nat) : List (Upd K) :=
  sel.flatMap fun sp =>
    match species[sp - 1]? with
    | some s => (sched sp s.prtls).flatMap (upds cfg env s.mass s.charge)
    | none => []

theorem speciesLoop_eq {cfg : Cfg K} {env : Env K} {nAct : List Nat}
    {sched : Nat → List (Prtl K) → List (Prtl K)} (hs : ∀ i l, (sched i l).Perm l)
    {species : List (Species K)} (sel : List Nat) (hsel : ∀ sp ∈ sel, 0 < sp ∧ sp ≤ species.length)
    (hg : ∀ sp ∈ sel, ∀ s, species[sp - 1]? = some s →
      Sensible cfg nAct s.mass ∧ ∀ p ∈ s.prtls, Inside cfg env nAct s.mass p) (J : Cur K)
    (nAll : List Nat) :
    speciesLoop cfg env nAll sched species sel J =
      applyAll nAll (allUpds cfg env sched species sel) J := by
  induction sel generalizing J with
  | nil => rfl
  | cons sp sel ih =>
    have h1 := hsel sp (by simp)
    have hlt : sp - 1 < species.length := by omega
    have hsp : species[sp - 1]? = some species[sp - 1] := List.getElem?_eq_getElem hlt
    obtain ⟨hS, hP⟩ := hg sp (by simp) _ hsp
    unfold speciesLoop
    rw [hsp]
    dsimp only
    rw [checks_ok hS, Outcome.bind_ok, launch_eq cfg env nAll _ _ (upds cfg env _ _) _
      (fun p hp => upds_ok hS (hP p ((hs _ _).mem_iff.mp hp)))]
    have : allUpds cfg env sched species (sp :: sel) =
        (sched sp species[sp - 1].prtls).flatMap (upds cfg env species[sp - 1].mass
          species[sp - 1].charge) ++ allUpds cfg env sched species sel := by
      unfold allUpds; rw [List.flatMap_cons, hsp]
    rw [this, applyAll_append]
    congr 1
    funext J1
    exact ih (fun q hq => hsel q (by simp [hq])) (fun q hq => hg q (by simp [hq])) J1

end Entity.Moments
