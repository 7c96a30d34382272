import Verif.Model.Bulk
import Verif.Props.Moments

/-!
# C122: bulk velocity
-/

namespace Entity.Moments

open Entity Entity.Push Entity.Shapes Entity.Deposit Entity.Tags

variable {K : Type} [Field K] [LinearOrder K] [IsStrictOrderedRing K]

/-! ## Specification -/

/-- A rank that holds a copy of the cell: its metric, grid, schedules, species, and the index of the cell in
its arrays. -/
structure Part (K : Type) where
  env : Env K
  nAct : List Nat
  sched : Nat → Nat → List (Prtl K) → List (Prtl K)
  species : List (Species K)
  cell : List Int

/-- Velocity and density make sense for the species and particles of the rank (C60). -/
structure Part.Valid (cfg : Cfg K) (specs : List Nat) (r : Part K) : Prop where
  sched : ∀ k i l, (r.sched k i l).Perm l
  vel : ∀ k < 3, Request (velCfg cfg k) r.env r.nAct r.species specs
  rho : Request (rhoCfg cfg) r.env r.nAct r.species specs
  cell : r.cell.length = r.nAct.length

/-- The density and velocity arrays of all ranks, with the place of the cell. -/
def Computed (cfg : Cfg K) (specs : List Nat) : List (Part K) → List (Cur K × List Int) → Prop :=
  List.Forall₂ fun r a => rankMoments cfg r.env (r.nAct.map (· + 2 * cfg.NG)) r.sched r.species specs =
    .ok a.1 ∧ a.2 = r.cell

/-! ## Lemmas -/

theorem share_nonneg (s : Smoothing) (O : Nat) (i : Int) (dx : K) (n : Int) : 0 ≤ share s O i dx n := by
  unfold share
  cases s with
  | spline =>
    dsimp only
    split_ifs
    · exact zero_le_one
    · exact le_rfl
    · exact bspline_nonneg _ _
  | const =>
    dsimp only
    split_ifs
    · positivity
    · exact le_rfl
  | other => exact le_rfl

theorem shape_nonneg {cfg : Cfg K} {nAct : List Nat} {mass : K} (h : Sensible cfg nAct mass) {S : K → K}
    (hS : shapeFunction cfg = .ok S) {dx : K} (d0 : 0 ≤ dx) (d1 : dx ≤ 1) {d : Int}
    (hd : d ∈ offsets cfg.window) : 0 ≤ S (dist dx d) := by
  have := axis_at h hS 0 d0 d1 (0 + d + cfg.NG)
  have e : ∀ x : Int, (if 0 + x + (cfg.NG : Int) = 0 + d + cfg.NG then S (dist dx x) else 0) =
      if x = d then S (dist dx x) else 0 := by
    intro x
    refine if_congr ?_ rfl rfl
    omega
  simp only [e] at this
  rw [sum_indicator _ (offsets_nodup _), if_pos hd] at this
  rw [this]
  exact share_nonneg _ _ _ _ _

/-- The part of the additions that does not depend on the quantity. -/
def unit (cfg : Cfg K) (S : K → K) (p : Prtl K) : List (Upd K) :=
  match p.pos with
  | [a1] => deposit1 cfg S 1 a1
  | [a1, a2] => deposit2 cfg S 1 a1 a2
  | [a1, a2, a3] => deposit3 cfg S 1 a1 a2 a3
  | _ => []

theorem sum_nonneg' {α : Type} (l : List α) (f : α → K) (h : ∀ x ∈ l, 0 ≤ f x) : 0 ≤ (l.map f).sum :=
  List.sum_nonneg (by
    intro y hy
    obtain ⟨x, hx, rfl⟩ := List.mem_map.mp hy
    exact h x hx)

theorem unit_nonneg {cfg : Cfg K} {env : Env K} {nAct : List Nat} {mass : K} (h : Sensible cfg nAct mass)
    {S : K → K} (hS : shapeFunction cfg = .ok S) {p : Prtl K} (hp : Inside cfg env nAct mass p)
    (ht : p.tag ≠ dead) (n : List Int) : 0 ≤ total (unit cfg S p) cfg.buffIdx n := by
  have hF := (hp.resolve_left ht).1
  refine sum_nonneg' _ _ ?_
  intro u hu
  suffices hv : 0 ≤ u.val by
    split_ifs
    · exact hv
    · exact le_rfl
  unfold unit at hu
  rcases hpos : p.pos with _ | ⟨a1, _ | ⟨a2, _ | ⟨a3, _ | ⟨a4, r⟩⟩⟩⟩ <;> rw [hpos] at hF hu <;>
    simp only [List.not_mem_nil] at hu
  · obtain ⟨n1, l, hn1, -, rfl⟩ := List.forall₂_cons_left_iff.mp hF
    simp only [deposit1, List.mem_map] at hu
    obtain ⟨d, hd, rfl⟩ := hu
    simpa using shape_nonneg h hS hn1.2.2.1 hn1.2.2.2 hd
  · obtain ⟨n1, l1, hn1, hl1, rfl⟩ := List.forall₂_cons_left_iff.mp hF
    obtain ⟨n2, l2, hn2, -, rfl⟩ := List.forall₂_cons_left_iff.mp hl1
    simp only [deposit2, List.mem_flatMap, List.mem_map] at hu
    obtain ⟨d, hd, d', hd', rfl⟩ := hu
    rw [one_mul]
    exact mul_nonneg (shape_nonneg h hS hn1.2.2.1 hn1.2.2.2 hd') (shape_nonneg h hS hn2.2.2.1 hn2.2.2.2 hd)
  · obtain ⟨n1, l1, hn1, hl1, rfl⟩ := List.forall₂_cons_left_iff.mp hF
    obtain ⟨n2, l2, hn2, hl2, rfl⟩ := List.forall₂_cons_left_iff.mp hl1
    obtain ⟨n3, l3, hn3, -, rfl⟩ := List.forall₂_cons_left_iff.mp hl2
    simp only [deposit3, List.mem_flatMap, List.mem_map] at hu
    obtain ⟨d'', hd'', d, hd, d', hd', rfl⟩ := hu
    rw [one_mul]
    exact mul_nonneg (mul_nonneg (shape_nonneg h hS hn1.2.2.1 hn1.2.2.2 hd')
      (shape_nonneg h hS hn2.2.2.1 hn2.2.2.2 hd)) (shape_nonneg h hS hn3.2.2.1 hn3.2.2.2 hd'')

theorem total_scale (us : List (Upd K)) (c : K) (b b' : Nat) (n : List Int) :
    total (us.map fun u => ⟨b', u.idx, c * u.val⟩) b' n = c * total (us.map fun u => ⟨b, u.idx, u.val⟩) b n := by
  unfold total
  simp only [List.map_map, Function.comp_def, true_and]
  rw [← List.sum_map_mul_left]
  congr 1
  apply List.map_congr_left
  intro u _
  rw [mul_ite, mul_zero]

/-- The additions are those of the unit, times the contribution. -/
theorem upds_unit {cfg : Cfg K} {env : Env K} {nAct : List Nat} {mass charge : K} {p : Prtl K}
    (h : Sensible cfg nAct mass) (hp : Inside cfg env nAct mass p) (ht : p.tag ≠ dead) {S : K → K}
    (hS : shapeFunction cfg = .ok S) :
    upds cfg env mass charge p =
      (unit cfg S p).map fun u => ⟨cfg.buffIdx, u.idx, contribution cfg env mass charge p * u.val⟩ := by
  have hF := (hp.resolve_left ht).1
  have hdim := h.dim
  have h1 := h.dim1
  have h3 := h.dim3
  unfold upds momentOne
  rw [if_neg ht, coeff_ok h hp ht, hS]
  simp only [Outcome.bind_ok, Outcome.pure_eq]
  unfold unit
  rcases hpos : p.pos with _ | ⟨a1, _ | ⟨a2, _ | ⟨a3, _ | ⟨a4, r⟩⟩⟩⟩
  · rw [hpos] at hF; cases hF; simp at hdim; omega
  · simp only [deposit1, List.map_map, Function.comp_def, one_mul]
  · simp only [deposit2, List.map_flatMap, List.map_map, Function.comp_def, one_mul]
  · simp only [deposit3, List.map_flatMap, List.map_map, Function.comp_def, one_mul]
  · have := hF.length_eq; rw [hpos] at this; simp at this; omega

/-- `unit` for requests that differ in the quantity. -/
def base (cfg : Cfg K) : Cfg K := { cfg with kind := .N, comps := [], buffIdx := 0 }

theorem unit_base (cfg : Cfg K) (kind : Kind) (comps : List Nat) (b : Nat) (S : K → K) (p : Prtl K) :
    unit { cfg with kind := kind, comps := comps, buffIdx := b } S p =
      (unit (base cfg) S p).map fun u => ⟨b, u.idx, u.val⟩ := by
  unfold unit
  rcases p.pos with _ | ⟨a1, _ | ⟨a2, _ | ⟨a3, _ | ⟨a4, r⟩⟩⟩⟩
  · rfl
  · simp only [deposit1, List.map_map, Function.comp_def]; rfl
  · simp only [deposit2, List.map_flatMap, List.map_map, Function.comp_def]; rfl
  · simp only [deposit3, List.map_flatMap, List.map_map, Function.comp_def]; rfl
  · rfl

/-- Velocities are at most one. -/
theorem speed_le {s : K → K} (hq : ∀ x, 0 ≤ x → 0 ≤ s x ∧ s x * s x = x) (u : V3 K) :
    0 < s (1 + u.normSq) ∧
    (u.x / s (1 + u.normSq)) ^ 2 + (u.y / s (1 + u.normSq)) ^ 2 + (u.z / s (1 + u.normSq)) ^ 2 ≤ 1 := by
  have h0 : 0 ≤ u.normSq := by unfold V3.normSq; positivity
  obtain ⟨h1, h2⟩ := hq (1 + u.normSq) (by linarith)
  have h3 : 0 < s (1 + u.normSq) := by
    rcases h1.lt_or_eq with h | h
    · exact h
    · rw [← h] at h2; linarith
  refine ⟨h3, ?_⟩
  rw [div_pow, div_pow, div_pow, ← add_div, ← add_div, div_le_one (by positivity), pow_two (s _), h2]
  unfold V3.normSq
  linarith

/-- Weighted sums of velocities. -/
theorem cone_add {W w x y z a b c : K} (hW : 0 ≤ W) (hw : 0 ≤ w) (h1 : x ^ 2 + y ^ 2 + z ^ 2 ≤ W ^ 2)
    (h2 : a ^ 2 + b ^ 2 + c ^ 2 ≤ 1) :
    (x + w * a) ^ 2 + (y + w * b) ^ 2 + (z + w * c) ^ 2 ≤ (W + w) ^ 2 := by
  have hdot : x * a + y * b + z * c ≤ W := by
    apply le_of_abs_le
    refine abs_le_of_sq_le_sq ?_ hW
    have hcs : (x * a + y * b + z * c) ^ 2 ≤ (x ^ 2 + y ^ 2 + z ^ 2) * (a ^ 2 + b ^ 2 + c ^ 2) := by
      nlinarith [sq_nonneg (x * b - y * a), sq_nonneg (x * c - z * a), sq_nonneg (y * c - z * b)]
    have h3 : (x ^ 2 + y ^ 2 + z ^ 2) * (a ^ 2 + b ^ 2 + c ^ 2) ≤ W ^ 2 * 1 :=
      mul_le_mul h1 h2 (by positivity) (by positivity)
    linarith
  nlinarith [mul_le_mul_of_nonneg_left hdot hw, mul_le_mul_of_nonneg_left h2 (sq_nonneg w)]

/-- The cone of sums. -/
def Cone (t : K × K × K × K) : Prop := 0 ≤ t.1 ∧ t.2.1 ^ 2 + t.2.2.1 ^ 2 + t.2.2.2 ^ 2 ≤ t.1 ^ 2

theorem cone_sum {α : Type} (l : List α) (f : α → K × K × K × K) (h : ∀ x ∈ l, Cone (f x)) :
    Cone ((l.map fun x => (f x).1).sum, (l.map fun x => (f x).2.1).sum,
      (l.map fun x => (f x).2.2.1).sum, (l.map fun x => (f x).2.2.2).sum) := by
  induction l with
  | nil => simp [Cone]
  | cons x l ih =>
    obtain ⟨i1, i2⟩ := ih (fun y hy => h y (by simp [hy]))
    obtain ⟨j1, j2⟩ := h x (by simp)
    simp only [List.map_cons, List.sum_cons]
    dsimp only at i1 i2
    generalize (f x).1 = w at *
    generalize (f x).2.1 = a at *
    generalize (f x).2.2.1 = b at *
    generalize (f x).2.2.2 = c at *
    refine ⟨by dsimp only; linarith, ?_⟩
    dsimp only
    rcases j1.lt_or_eq with hw | hw
    · have := cone_add i1 j1 i2 (a := a / w) (b := b / w) (c := c / w) (by
        rw [div_pow, div_pow, div_pow, ← add_div, ← add_div, div_le_one (by positivity)]; exact j2)
      rw [mul_div_cancel₀ _ hw.ne', mul_div_cancel₀ _ hw.ne', mul_div_cancel₀ _ hw.ne'] at this
      linarith
    · subst hw
      have ha : a = 0 := by nlinarith [sq_nonneg a, sq_nonneg b, sq_nonneg c]
      have hb : b = 0 := by nlinarith [sq_nonneg a, sq_nonneg b, sq_nonneg c]
      have hc : c = 0 := by nlinarith [sq_nonneg a, sq_nonneg b, sq_nonneg c]
      subst ha hb hc
      simpa using i2

/-- What a particle adds to density and velocity of a cell. -/
theorem part_cone {cfg : Cfg K} {specs : List Nat} {r : Part K} (hv : r.Valid cfg specs)
    (hc : cfg.gr = false) (hq : ∀ x, 0 ≤ x → 0 ≤ r.env.sqrt x ∧ r.env.sqrt x * r.env.sqrt x = x)
    (h0 : 0 ≤ cfg.invN0) {s : Species K} (hs : s ∈ chosen r.species specs) (hm : 0 < s.mass) {p : Prtl K}
    (hp : p ∈ s.prtls) (hw : cfg.useWeights = true → 0 ≤ p.weight)
    (hd : 0 ≤ r.env.sqrtDetH (p.pos.map (fun a => (a.1 : K) + 1/2))) :
    Cone (total (upds (rhoCfg cfg) r.env s.mass s.charge p) 0 r.cell,
      total (upds (velCfg cfg 0) r.env s.mass s.charge p) 3 r.cell,
      total (upds (velCfg cfg 1) r.env s.mass s.charge p) 4 r.cell,
      total (upds (velCfg cfg 2) r.env s.mass s.charge p) 5 r.cell) := by
  by_cases ht : p.tag = dead
  · rw [(upds_dead ht).2, (upds_dead ht).2, (upds_dead ht).2, (upds_dead ht).2]
    simp [total, Cone]
  have hsr := hv.rho.sensible s hs
  have hpr := hv.rho.inside s hs p hp
  obtain ⟨S, hS⟩ := shapeFunction_ok hsr
  have hg := unit_nonneg hsr hS hpr ht r.cell
  have er : total (upds (rhoCfg cfg) r.env s.mass s.charge p) 0 r.cell =
      contribution (rhoCfg cfg) r.env s.mass s.charge p * total (unit (rhoCfg cfg) S p) 0 r.cell := by
    rw [upds_unit hsr hpr ht hS]
    rw [show (rhoCfg cfg).buffIdx = 0 from rfl, total_scale _ _ 0 0]
    congr 2
    conv_rhs => rw [rhoCfg, unit_base]
    conv_lhs => rw [rhoCfg, unit_base]
    rw [List.map_map]; rfl
  have ev : ∀ k < 3, total (upds (velCfg cfg k) r.env s.mass s.charge p) (k + 3) r.cell =
      contribution (velCfg cfg k) r.env s.mass s.charge p * total (unit (rhoCfg cfg) S p) 0 r.cell := by
    intro k hk
    have hsv := (hv.vel k hk).sensible s hs
    have hpv := (hv.vel k hk).inside s hs p hp
    rw [upds_unit hsv hpv ht (S := S) hS]
    rw [show (velCfg cfg k).buffIdx = k + 3 from rfl, total_scale _ _ 0 (k + 3)]
    congr 2
    conv_rhs => rw [rhoCfg, unit_base]
    conv_lhs => rw [velCfg, unit_base]
    rw [List.map_map]; rfl
  rw [er, ev 0 (by omega), ev 1 (by omega), ev 2 (by omega)]
  change 0 ≤ total (unit (rhoCfg cfg) S p) 0 r.cell at hg
  generalize total (unit (rhoCfg cfg) S p) 0 r.cell = g at hg
  obtain ⟨hγ, hspeed⟩ := speed_le hq (if cfg.cartesian then p.u else r.env.tetrad p)
  have hcr : contribution (rhoCfg cfg) r.env s.mass s.charge p = s.mass *
      (if cfg.useWeights then p.weight else 1) * cfg.invN0 /
        r.env.sqrtDetH (p.pos.map (fun a => (a.1 : K) + 1/2)) := by
    unfold contribution; rw [if_neg ht, if_neg (by simp [rhoCfg])]; rfl
  have hcv : ∀ k, contribution (velCfg cfg k) r.env s.mass s.charge p =
      (four (r.env.sqrt (1 + (if cfg.cartesian then p.u else r.env.tetrad p).normSq))
        (if cfg.cartesian then p.u else r.env.tetrad p) (k + 1) /
        r.env.sqrt (1 + (if cfg.cartesian then p.u else r.env.tetrad p).normSq)) *
      contribution (rhoCfg cfg) r.env s.mass s.charge p := by
    intro k
    rw [hcr]
    unfold contribution
    rw [if_neg ht, if_neg (by simp [velCfg])]
    simp only [quantity, velCfg, hc, Bool.false_eq_true, if_false, if_neg hm.ne', List.getD_cons_zero]
    ring
  have hw' : 0 ≤ (if cfg.useWeights then p.weight else 1) := by
    split_ifs with h
    · exact hw h
    · exact zero_le_one
  have hr0 : 0 ≤ contribution (rhoCfg cfg) r.env s.mass s.charge p := by
    rw [hcr]; exact div_nonneg (mul_nonneg (mul_nonneg hm.le hw') h0) hd
  rw [hcv 0, hcv 1, hcv 2]
  generalize contribution (rhoCfg cfg) r.env s.mass s.charge p = w at hr0
  generalize (if cfg.cartesian then p.u else r.env.tetrad p) = u at hγ hspeed
  simp only [four]
  generalize r.env.sqrt (1 + u.normSq) = γ at hγ hspeed
  refine ⟨mul_nonneg hr0 hg, ?_⟩
  dsimp only
  have : (u.x / γ * w * g) ^ 2 + (u.y / γ * w * g) ^ 2 + (u.z / γ * w * g) ^ 2 =
      ((u.x / γ) ^ 2 + (u.y / γ) ^ 2 + (u.z / γ) ^ 2) * (w * g) ^ 2 := by ring
  rw [this]
  calc _ ≤ 1 * (w * g) ^ 2 := mul_le_mul_of_nonneg_right hspeed (sq_nonneg _)
    _ = _ := one_mul _

/-- The arrays of one rank. -/
theorem rank_arrays {cfg : Cfg K} {specs : List Nat} {r : Part K} (hv : r.Valid cfg specs) :
    ∃ J, rankMoments cfg r.env (r.nAct.map (· + 2 * cfg.NG)) r.sched r.species specs = .ok J ∧
      (∀ n, J 0 n = total (allUpds (rhoCfg cfg) r.env (r.sched 3) r.species
        (selected r.species specs)) 0 n) ∧
      ∀ k < 3, ∀ n, J (k + 3) n = total (allUpds (velCfg cfg k) r.env (r.sched k) r.species
        (selected r.species specs)) (k + 3) n := by
  have other : ∀ {c : Cfg K} {sch : Nat → List (Prtl K) → List (Prtl K)} (hs : ∀ i l, (sch i l).Perm l)
      (hr : Request c r.env r.nAct r.species specs) (b : Nat), b ≠ c.buffIdx → ∀ n,
      total (allUpds c r.env sch r.species (selected r.species specs)) b n = 0 := by
    intro c sch hs hr b hb n
    have h1 := (run_ok hs hr (fun _ _ => 0)).1
    unfold total
    apply List.sum_eq_zero
    intro x hx
    obtain ⟨u, hu, rfl⟩ := List.mem_map.mp hx
    exact if_neg (fun e => hb (e.1.symm.trans (h1 u hu).1))
  have v0 := hv.vel 0 (by omega)
  have v1 := hv.vel 1 (by omega)
  have v2 := hv.vel 2 (by omega)
  obtain ⟨-, J0, e0, t0⟩ := run_ok (hv.sched 0) v0 (fun _ _ => 0)
  obtain ⟨-, J1, e1, t1⟩ := run_ok (hv.sched 1) v1 J0
  obtain ⟨-, J2, e2, t2⟩ := run_ok (hv.sched 2) v2 J1
  obtain ⟨-, J3, e3, t3⟩ := run_ok (hv.sched 3) hv.rho J2
  refine ⟨J3, ?_, ?_, ?_⟩
  · unfold rankMoments
    have g0 : (velCfg cfg 0).NG = cfg.NG := rfl
    have g1 : (velCfg cfg 1).NG = cfg.NG := rfl
    have g2 : (velCfg cfg 2).NG = cfg.NG := rfl
    have g3 : (rhoCfg cfg).NG = cfg.NG := rfl
    rw [g0] at e0; rw [g1] at e1; rw [g2] at e2; rw [g3] at e3
    rw [e0, Outcome.bind_ok, e1, Outcome.bind_ok, e2, Outcome.bind_ok, e3]
  · intro n
    rw [t3, t2, t1, t0, other (hv.sched 0) v0 0 (show 0 ≠ 3 by omega), other (hv.sched 1) v1 0 (show 0 ≠ 4 by omega),
      other (hv.sched 2) v2 0 (show 0 ≠ 5 by omega)]
    simp
  · intro k hk n
    have b0 : (velCfg cfg 0).buffIdx = 3 := rfl
    have b1 : (velCfg cfg 1).buffIdx = 4 := rfl
    have b2 : (velCfg cfg 2).buffIdx = 5 := rfl
    have b3 : (rhoCfg cfg).buffIdx = 0 := rfl
    rw [t3, t2, t1, t0]
    obtain rfl | rfl | rfl : k = 0 ∨ k = 1 ∨ k = 2 := by omega
    · rw [other (hv.sched 1) v1 _ (by rw [b1]; omega), other (hv.sched 2) v2 _ (by rw [b2]; omega),
        other (hv.sched 3) hv.rho _ (by rw [b3]; omega)]
      simp
    · rw [other (hv.sched 0) v0 _ (by rw [b0]; omega), other (hv.sched 2) v2 _ (by rw [b2]; omega),
        other (hv.sched 3) hv.rho _ (by rw [b3]; omega)]
      simp
    · rw [other (hv.sched 0) v0 _ (by rw [b0]; omega), other (hv.sched 1) v1 _ (by rw [b1]; omega),
        other (hv.sched 3) hv.rho _ (by rw [b3]; omega)]
      simp

/-- Density and velocity of a cell in the arrays of one rank. -/
theorem rank_cone {cfg : Cfg K} {specs : List Nat} {r : Part K} (hv : r.Valid cfg specs)
    (hc : cfg.gr = false) (hq : ∀ x, 0 ≤ x → 0 ≤ r.env.sqrt x ∧ r.env.sqrt x * r.env.sqrt x = x)
    (h0 : 0 ≤ cfg.invN0) (hm : ∀ s ∈ chosen r.species specs, 0 < s.mass ∧ ∀ p ∈ s.prtls,
      (cfg.useWeights = true → 0 ≤ p.weight) ∧
      0 ≤ r.env.sqrtDetH (p.pos.map (fun a => (a.1 : K) + 1/2))) {J : Cur K}
    (hJ : rankMoments cfg r.env (r.nAct.map (· + 2 * cfg.NG)) r.sched r.species specs = .ok J) :
    Cone (J 0 r.cell, J 3 r.cell, J 4 r.cell, J 5 r.cell) := by
  obtain ⟨J', e, er, ev⟩ := rank_arrays hv
  rw [hJ] at e
  cases e
  have sums : ∀ {c : Cfg K} {sch : Nat → List (Prtl K) → List (Prtl K)} (hs : ∀ i l, (sch i l).Perm l)
      (hr : Request c r.env r.nAct r.species specs) (b : Nat),
      total (allUpds c r.env sch r.species (selected r.species specs)) b r.cell =
        ((chosen r.species specs).map fun s => (s.prtls.map fun p =>
          total (upds c r.env s.mass s.charge p) b r.cell).sum).sum := by
    intro c sch hs hr b
    exact allUpds_sum hs hr _ _ (fun s _ p _ => rfl)
  rw [er, ev 0 (by omega), ev 1 (by omega), ev 2 (by omega), sums (hv.sched 3) hv.rho,
    sums (hv.sched 0) (hv.vel 0 (by omega)), sums (hv.sched 1) (hv.vel 1 (by omega)),
    sums (hv.sched 2) (hv.vel 2 (by omega))]
  refine cone_sum (chosen r.species specs) (fun s => (_, _, _, _)) ?_
  intro s hs
  refine cone_sum s.prtls (fun p => (_, _, _, _)) ?_
  intro p hp
  obtain ⟨h1, h2⟩ := hm s hs
  exact part_cone hv hc hq h0 hs h1 hp (h2 p hp).1 (h2 p hp).2

/-! ## C122 -/

/-- In SR, in any coordinates and dimension, on any number of ranks and for all schedules: the computation
succeeds, and the written bulk velocity of a cell is never faster than light. -/
theorem C122_subluminal (cfg : Cfg K) (hgr : cfg.gr = false) (h0 : 0 ≤ cfg.invN0) (specs : List Nat)
    (rs : List (Part K)) (hv : ∀ r ∈ rs, r.Valid cfg specs)
    (hq : ∀ r ∈ rs, ∀ x, 0 ≤ x → 0 ≤ r.env.sqrt x ∧ r.env.sqrt x * r.env.sqrt x = x)
    (hm : ∀ r ∈ rs, ∀ s ∈ chosen r.species specs, 0 < s.mass ∧ ∀ p ∈ s.prtls,
      (cfg.useWeights = true → 0 ≤ p.weight) ∧
      0 ≤ r.env.sqrtDetH (p.pos.map (fun a => (a.1 : K) + 1/2)))
    (eps : K) (he : 0 ≤ eps ∧ eps ≤ 1) :
    ∃ parts, Computed cfg specs rs parts ∧ ∀ parts, Computed cfg specs rs parts →
      normalize eps parts 0 ^ 2 + normalize eps parts 1 ^ 2 + normalize eps parts 2 ^ 2 ≤ 1 := by
  constructor
  swap
  · exact (rs.attach.map fun r => ((rank_arrays (hv r.1 r.2)).choose, r.1.cell))
  constructor
  · unfold Computed
    rw [List.forall₂_map_right_iff]
    have : ∀ l : List {x // x ∈ rs}, List.Forall₂ (fun (r : Part K) (c : {x // x ∈ rs}) =>
        rankMoments cfg r.env (r.nAct.map (· + 2 * cfg.NG)) r.sched r.species specs =
          .ok ((rank_arrays (hv c.1 c.2)).choose, c.1.cell).1 ∧
        ((rank_arrays (hv c.1 c.2)).choose, c.1.cell).2 = r.cell) (l.map Subtype.val) l := by
      intro l
      induction l with
      | nil => exact .nil
      | cons a l ih => exact .cons ⟨(rank_arrays (hv a.1 a.2)).choose_spec.1, rfl⟩ ih
    have h := this rs.attach
    rwa [List.attach_map_subtype_val] at h
  · intro parts hp
    have hcone : Cone (synced parts 0, synced parts 3, synced parts 4, synced parts 5) := by
      unfold synced
      refine cone_sum parts (fun a => (a.1 0 a.2, a.1 3 a.2, a.1 4 a.2, a.1 5 a.2)) ?_
      intro a ha
      obtain ⟨r, hr, h⟩ : ∃ r ∈ rs, rankMoments cfg r.env (r.nAct.map (· + 2 * cfg.NG)) r.sched r.species
          specs = .ok a.1 ∧ a.2 = r.cell := by
        clear hv hq hm
        unfold Computed at hp
        induction hp with
        | nil => cases ha
        | cons h t ih =>
          rcases List.mem_cons.mp ha with rfl | ha
          · exact ⟨_, by simp, h⟩
          · obtain ⟨r, hr, h⟩ := ih ha
            exact ⟨r, by simp [hr], h⟩
      rw [h.2]
      exact rank_cone (hv r hr) hgr (hq r hr) h0 (hm r hr) h.1
    obtain ⟨c1, c2⟩ := hcone
    unfold normalize
    dsimp only at c1 c2
    by_cases hz : |synced parts 0| ≤ eps
    · simp only [if_pos hz]
      have : synced parts 0 ≤ 1 := (le_abs_self _).trans (hz.trans he.2)
      refine c2.trans ?_
      nlinarith
    · simp only [if_neg hz]
      have hpos : 0 < synced parts 0 := by
        rcases c1.lt_or_eq with h | h
        · exact h
        · rw [← h, abs_zero] at hz; exact absurd he.1 hz
      rw [div_pow, div_pow, div_pow, ← add_div, ← add_div, div_le_one (by positivity)]
      exact c2

/-- In Cartesian coordinates: where the mass density exceeds the tolerance, the written bulk velocity is
the mass-weighted mean of the velocities of the particles, each counted with its share of the cell. -/
theorem C122_mean (cfg : Cfg K) (hcart : cfg.cartesian = true) (specs : List Nat) (rs : List (Part K))
    (hv : ∀ r ∈ rs, r.Valid cfg specs) (eps : K) (parts : List (Cur K × List Int))
    (hp : Computed cfg specs rs parts)
    (hz : eps < |(rs.map fun r => cellContribution (rhoCfg cfg) r.env r.species specs r.cell).sum|)
    (k : Nat) (hk : k < 3) :
    normalize eps parts k =
      (rs.map fun r => cellContribution (velCfg cfg k) r.env r.species specs r.cell).sum /
      (rs.map fun r => cellContribution (rhoCfg cfg) r.env r.species specs r.cell).sum := by
  have key : ∀ c b, (∀ r, Part.Valid cfg specs r → ∀ J, rankMoments cfg r.env (r.nAct.map (· + 2 * cfg.NG))
      r.sched r.species specs = .ok J → J b r.cell = cellContribution c r.env r.species specs r.cell) →
      synced parts b = (rs.map fun r => cellContribution c r.env r.species specs r.cell).sum := by
    intro c b h
    unfold synced
    clear hz
    unfold Computed at hp
    induction hp with
    | nil => rfl
    | cons ha t ih =>
      rw [List.map_cons, List.sum_cons, List.map_cons, List.sum_cons,
        ih (fun r hr => hv r (by simp [hr])), ha.2, h _ (hv _ (by simp)) _ ha.1]
  have cell : ∀ {r : Part K} (_ : Part.Valid cfg specs r) {c : Cfg K}
      {sch : Nat → List (Prtl K) → List (Prtl K)} (hs : ∀ i l, (sch i l).Perm l)
      (hr : Request c r.env r.nAct r.species specs) (_ : c.cartesian = true),
      total (allUpds c r.env sch r.species (selected r.species specs)) c.buffIdx r.cell =
        cellContribution c r.env r.species specs r.cell := by
    intro r hvr c sch hs hr hcc
    obtain ⟨J', e, h⟩ := C60_cells hs hr hcc (fun _ _ => 0)
    obtain ⟨-, J2, e2, h2⟩ := run_ok hs hr (fun _ _ => 0)
    rw [e] at e2
    cases e2
    have := h r.cell hvr.cell
    rw [h2] at this
    simpa using this
  have h1 := key (rhoCfg cfg) 0 (by
    intro r hvr J hJ
    obtain ⟨J', e, er, -⟩ := rank_arrays hvr
    rw [hJ] at e; cases e
    rw [er]
    exact cell hvr (hvr.sched 3) hvr.rho hcart)
  have h2 := key (velCfg cfg k) (k + 3) (by
    intro r hvr J hJ
    obtain ⟨J', e, -, ev⟩ := rank_arrays hvr
    rw [hJ] at e; cases e
    rw [ev k hk]
    exact cell hvr (hvr.sched k) (hvr.vel k hk) hcart)
  unfold normalize
  rw [h1, h2, if_neg (not_le.mpr hz)]

/-- The bulk velocity of massless particles cannot be written: the computation of the density of a massless
species is an error, although their velocity is computed. -/
theorem C122_massless_counterexample (cfg : Cfg K) (env : Env K) (nAll : List Nat)
    (sched : Nat → Nat → List (Prtl K) → List (Prtl K)) (species : List (Species K)) (sp : Nat)
    (s : Species K) (hs : species[sp - 1]? = some s) (hm : s.mass = 0) (J : Cur K) :
    rankMoments cfg env nAll sched species [sp] ≠ .ok J := by
  intro h
  unfold rankMoments at h
  obtain ⟨J0, -, h⟩ := Outcome.bind_eq_ok.mp h
  obtain ⟨J1, -, h⟩ := Outcome.bind_eq_ok.mp h
  obtain ⟨J2, -, h⟩ := Outcome.bind_eq_ok.mp h
  unfold computeMoments at h
  obtain ⟨-, -, h⟩ := Outcome.bind_eq_ok.mp h
  simp only [selected, List.isEmpty_cons, Bool.false_eq_true, if_false] at h
  unfold speciesLoop at h
  rw [hs] at h
  obtain ⟨u, hc, -⟩ := Outcome.bind_eq_ok.mp h
  unfold checks at hc
  obtain ⟨u1, -, hc⟩ := Outcome.bind_eq_ok.mp hc
  obtain ⟨u2, -, hc⟩ := Outcome.bind_eq_ok.mp hc
  obtain ⟨u3, hc, -⟩ := Outcome.bind_eq_ok.mp hc
  unfold Outcome.errorIf at hc
  rw [if_pos ⟨.inl rfl, hm⟩] at hc
  cases hc

/-- Two particles of weights 3 and 1 with velocities 3/5 and -4/5 in the same cell, and one whose share of
the cell is one half (mass 2, the square root tabulated). -/
example :
    let env : Env ℚ := ⟨fun x => if x = 1 + 9/16 then 5/4 else if x = 1 + 16/9 then 5/3 else 1, fun _ => 1,
      (·.u), fun _ => 1, (·.u), fun _ v => v⟩
    let sp : Species ℚ := ⟨1, 2, 1, [⟨1, [(1, 1/2)], ⟨3/4, 0, 0⟩, 3⟩, ⟨1, [(1, 1/2)], ⟨-4/3, 0, 0⟩, 1⟩,
      ⟨1, [(1, 0)], ⟨0, 0, 0⟩, 2⟩]⟩
    (match rankMoments ({ exCfg with order := 1, smoothing := .spline, useWeights := true } : Cfg ℚ) env [8]
        (fun _ _ l => l.reverse) [sp] [] with
      | .ok J => normalize (1/1000) [(J, [3])] 0
      | _ => 7) = (3 * (3/5) - 4/5) / (3 + 1 + 1) := by
  decide +kernel

end Entity.Moments
