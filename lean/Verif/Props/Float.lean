import Verif.Lemmas.Float
import Verif.Props.DepositBounds

/-!
# Positions in floating-point numbers: C138 (Cartesian push), C139 (curvilinear push)
-/

namespace Entity.Float

open Entity Entity.Push Entity.Deposit

/-! ## C138 -/

/-- `Fmt.round` is rounding to nearest: the result is a number of the format and none is nearer. -/
theorem C138_rounding {F : Fmt} (hF : F.Ok) (x : ℚ) :
    F.Rep (F.round x) ∧ ∀ z, F.Rep z → |F.round x - x| ≤ |z - x| :=
  ⟨round_rep' F x, round_nearest hF x⟩

theorem b2n_true : (b2n true : ℚ) = 1 := by simp [b2n]
theorem b2n_false : (b2n false : ℚ) = 0 := by simp [b2n]

theorem pow_split (p : Nat) : (2 : ℚ) ^ (1 - (p : Int)) = 2 * 2 ^ (0 - (p : Int)) := by
  rw [show (1 : Int) - p = 1 + (0 - p) by ring, zpow_add₀ (by norm_num), zpow_one]

/-- **C138.** One Cartesian push in floating-point numbers, for every pair of formats such as (float,
float) and (float, double), every offset in `[0, 1]` and every displacement of at most a cell: the new
offset is in `[0, 1]`, the cell changes by at most one, and the position, cell plus offset, is the
exact one up to `2 ^ (1 - p)` of a cell (`2 ^ -23` for `float`). -/
theorem C138_push {st rt : Fmt} (hs : st.Ok) (hr : rt.Ok) (hp : st.p ≤ rt.p)
    {a : Ax ℚ} (h0 : 0 ≤ a.dx) (h1 : a.dx ≤ 1) {disp : ℚ} (hd : |disp| ≤ 1) :
    0 ≤ (pushAxis st rt disp a).dx ∧ (pushAxis st rt disp a).dx ≤ 1 ∧
    ((pushAxis st rt disp a).i = a.i - 1 ∨ (pushAxis st rt disp a).i = a.i ∨
      (pushAxis st rt disp a).i = a.i + 1) ∧
    |((pushAxis st rt disp a).i + (pushAxis st rt disp a).dx) - (a.i + a.dx + disp)| ≤
      2 ^ (1 - (st.p : Int)) ∧
    (pushAxis st rt disp a).iPrev = a.i ∧ (pushAxis st rt disp a).dxPrev = a.dx := by
  obtain ⟨d1, d2⟩ := abs_le.1 hd
  have s1 := hs.emin
  have s2 := hr.emin
  have q0 := two_zpow_pos (0 - (st.p : Int))
  have hq := pow_split st.p
  have hpr : (2 : ℚ) ^ (0 - (rt.p : Int)) ≤ 2 ^ (0 - (st.p : Int)) := zpow_mono (by omega)
  have hpr1 : (2 : ℚ) ^ (1 - (rt.p : Int)) ≤ 2 ^ (1 - (st.p : Int)) := zpow_mono (by omega)
  generalize hy : a.dx + disp = y at *
  have y1 : -1 ≤ y := by linarith
  have y2 : y ≤ 2 := by linarith
  have a1 : -1 ≤ rt.round y := le_round hr (rep_neg (rep_one hr)) y1
  have a2 : rt.round y ≤ 2 := round_le hr (rep_two hr) y2
  have b1 : -1 ≤ st.round (rt.round y) := le_round hs (rep_neg (rep_one hs)) a1
  have b2 : st.round (rt.round y) ≤ 2 := round_le hs (rep_two hs) a2
  have e1 : |rt.round y - y| ≤ 2 ^ (1 - (rt.p : Int)) / 2 :=
    round_err_le hr (k := 1) (by rw [abs_le]; norm_num; constructor <;> linarith) (by omega)
  have e2 : |st.round (rt.round y) - rt.round y| ≤ 2 ^ (1 - (st.p : Int)) / 2 :=
    round_err_le hs (k := 1) (by rw [abs_le]; norm_num; constructor <;> linarith) (by omega)
  have f1 : y ≤ 0 → |rt.round y - y| ≤ 2 ^ (0 - (rt.p : Int)) / 2 := fun h =>
    round_err_le hr (k := 0) (by rw [abs_le]; norm_num; constructor <;> linarith) (by omega)
  have f2 : rt.round y ≤ 0 → |st.round (rt.round y) - rt.round y| ≤ 2 ^ (0 - (st.p : Int)) / 2 := fun h =>
    round_err_le hs (k := 0) (by rw [abs_le]; norm_num; constructor <;> linarith) (by omega)
  have g1 : st.round (rt.round y) < 0 → rt.round y < 0 := by
    intro h
    by_contra hc
    rw [not_lt] at hc
    have := le_round hs (rep_zero hs) hc
    linarith
  have g2 : rt.round y < 0 → y < 0 := by
    intro h
    by_contra hc
    rw [not_lt] at hc
    have := le_round hr (rep_zero hr) hc
    linarith
  have hrep : st.Rep (st.round (rt.round y)) := round_rep' st _
  have ee := abs_le.1 e1
  have ff := abs_le.1 e2
  unfold pushAxis
  simp only [hy]
  generalize st.round (rt.round y) = x at *
  generalize rt.round y = z at *
  rw [show (a.i : ℚ) + a.dx + disp = a.i + y by rw [← hy]; ring]
  by_cases c1 : (1 : ℚ) ≤ x
  · have c2 : ¬ x < 0 := by linarith
    have hx : st.round (x - 1) = x - 1 := round_rep hs (rep_sub_one hs hrep c1 b2)
    have c3 : ¬ x - 1 < 0 := by linarith
    simp only [ge_iff_le, c1, c2, decide_true, decide_false, b2n_true, b2n_false, hx, c3, add_zero,
      Push.b2i, if_true]
    refine ⟨by linarith, by linarith, by simp, ?_, trivial, trivial⟩
    simp only [Bool.false_eq_true, if_false]
    push_cast
    rw [abs_le]
    constructor <;> linarith
  · by_cases c2 : x < 0
    · have hx : st.round x = x := round_rep hs hrep
      simp only [ge_iff_le, c1, c2, decide_true, decide_false, b2n_true, b2n_false, hx, sub_zero,
        Push.b2i, if_true, Bool.false_eq_true, if_false]
      have k1 := abs_le.1 (f1 (g2 (g1 c2)).le)
      have k2 := abs_le.1 (f2 (g1 c2).le)
      have k3 := abs_le.1 (round_err_le hs (x := x + 1) (k := 0)
        (by rw [abs_le]; norm_num; constructor <;> linarith) (by omega))
      refine ⟨le_round hs (rep_zero hs) (by linarith), round_le hs (rep_one hs) (by linarith), by simp,
        ?_, trivial, trivial⟩
      push_cast
      rw [abs_le]
      constructor <;> linarith
    · have hx : st.round x = x := round_rep hs hrep
      simp only [ge_iff_le, c1, c2, decide_true, decide_false, b2n_true, b2n_false, hx, sub_zero,
        add_zero, Push.b2i, Bool.false_eq_true, if_false]
      refine ⟨by linarith, by linarith, by simp, ?_, trivial, trivial⟩
      push_cast
      rw [abs_le]
      constructor <;> linarith

/-- **C138 (many steps).** After any number of pushes the offset is still in `[0, 1]`, and the position
differs from the exact one by at most `2 ^ (1 - p)` of a cell per step. -/
theorem C138_many_pushes {st rt : Fmt} (hs : st.Ok) (hr : rt.Ok) (hp : st.p ≤ rt.p) (ds : List ℚ)
    (hd : ∀ d ∈ ds, |d| ≤ 1) {a : Ax ℚ} (h0 : 0 ≤ a.dx) (h1 : a.dx ≤ 1) :
    0 ≤ (ds.foldl (fun b d => pushAxis st rt d b) a).dx ∧
    (ds.foldl (fun b d => pushAxis st rt d b) a).dx ≤ 1 ∧
    |((ds.foldl (fun b d => pushAxis st rt d b) a).i + (ds.foldl (fun b d => pushAxis st rt d b) a).dx) -
      (a.i + a.dx + ds.sum)| ≤ ds.length * 2 ^ (1 - (st.p : Int)) := by
  induction ds generalizing a with
  | nil => simpa using ⟨h0, h1⟩
  | cons d ds ih =>
    obtain ⟨p0, p1, -, p2, -⟩ := C138_push hs hr hp h0 h1 (hd d (by simp))
    obtain ⟨q0, q1, q2⟩ := ih (fun d h => hd d (by simp [h])) p0 p1
    simp only [List.foldl_cons, List.sum_cons, List.length_cons]
    refine ⟨q0, q1, ?_⟩
    have r1 := abs_le.1 p2
    have r2 := abs_le.1 q2
    push_cast
    rw [abs_le]
    constructor <;> linarith [r1.1, r1.2, r2.1, r2.2]

/-- **C138: the offset can become 1.** A particle at the lower edge of a cell that moves down by less than
half the distance of 1 and the number before it: the offset `0 - disp + 1` is rounded to 1, which
belongs to the cell above.  So "offsets are below 1", which holds in exact arithmetic (C25, C135), is
false in the numbers of the code, in single and in double precision. -/
theorem C138_offset_one_counterexample (i : Int) (rt : Fmt) (hrt : rt = b32 ∨ rt = b64) :
    (pushAxis b32 rt (-2 ^ (-30 : Int)) ⟨i, i, 0, 0, 0⟩).dx = 1 ∧
    (pushAxis b32 rt (-2 ^ (-30 : Int)) ⟨i, i, 0, 0, 0⟩).i = i - 1 := by
  have hr : rt.Ok := by rcases hrt with rfl | rfl; exacts [b32_ok, b64_ok]
  have h1 : rt.round (-2 ^ (-30 : Int)) = -2 ^ (-30 : Int) :=
    round_rep hr (rep_neg (rep_pow (by rcases hrt with rfl | rfl <;> decide)))
  have h2 : b32.round (-2 ^ (-30 : Int)) = -2 ^ (-30 : Int) :=
    round_rep b32_ok (rep_neg (rep_pow (by decide)))
  have h3 : b32.round (-2 ^ (-30 : Int) + 1) = 1 :=
    round_eq b32_ok (rep_one b32_ok) (k := -1) (by decide) (by norm_num) (by norm_num)
      (by rw [abs_lt]; constructor <;> norm_num [b32])
  have c1 : ¬ (1 : ℚ) ≤ -2 ^ (-30 : Int) := by norm_num
  have c2 : (-2 ^ (-30 : Int) : ℚ) < 0 := by norm_num
  unfold pushAxis
  simp only [zero_add, h1, h2, ge_iff_le, c1, c2, decide_true, decide_false, b2n_true, b2n_false, sub_zero,
    h3, Push.b2i, if_true, Bool.false_eq_true, if_false]
  exact ⟨trivial, by ring⟩

/-- **C138 (deposit).** Particles of a box pushed in floating-point numbers by less than a cell (minus the
rounding error) can be deposited for odd orders and the zigzag scheme without an access outside the
arrays: the closed interval `[0, 1]` of offsets is harmless there. -/
theorem C138_deposit_in_bounds {st rt : Fmt} (hs : st.Ok) (hr : rt.Ok) (hp : st.p ≤ rt.p) (O : Nat)
    (hO : O ≤ 11) (hodd : O = 0 ∨ O % 2 = 1) (n : List Nat) (hn : n.length ∈ [1, 2, 3])
    (charge dt : ℚ) (ps : List (DPrtl ℚ))
    (h : ∀ q ∈ ps, List.Forall₂ (fun (n : Nat) (b : Ax ℚ) => ∃ a disp, b = pushAxis st rt disp a ∧
      0 ≤ a.i ∧ a.i < n ∧ 0 ≤ a.dx ∧ a.dx ≤ 1 ∧ |disp| + 2 ^ (1 - (st.p : Int)) < 1) n q.ax) :
    ∃ us, depositAll O (nGhosts O) charge dt ps = .ok us ∧
      ∀ vs, vs.Perm us → ∀ J, ∃ J', applyAll (n.map (· + 2 * nGhosts O)) vs J = .ok J' := by
  refine C33_deposit_in_bounds_partial O hO n hn charge dt ps fun q hq => .inr ?_
  refine (h q hq).imp ?_
  rintro n b ⟨a, disp, rfl, i0, i1, d0, d1, hd⟩
  have q0 := two_zpow_pos (1 - (st.p : Int))
  obtain ⟨p0, p1, -, p2, p3, p4⟩ := C138_push hs hr hp (a := a) d0 d1 (disp := disp) (by linarith)
  have i0' : (0 : ℚ) ≤ a.i := by exact_mod_cast i0
  have i1' : (a.i : ℚ) + 1 ≤ n := by exact_mod_cast i1
  have r := abs_le.1 p2
  have r2 := abs_le.1 (le_refl |disp|)
  have key : |((pushAxis st rt disp a).i + (pushAxis st rt disp a).dx : ℚ) - (a.i + a.dx)| < 1 := by
    rw [abs_lt]
    constructor <;> linarith [r.1, r.2, r2.1, r2.2]
  have key' := abs_lt.1 key
  refine ⟨⟨by rw [p4]; exact d0, by rw [p4]; exact d1, p0, p1, by rw [p3, p4]; exact key⟩, ?_, ?_, ?_, ?_⟩
  · unfold xOld; rw [p3, p4]; linarith
  · unfold xNew; linarith
  · unfold xOld reach; rw [p3, p4, if_pos hodd]; linarith
  · unfold xNew reach; rw [if_pos hodd]; linarith

/-- The hypotheses are met: `float` and `double`, a particle at `3.9` that moves by `1/2`; the offset
`9/10` is not a `float`, but `15099494 / 2 ^ 24` is. -/
example : b32.Rep (15099494 / 2 ^ 24) ∧ |(15099494 / 2 ^ 24 : ℚ) - 9 / 10| < 1 / 10 ^ 7 ∧
    |(1 / 2 : ℚ)| + 2 ^ (1 - (b32.p : Int)) < 1 ∧
    (pushAxis b32 b64 (1 / 2) ⟨3, 3, 15099494 / 2 ^ 24, 0, 0⟩).i = 4 := by
  have r : b32.Rep (15099494 / 2 ^ 24) := ⟨15099494, -24, by decide, by decide, by norm_num⟩
  have r2 : ∀ F : Fmt, F.emin ≤ -23 → (11744051 : Int) ≤ 2 ^ F.p → F.Rep (11744051 / 2 ^ 23) := fun F h1 h2 =>
    ⟨11744051, -23, h1, by rwa [abs_of_pos (by norm_num)], by norm_num⟩
  refine ⟨r, by rw [abs_lt]; constructor <;> norm_num, by norm_num [b32, abs_of_pos], ?_⟩
  have h1 : b64.round (15099494 / 2 ^ 24 + 1 / 2) = 11744051 / 2 ^ 23 := by
    rw [show (15099494 / 2 ^ 24 + 1 / 2 : ℚ) = 11744051 / 2 ^ 23 by norm_num]
    exact round_rep b64_ok (r2 b64 (by decide) (by decide))
  have h2 : b32.round (11744051 / 2 ^ 23) = 11744051 / 2 ^ 23 :=
    round_rep b32_ok (r2 b32 (by decide) (by decide))
  unfold pushAxis
  simp only [h1, h2]
  have c1 : (1 : ℚ) ≤ 11744051 / 2 ^ 23 := by norm_num
  have c2 : ¬ (11744051 / 2 ^ 23 : ℚ) < 0 := by norm_num
  simp only [ge_iff_le, c1, c2, decide_true, decide_false, Push.b2i]
  norm_num

/-! ## C139 -/

/-- **C139.** Conversion of a code coordinate to cell and offset in floating-point numbers: for
coordinates from -1 to `2 ^ k - 1`, the cell is the one of the coordinate or (where adding 1 rounds
up) the next one, the offset is in `[0, 1]` in the first case, and cell plus offset is the coordinate
up to `2 ^ (k - p)`.

Full claim: the offset is in `[0, 1]` and exact to the precision of an offset, `2 ^ (- p)`.  Missing: both
are false, see the counterexamples below. -/
theorem C139_conversion_partial {st rt : Fmt} (hs : st.Ok) (hr : rt.Ok) (hp : st.p ≤ rt.p) {xi : ℚ}
    (h0 : -1 ≤ xi) {k : Nat} (hk : k ≤ st.p) (h1 : xi + 1 < 2 ^ k) :
    ((fromXi st rt xi).1 = ⌊xi⌋ ∧ 0 ≤ (fromXi st rt xi).2 ∧ (fromXi st rt xi).2 ≤ 1 ∨
      (fromXi st rt xi).1 = ⌊xi⌋ + 1) ∧
    |((fromXi st rt xi).1 + (fromXi st rt xi).2) - xi| ≤ 2 ^ ((k : Int) - st.p) := by
  have s1 := hs.emin
  have f0 := Int.floor_le xi
  have f1 := Int.lt_floor_add_one xi
  have n0 : -1 ≤ ⌊xi⌋ := Int.le_floor.2 (by exact_mod_cast h0)
  have n1 : ⌊xi⌋ + 1 < 2 ^ k := by
    have : ((⌊xi⌋ + 1 : Int) : ℚ) < ((2 ^ k : Int) : ℚ) := by push_cast; linarith
    exact_mod_cast this
  have hk1 : (2 : Int) ^ k ≤ 2 ^ st.p := pow_le_pow_right₀ (by norm_num) hk
  have hk2 : (2 : Int) ^ k ≤ 2 ^ rt.p := pow_le_pow_right₀ (by norm_num) (by omega)
  have hk0 : (1 : Int) ≤ 2 ^ k := one_le_pow₀ (by norm_num)
  have hk0' : (1 : ℚ) ≤ 2 ^ k := one_le_pow₀ (by norm_num)
  generalize hn : ⌊xi⌋ = n at *
  have i1 : ∀ j : Int, -1 ≤ j → j ≤ 2 ^ k → st.Rep (j : ℚ) := fun j a b =>
    rep_int hs (by rw [abs_le]; constructor <;> omega)
  have i2 : ∀ j : Int, -1 ≤ j → j ≤ 2 ^ k → rt.Rep (j : ℚ) := fun j a b =>
    rep_int hr (by rw [abs_le]; constructor <;> omega)
  have z1 : ((n + 1 : Int) : ℚ) ≤ rt.round (xi + 1) :=
    le_round hr (i2 _ (by omega) (by omega)) (by push_cast; linarith)
  have z2 : rt.round (xi + 1) ≤ ((n + 2 : Int) : ℚ) :=
    round_le hr (i2 _ (by omega) (by omega)) (by push_cast; linarith)
  have zi : toInt (rt.round (xi + 1)) = n + 1 ∨ toInt (rt.round (xi + 1)) = n + 2 := by
    have : (0 : ℚ) ≤ rt.round (xi + 1) := by
      have : (0 : ℚ) ≤ ((n + 1 : Int) : ℚ) := by exact_mod_cast (by omega : (0 : Int) ≤ n + 1)
      linarith
    unfold toInt
    rw [if_pos this]
    have a := Int.le_floor.2 z1
    have b := Int.floor_le_floor z2
    rw [Int.floor_intCast] at b
    omega
  have w1 : (n : ℚ) ≤ st.round xi := le_round hs (i1 n n0 (by omega)) f0
  have w2 : st.round xi ≤ ((n + 1 : Int) : ℚ) :=
    round_le hs (i1 _ (by omega) (by omega)) (by push_cast; linarith)
  push_cast at w2
  have e1 : |st.round xi - xi| ≤ 2 ^ ((k : Int) - st.p) / 2 :=
    round_err_le hs (by rw [zpow_natCast, abs_le]; constructor <;> linarith) (by omega)
  have e3 : (2 : ℚ) ^ ((0 : Int) - st.p) ≤ 2 ^ ((k : Int) - st.p) := zpow_mono (by omega)
  have ee := abs_le.1 e1
  unfold fromXi
  rcases zi with zi | zi
  · simp only [zi, add_sub_cancel_right]
    rw [round_rep hs (i1 n n0 (by omega))]
    have e2 := abs_le.1 (round_err_le hs (x := st.round xi - n) (k := 0)
      (by rw [abs_le]; norm_num; constructor <;> linarith) (by omega))
    refine ⟨.inl ⟨trivial, le_round hs (rep_zero hs) (by linarith), round_le hs (rep_one hs) (by linarith)⟩, ?_⟩
    rw [abs_le]
    constructor <;> linarith
  · have hi : n + 2 - 1 = n + 1 := by ring
    simp only [zi, hi]
    rw [round_rep hs (i1 (n + 1) (by omega) (by omega))]
    push_cast
    have e2 := abs_le.1 (round_err_le hs (x := st.round xi - (n + 1)) (k := 0)
      (by rw [abs_le]; norm_num; constructor <;> linarith) (by omega))
    refine ⟨.inr trivial, ?_⟩
    rw [abs_le]
    constructor <;> linarith

/-- **C139: negative offsets.** In single precision the number before 4 is put into cell 4 with a
negative offset, since adding 1 rounds to 5; in double precision a coordinate barely below 0 is put into
cell 0 with a negative offset. -/
theorem C139_negative_offset_counterexample :
    (b32.Rep (4 - 2 ^ (-22 : Int)) ∧ fromXi b32 b32 (4 - 2 ^ (-22 : Int)) = (4, -2 ^ (-22 : Int))) ∧
    (b64.Rep (-2 ^ (-60 : Int)) ∧ fromXi b32 b64 (-2 ^ (-60 : Int)) = (0, -2 ^ (-60 : Int))) := by
  have r4 : b32.Rep (4 - 2 ^ (-22 : Int)) := ⟨16777215, -22, by decide, by decide, by norm_num⟩
  refine ⟨⟨r4, ?_⟩, rep_neg (rep_pow (by decide)), ?_⟩
  · have q : b32.quantum (4 - 2 ^ (-22 : Int) + 1) = -21 := by
      have : Int.log 2 |(4 - 2 ^ (-22 : Int) + 1 : ℚ)| = 2 := by
        rw [abs_of_pos (by norm_num), Int.log_of_one_le_right _ (by norm_num)]
        have : ⌊(4 - 2 ^ (-22 : Int) + 1 : ℚ)⌋₊ = 4 := by
          rw [Nat.floor_eq_iff (by norm_num)]; norm_num
        rw [this]
        decide
      unfold Fmt.quantum
      rw [this]
      decide
    have fl : ⌊((4 - 2 ^ (-22 : Int) + 1) / 2 ^ (-21 : Int) : ℚ)⌋ = 10485759 := by
      rw [Int.floor_eq_iff]; norm_num
    have h1 : b32.round (4 - 2 ^ (-22 : Int) + 1) = 5 := by
      unfold Fmt.round
      rw [q]
      unfold nearestEven
      rw [fl]
      norm_num
    have h2 : b32.round (4 - 2 ^ (-22 : Int)) = 4 - 2 ^ (-22 : Int) := round_rep b32_ok r4
    have h3 : b32.round ((4 : Int) : ℚ) = 4 := by
      rw [round_rep b32_ok (rep_int b32_ok (by decide))]; norm_num
    have h4 : b32.round (-2 ^ (-22 : Int)) = -2 ^ (-22 : Int) :=
      round_rep b32_ok (rep_neg (rep_pow (by decide)))
    have h5 : toInt 5 = 5 := by
      unfold toInt; rw [if_pos (by norm_num)]; norm_num
    unfold fromXi
    simp only [h1, h5, show (5 : Int) - 1 = 4 by norm_num, h2, h3]
    rw [show (4 - 2 ^ (-22 : Int) - 4 : ℚ) = -2 ^ (-22 : Int) by ring, h4]
  · have h1 : b64.round (-2 ^ (-60 : Int) + 1) = 1 :=
      round_eq b64_ok (rep_one b64_ok) (k := -1) (by decide) (by norm_num) (by norm_num)
        (by rw [abs_lt]; constructor <;> norm_num [b64])
    have h2 : b32.round (-2 ^ (-60 : Int)) = -2 ^ (-60 : Int) :=
      round_rep b32_ok (rep_neg (rep_pow (by decide)))
    have h3 : toInt 1 = 1 := by
      unfold toInt; rw [if_pos (by norm_num)]; norm_num
    unfold fromXi
    simp only [h1, h3, sub_self, h2, Int.cast_zero, round_zero, sub_zero]

/-- **C139: slow particles stand still far from the origin of the grid.** In double precision, in any cell
`i` from `2 ^ k` to `2 ^ (k + 1) - 1`, a particle in the middle half of the cell whose displacement in a
step is at most `2 ^ (k - 25)` of a cell never moves, however many steps are taken: the coordinate is
rounded to `float` before the cell is subtracted.  (In cell 4096 a displacement of `2 ^ -13` per step is
lost; the same displacement moves a particle in cell 0.) -/
theorem C139_stall_counterexample (k : Nat) (hk : k ≤ 22) (i : Int) (h1 : 2 ^ k ≤ i)
    (h2 : i < 2 ^ (k + 1)) (di : ℚ) (hd : b32.Rep di) (hx : b32.Rep (i + di)) (d0 : 1 / 4 ≤ di)
    (d1 : di ≤ 3 / 4) (disps : List ℚ) (hdisp : ∀ d ∈ disps, |d| ≤ 2 ^ ((k : Int) - 25)) :
    disps.foldl (fun a d => pushXi b32 b64 d a) (i, di) = (i, di) := by
  have up : ∀ {x : ℚ}, b32.Rep x → b64.Rep x := fun h => rep_le (by decide) (by decide) h
  have kk : (2 : ℚ) ^ ((k : Int) - 25) ≤ 1 / 8 := by
    calc (2 : ℚ) ^ ((k : Int) - 25) ≤ 2 ^ (-3 : Int) := zpow_mono (by omega)
      _ = 1 / 8 := by norm_num
  have i1 : (2 : ℚ) ^ (k : Int) ≤ i := by
    rw [zpow_natCast]
    exact_mod_cast h1
  have i2 : (i : ℚ) + 1 ≤ 2 ^ ((k : Int) + 1) := by
    have : i + 1 ≤ 2 ^ (k + 1) := h2
    rw [show (k : Int) + 1 = ((k + 1 : Nat) : Int) by push_cast; ring, zpow_natCast]
    exact_mod_cast this
  have k1 : (1 : ℚ) ≤ 2 ^ (k : Int) := by
    rw [zpow_natCast]
    exact one_le_pow₀ (by norm_num)
  have hi0 : (2 : Int) ^ (k + 1) ≤ 2 ^ 23 := pow_le_pow_right₀ (by norm_num) (by omega)
  have hi1 : (1 : Int) ≤ 2 ^ k := one_le_pow₀ (by norm_num)
  have hi : ∀ j : Int, i ≤ j → j ≤ i + 2 → b32.Rep (j : ℚ) := fun j a b =>
    rep_int b32_ok (by
      rw [abs_of_nonneg (by omega)]
      show j ≤ 2 ^ 24
      norm_num at hi0 ⊢
      omega)
  have one : ∀ d : ℚ, |d| ≤ 2 ^ ((k : Int) - 25) → pushXi b32 b64 d (i, di) = (i, di) := by
    intro d hdd
    have t : toXi b64 i di = i + di := by
      unfold toXi
      rw [round_rep b64_ok (up (hi i le_rfl (by omega))), round_rep b64_ok (up hd), round_rep b64_ok (up hx)]
    obtain ⟨a1, a2⟩ := abs_le.1 hdd
    unfold pushXi
    simp only [t]
    have err := abs_le.1 (round_err_le b64_ok (x := i + di + d) (k := (k : Int) + 1)
      (by rw [abs_le]; constructor <;> linarith) (by simp only [b64]; omega))
    have e1 : (2 : ℚ) ^ ((k : Int) + 1 - b64.p) / 2 ≤ 2 ^ ((k : Int) - 25) / 2 := by
      have : (2 : ℚ) ^ ((k : Int) + 1 - b64.p) ≤ 2 ^ ((k : Int) - 25) := zpow_mono (by simp only [b64]; omega)
      linarith
    have e2 : (2 : ℚ) ^ ((k : Int) - 24) = 2 * 2 ^ ((k : Int) - 25) := by
      rw [show (k : Int) - 24 = 1 + (k - 25) by ring, zpow_add₀ (by norm_num), zpow_one]
    have pp := two_zpow_pos ((k : Int) - 25)
    generalize b64.round (i + di + d) = y at err ⊢
    have y1 : (i : ℚ) + 1 / 16 ≤ y := by linarith
    have y2 : y ≤ (i : ℚ) + 15 / 16 := by linarith
    have z1 : ((i + 1 : Int) : ℚ) ≤ b64.round (y + 1) :=
      le_round b64_ok (up (hi _ (by omega) (by omega))) (by push_cast; linarith)
    have z2 : b64.round (y + 1) < ((i + 2 : Int) : ℚ) := by
      have z3 := abs_le.1 (round_err_le b64_ok (x := y + 1) (k := 24)
        (by
          have : (i : ℚ) ≤ 2 ^ 23 := by
            have : i ≤ 2 ^ 23 := by omega
            exact_mod_cast this
          rw [abs_le]; norm_num at this ⊢; constructor <;> linarith) (by decide))
      have : (2 : ℚ) ^ (24 - (b64.p : Int)) / 2 < 1 / 16 := by norm_num [b64]
      push_cast
      linarith
    have zi : toInt (b64.round (y + 1)) = i + 1 := by
      have : (0 : ℚ) ≤ b64.round (y + 1) := by
        have : (0 : ℚ) ≤ ((i + 1 : Int) : ℚ) := by exact_mod_cast (by omega : (0 : Int) ≤ i + 1)
        linarith
      unfold toInt
      rw [if_pos this]
      have a := Int.le_floor.2 z1
      have b := Int.floor_lt.2 z2
      omega
    have hy : b32.round y = i + di := by
      refine round_eq b32_ok hx (k := k) (by simp only [b32]; omega) (by linarith) (by linarith) ?_
      show |y - (i + di)| < 2 ^ ((k : Int) - 24)
      rw [e2, abs_lt]
      constructor <;> linarith
    unfold fromXi
    simp only [zi, add_sub_cancel_right, hy]
    rw [round_rep b32_ok (hi i le_rfl (by omega)), add_sub_cancel_left, round_rep b32_ok hd]
  induction disps with
  | nil => rfl
  | cons d ds ih =>
    rw [List.foldl_cons, one d (hdisp d (by simp))]
    exact ih fun d h => hdisp d (by simp [h])

/-- In cell 4096, thousand steps of `2 ^ -13` of a cell: the particle should have moved by an eighth of a
cell and has not moved; the Cartesian push in cell 0 moves at every step. -/
example : (List.replicate 1000 ((2 : ℚ) ^ (-13 : Int))).foldl (fun a d => pushXi b32 b64 d a) (4096, 1 / 2) =
    (4096, 1 / 2) :=
  C139_stall_counterexample 12 (by decide) 4096 (by decide) (by decide) (1 / 2)
    ⟨1, -1, by decide, by decide, by norm_num⟩ ⟨8193, -1, by decide, by decide, by norm_num⟩ (by norm_num)
    (by norm_num) _ (by
      intro d hd
      rw [List.eq_of_mem_replicate hd, abs_of_pos (by norm_num)]
      norm_num)

end Entity.Float
