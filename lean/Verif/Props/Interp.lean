import Verif.Model.Interp
import Verif.Props.Shapes
import Verif.Props.DepositBounds

/-!
# C32, C74: interpolation of the fields; C33 for the interpolation

Specification: on the staggered (Yee) grid component `c` of the electric field sits half a cell off
the nodes along axis `c`, component `c` of the magnetic field half a cell off along the other axes.
A field is affine if its values on the grid are those of an affine function of the position.
-/

namespace Entity.Interp

open Entity Entity.Push Entity.Shapes Entity.Deposit Finset

variable {K : Type} [Field K] [LinearOrder K] [IsStrictOrderedRing K] [FloorRing K]

/-! ## Specification -/

/-- Number of the component and whether it is electric. -/
def Comp.axis : Comp → Nat
  | .ex1 | .bx1 => 0
  | .ex2 | .bx2 => 1
  | .ex3 | .bx3 => 2

def Comp.electric : Comp → Bool
  | .ex1 | .ex2 | .ex3 => true
  | _ => false

/-- Is component `c` half a cell off along axis `a`? -/
def halfOff (c : Comp) (a : Nat) : Bool := if c.electric then a == c.axis else !(a == c.axis)

/-- Position (in cells, from the lower corner of the box) of the element `idx` of component `c`. -/
def posOf (NG : Int) (c : Comp) (idx : List Int) : List K :=
  idx.mapIdx (fun a n => ((n - NG : Int) : K) + if halfOff c a then 1/2 else 0)

/-- Value at `x` of the affine function with constant `a` and gradient `g`. -/
def affine (a : K) (g x : List K) : K := a + (List.zipWith (· * ·) g x).sum

/-! ## One axis -/

/-- First moment of the weights at the nodes `m, m + 1, …` shifted by `s`. -/
def mom (s : K) : Int → List K → K
  | _, [] => 0
  | m, w :: ws => w * ((m : K) + s) + mom s (m + 1) ws

theorem mom_map (s : K) (m : Int) (f : Nat → K) (n : Nat) :
    mom s m ((List.range n).map f) = ∑ k ∈ range n, f k * ((m : K) + k + s) := by
  induction n generalizing m f with
  | zero => simp [mom]
  | succ n ih =>
    rw [List.range_succ_eq_map, List.map_cons, mom, List.map_map, ih, sum_range_succ']
    rw [add_comm]
    congr 1
    · refine sum_congr rfl fun k _ => ?_
      simp only [Function.comp]; push_cast; ring
    · simp

theorem sum_map_range (f : Nat → K) (n : Nat) : ((List.range n).map f).sum = ∑ k ∈ range n, f k := by
  induction n with
  | zero => simp
  | succ n ih => rw [List.range_succ, List.map_append, List.sum_append, ih, sum_range_succ]; simp

theorem castInt_half {dx : K} (d0 : 0 ≤ dx) (d1 : dx ≤ 1) :
    (castInt (dx + 1/2) = 0 ∧ dx < 1/2) ∨ (castInt (dx + 1/2) = 1 ∧ 1/2 ≤ dx) := by
  unfold castInt
  rw [if_pos (by linarith)]
  by_cases h : dx < 1/2
  · left; exact ⟨Int.floor_eq_iff.mpr ⟨by push_cast; linarith, by push_cast; linarith⟩, h⟩
  · right
    exact ⟨Int.floor_eq_iff.mpr ⟨by push_cast; linarith, by push_cast; linarith⟩, not_lt.mp h⟩

/-- Degree of the weights. -/
def deg (O : Nat) : Nat := if O = 0 then 1 else O

/-- Weights along one axis: they exist, add up to one, have their centre at the particle, and the
nodes lie close to the particle. -/
theorem axisWeights_spec (O : Nat) (h2 : O ≤ 11) (dual : Bool) (i : Int) (dx : K) (d0 : 0 ≤ dx)
    (d1 : dx ≤ 1) : ∃ m w, axisWeights O dual i dx = .ok (m, w) ∧ w.sum = 1 ∧
      mom (if dual then 1/2 else 0) m w = (i : K) + dx ∧ w.length = deg O + 1 ∧
      ((deg O : K) - 1) / 2 ≤ (i : K) + dx - nodeAt dual m ∧
      (i : K) + dx - nodeAt dual m ≤ ((deg O : K) + 1) / 2 := by
  rcases Nat.eq_zero_or_pos O with rfl | hO
  · cases dual
    · refine ⟨_, _, rfl, by simp, ?_, rfl, ?_, ?_⟩
      · simp [mom]; ring
      · simp [deg, nodeAt]; linarith
      · simp [deg, nodeAt]; linarith
    · refine ⟨_, _, rfl, by simp, ?_, rfl, ?_, ?_⟩
      · simp [mom]; ring
      · rcases castInt_half d0 d1 with ⟨h, h'⟩ | ⟨h, h'⟩ <;> rw [h] <;> simp [deg, nodeAt] <;> linarith
      · rcases castInt_half d0 d1 with ⟨h, h'⟩ | ⟨h, h'⟩ <;> rw [h] <;> simp [deg, nodeAt] <;> linarith
  · have hd : deg O = O := by simp [deg]; omega
    rw [hd]
    obtain ⟨m, S, e, -, s1, c1, -⟩ := C31_weights dual O hO h2 i dx d0 d1
    obtain ⟨m', S', e', -, l, u⟩ := order_spec dual O hO h2 i dx d0 d1
    rw [e] at e'
    simp only [Outcome.ok.injEq, Prod.mk.injEq] at e'
    obtain ⟨rfl, rfl⟩ := e'
    refine ⟨m, (List.range (O + 1)).map S, ?_, ?_, ?_, by simp, l, u⟩
    · simp only [axisWeights, if_neg (show O ≠ 0 by omega), e, Outcome.bind_ok, Outcome.pure_eq]
    · rw [sum_map_range, s1]
    · rw [mom_map, c1]

/-! ## Nested sums -/

omit [LinearOrder K] [IsStrictOrderedRing K] [FloorRing K] in
theorem sumOver_affine (value : Int → Outcome K) (A b s : K) : ∀ (w : List K) (m : Int),
    (∀ n : Int, m ≤ n → n < m + w.length → value n = .ok (A + b * ((n : K) + s))) →
    sumOver value m w = .ok (A * w.sum + b * mom s m w) := by
  intro w
  induction w with
  | nil => intro m _; simp [sumOver, mom]
  | cons w ws ih =>
    intro m h
    rw [sumOver, h m le_rfl (by simp), Outcome.bind_ok, ih (m + 1) (fun n h1 h2 => h n (by omega)
      (by simp; omega)), Outcome.bind_ok, Outcome.pure_eq, mom, List.sum_cons]
    congr 1; ring

/-- Data of one axis: first index, weights, position, shift, gradient. -/
structure AxG (K : Type) where
  m : Int
  w : List K
  x : K
  s : K
  g : K

def AxG.Ok (A : AxG K) : Prop := A.w.sum = 1 ∧ mom A.s A.m A.w = A.x

omit [LinearOrder K] [IsStrictOrderedRing K] [FloorRing K] in
theorem nested_affine (read : List Int → Outcome K) : ∀ (L : List (AxG K)) (tail : List Int) (c : K),
    (∀ A ∈ L, A.Ok) →
    (∀ ns : List Int, List.Forall₂ (fun (A : AxG K) n => A.m ≤ n ∧ n < A.m + A.w.length) L ns →
      read (ns.reverse ++ tail) =
        .ok (c + (List.zipWith (fun (A : AxG K) (n : Int) => A.g * ((n : K) + A.s)) L ns).sum)) →
    nested read (L.map (fun A => (A.m, A.w))) tail = .ok (c + (L.map (fun A => A.g * A.x)).sum) := by
  intro L
  induction L with
  | nil =>
    intro tail c _ h
    have := h [] .nil
    simpa [nested] using this
  | cons A L ih =>
    intro tail c hA h
    obtain ⟨h1, h2⟩ := hA A List.mem_cons_self
    rw [List.map_cons, nested, sumOver_affine _ (c + (L.map (fun A => A.g * A.x)).sum) A.g A.s, h1, h2]
    · simp only [List.map_cons, List.sum_cons]; congr 1; ring
    · intro n hn hn'
      rw [ih (n :: tail) (c + A.g * ((n : K) + A.s)) (fun B hB => hA B (List.mem_cons_of_mem _ hB))]
      · congr 1; ring
      · intro ns hns
        have := h (n :: ns) (.cons ⟨hn, hn'⟩ hns)
        rw [List.reverse_cons, List.append_assoc] at this
        rw [show n :: tail = [n] ++ tail from rfl, this]
        simp only [List.zipWith_cons_cons, List.sum_cons]; congr 1; ring

theorem staggering_eq (D : Nat) (hD : D ∈ [1, 2, 3]) (c : Comp) :
    staggering D c = (List.range D).map (halfOff c) := by
  simp only [List.mem_cons, List.not_mem_nil, or_false] at hD
  rcases hD with rfl | rfl | rfl <;> cases c <;> decide

/-- A particle in a box of `n` cells. -/
def InBox (n : Nat) (p : Int × K) : Prop := 0 ≤ p.1 ∧ p.1 < n ∧ 0 ≤ p.2 ∧ p.2 ≤ 1

theorem axis_in {O : Nat} (h2 : O ≤ 11) {n : Nat} {p : Int × K} (h : InBox n p) (dual : Bool) :
    ∃ m w, axisWeights O dual (p.1 + nGhosts O) p.2 = .ok (m, w) ∧ w.sum = 1 ∧
      mom (if dual then 1/2 else 0) m w = ((p.1 + nGhosts O : Int) : K) + p.2 ∧
      ∀ k : Int, m ≤ k → k < m + w.length → 0 ≤ k ∧ k < (n + 2 * nGhosts O : Nat) := by
  obtain ⟨h0, h1, d0, d1⟩ := h
  obtain ⟨m, w, e, a, b, hl, l, u⟩ := axisWeights_spec O h2 dual (p.1 + nGhosts O) p.2 d0 d1
  refine ⟨m, w, e, a, b, ?_⟩
  have hs : (0 : K) ≤ (if dual = true then 1/2 else 0) ∧ (if dual = true then (1 : K)/2 else 0) ≤ 1/2 := by
    cases dual <;> norm_num
  unfold nodeAt at l u
  have c0 : (0 : K) ≤ p.1 := by exact_mod_cast h0
  have c1 : (p.1 : K) + 1 ≤ n := by exact_mod_cast h1
  push_cast at l u
  have lo : 2 * (nGhosts O : Int) - 2 - deg O ≤ 2 * m := by
    have : 2 * (nGhosts O : K) - 2 - deg O ≤ 2 * m := by linarith
    exact_mod_cast this
  have hi : 2 * m ≤ 2 * n + 2 * nGhosts O - deg O + 1 := by
    have : 2 * (m : K) ≤ 2 * n + 2 * nGhosts O - deg O + 1 := by linarith
    exact_mod_cast this
  have hg : deg O < 2 * nGhosts O - 1 ∧ 2 ≤ nGhosts O := by unfold deg nGhosts; split <;> omega
  intro k hk hk'
  rw [hl] at hk'
  push_cast at hk' ⊢
  constructor <;> omega

/-! ## The theorems -/

omit [LinearOrder K] [IsStrictOrderedRing K] [FloorRing K] in
theorem sumOver_ok (value : Int → Outcome K) : ∀ (w : List K) (m : Int),
    (∀ n : Int, m ≤ n → n < m + w.length → ∃ v, value n = .ok v) → ∃ v, sumOver value m w = .ok v := by
  intro w
  induction w with
  | nil => intro m _; exact ⟨_, rfl⟩
  | cons w ws ih =>
    intro m h
    obtain ⟨v, hv⟩ := h m le_rfl (by simp)
    obtain ⟨r, hr⟩ := ih (m + 1) (fun n h1 h2 => h n (by omega) (by simp; omega))
    exact ⟨v * w + r, by rw [sumOver, hv, Outcome.bind_ok, hr]; rfl⟩

omit [LinearOrder K] [IsStrictOrderedRing K] [FloorRing K] in
theorem nested_ok (read : List Int → Outcome K) : ∀ (L : List (Int × List K)) (tail : List Int),
    (∀ ns : List Int, List.Forall₂ (fun (A : Int × List K) n => A.1 ≤ n ∧ n < A.1 + A.2.length) L ns →
      ∃ v, read (ns.reverse ++ tail) = .ok v) → ∃ v, nested read L tail = .ok v := by
  intro L
  induction L with
  | nil => intro tail h; simpa [nested] using h [] .nil
  | cons A L ih =>
    intro tail h
    rw [nested]
    apply sumOver_ok
    intro n hn hn'
    apply ih
    intro ns hns
    have := h (n :: ns) (.cons ⟨hn, hn'⟩ hns)
    rwa [List.reverse_cons, List.append_assoc] at this

theorem allWeights_in {O : Nat} (h2 : O ≤ 11) : ∀ {n : List Nat} {pos : List (Int × K)}
    (_ : List.Forall₂ InBox n pos) (ss : List Bool), ss.length = pos.length →
    ∃ ws, allWeights O ss (pos.map (fun p => (p.1 + (nGhosts O : Int), p.2))) = .ok ws ∧
      ∀ ks : List Int, List.Forall₂ (fun (A : Int × List K) n => A.1 ≤ n ∧ n < A.1 + A.2.length) ws ks →
        inArray (n.map (· + 2 * nGhosts O)) ks = true := by
  intro n pos h
  induction h with
  | nil =>
    intro ss hs
    match ss, hs with
    | [], _ => exact ⟨[], rfl, by rintro _ ⟨⟩; rfl⟩
  | cons hp _ ih =>
    intro ss hs
    match ss, hs with
    | s :: ss, hs =>
      obtain ⟨ws, e, b⟩ := ih ss (by simpa using hs)
      obtain ⟨m, w, e', -, -, b'⟩ := axis_in h2 hp s
      refine ⟨(m, w) :: ws, by simp only [List.map_cons, allWeights, e, e', Outcome.bind_ok,
        Outcome.pure_eq], ?_⟩
      rintro _ (_ | ⟨hk, hks⟩)
      rw [List.map_cons, inArray, b _ hks, Bool.and_true, Bool.and_eq_true, decide_eq_true_eq,
        decide_eq_true_eq]
      exact b' _ hk.1 hk.2

/-- **C33** for the interpolation: for the orders 0 ... 11, one to three dimensions, every particle
in the box and every field, all elements read lie in the array. -/
theorem C33_interpolation_in_bounds (O : Nat) (h2 : O ≤ 11) (n : List Nat)
    (hn : n.length ∈ [1, 2, 3]) (pos : List (Int × K)) (hp : List.Forall₂ InBox n pos)
    (EB : Comp → List Int → K) (c : Comp) :
    ∃ v, interpolate O (nGhosts O) (n.map (· + 2 * nGhosts O)) EB c pos = .ok v := by
  have hl := hp.length_eq
  obtain ⟨ws, e, b⟩ := allWeights_in h2 hp (staggering pos.length c)
    (by rw [← hl, staggering_eq _ hn]; simp)
  unfold interpolate
  rw [e, Outcome.bind_ok]
  apply nested_ok
  intro ns hns
  have := b ns.reverse (by rw [← List.forall₂_reverse_iff, List.reverse_reverse]; exact hns)
  exact ⟨_, by rw [List.append_nil, readAt, if_pos this]⟩

/-- **C74** (and **C33** for the interpolation).  For the orders 0 ... 11, in one, two and three
dimensions, for every particle in the box: every element read lies in the array, and a component
whose values on the staggered grid are those of an affine function is interpolated to the value of
this function at the particle. -/
theorem C74_linear_fields (O : Nat) (h2 : O ≤ 11) (n : List Nat) (hn : n.length ∈ [1, 2, 3])
    (pos : List (Int × K)) (hp : List.Forall₂ InBox n pos) (EB : Comp → List Int → K) (c : Comp)
    (a : K) (g : List K) (hg : g.length = n.length)
    (hF : ∀ idx, idx.length = n.length → EB c idx = affine a g (posOf (nGhosts O) c idx)) :
    interpolate O (nGhosts O) (n.map (· + 2 * nGhosts O)) EB c pos =
      .ok (affine a g (pos.map (fun p => (p.1 : K) + p.2))) := by
  have hl := hp.length_eq
  unfold interpolate
  rw [← hl, staggering_eq _ hn]
  rcases hp with _ | ⟨hp1, _ | ⟨hp2, _ | ⟨hp3, _ | ⟨_, _⟩⟩⟩⟩
  · simp at hn
  · rename_i n1 p1
    match g, hg with
    | [g1], _ =>
      obtain ⟨m, w, e, s, f, b⟩ := axis_in h2 hp1 (halfOff c 0)
      simp only [List.length_cons, List.length_nil, List.range_succ, List.range_zero, List.nil_append,
        List.map_cons, List.map_nil, List.cons_append, allWeights, e, Outcome.bind_ok,
        Outcome.pure_eq, List.reverse_cons, List.reverse_nil]
      refine (nested_affine _ [⟨m, w, ((p1.1 + nGhosts O : Int) : K) + p1.2,
        if halfOff c 0 then 1/2 else 0, g1⟩] [] (a - g1 * nGhosts O) ?_ ?_).trans ?_
      · simp only [List.mem_singleton]; rintro A rfl; exact ⟨s, f⟩
      · rintro _ (_ | ⟨hk, _ | _⟩)
        rename_i k
        have := b k hk.1 hk.2
        simp only [List.reverse_cons, List.reverse_nil, List.nil_append, List.append_nil, readAt]
        rw [if_pos (by simp only [inArray, Bool.and_true, Bool.and_eq_true, decide_eq_true_eq]
                       exact this), hF _ rfl]
        simp [affine, posOf]; ring
      · simp [affine]; ring
  · rename_i n1 p1 n2 p2
    match g, hg with
    | [g1, g2], _ =>
      obtain ⟨m, w, e, s, f, b⟩ := axis_in h2 hp1 (halfOff c 0)
      obtain ⟨m', w', e', s', f', b'⟩ := axis_in h2 hp2 (halfOff c 1)
      simp only [List.length_cons, List.length_nil, List.range_succ, List.range_zero, List.nil_append,
        List.map_cons, List.map_nil, List.cons_append, allWeights, e, e', Outcome.bind_ok,
        Outcome.pure_eq, List.reverse_cons, List.reverse_nil]
      refine (nested_affine _ [⟨m', w', ((p2.1 + nGhosts O : Int) : K) + p2.2,
          if halfOff c 1 then 1/2 else 0, g2⟩, ⟨m, w, ((p1.1 + nGhosts O : Int) : K) + p1.2,
          if halfOff c 0 then 1/2 else 0, g1⟩] [] (a - (g1 + g2) * nGhosts O) ?_ ?_).trans ?_
      · simp only [List.mem_cons, List.not_mem_nil, or_false]
        rintro A (rfl | rfl)
        · exact ⟨s', f'⟩
        · exact ⟨s, f⟩
      · rintro _ (_ | ⟨hk', _ | ⟨hk, _ | _⟩⟩)
        rename_i k' k
        have := b k hk.1 hk.2
        have := b' k' hk'.1 hk'.2
        simp only [List.reverse_cons, List.reverse_nil, List.nil_append, List.append_nil, readAt,
          List.cons_append]
        rw [if_pos (by simp only [inArray, Bool.and_true, Bool.and_eq_true, decide_eq_true_eq]
                       exact ⟨b k hk.1 hk.2, b' k' hk'.1 hk'.2⟩), hF _ rfl]
        simp [affine, posOf]; ring
      · simp [affine]; ring
  · rename_i n1 p1 n2 p2 n3 p3
    match g, hg with
    | [g1, g2, g3], _ =>
      obtain ⟨m, w, e, s, f, b⟩ := axis_in h2 hp1 (halfOff c 0)
      obtain ⟨m', w', e', s', f', b'⟩ := axis_in h2 hp2 (halfOff c 1)
      obtain ⟨m'', w'', e'', s'', f'', b''⟩ := axis_in h2 hp3 (halfOff c 2)
      simp only [List.length_cons, List.length_nil, List.range_succ, List.range_zero, List.nil_append,
        List.map_cons, List.map_nil, List.cons_append, allWeights, e, e', e'', Outcome.bind_ok,
        Outcome.pure_eq, List.reverse_cons, List.reverse_nil]
      refine (nested_affine _ [⟨m'', w'', ((p3.1 + nGhosts O : Int) : K) + p3.2,
          if halfOff c 2 then 1/2 else 0, g3⟩, ⟨m', w', ((p2.1 + nGhosts O : Int) : K) + p2.2,
          if halfOff c 1 then 1/2 else 0, g2⟩, ⟨m, w, ((p1.1 + nGhosts O : Int) : K) + p1.2,
          if halfOff c 0 then 1/2 else 0, g1⟩] [] (a - (g1 + g2 + g3) * nGhosts O) ?_ ?_).trans ?_
      · simp only [List.mem_cons, List.not_mem_nil, or_false]
        rintro A (rfl | rfl | rfl)
        · exact ⟨s'', f''⟩
        · exact ⟨s', f'⟩
        · exact ⟨s, f⟩
      · rintro _ (_ | ⟨hk'', _ | ⟨hk', _ | ⟨hk, _ | _⟩⟩⟩)
        rename_i k'' k' k
        simp only [List.reverse_cons, List.reverse_nil, List.nil_append, List.append_nil, readAt,
          List.cons_append]
        rw [if_pos (by simp only [inArray, Bool.and_true, Bool.and_eq_true, decide_eq_true_eq]
                       exact ⟨b k hk.1 hk.2, b' k' hk'.1 hk'.2, b'' k'' hk''.1 hk''.2⟩), hF _ rfl]
        simp [affine, posOf]; ring
      · simp [affine]; ring
  · simp at hn

/-- **C32.**  A particle in the box feels a uniform field exactly, at every position and order, in
one, two and three dimensions. -/
theorem C32_uniform_field (O : Nat) (h2 : O ≤ 11) (n : List Nat) (hn : n.length ∈ [1, 2, 3])
    (pos : List (Int × K)) (hp : List.Forall₂ InBox n pos) (EB : Comp → List Int → K)
    (f : Comp → K) (hF : ∀ c idx, EB c idx = f c) (c : Comp) :
    interpolate O (nGhosts O) (n.map (· + 2 * nGhosts O)) EB c pos = .ok (f c) := by
  have z : ∀ (k : Nat) (l : List K), (List.zipWith (· * ·) (List.replicate k 0) l).sum = 0 := by
    intro k
    induction k with
    | zero => intro l; simp
    | succ k ih => intro l; cases l <;> simp [List.replicate_succ, ih]
  rw [C74_linear_fields O h2 n hn pos hp EB c (f c) (List.replicate n.length 0) (by simp)
    (fun idx _ => by rw [hF, affine, z, add_zero]), affine, z, add_zero]

/-- A particle in a box of 5 by 4 cells in a field whose second magnetic component is `1 + 2 x - y`:
order 2. -/
example : (match interpolate (K := ℚ) 2 2 [9, 8] (fun c idx => match c, idx with
      | .bx2, [i, j] => 1 + 2 * (((i - 2 : Int) : ℚ) + 1/2) - ((j - 2 : Int) : ℚ)
      | _, _ => 0) .bx2 [(4, 3/4), (0, 1/8)] with
    | .ok v => decide (v = 1 + 2 * (4 + 3/4) - 1/8)
    | _ => false) = true := by decide +kernel

end Entity.Interp
