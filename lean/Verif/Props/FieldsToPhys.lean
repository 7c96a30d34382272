import Verif.Model.FieldsToPhys
import Verif.Lemmas.KernelOwn
import Mathlib.Tactic.Ring
import Mathlib.Tactic.LinearCombination
import Mathlib.Tactic.FieldSimp
import Mathlib.Algebra.CharP.Defs
import Mathlib.Data.Rat.Cast.CharZero

/-!
# C120: written fields are those at the cell centres
-/

namespace Entity.FieldsToPhys

open Entity Entity.Kernel Entity.FieldOut

variable {K : Type} [Field K]

/-! ## Specification -/

/-- Where a component is defined: on edges half a cell along its own axis, on faces half a cell along the
others. -/
def half : Interp → Nat → Nat → Bool
  | .edges, k, d => k == d
  | .faces, k, d => k != d
  | .none, _, _ => false

/-- The position, in code units, of component `k` with indices `n` (ghost cells included). -/
def site (ng : Nat) (it : Interp) (k : Nat) (n : List Int) : List K :=
  n.mapIdx fun d i => ((i - (ng : Int) : Int) : K) + if half it k d then 1/2 else 0

/-- The centre of a cell. -/
def centre (ng : Nat) (t : List Int) : List K := t.map fun i => ((i - (ng : Int) : Int) : K) + 1/2

/-- A function that is linear (plus a constant) along every axis, e.g. multilinear. -/
def Multilinear (φ : List K → K) : Prop :=
  ∀ (x : List K) (d : Nat) (a b : K), φ (x.set d ((a + b) / 2)) = (φ (x.set d a) + φ (x.set d b)) / 2

/-- The cells touching cell `t` from above, and `t` itself. -/
def Near (t n : List Int) : Prop :=
  n.length = t.length ∧ ∀ d < t.length, n.getD d 0 = t.getD d 0 ∨ n.getD d 0 = t.getD d 0 + 1

/-! ## Lemmas -/

theorem loads_int (it : Interp) (F : Nat → List Int → Loc) (t : List Int) {k : Nat} (hk : k < 3) :
    ∀ l ∈ (fInt (K := K) it (fun k i => .ld (F k i)) t k).loads, ∃ j i, j < 3 ∧ l = F j i := by
  intro l hl
  have aux : ∀ (n : Nat) (i : List Int), n < 3 → l = F n i → ∃ j i, j < 3 ∧ l = F j i :=
    fun n i hn h => ⟨n, i, hn, h⟩
  have l2 : ∀ a b : Ex K, (avg2 a b).loads = a.loads ++ b.loads := fun a b => rfl
  have l4 : ∀ a b c d : Ex K, (avg4 a b c d).loads = ((a.loads ++ b.loads) ++ c.loads) ++ d.loads :=
    fun _ _ _ _ => rfl
  obtain rfl | rfl | rfl : k = 0 ∨ k = 1 ∨ k = 2 := by omega
  all_goals
    rcases t with _ | ⟨i1, _ | ⟨i2, _ | ⟨i3, _ | ⟨i4, t⟩⟩⟩⟩ <;> cases it <;>
      simp only [fInt, int1, int2, int3, l2, l4, Ex.loads, List.mem_append, List.mem_singleton,
        List.not_mem_nil, List.cons_append, List.nil_append, List.mem_cons, or_false] at hl
  all_goals first
    | exact aux _ _ (by omega) hl
    | (rcases hl with hl | hl <;> exact aux _ _ (by omega) hl)
    | (rcases hl with hl | hl | hl | hl <;> exact aux _ _ (by omega) hl)

theorem loads_fin (M : Mat K) (p : Prep) (x : List K) (f : Nat → Ex K) {k : Nat} (hk : k < 3) {l : Loc}
    (hl : l ∈ (fFin M p x f k).loads) : ∃ j, j < 3 ∧ l ∈ (f j).loads := by
  unfold fFin at hl
  split at hl
  · exact ⟨k, hk, hl⟩
  · have : ∀ a b c : Ex K, ∀ u v w : K,
        (.lit u * a + .lit v * b + .lit w * c : Ex K).loads = (a.loads ++ b.loads) ++ c.loads := by
      intro a b c u v w; rfl
    rw [this, List.mem_append, List.mem_append] at hl
    rcases hl with (hl | hl) | hl
    · exact ⟨0, by omega, hl⟩
    · exact ⟨1, by omega, hl⟩
    · exact ⟨2, by omega, hl⟩

theorem eval_fin (M : Mat K) (p : Prep) (x : List K) (f : Nat → Ex K) (k : Nat) (m : Mem K) :
    (fFin M p x f k).eval m = if p = .none then (f k).eval m
      else M p x k 0 * (f 0).eval m + M p x k 1 * (f 1).eval m + M p x k 2 * (f 2).eval m := by
  unfold fFin; split <;> rfl

theorem ne_half [CharZero K] (a : K) : a + 1 / 2 = (a + (a + 1)) / 2 := by ring

/-- Interpolation of a multilinear field. -/
theorem eval_int [CharZero K] {ng : Nat} {it : Interp} (hit : it ≠ .none) {φ : List K → K}
    (hφ : Multilinear φ) {m : Mem K} {F : Nat → List Int → Loc} {t : List Int}
    (ht : t.length = 1 ∨ t.length = 2 ∨ t.length = 3) {k : Nat} (hk : k < 3)
    (hF : ∀ n, Near t n → m (F k n) = φ (site ng it k n)) :
    (fInt (K := K) it (fun k i => .ld (F k i)) t k).eval m = φ (centre ng t) := by
  have e2 : ∀ a b : Ex K, (avg2 a b).eval m = 1/2 * (a.eval m + b.eval m) := fun a b => rfl
  have e4 : ∀ a b c d : Ex K, (avg4 a b c d).eval m =
    1/4 * (a.eval m + b.eval m + c.eval m + d.eval m) := fun _ _ _ _ => rfl
  have c1 : ∀ i : Int, ((i + 1 - (ng : Int) : Int) : K) = ((i - (ng : Int) : Int) : K) + 1 := by
    intro i; push_cast; ring
  rcases t with _ | ⟨i1, _ | ⟨i2, _ | ⟨i3, _ | ⟨i4, t⟩⟩⟩⟩
  · simp at ht
  · have h : ∀ a : Int, (a = i1 ∨ a = i1 + 1) → m (F k [a]) = φ (site ng it k [a]) := by
      intro a ha
      refine hF _ ⟨rfl, ?_⟩
      intro d hd
      obtain rfl : d = 0 := by simpa using hd
      exact ha
    have h1 := h i1 (.inl rfl)
    have h2 := h (i1 + 1) (.inr rfl)
    have f0 := fun a b : K => hφ [0] 0 a b
    simp only [List.set_cons_zero] at f0
    obtain rfl | rfl | rfl : k = 0 ∨ k = 1 ∨ k = 2 := by omega
    all_goals
      cases it <;> first | exact absurd rfl hit | skip
    all_goals
      simp only [site, half, List.mapIdx_cons, List.mapIdx_nil, c1] at h1 h2
      simp only [fInt, int1, centre, e2, Ex.eval, h1, h2, List.map_cons, List.map_nil]
      simp only [beq_self_eq_true, bne_self_eq_false, if_true, Bool.false_eq_true, if_false, add_zero,
        show (1 == 0) = false from rfl, show (2 == 0) = false from rfl,
        show (1 != 0) = true from rfl, show (2 != 0) = true from rfl]
      try rw [ne_half, f0]; ring
  · have h : ∀ a b : Int, (a = i1 ∨ a = i1 + 1) → (b = i2 ∨ b = i2 + 1) →
        m (F k [a, b]) = φ (site ng it k [a, b]) := by
      intro a b ha hb
      refine hF _ ⟨rfl, ?_⟩
      intro d hd
      obtain rfl | rfl : d = 0 ∨ d = 1 := by
        have : d < 2 := hd
        omega
      · exact ha
      · exact hb
    have h1 := h i1 i2 (.inl rfl) (.inl rfl)
    have h2 := h (i1 + 1) i2 (.inr rfl) (.inl rfl)
    have h3 := h i1 (i2 + 1) (.inl rfl) (.inr rfl)
    have h4 := h (i1 + 1) (i2 + 1) (.inr rfl) (.inr rfl)
    have f0 := fun y a b : K => hφ [0, y] 0 a b
    have f1 := fun x a b : K => hφ [x, 0] 1 a b
    simp only [List.set_cons_zero, List.set_cons_succ] at f0 f1
    obtain rfl | rfl | rfl : k = 0 ∨ k = 1 ∨ k = 2 := by omega
    all_goals
      cases it <;> first | exact absurd rfl hit | skip
    all_goals
      simp only [site, half, List.mapIdx_cons, List.mapIdx_nil, c1] at h1 h2 h3 h4
      simp only [fInt, int2, centre, e2, e4, Ex.eval, h1, h2, h3, h4, List.map_cons, List.map_nil]
      norm_num [-one_div]
      all_goals try rw [ne_half ((i1 : K) - ng)]
      all_goals try rw [ne_half ((i2 : K) - ng)]
      all_goals try simp only [f0, f1]
      all_goals try ring
  · have h : ∀ a b c : Int, (a = i1 ∨ a = i1 + 1) → (b = i2 ∨ b = i2 + 1) → (c = i3 ∨ c = i3 + 1) →
        m (F k [a, b, c]) = φ (site ng it k [a, b, c]) := by
      intro a b c ha hb hc
      refine hF _ ⟨rfl, ?_⟩
      intro d hd
      obtain rfl | rfl | rfl : d = 0 ∨ d = 1 ∨ d = 2 := by
        have : d < 3 := hd
        omega
      · exact ha
      · exact hb
      · exact hc
    have h1 := h i1 i2 i3 (.inl rfl) (.inl rfl) (.inl rfl)
    have h2 := h (i1 + 1) i2 i3 (.inr rfl) (.inl rfl) (.inl rfl)
    have h3 := h i1 (i2 + 1) i3 (.inl rfl) (.inr rfl) (.inl rfl)
    have h4 := h (i1 + 1) (i2 + 1) i3 (.inr rfl) (.inr rfl) (.inl rfl)
    have h5 := h i1 i2 (i3 + 1) (.inl rfl) (.inl rfl) (.inr rfl)
    have h6 := h (i1 + 1) i2 (i3 + 1) (.inr rfl) (.inl rfl) (.inr rfl)
    have h7 := h i1 (i2 + 1) (i3 + 1) (.inl rfl) (.inr rfl) (.inr rfl)
    have f0 := fun y z a b : K => hφ [0, y, z] 0 a b
    have f1 := fun x z a b : K => hφ [x, 0, z] 1 a b
    have f2 := fun x y a b : K => hφ [x, y, 0] 2 a b
    simp only [List.set_cons_zero, List.set_cons_succ] at f0 f1 f2
    obtain rfl | rfl | rfl : k = 0 ∨ k = 1 ∨ k = 2 := by omega
    all_goals
      cases it <;> first | exact absurd rfl hit | skip
    all_goals
      simp only [site, half, List.mapIdx_cons, List.mapIdx_nil, c1] at h1 h2 h3 h4 h5 h6 h7
      simp only [fInt, int3, centre, e2, e4, Ex.eval, h1, h2, h3, h4, h5, h6, h7, List.map_cons,
        List.map_nil]
      norm_num [-one_div]
      all_goals try rw [ne_half ((i1 : K) - ng)]
      all_goals try rw [ne_half ((i2 : K) - ng)]
      all_goals try rw [ne_half ((i3 : K) - ng)]
      all_goals try simp only [f0, f1, f2]
      all_goals try ring
  · simp at ht

/-- The thread of a location of the buffer. -/
def own (l : Loc) : Option (List Int) :=
  if l.arr = bckp ∧ 3 ≤ l.comp ∧ l.comp < 6 then some l.idx else none

theorem owned (ng : Nat) (M : Mat K) (it : Interp) (p : Prep) (cells : List (List Int)) :
    OwnedL cells own (body ng M it p bckp bckp id (· + 3)) := by
  intro t _ a ha
  simp only [body, List.mem_map, List.mem_range] at ha
  obtain ⟨k, hk, rfl⟩ := ha
  refine ⟨?_, ?_⟩
  · simp only [own]; rw [if_pos ⟨by trivial, by omega, by omega⟩]
  · intro l hl u _ hu
    obtain ⟨j, hj, hl⟩ := loads_fin M p _ _ hk hl
    obtain ⟨j', i, hj', rfl⟩ := loads_int it (fun k i => ⟨bckp, id k, i⟩) t hj l hl
    simp only [own, id] at hu
    rw [if_neg (by omega)] at hu
    cases hu

/-- The result of the preparation, in terms of the value of the expression. -/
theorem prepare_eq {ng : Nat} {M : Mat K} {it : Interp} {p : Prep} {cells : List (List Int)}
    {src c : Nat} {m m' : Mem K} (h : prepare ng M false it p cells src c m m') :
    (∀ t ∈ cells, ∀ k < 3, m' ⟨bckp, k + 3, t⟩ =
      (fFin M p (xi ng it t) (fInt it (fun k i => .ld ⟨bckp, k, i⟩) t) k).eval
        (copy3 bckp 0 bckp 3 (copy3 src c bckp 0 m))) ∧
    (∀ l, l.arr ≠ bckp → m' l = m l) := by
  unfold prepare at h
  rw [if_neg Bool.false_ne_true] at h
  have hr := launch_ownedL (owned ng M it p cells) h
  constructor
  · intro t ht k hk
    rw [hr]
    unfold resultL
    simp only [own]
    rw [if_pos ⟨by trivial, by omega, by omega⟩]
    dsimp only
    rw [if_pos ht]
    have hb : (⟨⟨bckp, k + 3, t⟩, fFin M p (xi ng it t) (fInt it (fun k i => .ld ⟨bckp, id k, i⟩) t) k⟩ :
        Assign K) ∈ body ng M it p bckp bckp id (· + 3) t := by
      simp only [body, List.mem_map, List.mem_range]
      exact ⟨k, hk, rfl⟩
    refine runBody_one ?_ ?_ hb _
    · unfold body
      rw [List.pairwise_map]
      refine List.Pairwise.imp ?_ (List.nodup_range (n := 3))
      intro a b hab hcon
      simp only [Loc.mk.injEq] at hcon
      omega
    · intro a ha b hb' hl
      simp only [body, List.mem_map, List.mem_range] at ha hb'
      obtain ⟨k1, hk1, rfl⟩ := ha
      obtain ⟨k2, hk2, rfl⟩ := hb'
      obtain ⟨j, hj, hl⟩ := loads_fin M p _ _ hk2 hl
      obtain ⟨j', i, hj', he⟩ := loads_int it (fun k i => ⟨bckp, id k, i⟩) t hj _ hl
      simp only [Loc.mk.injEq, id] at he
      omega
  · intro l hl
    rw [hr]
    unfold resultL
    have : own l = none := by unfold own; rw [if_neg (by tauto)]
    rw [this]
    simp only [copy3]
    rw [if_neg (by tauto), if_neg (by tauto)]

/-- The copy of component `k` in the buffer. -/
theorem copied {src c k : Nat} (hsrc : src ≠ bckp) (hk : k < 3) (n : List Int) (m : Mem K) :
    copy3 bckp 0 bckp 3 (copy3 src c bckp 0 m) ⟨bckp, k, n⟩ = m ⟨src, c + k, n⟩ := by
  simp only [copy3]
  rw [if_neg (by omega), if_pos ⟨by trivial, by omega, by omega⟩]
  congr 2
  omega

/-! ## C120 -/

/-- The written vector fields are those at the cell centres, in the requested basis: if near a cell the
components at their places (edges or faces) are samples of functions that are linear along every axis,
the cell of the output holds the values of these functions at the centre of the cell, multiplied by the
matrix of the conversion at the centre.  In one to three dimensions, whatever the interleaving of the
threads, and although source and target are the same buffer; the fields themselves do not change. -/
theorem C120_centres [CharZero K] (ng : Nat) (M : Mat K) (it : Interp) (hit : it ≠ .none) (p : Prep)
    (hp : p ≠ .none) (cells : List (List Int)) (src c : Nat) (hsrc : src ≠ bckp) (m m' : Mem K)
    (h : prepare ng M false it p cells src c m m')
    (t : List Int) (ht : t ∈ cells) (hd : t.length = 1 ∨ t.length = 2 ∨ t.length = 3)
    (φ : Nat → List K → K) (hφ : ∀ k < 3, Multilinear (φ k))
    (hF : ∀ k < 3, ∀ n, Near t n → m ⟨src, c + k, n⟩ = φ k (site ng it k n)) :
    (∀ k < 3, m' ⟨bckp, k + 3, t⟩ = M p (centre ng t) k 0 * φ 0 (centre ng t) +
      M p (centre ng t) k 1 * φ 1 (centre ng t) + M p (centre ng t) k 2 * φ 2 (centre ng t)) ∧
    (∀ l, l.arr ≠ bckp → m' l = m l) := by
  obtain ⟨h1, h2⟩ := prepare_eq h
  refine ⟨?_, h2⟩
  intro k hk
  have hx : (xi ng it t : List K) = centre ng t := by unfold xi centre; simp only [if_neg hit]
  have hv : ∀ j < 3, (fInt it (fun k i => .ld ⟨bckp, k, i⟩) t j).eval
      (copy3 bckp 0 bckp 3 (copy3 src c bckp 0 m)) = φ j (centre ng t) := by
    intro j hj
    refine eval_int (F := fun k i => ⟨bckp, k, i⟩) hit (hφ j hj) hd hj ?_
    intro n hn
    rw [copied hsrc hj]
    exact hF j hj n hn
  rw [h1 t ht k hk, eval_fin, if_neg hp, hv 0 (by omega), hv 1 (by omega), hv 2 (by omega), hx]

/-- With `output.fields.as_is` the stored components are written as they are, in every cell. -/
theorem C120_as_is (ng : Nat) (M : Mat K) (it : Interp) (p : Prep) (cells : List (List Int))
    (src c : Nat) (m m' : Mem K) (h : prepare ng M true it p cells src c m m') :
    (∀ n, ∀ k < 3, m' ⟨bckp, k + 3, n⟩ = m ⟨src, c + k, n⟩) ∧
    (∀ l, l.arr ≠ bckp → m' l = m l) := by
  unfold prepare at h
  rw [if_pos rfl] at h
  subst h
  constructor
  · intro n k hk
    simp only [copy3]
    rw [if_pos ⟨by trivial, by omega, by omega⟩]
    congr 2
    omega
  · intro l hl
    simp only [copy3]
    rw [if_neg (by tauto)]

/-- The preparation always ends. -/
theorem C120_ends (ng : Nat) (M : Mat K) (asIs : Bool) (it : Interp) (p : Prep)
    (cells : List (List Int)) (src c : Nat) (m : Mem K) :
    ∃ m', prepare ng M asIs it p cells src c m m' := by
  unfold prepare
  cases asIs
  · simpa using launch_exists _ _ _
  · exact ⟨_, rfl⟩

/-- A function as in `C120_centres`. -/
example : Multilinear (fun x : List ℚ => 1 + 2 * x.getD 0 0 + 3 * x.getD 0 0 * x.getD 1 0) := by
  intro x d a b
  rcases x with _ | ⟨x, _ | ⟨y, x⟩⟩
  · simp
  · rcases d with _ | d <;> simp; ring
  · rcases d with _ | _ | d <;> simp <;> ring

/-- A 2D electric field with first component `1 + 2 x + 3 x y` at the edges `(i1 + 1/2, i2)`, in the cell
`(2, 3)` with two ghost cells, in a basis of half the length: at the centre `(1/2, 3/2)`. -/
example :
    let m : Mem ℚ := fun l => match l with
      | ⟨0, 0, [i, j]⟩ => 1 + 2 * (i - 2 + 1/2) + 3 * (i - 2 + 1/2) * (j - 2)
      | _ => 0
    let M : Mat ℚ := fun _ _ k j => if k = j then 1/2 else 0
    runBody (body 2 M .edges .hat bckp bckp id (· + 3) [2, 3])
      (copy3 bckp 0 bckp 3 (copy3 0 0 bckp 0 m)) ⟨bckp, 3, [2, 3]⟩ = 1/2 * (1 + 1 + 3 * (1/2) * (3/2)) := by
  decide +kernel

end Entity.FieldsToPhys
