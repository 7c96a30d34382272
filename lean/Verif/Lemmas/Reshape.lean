import Verif.Lemmas.Startup
import Verif.Model.Reshape
import Verif.Spec.Reshape

/-! Helper lemmas about moving windows whose numbers are exact. -/

namespace Entity.Startup

open Entity Entity.Decomp Entity.Float

/-- All the numbers of an axis with cells of size `dx` satisfy `P`. -/
structure Good (P : ℚ → Prop) (dx : ℚ) (a : Axis) : Prop where
  pos : 0 < a.n
  width : a.xmax = a.xmin + a.n * dx
  nat : ∀ i : Nat, i ≤ a.n → P i
  mul : ∀ i : Nat, i ≤ a.n → P (i * dx)
  pt : ∀ i : Nat, i ≤ a.n → P (a.xmin + i * dx)

/-- An axis moved by `t` cells. -/
def mv (dx : ℚ) (t : Int) (a : Axis) : Axis := ⟨a.xmin + t * dx, a.xmax + t * dx, a.n⟩

theorem moveBox_eq (dx : ℚ) (T : Nat → Int) (l : List Axis) :
    moveBox dx T l = l.mapIdx (fun i a => mv dx (T i) a) := rfl

variable {A : Arith} {P : ℚ → Prop} {dx : ℚ}

theorem mulAdd_good (hA : ∀ x, P x → A.rnd x = x) {a b c : ℚ} (h1 : P (a * b)) (h2 : P (c + a * b)) :
    A.mulAdd a b c = c + a * b := by
  unfold Arith.mulAdd
  rw [hA _ h1, add_comm (a * b) c, hA _ h2]
  simp

theorem good_cell (hA : ∀ x, P x → A.rnd x = x) {a : Axis} (h : Good P dx a) : A.cell a = dx := by
  have n0 : (a.n : ℚ) ≠ 0 := by have := h.pos; positivity
  have h1 := h.mul 1 h.pos
  rw [Nat.cast_one, one_mul] at h1
  unfold Arith.cell
  rw [h.width, show a.xmin + a.n * dx - a.xmin = a.n * dx by ring, hA _ (h.mul _ le_rfl), hA _ (h.nat _ le_rfl),
    mul_div_cancel_left₀ _ n0, hA _ h1]

theorem good_corner (hA : ∀ x, P x → A.rnd x = x) {a : Axis} (h : Good P dx a) {i : Nat} (hi : i ≤ a.n) :
    A.corner dx a i = a.xmin + i * dx := by
  unfold Arith.corner
  rw [hA _ (h.nat i hi), mulAdd_good hA (h.mul i hi) (h.pt i hi)]

theorem good_subAxis (hA : ∀ x, P x → A.rnd x = x) {a : Axis} (h : Good P dx a) {o m : Nat} (hi : o + m ≤ a.n) :
    A.subAxis dx a o m = ⟨a.xmin + o * dx, a.xmin + (o + m : ℕ) * dx, m⟩ := by
  unfold Arith.subAxis
  rw [good_corner hA h (by omega), good_corner hA h hi]

theorem good_sub (hA : ∀ x, P x → A.rnd x = x) {a : Axis} (h : Good P dx a) {o m : Nat} (hi : o + m ≤ a.n)
    (hm : 0 < m) : Good P dx (A.subAxis dx a o m) := by
  rw [good_subAxis hA h hi]
  refine ⟨hm, by push_cast; ring, fun i k => h.nat i (by simp at k; omega), fun i k => h.mul i (by simp at k; omega), fun i k => ?_⟩
  have := h.pt (o + i) (by simp at k; omega)
  push_cast at this
  simp only
  rwa [add_assoc, ← add_mul]

theorem mink_good (hA : ∀ x, P x → A.rnd x = x) {l : List Axis} (hl : l ≠ []) (h : ∀ a ∈ l, Good P dx a) :
    A.minkowski l = .ok ⟨dx, A.rnd (dx / A.sqrtD)⟩ := by
  cases l with
  | nil => exact absurd rfl hl
  | cons a r =>
    have e := good_cell hA (h a (by simp))
    have : r.all (fun b => A.almostEqual (A.cell b) (A.cell a)) = true := by
      rw [List.all_eq_true]
      intro b hb
      rw [good_cell hA (h b (by simp [hb])), e]
      simp [Arith.almostEqual]
    unfold Arith.minkowski
    simp only [this, if_true]
    rw [e]

theorem moveBox_length (T : Nat → Int) (l : List Axis) : (moveBox dx T l).length = l.length := by
  simp [moveBox]

theorem moveBox_zero (l : List Axis) : moveBox dx (fun _ => 0) l = l := by
  unfold moveBox
  apply List.ext_getElem <;> simp

theorem moveBox_add (S T : Nat → Int) (l : List Axis) :
    moveBox dx T (moveBox dx S l) = moveBox dx (fun i => S i + T i) l := by
  unfold moveBox
  apply List.ext_getElem
  · simp
  · intro i h1 h2
    simp only [List.getElem_mapIdx, Axis.mk.injEq, and_true]
    push_cast
    exact ⟨by ring, by ring⟩

theorem shiftAxis_good (hA : ∀ x, P x → A.rnd x = x) {s : Int} {a : Axis} (p1 : P (s : ℚ)) (p2 : P (s * dx))
    (h : Good P dx a) (h' : Good P dx (mv dx s a)) : A.shiftAxis s dx a = mv dx s a := by
  have a0 := h'.pt 0 (by simp)
  have a1 := h'.pt a.n le_rfl
  simp only [mv, Nat.cast_zero, zero_mul, add_zero] at a0 a1
  unfold Arith.shiftAxis
  rw [hA _ p1, mulAdd_good hA p2 a0, mulAdd_good hA p2 (by
    rw [h.width]
    convert a1 using 1
    ring)]
  rfl

theorem shiftMesh_good (hA : ∀ x, P x → A.rnd x = x) {l : List Axis} {t : Nat × Int} (ho : t.1 < l.length)
    (p1 : P (t.2 : ℚ)) (p2 : P (t.2 * dx)) (h : ∀ a ∈ l, Good P dx a)
    (h' : ∀ a ∈ moveBox dx (total [t]) l, Good P dx a) :
    A.shiftMesh t.1 t.2 l = .ok (moveBox dx (total [t]) l) := by
  cases l with
  | nil => simp at ho
  | cons a r =>
    have e : (a :: r).modify t.1 (A.shiftAxis t.2 (A.cell a)) = moveBox dx (total [t]) (a :: r) := by
      rw [good_cell hA (h a (by simp))]
      apply List.ext_getElem
      · simp [moveBox]
      · intro i h1 h2
        have hi : i < (a :: r).length := by simpa using h1
        rw [List.getElem_modify]
        have hg := h _ (List.getElem_mem hi)
        have hg' := h' _ (List.getElem_mem h2)
        by_cases c : t.1 = i
        · simp only [if_pos c]
          simp only [moveBox, List.getElem_mapIdx, total, if_pos c, add_zero] at hg' ⊢
          exact shiftAxis_good hA p1 p2 hg hg'
        · simp only [if_neg c]
          simp only [moveBox, List.getElem_mapIdx, total, if_neg c, add_zero, Int.cast_zero, zero_mul]
    unfold Arith.shiftMesh
    simp only
    rw [if_pos ho, e, mink_good hA (by simp [moveBox]) h']

theorem shiftMeshes_good (hA : ∀ x, P x → A.rnd x = x) {t : Nat × Int} (p1 : P (t.2 : ℚ)) (p2 : P (t.2 * dx))
    (ms : List (List Axis)) (h : ∀ l ∈ ms, t.1 < l.length ∧ (∀ a ∈ l, Good P dx a) ∧
      ∀ a ∈ moveBox dx (total [t]) l, Good P dx a) :
    A.shiftMeshes t.1 t.2 ms = .ok (ms.map (moveBox dx (total [t]))) := by
  induction ms with
  | nil => rfl
  | cons l r ih =>
    obtain ⟨h1, h2, h3⟩ := h l (by simp)
    unfold Arith.shiftMeshes
    rw [shiftMesh_good hA h1 p1 p2 h2 h3, ih (fun m hm => h m (by simp [hm]))]
    rfl

theorem run_good (hA : ∀ x, P x → A.rnd x = x) (D : Nat) (ts : List (Nat × Int))
    (hs : ∀ t ∈ ts, t.1 < D ∧ t.2 ≠ 0 ∧ P (t.2 : ℚ) ∧ P (t.2 * dx)) (ms : List (List Axis))
    (hm : ∀ l ∈ ms, l.length = D ∧ ∀ k, ∀ a ∈ moveBox dx (total (ts.take k)) l, Good P dx a) :
    A.runShifts ts ms = .ok (ms.map (moveBox dx (total ts))) := by
  induction ts generalizing ms with
  | nil =>
    have : moveBox dx (total []) = id := funext (fun l => moveBox_zero l)
    rw [this]
    simp [Arith.runShifts]
  | cons t r ih =>
    obtain ⟨s1, s2, s3, s4⟩ := hs t (by simp)
    unfold Arith.runShifts Arith.shiftByCells
    rw [if_neg s2, shiftMeshes_good hA s3 s4 ms]
    · have key : ∀ (r' : List (Nat × Int)) (l : List Axis),
          moveBox dx (total r') (moveBox dx (total [t]) l) = moveBox dx (total (t :: r')) l := by
        intro r' l
        rw [moveBox_add]
        congr 1
        funext i
        simp [total]
      simp only
      rw [ih (fun x hx => hs x (by simp [hx]))]
      · rw [List.map_map]
        congr 1
        apply List.map_congr_left
        intro l _
        exact key r l
      · intro l hl
        rw [List.mem_map] at hl
        obtain ⟨l, hl, rfl⟩ := hl
        obtain ⟨e, g⟩ := hm l hl
        refine ⟨by rw [moveBox_length, e], fun k => ?_⟩
        rw [key]
        exact g (k + 1)
    · intro l hl
      obtain ⟨e, g⟩ := hm l hl
      refine ⟨by omega, ?_, ?_⟩
      · have := g 0
        rwa [List.take_zero, show total [] = fun _ => 0 from rfl, moveBox_zero] at this
      · have := g 1
        simpa using this

/-- Subdomains move with the box. -/
theorem move_subAxes (hA : ∀ x, P x → A.rnd x = x) (T : Nat → Int) (box : List Axis) (d : Subdomain)
    (h : ∀ a ∈ box, Good P dx a) (h' : ∀ a ∈ moveBox dx T box, Good P dx a)
    (hb : ∀ t ∈ box.zip (d.offsetNcells.zip d.ncells), t.2.1 + t.2.2 ≤ t.1.n) :
    moveBox dx T (A.subAxes dx box d) = A.subAxes dx (moveBox dx T box) d := by
  apply List.ext_getElem
  · simp [moveBox, Arith.subAxes]
  · intro i h1 h2
    have hi : i < (box.zip (d.offsetNcells.zip d.ncells)).length := by
      simpa [moveBox, Arith.subAxes] using h1
    have hi' : i < box.length := by simp at hi; omega
    have b := hb _ (List.getElem_mem hi)
    have g := h _ (List.getElem_mem hi')
    have g' := h' _ (List.getElem_mem (l := moveBox dx T box) (n := i) (by rw [moveBox_length]; exact hi'))
    simp only [List.getElem_zip] at b
    simp only [Arith.subAxes, moveBox, List.getElem_mapIdx, List.getElem_map, List.getElem_zip] at g' ⊢
    rw [good_subAxis hA g b, good_subAxis hA g' b]
    simp only [Axis.mk.injEq, and_true]
    exact ⟨by ring, by ring⟩

theorem sub_bound (box : List Axis) (dN : List (List Nat)) (r : List AxisRec) (i : Nat)
    (h : List.Forall₂ (fun (a : Axis) (d : List Nat) => d.sum = a.n ∧ d ≠ [] ∧ ∀ m ∈ d, 0 < m) box dN)
    (hr : List.Forall₂ (· ∈ ·) r (dN.map (axisRecs 0 0))) :
    (∀ t ∈ box.zip ((mkSub i r).offsetNcells.zip (mkSub i r).ncells), t.2.1 + t.2.2 ≤ t.1.n ∧ 0 < t.2.2) ∧
    (box.zip ((mkSub i r).offsetNcells.zip (mkSub i r).ncells)).length = box.length := by
  unfold mkSub
  simp only
  induction h generalizing r with
  | nil => simp
  | cons h1 h2 ih =>
    cases hr with
    | cons g1 g2 =>
      refine ⟨?_, ?_⟩
      · intro t ht
        simp only [List.map_cons, List.zip_cons_cons, List.mem_cons] at ht
        rcases ht with rfl | ht
        · obtain ⟨a, b, c⟩ := axisRecs_bound _ _ _ _ g1
          simp only
          exact ⟨by omega, h1.2.2 _ c⟩
        · exact (ih _ g2).1 t ht
      · have := (ih _ g2).2
        simp only [List.map_cons, List.zip_cons_cons, List.length_cons]
        omega

theorem start_good (hA : ∀ x, P x → A.rnd x = x) (h1 : P 1) (hq : A.rnd (dx / A.sqrtD) ≠ 0) {box : List Axis}
    {dN : List (List Nat)} (hb : box ≠ []) (h : ∀ a ∈ box, Good P dx a)
    (hd : List.Forall₂ (fun (a : Axis) (d : List Nat) => d.sum = a.n ∧ d ≠ [] ∧ ∀ m ∈ d, 0 < m) box dN) :
    A.startMeshes box dN = .ok (box :: ((recTable dN).mapIdx mkSub).map (A.subAxes dx box)) := by
  have hne : ∀ d ∈ dN, d ≠ [] := by
    intro d hdm
    obtain ⟨i, hi, rfl⟩ := List.getElem_of_mem hdm
    have hl := hd.length_eq
    exact ((List.forall₂_iff_get.1 hd).2 i (by omega) hi).2.1
  have := startup_ok A box dN ⟨dx, A.rnd (dx / A.sqrtD)⟩ (mink_good hA hb h) hne (fun x => x = dx) (by
      rw [List.forall₂_iff_get] at hd ⊢
      refine ⟨hd.1, fun i p q o m hom hm => ?_⟩
      have g := hd.2 i p q
      exact good_cell hA (good_sub hA (h _ (List.get_mem _ _)) (by omega) (g.2.2 m hm)))
    (by rintro x y rfl rfl; simp [Arith.almostEqual])
    (by
      rintro x rfl
      simp only
      rw [div_self hq, hA _ h1]
      simp [Arith.almostEqual])
  unfold Arith.startMeshes
  rw [this, createDomains_eq dN hne]

/-! ## Restart -/

theorem forall₂_zipWith {α β γ δ : Type} {f : α → β → γ} {R : α → δ → Prop} {S : β → δ → Prop} {T : γ → δ → Prop}
    (hf : ∀ p a b, R p b → S a b → T (f p a) b) :
    ∀ (g : List α) (m : List β) (l : List δ), List.Forall₂ R g l → List.Forall₂ S m l →
      List.Forall₂ T (List.zipWith f g m) l
  | _, _, _, .nil, .nil => .nil
  | _, _, _, .cons h1 h2, .cons k1 k2 => .cons (hf _ _ _ h1 k1) (forall₂_zipWith hf _ _ _ h2 k2)

/-- One step of `collect`. -/
def widen (g : List (ℚ × ℚ)) (m : List Axis) : List (ℚ × ℚ) :=
  List.zipWith (fun (p : ℚ × ℚ) (a : Axis) => (min p.1 a.xmin, max p.2 a.xmax)) g m

/-- A mesh inside of a box. -/
abbrev Inside (m l : List Axis) : Prop :=
  List.Forall₂ (fun (a b : Axis) => b.xmin ≤ a.xmin ∧ a.xmax ≤ b.xmax) m l

/-- An invariant of `collect`. -/
theorem fold_inv {R : ℚ × ℚ → Axis → Prop} {l : List Axis}
    (hR : ∀ p (a b : Axis), R p b → (b.xmin ≤ a.xmin ∧ a.xmax ≤ b.xmax) → R (min p.1 a.xmin, max p.2 a.xmax) b)
    (L : List (List Axis)) (hL : ∀ m ∈ L, Inside m l) (g : List (ℚ × ℚ)) (hg : List.Forall₂ R g l) :
    List.Forall₂ R (L.foldl widen g) l := by
  induction L generalizing g with
  | nil => exact hg
  | cons m L ih =>
    exact ih (fun x hx => hL x (by simp [hx])) _ (forall₂_zipWith hR _ _ _ hg (hL m (by simp)))

theorem fold_est {R : ℚ × ℚ → Axis → Prop} {S : Axis → Axis → Prop} {l : List Axis}
    (hR : ∀ p (a b : Axis), R p b → (b.xmin ≤ a.xmin ∧ a.xmax ≤ b.xmax) → R (min p.1 a.xmin, max p.2 a.xmax) b)
    (hS : ∀ (p : ℚ × ℚ) (a b : Axis), S a b → R (min p.1 a.xmin, max p.2 a.xmax) b)
    (L : List (List Axis)) (hL : ∀ m ∈ L, Inside m l) (g : List (ℚ × ℚ)) (hg : g.length = l.length)
    (m : List Axis) (hm : m ∈ L) (hmS : List.Forall₂ S m l) :
    List.Forall₂ R (L.foldl widen g) l := by
  obtain ⟨L1, L2, rfl⟩ := List.append_of_mem hm
  rw [List.foldl_append, List.foldl_cons]
  refine fold_inv hR L2 (fun x hx => hL x (by simp [hx])) _ ?_
  refine forall₂_zipWith (R := fun _ _ => True) (fun p a b _ h => hS p a b h) _ _ _ ?_ hmS
  have : List.Forall₂ (fun (_ : ℚ × ℚ) (_ : Axis) => True) g l := by
    rw [List.forall₂_iff_get]
    exact ⟨hg, fun _ _ _ => trivial⟩
  exact fold_inv (R := fun _ _ => True) (fun _ _ _ _ _ => trivial) L1 (fun x hx => hL x (by simp [hx])) _ this

theorem collect_eq {big : ℚ} {box l : List Axis} (hlen : box.length = l.length)
    (hbig : ∀ b ∈ l, b.xmin ≤ big ∧ -big ≤ b.xmax) {L : List (List Axis)} (hL : ∀ m ∈ L, Inside m l)
    (h1 : ∃ m ∈ L, List.Forall₂ (fun (a b : Axis) => a.xmin = b.xmin) m l)
    (h2 : ∃ m ∈ L, List.Forall₂ (fun (a b : Axis) => a.xmax = b.xmax) m l) :
    List.Forall₂ (fun (p : ℚ × ℚ) (b : Axis) => p.1 = b.xmin ∧ p.2 = b.xmax) (collect big box L) l := by
  obtain ⟨m1, hm1, e1⟩ := h1
  obtain ⟨m2, hm2, e2⟩ := h2
  have hg : (box.map (fun _ => (big, -big))).length = l.length := by simpa using hlen
  have A := fold_inv (R := fun p b => b.xmin ≤ p.1 ∧ p.2 ≤ b.xmax)
    (fun p a b h k => ⟨le_min h.1 k.1, max_le h.2 k.2⟩) L hL (box.map (fun _ => (big, -big))) (by
      rw [List.forall₂_iff_get]
      refine ⟨hg, fun i p q => ?_⟩
      have := hbig _ (List.get_mem l ⟨i, q⟩)
      simpa using this)
  have B := fold_est (R := fun p b => p.1 ≤ b.xmin) (S := fun a b => a.xmin = b.xmin)
    (fun p a b h _ => le_trans (min_le_left _ _) h) (fun p a b h => h ▸ min_le_right _ _) L hL
    (box.map (fun _ => (big, -big))) hg m1 hm1 e1
  have C := fold_est (R := fun p b => b.xmax ≤ p.2) (S := fun a b => a.xmax = b.xmax)
    (fun p a b h _ => le_trans h (le_max_left _ _)) (fun p a b h => h ▸ le_max_right _ _) L hL
    (box.map (fun _ => (big, -big))) hg m2 hm2 e2
  rw [List.forall₂_iff_get] at A B C ⊢
  refine ⟨A.1, fun i p q => ⟨le_antisymm (B.2 i p q) (A.2 i p q).1, le_antisymm (A.2 i p q).2 (C.2 i p q)⟩⟩

theorem last_rec (d : List Nat) (hd : d ≠ []) (o k : Nat) : ∃ r ∈ axisRecs o k d, r.off + r.n = o + d.sum := by
  induction d generalizing o k with
  | nil => exact absurd rfl hd
  | cons x xs ih =>
    by_cases h : xs = []
    · subst h
      exact ⟨_, by simp only [axisRecs, List.mem_cons]; exact Or.inl rfl, by simp⟩
    · obtain ⟨r, hr, e⟩ := ih h (o + x) (k + 1)
      refine ⟨r, ?_, by simp only [List.sum_cons]; omega⟩
      simp only [axisRecs, List.mem_cons]
      exact Or.inr hr

theorem first_rec (d : List Nat) (hd : d ≠ []) : ∃ r ∈ axisRecs 0 0 d, r.off = 0 := by
  cases d with
  | nil => exact absurd rfl hd
  | cons x xs => exact ⟨_, by simp only [axisRecs, List.mem_cons]; exact Or.inl rfl, rfl⟩

/-- Some subdomain satisfies a condition along every axis. -/
theorem corner_sub {Q : Axis → Nat → Nat → Prop} (box : List Axis) (dN : List (List Nat))
    (h : List.Forall₂ (fun (a : Axis) (d : List Nat) => ∃ r ∈ axisRecs 0 0 d, Q a r.off r.n) box dN) :
    ∃ d ∈ (recTable dN).mapIdx mkSub,
      ∀ t ∈ box.zip (d.offsetNcells.zip d.ncells), Q t.1 t.2.1 t.2.2 := by
  have : ∃ r, List.Forall₂ (· ∈ ·) r (dN.map (axisRecs 0 0)) ∧
      ∀ i, ∀ t ∈ box.zip ((mkSub i r).offsetNcells.zip (mkSub i r).ncells), Q t.1 t.2.1 t.2.2 := by
    unfold mkSub
    simp only
    induction h with
    | nil => exact ⟨[], .nil, by simp⟩
    | cons h1 h2 ih =>
      obtain ⟨r, hr, q⟩ := h1
      obtain ⟨rs, hrs, qs⟩ := ih
      refine ⟨r :: rs, .cons hr hrs, fun i t ht => ?_⟩
      simp only [List.map_cons, List.zip_cons_cons, List.mem_cons] at ht
      rcases ht with rfl | ht
      · exact q
      · exact qs i t ht
  obtain ⟨r, hr, q⟩ := this
  have hm : r ∈ recTable dN := (mem_tp _ _).2 hr
  obtain ⟨i, hi, rfl⟩ := List.getElem_of_mem hm
  refine ⟨mkSub i (recTable dN)[i], ?_, q i⟩
  rw [List.mem_mapIdx]
  exact ⟨i, hi, rfl⟩

theorem remake_ok (hA : ∀ x, P x → A.rnd x = x) (L : List (List Axis))
    (h : ∀ m ∈ L, m ≠ [] ∧ ∀ a ∈ m, Good P dx a) : A.remake L = .ok () := by
  induction L with
  | nil => rfl
  | cons m L ih =>
    obtain ⟨h1, h2⟩ := h m (by simp)
    unfold Arith.remake
    rw [mink_good hA h1 h2]
    exact ih (fun x hx => h x (by simp [hx]))

/-- Axes of a subdomain of a good box. -/
theorem subAxes_rel (hA : ∀ x, P x → A.rnd x = x) {l : List Axis} {d : Subdomain} (h : ∀ a ∈ l, Good P dx a)
    (hb : ∀ t ∈ l.zip (d.offsetNcells.zip d.ncells), t.2.1 + t.2.2 ≤ t.1.n)
    (hlen : (l.zip (d.offsetNcells.zip d.ncells)).length = l.length) {R : Axis → Axis → Prop}
    (hR : ∀ t ∈ l.zip (d.offsetNcells.zip d.ncells),
      R ⟨t.1.xmin + t.2.1 * dx, t.1.xmin + (t.2.1 + t.2.2 : ℕ) * dx, t.2.2⟩ t.1) :
    List.Forall₂ R (A.subAxes dx l d) l := by
  rw [List.forall₂_iff_get]
  refine ⟨by simpa [Arith.subAxes] using hlen, fun i p q => ?_⟩
  have hz : i < (l.zip (d.offsetNcells.zip d.ncells)).length := by omega
  have b := hb _ (List.getElem_mem hz)
  have r := hR _ (List.getElem_mem hz)
  have g := h _ (List.getElem_mem q)
  simp only [List.getElem_zip] at b r
  simp only [Arith.subAxes, List.get_eq_getElem, List.getElem_map, List.getElem_zip]
  rw [good_subAxis hA g b]
  exact r

theorem restore_good (hA : ∀ x, P x → A.rnd x = x) (d0 : 0 < dx) {big : ℚ} {box l : List Axis}
    {dN : List (List Nat)} (hb : l ≠ []) (h : ∀ a ∈ l, Good P dx a)
    (hn : List.Forall₂ (fun (a b : Axis) => a.n = b.n) box l)
    (hbig : ∀ b ∈ l, b.xmin ≤ big ∧ -big ≤ b.xmax)
    (hd : List.Forall₂ (fun (a : Axis) (d : List Nat) => d.sum = a.n ∧ d ≠ [] ∧ ∀ m ∈ d, 0 < m) l dN) :
    A.restore big box (((recTable dN).mapIdx mkSub).map (A.subAxes dx l)) =
      .ok (l :: ((recTable dN).mapIdx mkSub).map (A.subAxes dx l)) := by
  have hsub : ∀ d ∈ (recTable dN).mapIdx mkSub,
      (∀ t ∈ l.zip (d.offsetNcells.zip d.ncells), t.2.1 + t.2.2 ≤ t.1.n ∧ 0 < t.2.2) ∧
      (l.zip (d.offsetNcells.zip d.ncells)).length = l.length := by
    intro d hdm
    rw [List.mem_mapIdx] at hdm
    obtain ⟨i, hi, rfl⟩ := hdm
    exact sub_bound l dN _ i hd ((mem_tp _ _).1 (List.getElem_mem hi))
  have hz : ∀ (d : Subdomain), ∀ t ∈ l.zip (d.offsetNcells.zip d.ncells), t.1 ∈ l := by
    intro d t ht
    exact (List.of_mem_zip (show (t.1, t.2) ∈ _ from ht)).1
  have rel : ∀ (R : Axis → Axis → Prop), ∀ d ∈ (recTable dN).mapIdx mkSub,
      (∀ t ∈ l.zip (d.offsetNcells.zip d.ncells),
        R ⟨t.1.xmin + t.2.1 * dx, t.1.xmin + (t.2.1 + t.2.2 : ℕ) * dx, t.2.2⟩ t.1) →
      List.Forall₂ R (A.subAxes dx l d) l :=
    fun R d hdm hR => subAxes_rel hA h (fun t ht => ((hsub d hdm).1 t ht).1) (hsub d hdm).2 hR
  have c := collect_eq (big := big) (box := box) (l := l) hn.length_eq hbig
    (L := ((recTable dN).mapIdx mkSub).map (A.subAxes dx l)) (by
      intro m hm
      rw [List.mem_map] at hm
      obtain ⟨d, hdm, rfl⟩ := hm
      refine rel _ d hdm (fun t ht => ?_)
      have b : (t.2.1 + t.2.2 : ℕ) ≤ t.1.n := ((hsub d hdm).1 t ht).1
      have b' : ((t.2.1 + t.2.2 : ℕ) : ℚ) ≤ t.1.n := by exact_mod_cast b
      have w := (h _ (hz d t ht)).width
      refine ⟨?_, ?_⟩
      · have : (0 : ℚ) ≤ t.2.1 * dx := by positivity
        simp only
        linarith
      · simp only
        rw [w]
        have := mul_le_mul_of_nonneg_right b' d0.le
        linarith) (by
      obtain ⟨d, hdm, q⟩ := corner_sub (Q := fun _ o _ => o = 0) l dN (hd.imp (fun a d h => first_rec d h.2.1))
      refine ⟨_, List.mem_map_of_mem hdm, rel _ d hdm (fun t ht => ?_)⟩
      simp only [q t ht, Nat.cast_zero, zero_mul, add_zero]) (by
      obtain ⟨d, hdm, q⟩ := corner_sub (Q := fun a o m => o + m = a.n) l dN (hd.imp (fun a d h => by
        obtain ⟨r, hr, e⟩ := last_rec d h.2.1 0 0
        exact ⟨r, hr, by rw [e, h.1, zero_add]⟩))
      refine ⟨_, List.mem_map_of_mem hdm, rel _ d hdm (fun t ht => ?_)⟩
      simp only [q t ht]
      exact (h _ (hz d t ht)).width.symm)
  have e : List.zipWith (fun (p : ℚ × ℚ) (a : Axis) => (⟨p.1, p.2, a.n⟩ : Axis))
      (collect big box (((recTable dN).mapIdx mkSub).map (A.subAxes dx l))) box = l := by
    have := forall₂_zipWith (f := fun (p : ℚ × ℚ) (a : Axis) => (⟨p.1, p.2, a.n⟩ : Axis)) (T := fun a b => a = b)
      (fun p a b h k => by rw [h.1, h.2, k]) _ _ _ c hn
    rwa [List.forall₂_eq_eq_eq] at this
  unfold Arith.restore
  rw [remake_ok (dx := dx) hA]
  · simp only
    rw [e, mink_good hA hb h]
  · intro m hm
    rw [List.mem_map] at hm
    obtain ⟨d, hdm, rfl⟩ := hm
    refine ⟨?_, ?_⟩
    · intro hc
      have := (hsub d hdm).2
      have hc := congrArg List.length hc
      unfold Arith.subAxes at hc
      rw [List.length_map, this] at hc
      exact hb (List.length_eq_zero_iff.1 hc)
    · intro a ha
      unfold Arith.subAxes at ha
      rw [List.mem_map] at ha
      obtain ⟨t, ht, rfl⟩ := ha
      have b := (hsub d hdm).1 t ht
      exact good_sub hA (h _ (hz d t ht)) b.1 b.2

theorem run_append (A : Arith) (ts us : List (Nat × Int)) (ms ms' : List (List Axis))
    (h : A.runShifts ts ms = .ok ms') : A.runShifts (ts ++ us) ms = A.runShifts us ms' := by
  induction ts generalizing ms with
  | nil =>
    simp only [Arith.runShifts, Outcome.ok.injEq] at h
    rw [h]
    rfl
  | cons t r ih =>
    simp only [Arith.runShifts, List.cons_append] at h ⊢
    split at h
    · exact ih _ h
    · cases h
    · cases h

theorem moved_good (hA : ∀ x, P x → A.rnd x = x) (d0 : 0 < dx) (h1 : P 1) (hq : A.rnd (dx / A.sqrtD) ≠ 0) {box : List Axis}
    {dN : List (List Nat)} (hb : box ≠ [])
    (hd : List.Forall₂ (fun (a : Axis) (d : List Nat) => d.sum = a.n ∧ d ≠ [] ∧ ∀ m ∈ d, 0 < m) box dN)
    (ts : List (Nat × Int)) (hs : ∀ t ∈ ts, t.1 < box.length ∧ t.2 ≠ 0 ∧ P (t.2 : ℚ) ∧ P (t.2 * dx))
    (h : ∀ k, ∀ a ∈ moveBox dx (total (ts.take k)) box, Good P dx a) :
    ∃ ms ms', A.startMeshes box dN = .ok ms ∧ A.runShifts ts ms = .ok ms' ∧
      A.startMeshes (moveBox dx (total ts) box) dN = .ok ms' ∧ ms' = ms.map (moveBox dx (total ts)) ∧
      ∀ big, (∀ b ∈ moveBox dx (total ts) box, b.xmin ≤ big ∧ -big ≤ b.xmax) →
        A.restore big box ms'.tail = .ok ms' := by
  have h0 : ∀ a ∈ box, Good P dx a := by
    have := h 0
    rwa [List.take_zero, show total [] = fun _ => 0 from rfl, moveBox_zero] at this
  have hT : ∀ a ∈ moveBox dx (total ts) box, Good P dx a := by
    have := h ts.length
    rwa [List.take_length] at this
  have hd' : List.Forall₂ (fun (a : Axis) (d : List Nat) => d.sum = a.n ∧ d ≠ [] ∧ ∀ m ∈ d, 0 < m)
      (moveBox dx (total ts) box) dN := by
    rw [List.forall₂_iff_get] at hd ⊢
    refine ⟨by rw [moveBox_length]; exact hd.1, fun i p q => ?_⟩
    have := hd.2 i (by rwa [moveBox_length] at p) q
    simpa [moveBox] using this
  have hsub : ∀ d ∈ (recTable dN).mapIdx mkSub,
      (∀ t ∈ box.zip (d.offsetNcells.zip d.ncells), t.2.1 + t.2.2 ≤ t.1.n ∧ 0 < t.2.2) ∧
      (box.zip (d.offsetNcells.zip d.ncells)).length = box.length := by
    intro d hdm
    rw [List.mem_mapIdx] at hdm
    obtain ⟨i, hi, rfl⟩ := hdm
    exact sub_bound box dN _ i hd ((mem_tp _ _).1 (List.getElem_mem hi))
  have hmv : ∀ k, ∀ d ∈ (recTable dN).mapIdx mkSub, moveBox dx (total (ts.take k)) (A.subAxes dx box d) =
      A.subAxes dx (moveBox dx (total (ts.take k)) box) d :=
    fun k d hdm => move_subAxes hA _ box d h0 (h k) (fun t ht => ((hsub d hdm).1 t ht).1)
  have hcalc : (box :: ((recTable dN).mapIdx mkSub).map (A.subAxes dx box)).map (moveBox dx (total ts)) =
      moveBox dx (total ts) box :: ((recTable dN).mapIdx mkSub).map (A.subAxes dx (moveBox dx (total ts) box)) := by
    simp only [List.map_cons, List.map_map]
    congr 1
    apply List.map_congr_left
    intro d hdm
    have := hmv ts.length d hdm
    rwa [List.take_length] at this
  refine ⟨_, _, start_good hA h1 hq hb h0 hd, run_good hA box.length ts hs _ ?_, ?_, rfl, ?_⟩
  · intro l hl
    rcases List.mem_cons.1 hl with rfl | hl
    · exact ⟨rfl, h⟩
    · rw [List.mem_map] at hl
      obtain ⟨d, hdm, rfl⟩ := hl
      refine ⟨?_, fun k a ha => ?_⟩
      · unfold Arith.subAxes
        rw [List.length_map, (hsub d hdm).2]
      · rw [hmv k d hdm] at ha
        obtain ⟨i, hi, rfl⟩ := List.getElem_of_mem ha
        have hz : i < (box.zip (d.offsetNcells.zip d.ncells)).length := by
          simpa [moveBox, Arith.subAxes] using hi
        have hi' : i < box.length := by simp at hz; omega
        have b := (hsub d hdm).1 _ (List.getElem_mem hz)
        have g := h k _ (List.getElem_mem (n := i) (by rw [moveBox_length]; exact hi'))
        simp only [List.getElem_zip] at b
        simp only [Arith.subAxes, moveBox, List.getElem_mapIdx, List.getElem_map, List.getElem_zip] at g ⊢
        exact good_sub hA g b.1 b.2
  · rw [start_good hA h1 hq (by simpa [moveBox] using hb) hT hd', hcalc]
  · intro big hbig
    rw [hcalc]
    refine restore_good hA d0 (by simpa [moveBox] using hb) hT ?_ hbig hd'
    rw [List.forall₂_iff_get]
    exact ⟨by rw [moveBox_length], fun i p q => by simp [moveBox]⟩

theorem rep_multiple_le {F : Fmt} {e : Int} (he : F.emin ≤ e) {x : ℚ} (h : Multiple e x)
    (hx : |x| ≤ 2 ^ (F.p + e)) : F.Rep x := by
  obtain ⟨m, rfl⟩ := h
  refine ⟨m, e, he, ?_, rfl⟩
  have p := two_zpow_pos e
  rw [abs_mul, abs_of_pos p, zpow_add₀ (by norm_num), mul_le_mul_iff_left₀ p] at hx
  rw [zpow_natCast] at hx
  exact_mod_cast hx

theorem multiple_add {e : Int} {x y : ℚ} (h1 : Multiple e x) (h2 : Multiple e y) : Multiple e (x + y) := by
  obtain ⟨m, rfl⟩ := h1
  obtain ⟨n, rfl⟩ := h2
  exact ⟨m + n, by push_cast; ring⟩

theorem multiple_mul {e : Int} {x : ℚ} (h1 : Multiple e x) (k : Int) : Multiple e (k * x) := by
  obtain ⟨m, rfl⟩ := h1
  exact ⟨k * m, by push_cast; ring⟩

theorem exact_moves (eps : ℚ) (f : Bool) (s : ℚ) (hs : s ≠ 0) (dx : ℚ) (box : List Axis) (hc : Cubic dx box)
    (dN : List (List Nat))
    (hd : List.Forall₂ (fun (a : Axis) (d : List Nat) => d.sum = a.n ∧ d ≠ [] ∧ ∀ m ∈ d, 0 < m) box dN)
    (ts : List (Nat × Int)) (ht : ∀ t ∈ ts, t.1 < box.length ∧ t.2 ≠ 0) :
    ∃ ms ms', (exact eps f s).startMeshes box dN = .ok ms ∧ (exact eps f s).runShifts ts ms = .ok ms' ∧
      (exact eps f s).startMeshes (moveBox dx (total ts) box) dN = .ok ms' ∧
      ms' = ms.map (moveBox dx (total ts)) ∧
      ∀ big, (∀ b ∈ moveBox dx (total ts) box, b.xmin ≤ big ∧ -big ≤ b.xmax) →
        (exact eps f s).restore big box ms'.tail = .ok ms' := by
  obtain ⟨d0, hb, hc⟩ := hc
  refine moved_good (P := fun _ => True) (fun _ _ => rfl) d0 trivial ?_ hb hd ts
    (fun t h => ⟨(ht t h).1, (ht t h).2, trivial, trivial⟩) ?_
  · exact div_ne_zero d0.ne' hs
  · intro k a ha
    simp only [moveBox, List.mem_mapIdx] at ha
    obtain ⟨i, hi, rfl⟩ := ha
    obtain ⟨h1, h2⟩ := hc _ (List.getElem_mem hi)
    exact ⟨h1, by simp only [h2]; ring, fun _ _ => trivial, fun _ _ => trivial, fun _ _ => trivial⟩

theorem dyadic_moves {F : Fmt} (hF : F.Ok) (f : Bool) {s : ℚ} (h1 : 1 ≤ s) (h2 : s ≤ 2) (e : Int)
    (he : F.emin ≤ e - 1) (dx : ℚ) (hdx : Multiple e dx) (box : List Axis) (hc : Cubic dx box)
    (hbox : ∀ a ∈ box, Multiple e a.xmin ∧ a.n ≤ 2 ^ F.p ∧ a.n * dx ≤ 2 ^ (F.p + e)) (dN : List (List Nat))
    (hd : List.Forall₂ (fun (a : Axis) (d : List Nat) => d.sum = a.n ∧ d ≠ [] ∧ ∀ m ∈ d, 0 < m) box dN)
    (ts : List (Nat × Int))
    (ht : ∀ t ∈ ts, t.1 < box.length ∧ t.2 ≠ 0 ∧ |t.2| ≤ 2 ^ F.p ∧ |t.2 * dx| ≤ 2 ^ (F.p + e))
    (hr : ∀ k, ∀ a ∈ moveBox dx (total (ts.take k)) box, |a.xmin| ≤ 2 ^ (F.p + e) ∧ |a.xmax| ≤ 2 ^ (F.p + e)) :
    ∃ ms ms', (Startup.float F f s).startMeshes box dN = .ok ms ∧
      (Startup.float F f s).runShifts ts ms = .ok ms' ∧
      (Startup.float F f s).startMeshes (moveBox dx (total ts) box) dN = .ok ms' ∧
      ms' = ms.map (moveBox dx (total ts)) ∧
      ∀ big, (∀ b ∈ moveBox dx (total ts) box, b.xmin ≤ big ∧ -big ≤ b.xmax) →
        (Startup.float F f s).restore big box ms'.tail = .ok ms' := by
  obtain ⟨d0, hb, hc⟩ := hc
  have he' : F.emin ≤ e := by omega
  refine moved_good (A := Startup.float F f s) (P := F.Rep) (fun x h => round_rep hF h) d0 (rep_one hF) ?_ hb hd ts
    (fun t h => ?_) ?_
  · have hq : (2 : ℚ) ^ (e - 1) ≤ dx / s := by
      have hd1 : (2 : ℚ) ^ e ≤ dx := by
        obtain ⟨m, rfl⟩ := hdx
        have p := two_zpow_pos e
        have : (0 : ℚ) < m := by
          by_contra hn
          have := mul_nonpos_of_nonpos_of_nonneg (not_lt.1 hn) p.le
          linarith
        have : (1 : ℚ) ≤ m := by
          have : 0 < m := by exact_mod_cast this
          exact_mod_cast this
        nlinarith
      rw [zpow_sub_one₀ (by norm_num), le_div_iff₀ (by linarith)]
      have p := two_zpow_pos e
      nlinarith
    exact (lt_of_lt_of_le (two_zpow_pos _) (le_round hF (rep_pow he) hq)).ne'
  · obtain ⟨a, b, c, d⟩ := ht t h
    exact ⟨a, b, rep_int hF c, rep_multiple_le he' (multiple_mul hdx _) d⟩
  · intro k a ha
    have hab := hr k a ha
    simp only [moveBox, List.mem_mapIdx] at ha
    obtain ⟨i, hi, rfl⟩ := ha
    obtain ⟨g1, g2⟩ := hc _ (List.getElem_mem hi)
    obtain ⟨b1, b2, b3⟩ := hbox _ (List.getElem_mem hi)
    refine ⟨g1, by simp only [g2]; ring, fun j hj => ?_, fun j hj => ?_, fun j hj => ?_⟩
    · have := rep_int hF (n := (j : Int)) (by
        rw [abs_of_nonneg (by omega)]
        exact_mod_cast (le_trans hj b2))
      simpa using this
    · have hj' : (j : ℚ) ≤ (box[i].n : ℚ) := by exact_mod_cast hj
      refine rep_multiple_le he' (multiple_mul hdx (j : Int)) ?_
      rw [abs_of_nonneg (by positivity)]
      refine le_trans ?_ b3
      nlinarith
    · have hj' : (j : ℚ) ≤ (box[i].n : ℚ) := by exact_mod_cast hj
      refine rep_multiple_le he' (multiple_add (multiple_add b1 (multiple_mul hdx _)) (multiple_mul hdx (j : Int))) ?_
      simp only [abs_le] at hab ⊢
      rw [g2] at hab
      have j0 : (0 : ℚ) ≤ j * dx := by positivity
      have j1 : (j : ℚ) * dx ≤ box[i].n * dx := by nlinarith
      constructor
      · linarith [hab.1.1]
      · linarith [hab.2.2]

end Entity.Startup
