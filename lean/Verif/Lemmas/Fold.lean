import Verif.Lemmas.Torus
import Mathlib.Algebra.BigOperators.Finprod
import Mathlib.Algebra.Order.Ring.Int
import Mathlib.Tactic.Ring
import Mathlib.Tactic.Linarith

/-!
# Sums over all array indices that stand for a cell of the box
-/

namespace Entity.Ranks

open Entity Entity.Topology Entity.Kernel

variable {K : Type} [Field K]

/-- The indices, relative to an origin at `o`, that stand for the cell `p` of the box. -/
def images (N : List Nat) (o p : List Int) : Set (List Int) :=
  {n | n.length = N.length ∧ wrap N (List.zipWith (· + ·) n o) = p}

/-- Sum of `f` over these indices. -/
noncomputable def fold (N : List Nat) (o : List Int) (f : List Int → K) (p : List Int) : K :=
  ∑ᶠ n ∈ images N o p, f n

/-- Finitely many nonzero values at indices of length `D`. -/
def Fin0 (D : Nat) (f : List Int → K) : Prop := {n : List Int | n.length = D ∧ f n ≠ 0}.Finite

theorem Fin0.inter {N : List Nat} {f : List Int → K} (hf : Fin0 N.length f) (o p : List Int) :
    (images N o p ∩ Function.support f).Finite :=
  Set.Finite.subset hf fun _ hn => ⟨hn.1.1, hn.2⟩

theorem fold_add {N : List Nat} {o : List Int} {f g : List Int → K} (hf : Fin0 N.length f)
    (hg : Fin0 N.length g) (p : List Int) :
    fold N o (fun n => f n + g n) p = fold N o f p + fold N o g p :=
  finsum_mem_add_distrib' (hf.inter _ _) (hg.inter _ _)

theorem fold_mul (N : List Nat) (o : List Int) (c : K) (f : List Int → K) (p : List Int) :
    fold N o (fun n => c * f n) p = c * fold N o f p := (mul_finsum_mem f c).symm

theorem fold_zero (N : List Nat) (o p : List Int) : fold N o (fun _ => (0 : K)) p = 0 := by
  simp [fold]

theorem fin0_mul {D : Nat} {f : List Int → K} (hf : Fin0 D f) (c : K) : Fin0 D (fun n => c * f n) :=
  Set.Finite.subset hf fun n hn => ⟨hn.1, fun h => hn.2 (by beta_reduce; rw [h, mul_zero])⟩

theorem fin0_add {D : Nat} {f g : List Int → K} (hf : Fin0 D f) (hg : Fin0 D g) :
    Fin0 D (fun n => f n + g n) :=
  (Set.Finite.union hf hg).subset fun n hn => by
    by_contra h
    simp only [Set.mem_union, Set.mem_setOf_eq, not_or, not_and, not_not] at h
    exact hn.2 (by beta_reduce; rw [h.1 hn.1, h.2 hn.1, add_zero])

theorem fin0_zero (D : Nat) : Fin0 D (fun _ => (0 : K)) := by simp [Fin0]

theorem fold_sub {N : List Nat} {o : List Int} {f g : List Int → K} (hf : Fin0 N.length f)
    (hg : Fin0 N.length g) (p : List Int) :
    fold N o (fun n => f n - g n) p = fold N o f p - fold N o g p := by
  have := fold_add (N := N) (o := o) hf (fin0_mul hg (-1)) p
  rw [fold_mul] at this
  rw [show (fun n => f n - g n) = fun n => f n + -1 * g n from funext fun n => by ring, this]
  ring

theorem fin0_sub {D : Nat} {f g : List Int → K} (hf : Fin0 D f) (hg : Fin0 D g) :
    Fin0 D (fun n => f n - g n) := by
  rw [show (fun n => f n - g n) = fun n => f n + -1 * g n from funext fun n => by ring]
  exact fin0_add hf (fin0_mul hg _)

theorem fin0_list {D : Nat} {β : Type} {fs : β → List Int → K} (l : List β)
    (h : ∀ b ∈ l, Fin0 D (fs b)) : Fin0 D (fun n => (l.map (fun b => fs b n)).sum) := by
  induction l with
  | nil => simpa using fin0_zero D
  | cons b l ih =>
    simp only [List.map_cons, List.sum_cons]
    exact fin0_add (h b (by simp)) (ih fun b hb => h b (by simp [hb]))

theorem fold_list {N : List Nat} {o : List Int} {β : Type} {fs : β → List Int → K} (l : List β)
    (h : ∀ b ∈ l, Fin0 N.length (fs b)) (p : List Int) :
    fold N o (fun n => (l.map (fun b => fs b n)).sum) p = (l.map (fun b => fold N o (fs b) p)).sum := by
  induction l with
  | nil => simpa using fold_zero N o p
  | cons b l ih =>
    simp only [List.map_cons, List.sum_cons]
    rw [fold_add (h b (by simp)) (fin0_list l fun b hb => h b (by simp [hb])),
      ih fun b hb => h b (by simp [hb])]

theorem fold_congr {N : List Nat} {o : List Int} {f g : List Int → K}
    (h : ∀ n, n.length = N.length → f n = g n) (p : List Int) : fold N o f p = fold N o g p :=
  finsum_mem_congr rfl fun n hn => h n hn.1

theorem fin0_shift {D : Nat} {f : List Int → K} (hf : Fin0 D f) (d : Nat) :
    Fin0 D (fun n => f (n.modify d (· - 1))) := by
  refine (Set.Finite.image (fun n : List Int => n.modify d (· + 1)) hf).subset ?_
  rintro n ⟨h1, h2⟩
  refine ⟨n.modify d (· - 1), ⟨by simpa using h1, h2⟩, ?_⟩
  apply List.ext_getElem
  · simp
  · intro i h1 h2
    simp only [List.getElem_modify]
    split <;> simp

/-! ## Shifts -/

theorem modify_modify (n : List Int) (d : Nat) :
    (n.modify d (· - 1)).modify d (· + 1) = n ∧ (n.modify d (· + 1)).modify d (· - 1) = n := by
  constructor <;>
  · apply List.ext_getElem
    · simp
    · intro i h1 h2
      simp only [List.getElem_modify]
      split <;> simp

theorem zip_modify (n o : List Int) (d : Nat) (s : Int) :
    List.zipWith (· + ·) (n.modify d (· + s)) o = (List.zipWith (· + ·) n o).modify d (· + s) := by
  apply List.ext_getElem
  · simp
  · intro i h1 h2
    simp only [List.getElem_zipWith, List.getElem_modify]
    split <;> ring

theorem wrap_modify (N : List Nat) (p : List Int) (d : Nat) (s : Int) :
    wrap N ((wrap N p).modify d (· + s)) = wrap N (p.modify d (· + s)) := by
  apply List.ext_getElem
  · simp [wrap]
  · intro i h1 h2
    simp only [wrap, List.getElem_zipWith, List.getElem_modify]
    split <;> simp

theorem fold_shift {N : List Nat} {o p : List Int} (hp : wrap N p = p) (d : Nat)
    (f : List Int → K) :
    fold N o (fun n => f (n.modify d (· - 1))) p = fold N o f (wrap N (p.modify d (· - 1))) := by
  unfold fold
  refine finsum_mem_eq_of_bijOn (fun n => n.modify d (· - 1)) ⟨?_, ?_, ?_⟩ (fun n _ => rfl)
  · rintro n ⟨h1, h2⟩
    refine ⟨by simpa using h1, ?_⟩
    rw [← h2]
    have := zip_modify n o d (-1)
    have w := wrap_modify N (List.zipWith (· + ·) n o) d (-1)
    simp only [← sub_eq_add_neg] at this w
    rw [this, w]
  · intro a _ b _ hab
    have := congrArg (fun n : List Int => n.modify d (· + 1)) hab
    simpa only [(modify_modify a d).1, (modify_modify b d).1] using this
  · rintro n ⟨h1, h2⟩
    refine ⟨n.modify d (· + 1), ⟨by simpa using h1, ?_⟩, (modify_modify n d).2⟩
    rw [zip_modify, ← wrap_modify, h2]
    have w := wrap_modify N (p.modify d (· - 1)) d 1
    rw [w, (modify_modify p d).1, hp]

/-! ## Products -/

/-- Sum of a function of the position along one axis over all positions `p + k N`. -/
noncomputable def sumOver (N : Nat) (f : Int → K) (p : Int) : K := ∑ᶠ k : Int, f (p + k * N)

theorem sumOver_eq {N : Nat} (hN : 0 < N) {o p : Int} (hp : p % N = p) (f : Int → K) :
    ∑ᶠ x ∈ {x : Int | (x + o) % (N : Int) = p}, f x = sumOver N f (p - o) := by
  unfold sumOver
  have : {x : Int | (x + o) % (N : Int) = p} = Set.range (fun k : Int => p - o + k * N) := by
    ext x
    simp only [Set.mem_setOf_eq, Set.mem_range]
    constructor
    · intro h
      refine ⟨(x + o) / N, ?_⟩
      have := Int.mul_ediv_add_emod (x + o) N
      rw [h] at this
      linarith [mul_comm (N : Int) ((x + o) / N)]
    · rintro ⟨k, rfl⟩
      rw [show p - o + k * N + o = p + N * k by ring, Int.add_mul_emod_self_left, hp]
  rw [this, finsum_mem_range]
  intro a b hab
  have h0 : N ≠ 0 := by omega
  simpa [h0] using hab

theorem images_cons (n : Nat) (N : List Nat) (x : Int) (o : List Int) (y : Int) (p : List Int) :
    images (n :: N) (x :: o) (y :: p) =
      (fun c : Int × List Int => c.1 :: c.2) '' ({k | (k + x) % (n : Int) = y} ×ˢ images N o p) := by
  ext l
  simp only [images, Set.mem_setOf_eq, Set.mem_image, Set.mem_prod, Prod.exists]
  constructor
  · rintro ⟨h1, h2⟩
    cases l with
    | nil => simp at h1
    | cons a l =>
      simp only [wrap, List.zipWith_cons_cons, List.cons.injEq] at h2
      exact ⟨a, l, ⟨h2.1, by simpa using h1, h2.2⟩, rfl⟩
  · rintro ⟨a, l', ⟨h1, h2, h3⟩, rfl⟩
    exact ⟨by simpa using h2, by simp [wrap, h1]; exact h3⟩

/-- The product of functions of the coordinates. -/
def prodFn (fs : List (Int → K)) (n : List Int) : K :=
  (List.zipWith (fun f k => f k) fs n).prod

theorem fin0_prod {fs : List (Int → K)} (h : ∀ f ∈ fs, (Function.support f).Finite) :
    Fin0 fs.length (prodFn fs) := by
  unfold Fin0
  induction fs with
  | nil =>
    refine (Set.finite_singleton ([] : List Int)).subset ?_
    rintro n ⟨h1, _⟩
    simpa using h1
  | cons f fs ih =>
    have h1 := h f (by simp)
    have h2 := ih fun g hg => h g (by simp [hg])
    refine ((h1.prod h2).image (fun c : Int × List Int => c.1 :: c.2)).subset ?_
    rintro n ⟨hn, h0⟩
    cases n with
    | nil => simp at hn
    | cons a n =>
      simp only [prodFn, List.zipWith_cons_cons, List.prod_cons, ne_eq, mul_eq_zero, not_or] at h0
      exact ⟨(a, n), ⟨h0.1, by simpa using hn, h0.2⟩, rfl⟩

theorem fold_prod {N : List Nat} (hN : ∀ n ∈ N, 0 < n) {fs : List (Int → K)} {o p : List Int}
    (h : ∀ f ∈ fs, (Function.support f).Finite) (hf : fs.length = N.length)
    (ho : o.length = N.length) (hpl : p.length = N.length) (hp : wrap N p = p) :
    fold N o (prodFn fs) p =
      (List.zipWith (fun F y => F y) (List.zipWith sumOver N fs)
        (List.zipWith (fun x y => y - x) o p)).prod := by
  induction N generalizing fs o p with
  | nil =>
    obtain rfl := List.length_eq_zero_iff.1 hf
    obtain rfl := List.length_eq_zero_iff.1 ho
    obtain rfl := List.length_eq_zero_iff.1 hpl
    have : images [] [] [] = {[]} := by
      ext n
      simp only [images, Set.mem_setOf_eq, Set.mem_singleton_iff, List.length_nil]
      exact ⟨fun h => List.length_eq_zero_iff.1 h.1, fun h => by simp [h, wrap]⟩
    simp [fold, this, prodFn]
  | cons n N ih =>
    match fs, o, p, hf, ho, hpl with
    | f :: fs, x :: o, y :: p, hf, ho, hpl =>
      simp only [List.length_cons, Nat.add_right_cancel_iff] at hf ho hpl
      simp only [wrap, List.zipWith_cons_cons, List.cons.injEq] at hp
      have hf1 := h f (by simp)
      have hfs : ∀ f ∈ fs, (Function.support f).Finite := fun g hg => h g (by simp [hg])
      have e := ih (fun n hn => hN n (by simp [hn])) hfs hf ho hpl hp.2
      simp only [List.zipWith_cons_cons, List.prod_cons]
      rw [← e, ← sumOver_eq (hN n (by simp)) hp.1 f]
      unfold fold
      rw [images_cons, finsum_mem_image (fun a _ b _ hab => by
        simp only [List.cons.injEq] at hab; exact Prod.ext hab.1 hab.2)]
      have e1 : ∀ c : Int × List Int, prodFn (f :: fs) (c.1 :: c.2) = f c.1 * prodFn fs c.2 :=
        fun c => by simp [prodFn]
      simp only [e1]
      set A := {k : Int | (k + x) % (n : Int) = y}
      set B := images N o p
      have hA : (A ∩ Function.support f).Finite := hf1.inter_of_right _
      have hB : (B ∩ Function.support (prodFn fs)).Finite := by
        have := fin0_prod hfs
        rw [hf] at this
        exact this.inter _ _
      rw [finsum_mem_eq_sum f hA, finsum_mem_eq_sum _ hB, Finset.sum_mul_sum, ← Finset.sum_product']
      apply finsum_mem_eq_sum_of_inter_support_eq
      ext ⟨a, b⟩
      simp only [Set.mem_inter_iff, Set.mem_prod, Function.mem_support, ne_eq, mul_eq_zero, not_or,
        Finset.coe_product, Set.Finite.coe_toFinset]
      tauto

end Entity.Ranks
