import Verif.Lemmas.Torus
import Verif.Model.Filter
import Verif.Lemmas.KernelRfl
import Mathlib.Tactic.NormNum

/-!
# Memory accesses of the field kernels
-/

set_option linter.unusedSectionVars false

namespace Entity.FieldSolver

open Entity.Kernel Entity.Ranks Entity.Filter

variable {K : Type} [Add K] [Sub K] [Mul K] [Div K] [Neg K] [Zero K] [One K] [NatCast K]

/-- All locations a body accesses. -/
def locs (as : List (Assign K)) : List Loc := as.flatMap (fun a => a.dst :: a.rhs.loads)

omit [Add K] [Sub K] [Mul K] [Div K] [Neg K] [Zero K] [One K] [NatCast K] in
theorem accessed_iff (as : List (Assign K)) (l : Loc) : accessed as l ↔ l ∈ locs as := by
  simp [accessed, locs]

/-- Checkable form of `Reach`. -/
def reachB (D : Nat) (ng : Int) (as : List (Assign K)) : Bool :=
  (locs as).all fun l => l.idx.length == D && l.idx.all fun x => decide (-ng ≤ x) && decide (x ≤ ng)

theorem reach_of {D : Nat} {k : Nat} {as : List (Assign K)} (h : reachB D k as = true) {ng : Nat}
    (hng : k ≤ ng) : Reach D ng as := by
  intro l hl
  have := List.all_eq_true.1 h l ((accessed_iff as l).1 hl)
  simp only [Bool.and_eq_true, beq_iff_eq, List.all_eq_true, decide_eq_true_eq] at this
  refine ⟨this.1, fun x hx => ?_⟩
  have := this.2 x hx
  omega

/-- Checkable form of `OwnCell`. -/
def ownB (D : Nat) (wr : Nat → Nat → Bool) (as : List (Assign K)) : Bool :=
  as.all fun a => (a.dst.idx == here D && wr a.dst.arr a.dst.comp) &&
    a.rhs.loads.all fun l => !wr l.arr l.comp || l.idx == here D

omit [Add K] [Sub K] [Mul K] [Div K] [Neg K] [Zero K] [One K] [NatCast K] in
theorem own_of {D : Nat} {wr : Nat → Nat → Bool} {as : List (Assign K)} (h : ownB D wr as = true) :
    OwnCell D wr as := by
  intro a ha
  have := List.all_eq_true.1 h a ha
  simp only [Bool.and_eq_true, beq_iff_eq, List.all_eq_true, Bool.or_eq_true, Bool.not_eq_true'] at this
  refine ⟨this.1, fun l hl hw => ?_⟩
  rcases this.2 l hl with h' | h'
  · rw [h'] at hw; cases hw
  · exact h'

/-- Checkable form of "accesses only selected components". -/
def selB' (sel : Nat → Nat → Bool) (as : List (Assign K)) : Bool :=
  (locs as).all fun l => sel l.arr l.comp

omit [Add K] [Sub K] [Mul K] [Div K] [Neg K] [Zero K] [One K] [NatCast K] in
theorem sel_of {sel : Nat → Nat → Bool} {as : List (Assign K)} (h : selB' sel as = true) :
    ∀ l, accessed as l → sel l.arr l.comp = true := fun l hl =>
  List.all_eq_true.1 h l ((accessed_iff as l).1 hl)

/-- `E` and `J`. -/
def selEJ (a c : Nat) : Bool := selE a c || selJ a c
/-- `E` and `B`. -/
def selEB (a c : Nat) : Bool := selE a c || selB a c
/-- The buffer. -/
def selBuf (a c : Nat) : Bool := a == 2 && decide (c < 3)

section
variable {D : Nat} (hD : D ∈ [1, 2, 3]) {ng : Nat} (hng : 2 ≤ ng)
include hD

theorem faraday_own (dT dx : K) (c : Coeffs K) : OwnCell D selB (faraday D dT dx c) := by
  simp only [List.mem_cons, List.not_mem_nil, or_false] at hD
  rcases hD with rfl | rfl | rfl <;> exact own_of (by kernel_rfl)

theorem faraday_sel (dT dx : K) (c : Coeffs K) :
    ∀ l, accessed (faraday D dT dx c) l → selEB l.arr l.comp = true := by
  simp only [List.mem_cons, List.not_mem_nil, or_false] at hD
  rcases hD with rfl | rfl | rfl <;> exact sel_of (by kernel_rfl)

theorem ampere_own (dT dx : K) : OwnCell D selE (ampere D dT dx) := by
  simp only [List.mem_cons, List.not_mem_nil, or_false] at hD
  rcases hD with rfl | rfl | rfl <;> exact own_of (by kernel_rfl)

theorem ampere_sel (dT dx : K) :
    ∀ l, accessed (ampere D dT dx) l → selEB l.arr l.comp = true := by
  simp only [List.mem_cons, List.not_mem_nil, or_false] at hD
  rcases hD with rfl | rfl | rfl <;> exact sel_of (by kernel_rfl)

theorem currentsAmpere_own (coeff ppc0 : K) : OwnCell D selEJ (currentsAmpere D coeff ppc0) := by
  simp only [List.mem_cons, List.not_mem_nil, or_false] at hD
  rcases hD with rfl | rfl | rfl <;> exact own_of (by kernel_rfl)

theorem currentsAmpere_sel (coeff ppc0 : K) :
    ∀ l, accessed (currentsAmpere D coeff ppc0) l → selEJ l.arr l.comp = true := by
  simp only [List.mem_cons, List.not_mem_nil, or_false] at hD
  rcases hD with rfl | rfl | rfl <;> exact sel_of (by kernel_rfl)

theorem divergence_own {k : Nat} (hk : k < 3) : OwnCell D selBuf (divergence D k : List (Assign K)) := by
  simp only [List.mem_cons, List.not_mem_nil, or_false] at hD
  rcases hD with rfl | rfl | rfl <;>
  (match k, hk with | 0, _ | 1, _ | 2, _ => exact own_of (by kernel_rfl))

include hng

theorem faraday_reach (dT dx : K) (c : Coeffs K) : Reach D ng (faraday D dT dx c) := by
  simp only [List.mem_cons, List.not_mem_nil, or_false] at hD
  rcases hD with rfl | rfl | rfl <;> exact reach_of (k := 2) (by kernel_rfl) hng

theorem ampere_reach (dT dx : K) : Reach D ng (ampere D dT dx) := by
  simp only [List.mem_cons, List.not_mem_nil, or_false] at hD
  rcases hD with rfl | rfl | rfl <;> exact reach_of (k := 2) (by kernel_rfl) hng

theorem currentsAmpere_reach (coeff ppc0 : K) : Reach D ng (currentsAmpere D coeff ppc0) := by
  simp only [List.mem_cons, List.not_mem_nil, or_false] at hD
  rcases hD with rfl | rfl | rfl <;> exact reach_of (k := 2) (by kernel_rfl) hng

theorem divergence_reach (k : Nat) : Reach D ng (divergence D k : List (Assign K)) := by
  simp only [List.mem_cons, List.not_mem_nil, or_false] at hD
  rcases hD with rfl | rfl | rfl <;> exact reach_of (k := 2) (by kernel_rfl) hng
end

theorem ownB_append {D : Nat} {wr : Nat → Nat → Bool} {as bs : List (Assign K)}
    (h : OwnCell D wr as) (h' : OwnCell D wr bs) : OwnCell D wr (as ++ bs) := by
  intro a ha
  rcases List.mem_append.1 ha with ha | ha
  · exact h a ha
  · exact h' a ha

theorem reach_append {D ng : Nat} {as bs : List (Assign K)} (h : Reach D ng as)
    (h' : Reach D ng bs) : Reach D ng (as ++ bs) := by
  rintro l ⟨a, ha, hl⟩
  rcases List.mem_append.1 ha with ha | ha
  · exact h l ⟨a, ha, hl⟩
  · exact h' l ⟨a, ha, hl⟩

theorem extCurrent_own [IntCast K] (NG : Int) (dx : K) (xmin : List K) (ppc0 : K) (ext : Nat → List K → K)
    (t : List Int) : OwnCell t.length selEJ (extCurrent NG dx xmin ppc0 ext t) := by
  intro a ha
  simp only [extCurrent, List.mem_cons, List.not_mem_nil, or_false] at ha
  rcases ha with rfl | rfl | rfl <;> refine ⟨⟨rfl, rfl⟩, fun l hl _ => ?_⟩ <;>
  · have : l ∈ [_] := hl
    rw [List.mem_singleton.1 this]; rfl

theorem extCurrent_reach [IntCast K] (NG : Int) (dx : K) (xmin : List K) (ppc0 : K) (ext : Nat → List K → K)
    (t : List Int) (ng : Nat) : Reach t.length ng (extCurrent NG dx xmin ppc0 ext t) := by
  rintro l ⟨a, ha, hl⟩
  have key : ∀ c : Cc, l = jcL c (here t.length) → l.idx.length = t.length ∧
      ∀ x ∈ l.idx, -(ng : Int) ≤ x ∧ x ≤ ng := by
    rintro c rfl
    refine ⟨by simp [jcL, here], fun x hx => ?_⟩
    have := List.eq_of_mem_replicate (show x ∈ List.replicate t.length 0 from hx)
    omega
  simp only [extCurrent, List.mem_cons, List.not_mem_nil, or_false] at ha
  rcases ha with rfl | rfl | rfl <;> rcases hl with hl | hl <;>
  first
  | exact key _ hl
  | (have : l ∈ [_] := hl
     exact key _ (List.mem_singleton.1 this))

end Entity.FieldSolver

namespace Entity.Filter

open Entity.Kernel Entity.Ranks Entity.FieldSolver

variable {K : Type} [Add K] [Sub K] [Mul K] [Div K] [Neg K] [Zero K] [One K] [NatCast K]

theorem side_cases (c : Cfg) (a : Nat) : c.side a = 1 ∨ c.side a = -1 := by
  unfold Cfg.side; split <;> simp

theorem filterCart_own (c : Cfg) {t : List Int} (ht : t.length ∈ [1, 2, 3]) :
    OwnCell t.length selJ (filterCart c t : List (Assign K)) := by
  match t, ht with
  | [i1], _ =>
    simp only [filterCart, filter1, List.length_cons, List.length_nil]
    repeat' split
    all_goals exact own_of (by kernel_rfl)
  | [i1, i2], _ =>
    simp only [filterCart, filter2, List.length_cons, List.length_nil]
    repeat' split
    all_goals exact own_of (by kernel_rfl)
  | [i1, i2, i3], _ =>
    simp only [filterCart, filter3, List.length_cons, List.length_nil]
    repeat' split
    all_goals exact own_of (by kernel_rfl)

theorem filterCart_reach (c : Cfg) {t : List Int} (ht : t.length ∈ [1, 2, 3]) {ng : Nat}
    (hng : 2 ≤ ng) : Reach t.length ng (filterCart c t : List (Assign K)) := by
  match t, ht with
  | [i1], _ =>
    simp only [filterCart, filter1, List.length_cons, List.length_nil]
    rcases side_cases c 0 with h | h <;> rw [h] <;> repeat' split
    all_goals exact reach_of (k := 2) (by kernel_rfl) hng
  | [i1, i2], _ =>
    simp only [filterCart, filter2, List.length_cons, List.length_nil]
    rcases side_cases c 0 with h | h <;> rw [h] <;> rcases side_cases c 1 with h' | h' <;> rw [h'] <;>
    repeat' split
    all_goals exact reach_of (k := 2) (by kernel_rfl) hng
  | [i1, i2, i3], _ =>
    simp only [filterCart, filter3, List.length_cons, List.length_nil]
    rcases side_cases c 0 with h | h <;> rw [h] <;> rcases side_cases c 1 with h' | h' <;> rw [h'] <;>
    rcases side_cases c 2 with h'' | h'' <;> rw [h''] <;>
    repeat' split
    all_goals exact reach_of (k := 2) (by kernel_rfl) hng

theorem filterSph_own (c : Cfg) {t : List Int} (ht : t.length = 2) :
    OwnCell t.length selJ (filterSph c t : List (Assign K)) := by
  match t, ht with
  | [i1, i2], _ =>
    simp only [filterSph, filter2sph, List.length_cons, List.length_nil]
    repeat' split
    all_goals exact own_of (by kernel_rfl)

end Entity.Filter
