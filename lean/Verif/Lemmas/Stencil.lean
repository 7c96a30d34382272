import Verif.Lemmas.Kernel
import Verif.Model.FieldSolver

/-!
# Bodies given by offsets
-/

namespace Entity.FieldSolver

open Entity.Kernel

variable {K : Type} [Add K] [Sub K] [Mul K] [Div K] [Neg K]

section
variable (a b : Ex K)
omit [Add K] [Sub K] [Mul K] [Div K] [Neg K] in
@[simp] theorem loads_hadd : (a + b).loads = a.loads ++ b.loads := rfl
omit [Add K] [Sub K] [Mul K] [Div K] [Neg K] in
@[simp] theorem loads_hsub : (a - b).loads = a.loads ++ b.loads := rfl
omit [Add K] [Sub K] [Mul K] [Div K] [Neg K] in
@[simp] theorem loads_hmul : (a * b).loads = a.loads ++ b.loads := rfl
omit [Add K] [Sub K] [Mul K] [Div K] [Neg K] in
@[simp] theorem loads_hdiv : (a / b).loads = a.loads ++ b.loads := rfl
omit [Add K] [Sub K] [Mul K] [Div K] [Neg K] in
@[simp] theorem loads_hneg : (-a).loads = a.loads := rfl
omit [Add K] [Sub K] [Mul K] [Div K] [Neg K] in
@[simp] theorem loads_lit (c : K) : (Ex.lit c).loads = [] := rfl
omit [Add K] [Sub K] [Mul K] [Div K] [Neg K] in
@[simp] theorem loads_ld (l : Loc) : (Ex.ld l : Ex K).loads = [l] := rfl
@[simp] theorem eval_hadd (m : Mem K) : (a + b).eval m = a.eval m + b.eval m := rfl
@[simp] theorem eval_hsub (m : Mem K) : (a - b).eval m = a.eval m - b.eval m := rfl
@[simp] theorem eval_hmul (m : Mem K) : (a * b).eval m = a.eval m * b.eval m := rfl
@[simp] theorem eval_hdiv (m : Mem K) : (a / b).eval m = a.eval m / b.eval m := rfl
@[simp] theorem eval_hneg (m : Mem K) : (-a).eval m = -a.eval m := rfl
@[simp] theorem eval_lit (c : K) (m : Mem K) : (Ex.lit c).eval m = c := rfl
@[simp] theorem eval_ld (l : Loc) (m : Mem K) : (Ex.ld l : Ex K).eval m = m l := rfl
end

/-- All locations of the body are `D`-dimensional. -/
def Dimd (D : Nat) (as : List (Assign K)) : Prop :=
  ∀ a ∈ as, a.dst.idx.length = D ∧ ∀ l ∈ a.rhs.loads, l.idx.length = D

theorem eval_at (e : Ex K) (t : List Int) (m : Mem K) :
    (e.at t).eval m = e.eval (fun l => m (l.at t)) := by
  induction e with
  | lit c => rfl
  | ld l => rfl
  | add a b iha ihb | sub a b iha ihb | mul a b iha ihb | div a b iha ihb =>
    simp only [Ex.at, Ex.eval, iha, ihb]
  | neg a ih => simp only [Ex.at, Ex.eval, ih]

theorem eval_congr (e : Ex K) {m m' : Mem K} (h : ∀ l ∈ e.loads, m l = m' l) :
    e.eval m = e.eval m' := by
  induction e with
  | lit c => rfl
  | ld l => exact h l (by simp [Ex.loads])
  | add a b iha ihb | sub a b iha ihb | mul a b iha ihb | div a b iha ihb =>
    simp only [Ex.eval]
    rw [iha (fun l hl => h l (by simp [Ex.loads, hl])), ihb (fun l hl => h l (by simp [Ex.loads, hl]))]
  | neg a ih => simp only [Ex.eval]; rw [ih (fun l hl => h l (by simp [Ex.loads, hl]))]

theorem at_inj {t : List Int} {l l' : Loc} (h : l.idx.length = t.length)
    (h' : l'.idx.length = t.length) : l.at t = l'.at t ↔ l = l' := by
  constructor
  · intro e
    obtain ⟨a, c, i⟩ := l
    obtain ⟨a', c', i'⟩ := l'
    simp only [Loc.at, Loc.mk.injEq] at e h h' ⊢
    refine ⟨e.1, e.2.1, ?_⟩
    apply List.ext_getElem (by omega)
    intro k h1 h2
    have := congrArg (fun l => l[k]?) e.2.2
    beta_reduce at this
    rw [List.getElem?_eq_getElem (by simp; omega), List.getElem?_eq_getElem (by simp; omega)] at this
    simpa using this
  · rintro rfl; rfl

/-- The locations a body accesses. -/
def accessed (as : List (Assign K)) (l : Loc) : Prop :=
  ∃ a ∈ as, l = a.dst ∨ l ∈ a.rhs.loads

/-- The result of a body depends only on the locations it accesses. -/
theorem runBody_congr (as : List (Assign K)) {m m' : Mem K} {S : Loc → Prop}
    (hS : ∀ l, accessed as l → S l) (h : ∀ l, S l → m l = m' l) :
    ∀ l, S l → runBody as m l = runBody as m' l := by
  induction as generalizing m m' with
  | nil => exact h
  | cons a as ih =>
    intro l hl
    simp only [runBody]
    refine ih (fun l ⟨b, hb, h'⟩ => hS l ⟨b, List.mem_cons_of_mem _ hb, h'⟩) ?_ l hl
    intro l' hl'
    simp only [store]
    rw [eval_congr a.rhs (fun l'' hl'' => h l'' (hS l'' ⟨a, List.mem_cons_self, .inr hl''⟩)), h l' hl']

/-- A body at cell `t` is the body with offsets on the memory seen from `t`. -/
theorem runBody_at {D : Nat} (as : List (Assign K)) (hD : Dimd D as) {t : List Int}
    (ht : t.length = D) (m : Mem K) {l : Loc} (hl : l.idx.length = D) :
    runBody (atCell as t) m (l.at t) = runBody as (fun l => m (l.at t)) l := by
  induction as generalizing m l with
  | nil => rfl
  | cons a as ih =>
    have hD' : Dimd D as := fun b hb => hD b (List.mem_cons_of_mem _ hb)
    obtain ⟨hd, hr⟩ := hD a List.mem_cons_self
    rw [show atCell (a :: as) t = ⟨a.dst.at t, a.rhs.at t⟩ :: atCell as t from rfl, runBody, runBody,
      ih hD' _ hl]
    refine runBody_congr as (S := fun l => l.idx.length = D) ?_ ?_ l hl
    · rintro l ⟨b, hb, rfl | h⟩
      · exact (hD' b hb).1
      · exact (hD' b hb).2 l h
    · intro l' hl'
      simp only [store, eval_at]
      by_cases e : l' = a.dst
      · subst e; simp
      · rw [if_neg e, if_neg (fun h => e ((at_inj (hl'.trans ht.symm) (hd.trans ht.symm)).1 h))]

theorem loads_at (e : Ex K) (t : List Int) : (e.at t).loads = e.loads.map (·.at t) := by
  induction e with
  | lit c => rfl
  | ld l => rfl
  | add a b iha ihb | sub a b iha ihb | mul a b iha ihb | div a b iha ihb =>
    simp [Ex.at, Ex.loads, iha, ihb]
  | neg a ih => simpa [Ex.at, Ex.loads] using ih

/-- A body with offsets writes only its own cell and reads written components only there. -/
def OwnCell (D : Nat) (wr : Nat → Nat → Bool) (as : List (Assign K)) : Prop :=
  ∀ a ∈ as, (a.dst.idx = here D ∧ wr a.dst.arr a.dst.comp = true) ∧
    ∀ l ∈ a.rhs.loads, wr l.arr l.comp = true → l.idx = here D

theorem here_at (t : List Int) : List.zipWith (· + ·) t (here t.length) = t := by
  induction t with
  | nil => rfl
  | cons x t ih => simp only [here, List.length_cons, List.replicate_succ, List.zipWith_cons_cons]; simpa [here] using ih

theorem local_atCell {D : Nat} {wr : Nat → Nat → Bool} {f : List Int → List (Assign K)}
    {cells : List (List Int)} (h : ∀ t ∈ cells, t.length = D ∧ OwnCell D wr (f t)) :
    Local cells wr (fun t => atCell (f t) t) := by
  intro t htc a ha
  obtain ⟨ht, h⟩ := h t htc
  obtain ⟨b, hb, rfl⟩ := List.mem_map.1 ha
  obtain ⟨⟨h1, h2⟩, h3⟩ := h b hb
  refine ⟨⟨?_, h2⟩, ?_⟩
  · simp only [Loc.at, h1]; rw [← ht]; exact here_at t
  · intro l hl hw
    rw [loads_at] at hl
    obtain ⟨l', hl', rfl⟩ := List.mem_map.1 hl
    have := h3 l' hl' hw
    simp only [Loc.at, this]; rw [← ht]; exact here_at t

end Entity.FieldSolver
