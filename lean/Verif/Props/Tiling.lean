import Verif.Lemmas.Tensor
import Verif.Props.Decomp
import Mathlib.Algebra.BigOperators.Ring.List

/-!
# C03: the subdomains tile the global grid
-/

namespace Entity.Decomp

open Entity

/-- Specification: the global cell `c` (one index per dimension) lies in the box of subdomain `s`,
i.e. `offset ≤ c < offset + size` in every dimension. -/
def Owns (s : Subdomain) (c : List Nat) : Prop :=
  List.Forall₂ (fun (b : Nat × Nat) x => b.1 ≤ x ∧ x < b.1 + b.2) (s.offsetNcells.zip s.ncells) c

/-- Specification: `c` is a cell of the global grid whose axes have the given numbers of cells. -/
def InGrid (c ncells : List Nat) : Prop := List.Forall₂ (fun x n => x < n) c ncells

theorem owns_mkSub (i : Nat) (r : List AxisRec) (c : List Nat) :
    Owns (mkSub i r) c ↔ List.Forall₂ (fun (a : AxisRec) x => a.off ≤ x ∧ x < a.off + a.n) r c := by
  unfold Owns mkSub
  simp only [List.zip_map']
  rw [List.forall₂_map_left_iff]

theorem forall2_exists {dN : List (List Nat)} {c : List Nat} (h : InGrid c (dN.map List.sum)) :
    ∃ r, List.Forall₂ (· ∈ ·) r (dN.map (axisRecs 0 0)) ∧
      List.Forall₂ (fun (a : AxisRec) x => a.off ≤ x ∧ x < a.off + a.n) r c := by
  induction dN generalizing c with
  | nil => cases h; exact ⟨[], .nil, .nil⟩
  | cons d dN ih =>
    cases h with
    | @cons x _ _ _ hx h =>
      obtain ⟨r, h1, h2⟩ := ih h
      obtain ⟨a, ha, hb⟩ := axisRecs_cover (o := 0) (k := 0) (d := d) (c := x) (Nat.zero_le _)
        (by omega)
      exact ⟨a :: r, .cons ha h1, .cons hb h2⟩

theorem forall2_inGrid {dN : List (List Nat)} {c : List Nat} {r : List AxisRec}
    (h1 : List.Forall₂ (· ∈ ·) r (dN.map (axisRecs 0 0)))
    (h2 : List.Forall₂ (fun (a : AxisRec) x => a.off ≤ x ∧ x < a.off + a.n) r c) :
    InGrid c (dN.map List.sum) := by
  induction dN generalizing c r with
  | nil => cases h1; cases h2; exact .nil
  | cons d dN ih =>
    simp only [List.map_cons] at h1 ⊢
    cases h1 with
    | cons ha h1 =>
      cases h2 with
      | cons hb h2 =>
        have := axisRecs_bounds ha
        exact .cons (by omega) (ih h1 h2)

theorem forall2_unique {dN : List (List Nat)} {c : List Nat} {r s : List AxisRec}
    (hr : List.Forall₂ (· ∈ ·) r (dN.map (axisRecs 0 0)))
    (hs : List.Forall₂ (· ∈ ·) s (dN.map (axisRecs 0 0)))
    (h1 : List.Forall₂ (fun (a : AxisRec) x => a.off ≤ x ∧ x < a.off + a.n) r c)
    (h2 : List.Forall₂ (fun (a : AxisRec) x => a.off ≤ x ∧ x < a.off + a.n) s c) : r = s := by
  induction dN generalizing c r s with
  | nil => cases hr; cases hs; rfl
  | cons d dN ih =>
    simp only [List.map_cons] at hr hs
    cases hr with
    | cons ha hr =>
      cases hs with
      | cons hb hs =>
        cases h1 with
        | cons e1 h1 =>
          cases h2 with
          | cons e2 h2 =>
            rw [axisRecs_disjoint ha hb e1.1 e1.2 e2.1 e2.2, ih hr hs h1 h2]

/-- **C03.** For every decomposition (any number of dimensions, any list of sizes along each axis
with at least one domain per axis): the construction returns exactly as many subdomains as the
product of the numbers of domains per axis, subdomain number `i` has index `i`, every cell of the
global grid lies in exactly one subdomain, and no subdomain contains a cell outside the grid. -/
theorem C03_tiling (dN : List (List Nat)) (hne : ∀ d ∈ dN, d ≠ []) :
    ∃ doms, createDomains (counts dN).prod dN = some doms ∧
      doms.length = (counts dN).prod ∧
      (∀ (i : Nat) (s : Subdomain), doms[i]? = some s → s.index = i) ∧
      (∀ c, InGrid c (dN.map List.sum) → ∃! s, s ∈ doms ∧ Owns s c) ∧
      (∀ s ∈ doms, ∀ c, Owns s c → InGrid c (dN.map List.sum)) := by
  refine ⟨_, createDomains_eq dN hne, ?_, ?_, ?_, ?_⟩
  · simp [recTable_length, counts]
  · intro i s hs
    rw [List.getElem?_mapIdx] at hs
    simp only [Option.map_eq_some_iff] at hs
    obtain ⟨a, _, rfl⟩ := hs
    rfl
  · intro c hc
    obtain ⟨r, h1, h2⟩ := forall2_exists hc
    have hr : r ∈ recTable dN := (mem_tp _ _).2 h1
    obtain ⟨i, hi, hir⟩ := List.getElem_of_mem hr
    refine ⟨mkSub i r, ⟨?_, (owns_mkSub _ _ _).2 h2⟩, ?_⟩
    · rw [List.mem_mapIdx]; exact ⟨i, hi, by rw [hir]⟩
    · rintro s ⟨hs, ho⟩
      rw [List.mem_mapIdx] at hs
      obtain ⟨j, hj, rfl⟩ := hs
      rw [owns_mkSub] at ho
      have hj' := (mem_tp _ _).1 (List.getElem_mem hj)
      have he := forall2_unique hj' h1 ho h2
      rw [he]
      have : j = i := by
        apply (recTable_nodup dN).getElem_inj_iff.1
        rw [he, hir]
      rw [this]
  · intro s hs c ho
    rw [List.mem_mapIdx] at hs
    obtain ⟨j, hj, rfl⟩ := hs
    rw [owns_mkSub] at ho
    exact forall2_inGrid ((mem_tp _ _).1 (List.getElem_mem hj)) ho

/-- **C03 together with C02:** whatever `Decompose` returns for a positive number of ranks (with a
product of domain counts below 2^32), one subdomain per rank is made and the subdomains tile the
grid that was asked for. -/
theorem C03_decompose_tiles (guess : Nat → Nat) (g3 nd : Nat) (hnd : 0 < nd)
    (ncells : List Nat) (dec : List Int) (dN : List (List Nat))
    (h : decompose guess g3 nd ncells dec = .ok dN) (hfit : (counts dN).prod < 2 ^ 32) :
    ∃ doms, createDomains nd dN = some doms ∧ doms.length = nd ∧
      ∀ c, InGrid c ncells → ∃! s, s ∈ doms ∧ Owns s c := by
  obtain ⟨h1, h2⟩ := C02_decompose_partial guess g3 nd hnd ncells dec dN h hfit
  have hne : ∀ d ∈ dN, d ≠ [] := by
    intro d hd he
    have : (0 : Nat) ∈ counts dN := by
      simp only [counts, List.mem_map]; exact ⟨d, hd, by simp [he]⟩
    have := List.prod_eq_zero this
    omega
  obtain ⟨doms, a, b, _, c, _⟩ := C03_tiling dN hne
  rw [h1] at a b
  rw [h2] at c
  exact ⟨doms, a, b, c⟩

/-- Example: 6 ranks on a 40 × 61 grid; the hypotheses hold and there are six boxes. -/
example : decompose (fun _ => 2) 0 6 [40, 61] [-1, -1] = .ok [[20, 20], [21, 20, 20]] ∧
    (createDomains 6 [[20, 20], [21, 20, 20]]).map (fun l => l.map (·.offsetNcells)) =
      some [[0, 0], [20, 0], [0, 21], [20, 21], [0, 41], [20, 41]] := by
  decide +kernel

end Entity.Decomp
