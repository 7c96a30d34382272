import Verif.Lemmas.FieldBC
import Verif.Lemmas.Curvi

/-!
# Effects of the horizon, absorption and axis kernels
-/

namespace Entity.FieldBC

open Entity Entity.Kernel Entity.Ranks

variable {K : Type} [Field K]

theorem mem_horizonBody {a ng nf : Nat} {i0 : Int} {setE setB : Bool} {i2 : Int} {x : Assign K} :
    x ∈ horizonBody a ng i0 nf setE setB [i2] ↔ ∃ c ∈ tagged setE setB, ∃ i : Nat, i ≤ 2 + nf ∧
      x = ⟨⟨a, c, [i0 - ng + i, i2]⟩, .ld ⟨a, c, [i0 + 1 + nf, i2]⟩⟩ := by
  have key : ∀ cs : List Nat, x ∈ (List.range (2 + nf + 1)).flatMap (fun (i : Nat) => cs.map fun c =>
      (⟨⟨a, c, [i0 - ng + i, i2]⟩, .ld ⟨a, c, [i0 + 1 + nf, i2]⟩⟩ : Assign K)) ↔
      ∃ c ∈ cs, ∃ i : Nat, i ≤ 2 + nf ∧
        x = ⟨⟨a, c, [i0 - ng + i, i2]⟩, .ld ⟨a, c, [i0 + 1 + nf, i2]⟩⟩ := by
    intro cs
    simp only [List.mem_flatMap, List.mem_range, List.mem_map]
    constructor
    · rintro ⟨i, hi, c, hc, rfl⟩; exact ⟨c, hc, i, by omega, rfl⟩
    · rintro ⟨c, hc, i, hi, rfl⟩; exact ⟨i, by omega, c, hc, rfl⟩
  simp only [horizonBody, List.mem_append]
  cases setE <;> cases setB <;>
    simp only [Bool.false_eq_true, if_true, if_false, List.not_mem_nil, false_or, or_false, key, tagged,
      List.nil_append, List.append_nil, false_and, exists_false]
  simp only [List.mem_append, or_and_right, exists_or]

theorem horizon_pairwise {a ng nf : Nat} {i0 : Int} {setE setB : Bool} {i2 : Int} :
    (horizonBody (K := K) a ng i0 nf setE setB [i2]).Pairwise (fun x y => x.dst ≠ y.dst) := by
  have key : ∀ cs : List Nat, cs.Nodup →
      ((List.range (2 + nf + 1)).flatMap (fun (i : Nat) => cs.map fun c =>
      (⟨⟨a, c, [i0 - ng + i, i2]⟩, .ld ⟨a, c, [i0 + 1 + nf, i2]⟩⟩ : Assign K))).Pairwise
        (fun x y => x.dst ≠ y.dst) := by
    intro cs hcs
    rw [List.pairwise_flatMap]
    constructor
    · intro i _
      rw [List.pairwise_map]
      refine hcs.imp ?_
      intro c d hcd h
      simp only [Loc.mk.injEq] at h
      exact hcd h.2.1
    · refine List.nodup_range.imp ?_
      intro i k hik x hx y hy h
      simp only [List.mem_map] at hx hy
      obtain ⟨c, -, rfl⟩ := hx
      obtain ⟨d, -, rfl⟩ := hy
      simp only [Loc.mk.injEq, List.cons.injEq] at h
      omega
  simp only [horizonBody]
  rw [List.pairwise_append]
  refine ⟨?_, ?_, ?_⟩
  · cases setE
    · exact List.Pairwise.nil
    · exact key _ (by decide)
  · cases setB
    · exact List.Pairwise.nil
    · exact key _ (by decide)
  · intro x hx y hy h
    cases setE
    · simp at hx
    cases setB
    · simp at hy
    simp only [if_true, List.mem_flatMap, List.mem_map] at hx hy
    obtain ⟨i, -, c, hc, rfl⟩ := hx
    obtain ⟨k, -, d, hd, rfl⟩ := hy
    simp only [Loc.mk.injEq] at h
    obtain ⟨-, rfl, -⟩ := h
    simp only [List.mem_cons, List.not_mem_nil, or_false] at hc hd
    omega

/-- What the horizon condition does. -/
theorem horizon_effect {M : Mesh} {a nf : Nat} {setE setB : Bool} (hng : 2 ≤ M.ng) {m m' : Mem K}
    (h : horizon M a nf setE setB m m') :
    (∀ c ∈ tagged setE setB, ∀ i1 i2 : Int, 0 ≤ i1 → i1 ≤ 2 + nf → M.iMin ≤ i2 → i2 ≤ M.iMax 1 →
      m' ⟨a, c, [i1, i2]⟩ = m ⟨a, c, [M.iMin + 1 + nf, i2]⟩) ∧
    ∀ l, ¬ (l.arr = a ∧ l.comp ∈ tagged setE setB ∧ ∃ i1 i2 : Int, l.idx = [i1, i2] ∧ 0 ≤ i1 ∧
      i1 ≤ 2 + nf ∧ M.iMin ≤ i2 ∧ i2 ≤ M.iMax 1) → m' l = m l := by
  have hbox : ∀ t, t ∈ Ranks.box [(M.iMin, M.iMax 1 + 1)] ↔ ∃ i2, t = [i2] ∧ M.iMin ≤ i2 ∧ i2 ≤ M.iMax 1 := by
    intro t
    rw [mem_box_iff]
    constructor
    · rintro ⟨hl, hd⟩
      obtain ⟨x, rfl⟩ := List.length_eq_one_iff.mp hl
      have := hd 0 (by simp)
      simp only [List.getD_cons_zero] at this
      exact ⟨x, rfl, this.1, by omega⟩
    · rintro ⟨x, rfl, h1, h2⟩
      refine ⟨rfl, fun d hd => ?_⟩
      obtain rfl : d = 0 := by simp at hd; omega
      simp only [List.getD_cons_zero]
      omega
  have hO : OwnedL (Ranks.box [(M.iMin, M.iMax 1 + 1)]) (fun l => some (l.idx.drop 1))
      (horizonBody (K := K) a M.ng M.iMin nf setE setB) := by
    intro t ht x hx
    obtain ⟨i2, rfl, -, -⟩ := (hbox t).mp ht
    obtain ⟨c, hc, i, hi, rfl⟩ := mem_horizonBody.mp hx
    refine ⟨rfl, fun l hl u _ hu => ?_⟩
    simp only [Ex.loads, List.mem_singleton] at hl
    subst hl
    exact (Option.some.inj hu).symm
  have hres := launch_ownedL hO h
  have hat : ∀ l i2, l.idx.drop 1 = [i2] → M.iMin ≤ i2 → i2 ≤ M.iMax 1 →
      m' l = runBody (horizonBody a M.ng M.iMin nf setE setB [i2]) m l := by
    intro l i2 hl h1 h2
    rw [hres]
    simp only [resultL, hl]
    rw [if_pos ((hbox _).mpr ⟨i2, rfl, h1, h2⟩)]
  constructor
  · intro c hc i1 i2 h0 h1 h2 h3
    rw [hat _ i2 rfl h2 h3]
    have := runBody_one horizon_pairwise (fun x hx y hy hxy => by
        obtain ⟨c, hc, i, hi, rfl⟩ := mem_horizonBody.mp hx
        obtain ⟨d, hd, k, hk, rfl⟩ := mem_horizonBody.mp hy
        simp only [Ex.loads, List.mem_singleton, Loc.mk.injEq, List.cons.injEq] at hxy
        omega)
      (mem_horizonBody.mpr ⟨c, hc, i1.toNat, by omega, rfl⟩ :
        (⟨⟨a, c, [M.iMin - M.ng + i1.toNat, i2]⟩, .ld ⟨a, c, [M.iMin + 1 + nf, i2]⟩⟩ : Assign K) ∈
          horizonBody a M.ng M.iMin nf setE setB [i2]) m
    have e : M.iMin - M.ng + (i1.toNat : Int) = i1 := by simp only [Mesh.iMin]; omega
    rw [e] at this
    exact this
  · intro l hl
    by_cases hd : ∃ i2, l.idx.drop 1 = [i2] ∧ M.iMin ≤ i2 ∧ i2 ≤ M.iMax 1
    · obtain ⟨i2, h1, h2, h3⟩ := hd
      rw [hat l i2 h1 h2 h3, runBody_other]
      intro x hx hxl
      obtain ⟨c, hc, i, hi, rfl⟩ := mem_horizonBody.mp hx
      refine hl ?_
      rw [← hxl]
      exact ⟨rfl, hc, M.iMin - M.ng + i, i2, rfl, by simp only [Mesh.iMin]; omega,
        by simp only [Mesh.iMin]; omega, h2, h3⟩
    · rw [hres]
      simp only [resultL]
      rw [if_neg]
      intro hm
      obtain ⟨i2, h1, h2, h3⟩ := (hbox _).mp hm
      exact hd ⟨i2, h1, h2, h3⟩

end Entity.FieldBC
