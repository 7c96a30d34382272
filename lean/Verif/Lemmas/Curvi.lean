import Verif.Spec.Curvi
import Verif.Lemmas.Stencil
import Mathlib.Tactic.Ring
import Mathlib.Tactic.FieldSimp
import Mathlib.Tactic.Linarith
import Mathlib.Tactic.LinearCombination
import Mathlib.Algebra.Order.Field.Basic

/-!
# Effects of the curvilinear kernels
-/

set_option linter.unusedSectionVars false

namespace Entity.Kernel

variable {K : Type} [Add K] [Sub K] [Mul K] [Div K] [Neg K] [Zero K] [One K] [NatCast K] [IntCast K]

/-- Like `Local`, for kernels whose threads own several cells: `own` maps a cell to the thread that may
write it. -/
def Owned (cells : List (List Int)) (own : List Int → List Int) (wr : Nat → Nat → Bool)
    (body : List Int → List (Assign K)) : Prop :=
  ∀ t ∈ cells, ∀ a ∈ body t, (own a.dst.idx = t ∧ wr a.dst.arr a.dst.comp = true) ∧
    ∀ l ∈ a.rhs.loads, wr l.arr l.comp = true → own l.idx = t

theorem indep_of_owned {wr : Nat → Nat → Bool} {body : List Int → List (Assign K)}
    {cells : List (List Int)} {own : List Int → List Int} (h : Owned cells own wr body) :
    Indep (fun t => if t ∈ cells then compile (body t) else [])
      (fun t l => t ∈ cells ∧ own l.idx = t ∧ wr l.arr l.comp = true) := by
  have key : ∀ t, ∀ i ∈ (if t ∈ cells then compile (body t) else []), t ∈ cells ∧
      ∃ a ∈ body t, i ∈ a.rhs.compile ∨ i = .put a.dst := by
    intro t i hi
    split at hi
    · rename_i ht
      simp only [compile, List.mem_flatMap, List.mem_append, List.mem_singleton] at hi
      exact ⟨ht, hi⟩
    · simp at hi
  constructor
  · intro t i hi l hl
    obtain ⟨ht, a, ha, h'⟩ := key t i hi
    rcases h' with h' | rfl
    · rw [(compileEx_reads a.rhs i h').2] at hl; cases hl
    · simp only [Instr.writes, Option.some.injEq] at hl
      subst hl
      exact ⟨ht, (h t ht a ha).1⟩
  · intro t i hi l hl u hu hw
    obtain ⟨ht, a, ha, h'⟩ := key t i hi
    rcases h' with h' | rfl
    · have := (compileEx_reads a.rhs i h').1 l hl
      exact hu (hw.2.1.symm.trans ((h t ht a ha).2 l this hw.2.2))
    · cases hl
  · intro t u l h1 h2
    exact h1.2.1.symm.trans h2.2.1

/-- The result of such a kernel. -/
def resultOwn (cells : List (List Int)) (own : List Int → List Int)
    (body : List Int → List (Assign K)) (m : Mem K) : Mem K :=
  fun l => if own l.idx ∈ cells then runBody (body (own l.idx)) m l else m l

theorem launch_own {wr : Nat → Nat → Bool} {body : List Int → List (Assign K)}
    {cells : List (List Int)} {own : List Int → List Int} (h : Owned cells own wr body)
    {m m' : Mem K} (hl : Launch cells body m m') : m' = resultOwn cells own body m := by
  obtain ⟨sched, hd, rfl⟩ := hl
  have hI := indep_of_owned h
  have h0 : Inv (fun t => if t ∈ cells then compile (body t) else [])
      (fun t l => t ∈ cells ∧ own l.idx = t ∧ wr l.arr l.comp = true) m (start cells body m) := by
    refine ⟨fun t => ⟨0, ?_, fun l _ => rfl⟩, fun l _ => rfl⟩
    simp only [start, List.drop_zero, List.take_zero]
    split <;> rfl
  obtain ⟨e1, e2⟩ := inv_end (inv_run hI sched h0) hd
  funext l
  unfold resultOwn
  by_cases hc : own l.idx ∈ cells
  · rw [if_pos hc]
    by_cases hw : wr l.arr l.comp = true
    · rw [e1 (own l.idx) l ⟨hc, rfl, hw⟩]
      simp only [if_pos hc, compile_run]
    · rw [e2 l (fun t ht => hw ht.2.2), runBody_other]
      intro a ha hal
      exact hw (hal ▸ (h (own l.idx) hc a ha).1.2)
  · rw [if_neg hc, e2 l (fun t ht => hc (ht.2.1 ▸ ht.1))]

theorem launch_own_iff {wr : Nat → Nat → Bool} {body : List Int → List (Assign K)}
    {cells : List (List Int)} {own : List Int → List Int} (h : Owned cells own wr body)
    {m m' : Mem K} : Launch cells body m m' ↔ m' = resultOwn cells own body m := by
  refine ⟨launch_own h, ?_⟩
  rintro rfl
  obtain ⟨m', hm'⟩ := launch_exists cells body m
  rw [launch_own h hm'] at hm'
  exact hm'

end Entity.Kernel

namespace Entity.Curvi

open Entity.Kernel Entity.FieldSolver

variable {K : Type} [Add K] [Sub K] [Mul K] [Div K] [Neg K] [Zero K] [One K] [NatCast K] [IntCast K]

theorem mem_box {a b c d i1 i2 : Int} :
    [i1, i2] ∈ box a b c d ↔ (a ≤ i1 ∧ i1 < b) ∧ c ≤ i2 ∧ i2 < d := by
  simp only [box, List.mem_flatMap, List.mem_range, List.mem_map, List.cons.injEq, and_true]
  constructor
  · rintro ⟨k, hk, l, hl, rfl, rfl⟩; omega
  · rintro ⟨⟨h1, h2⟩, h3, h4⟩
    exact ⟨(i1 - a).toNat, by omega, (i2 - c).toNat, by omega, by omega, by omega⟩

theorem mem_rangeAll1 {g : CGrid} (hg : 0 ≤ g.ng) {i1 : Int} :
    [i1] ∈ rangeAll1 g ↔ 0 ≤ i1 ∧ i1 < g.n1 + 2 * g.ng := by
  simp only [rangeAll1, List.mem_map, List.mem_range, List.cons.injEq, and_true]
  constructor
  · rintro ⟨k, hk, rfl⟩; omega
  · rintro ⟨h1, h2⟩; exact ⟨i1.toNat, by omega, by omega⟩

theorem coord_succ {K : Type} [Field K] (g : CGrid) (i : Int) : (coord g (i + 1) : K) = coord g i + 1 := by
  simp only [coord]; push_cast; ring

theorem coord_pred {K : Type} [Field K] (g : CGrid) (i : Int) : (coord g (i - 1) : K) = coord g i - 1 := by
  simp only [coord]; push_cast; ring

theorem coord_i2min {K : Type} [Field K] (g : CGrid) : (coord g g.i2min : K) = 0 := by
  simp [coord, CGrid.i2min]

theorem coord_i2max {K : Type} [Field K] (g : CGrid) : (coord g g.i2max : K) = g.n2 := by
  simp [coord, CGrid.i2max]

/-! ## Locality -/

/-- Components `lo ≤ c < hi` of array `a`. -/
def comps (a lo hi : Nat) (a' c : Nat) : Bool := a' == a && decide (lo ≤ c) && decide (c < hi)

theorem faradaySR_local (cells : List (List Int)) (M : CMetric K) (g : CGrid) (coeff : K) :
    Local cells (comps emA 3 6) (faradaySR M g coeff) := by
  rintro t - a ha
  rcases t with _ | ⟨i1, _ | ⟨i2, _ | ⟨_, _⟩⟩⟩ <;> simp only [faradaySR, List.not_mem_nil] at ha
  simp only [List.mem_append, List.mem_singleton] at ha
  split at ha <;>
    simp only [List.mem_singleton, List.not_mem_nil, or_false] at ha
  · rcases ha with (rfl | rfl) | rfl <;>
      simp [plusEq, f, fL, comps, emA, Em.toNat]
  · rcases ha with rfl | rfl <;> simp [plusEq, f, fL, comps, emA, Em.toNat]

theorem ampereSR_local (cells : List (List Int)) (M : CMetric K) (g : CGrid) (coeff : K) :
    Local cells (comps emA 0 3) (ampereSR M g coeff) := by
  rintro t - a ha
  rcases t with _ | ⟨i1, _ | ⟨i2, _ | ⟨_, _⟩⟩⟩ <;> simp only [ampereSR, List.not_mem_nil] at ha
  split at ha
  · simp only [List.mem_cons, List.not_mem_nil, or_false] at ha
    rcases ha with rfl | rfl <;> simp [plusEq, f, fL, comps, emA, Em.toNat]
  · split at ha
    · simp only [List.mem_cons, List.not_mem_nil, or_false] at ha
      rcases ha with rfl; simp [plusEq, f, fL, comps, emA, Em.toNat]
    · simp only [List.mem_cons, List.not_mem_nil, or_false] at ha
      rcases ha with rfl | rfl | rfl <;> simp [plusEq, f, fL, comps, emA, Em.toNat]

theorem currentsSR_local (cells : List (List Int)) (M : CMetric K) (g : CGrid) (coeff inv_n0 : K) :
    Local cells (fun a c => comps emA 0 3 a c || comps curA 0 3 a c) (currentsSR M g coeff inv_n0) := by
  rintro t - a ha
  rcases t with _ | ⟨i1, _ | ⟨i2, _ | ⟨_, _⟩⟩⟩ <;> simp only [currentsSR, List.not_mem_nil] at ha
  simp only [List.mem_append, List.mem_singleton] at ha
  split at ha
  · simp only [List.mem_cons, List.not_mem_nil, or_false] at ha
    rcases ha with (rfl | rfl | rfl | rfl) | rfl <;>
      simp [plusEq, timesEq, f, fL, j, jL, comps, emA, curA, Em.toNat, Cc.toNat]
  · split at ha
    · simp only [List.mem_cons, List.not_mem_nil, or_false] at ha
      rcases ha with (rfl | rfl) | rfl <;>
        simp [plusEq, timesEq, f, fL, j, jL, comps, emA, curA, Em.toNat, Cc.toNat]
    · simp only [List.mem_cons, List.not_mem_nil, or_false] at ha
      rcases ha with (rfl | rfl | rfl | rfl | rfl) | rfl <;>
        simp [plusEq, timesEq, f, fL, j, jL, comps, emA, curA, Em.toNat, Cc.toNat]

theorem faradayGR_local (cells : List (List Int)) (M : CMetric K) (g : CGrid) {bin bout e : Nat}
    (he : e ≠ bout) (coeff : K) : Local cells (comps bout 3 6) (faradayGR M g bin bout e coeff) := by
  rintro t - a ha
  rcases t with _ | ⟨i1, _ | ⟨i2, _ | ⟨_, _⟩⟩⟩ <;> simp only [faradayGR, List.not_mem_nil] at ha
  simp only [List.mem_append, List.mem_singleton] at ha
  split at ha <;> simp only [List.mem_singleton] at ha <;> rcases ha with (rfl | rfl) | rfl <;>
    simp [f, fL, comps, Em.toNat, he]

theorem ampereGR_local (cells : List (List Int)) (M : CMetric K) (g : CGrid) {din dout h : Nat}
    (hd : din ≠ dout) (hh : h ≠ dout) (coeff : K) :
    Local cells (comps dout 0 3) (ampereGR M g din dout h coeff) := by
  rintro t - a ha
  rcases t with _ | ⟨i1, _ | ⟨i2, _ | ⟨_, _⟩⟩⟩ <;> simp only [ampereGR, List.not_mem_nil] at ha
  split at ha
  · simp only [List.mem_cons, List.not_mem_nil, or_false] at ha
    rcases ha with rfl | rfl <;> simp [f, fL, comps, Em.toNat, hd, hh]
  · split at ha
    · simp only [List.mem_cons, List.not_mem_nil, or_false] at ha
      rcases ha with rfl; simp [f, fL, comps, Em.toNat, hd]
    · simp only [List.mem_cons, List.not_mem_nil, or_false] at ha
      rcases ha with rfl | rfl | rfl <;> simp [f, fL, comps, Em.toNat, hd, hh]

theorem currentsGR_local (cells : List (List Int)) (M : CMetric K) (g : CGrid) {df jA : Nat}
    (hd : jA ≠ df) (coeff : K) :
    Local cells (comps df 0 3) (currentsGR M g df jA coeff) := by
  rintro t - a ha
  rcases t with _ | ⟨i1, _ | ⟨i2, _ | ⟨_, _⟩⟩⟩ <;> simp only [currentsGR, List.not_mem_nil] at ha
  split at ha
  · simp only [List.mem_cons, List.not_mem_nil, or_false] at ha
    rcases ha with rfl | rfl <;> simp [plusEq, f, fL, j, jL, comps, Em.toNat, Cc.toNat, hd]
  · split at ha
    · simp only [List.mem_cons, List.not_mem_nil, or_false] at ha
      rcases ha with rfl; simp [plusEq, f, fL, j, jL, comps, Em.toNat, Cc.toNat, hd]
    · simp only [List.mem_cons, List.not_mem_nil, or_false] at ha
      rcases ha with rfl | rfl | rfl <;> simp [plusEq, f, fL, j, jL, comps, Em.toNat, Cc.toNat, hd]

theorem auxE_local (cells : List (List Int)) (M : CMetric K) (g : CGrid) {df bf : Nat}
    (hd : df ≠ auxA) (hb : bf ≠ auxA) : Local cells (comps auxA 0 3) (auxE M g df bf) := by
  rintro t - a ha
  rcases t with _ | ⟨i1, _ | ⟨i2, _ | ⟨_, _⟩⟩⟩ <;> simp only [auxE, List.not_mem_nil] at ha
  simp only [List.mem_cons, List.not_mem_nil, or_false] at ha
  rcases ha with rfl | rfl | rfl <;> simp [wavg, f, fL, comps, Em.toNat, hd, hb]

theorem auxH_local (cells : List (List Int)) (M : CMetric K) (g : CGrid) {df bf : Nat}
    (hd : df ≠ auxA) (hb : bf ≠ auxA) : Local cells (comps auxA 3 6) (auxH M g df bf) := by
  rintro t - a ha
  rcases t with _ | ⟨i1, _ | ⟨i2, _ | ⟨_, _⟩⟩⟩ <;> simp only [auxH, List.not_mem_nil] at ha
  simp only [List.mem_cons, List.not_mem_nil, or_false] at ha
  rcases ha with rfl | rfl | rfl <;> simp [wavg, f, fL, comps, Em.toNat, hd, hb]

theorem timeAvgDB_local (cells : List (List Int)) :
    Local cells (comps em0A 0 6) (timeAvgDB (K := K)) := by
  rintro t - a ha
  rcases t with _ | ⟨i1, _ | ⟨i2, _ | ⟨_, _⟩⟩⟩ <;> simp only [timeAvgDB, List.not_mem_nil] at ha
  simp only [List.map_cons, List.map_nil, List.mem_cons, List.not_mem_nil, or_false] at ha
  rcases ha with rfl | rfl | rfl | rfl | rfl | rfl <;>
    simp [f, fL, comps, em0A, emA, Em.toNat]

theorem timeAvgJ_local (cells : List (List Int)) :
    Local cells (comps curA 0 3) (timeAvgJ (K := K)) := by
  rintro t - a ha
  rcases t with _ | ⟨i1, _ | ⟨i2, _ | ⟨_, _⟩⟩⟩ <;> simp only [timeAvgJ, List.not_mem_nil] at ha
  simp only [List.map_cons, List.map_nil, List.mem_cons, List.not_mem_nil, or_false] at ha
  rcases ha with rfl | rfl | rfl <;> simp [j, jL, comps, cur0A, curA, Cc.toNat]

/-- Thread of the axis kernel that owns a cell. -/
def own1 (idx : List Int) : List Int := idx.take 1

theorem axis_owned (cells : List (List Int)) (P : Bool) (a : Nat) (e : Int) (setE setB : Bool) :
    Owned cells own1 (comps a 0 6) (axisBody (K := K) P a e setE setB) := by
  rintro t - x ha
  rcases t with _ | ⟨i1, _ | ⟨i2, _⟩⟩ <;> simp only [axisBody, List.not_mem_nil] at ha
  cases P <;> cases setE <;> cases setB <;> simp at ha
  all_goals first
    | (rcases ha with rfl | rfl | rfl | rfl | rfl | rfl | rfl <;>
        simp [f, fL, own1, comps, Em.toNat]; done)
    | (rcases ha with rfl | rfl | rfl | rfl <;> simp [f, fL, own1, comps, Em.toNat]; done)
    | (rcases ha with rfl | rfl | rfl <;> simp [f, fL, own1, comps, Em.toNat]; done)

/-! ## What a kernel leaves alone -/

theorem launch_other {cells : List (List Int)} {wr : Nat → Nat → Bool}
    {body : List Int → List (Assign K)} (h : Local cells wr body) {m m' : Mem K}
    (hl : Launch cells body m m') {l : Loc} (hw : wr l.arr l.comp = false) : m' l = m l := by
  rw [(launch_iff h).1 hl, result]
  split
  · rename_i hc
    rw [runBody_other]
    intro a ha e
    have := (h l.idx hc a ha).1.2
    rw [e, hw] at this; cases this
  · rfl

theorem launch_outside {cells : List (List Int)} {wr : Nat → Nat → Bool}
    {body : List Int → List (Assign K)} (h : Local cells wr body) {m m' : Mem K}
    (hl : Launch cells body m m') {l : Loc} (hw : l.idx ∉ cells) : m' l = m l := by
  rw [(launch_iff h).1 hl, result, if_neg hw]

theorem launch_at {cells : List (List Int)} {wr : Nat → Nat → Bool}
    {body : List Int → List (Assign K)} (h : Local cells wr body) {m m' : Mem K}
    (hl : Launch cells body m m') {l : Loc} (hw : l.idx ∈ cells) :
    m' l = runBody (body l.idx) m l := by
  rw [(launch_iff h).1 hl, result, if_pos hw]

end Entity.Curvi
