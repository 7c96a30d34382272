import Verif.Spec.Torus
import Verif.Lemmas.Stencil

/-!
# Kernels on all ranks of a periodic box act as one kernel on the global field
-/

namespace Entity.Ranks

open Entity Entity.Topology Entity.Kernel Entity.FieldSolver Entity.Decomp

variable {K : Type}

/-! ## Cells -/

theorem mem_box (rs : List (Int × Int)) (i : List Int) :
    i ∈ box rs ↔ List.Forall₂ (fun r x => r.1 ≤ x ∧ x < r.2) rs i := by
  induction rs generalizing i with
  | nil => simp [box]
  | cons r rs ih =>
    obtain ⟨lo, hi⟩ := r
    simp only [box, List.mem_flatMap, List.mem_map, List.mem_range]
    constructor
    · rintro ⟨x, ⟨k, hk, rfl⟩, j, hj, rfl⟩
      exact .cons ⟨by simp, by simp; omega⟩ ((ih j).1 hj)
    · intro h
      cases h with
      | cons h1 h2 =>
        rename_i x j
        exact ⟨x, ⟨(x - lo).toNat, by simp at h1; omega, by simp at h1; omega⟩, j, (ih j).2 h2, rfl⟩

variable {m : Meta} {dN : List (List Nat)}

theorem mem_activeCells {ng r : Nat} (hr : r < m.doms.length) {i : List Int} :
    i ∈ activeCells m ng r ↔ Active m ng r i := by
  unfold activeCells Active sizes
  rw [mem_box, List.getElem?_eq_getElem hr]
  simp [List.forall₂_map_left_iff]

theorem active_length (h : Built m dN) {ng r : Nat} {i : List Int} (hi : InArray m ng r i) :
    i.length = dN.length := by
  obtain ⟨s, hs, _⟩ := id hi
  obtain ⟨R, hR, _⟩ := h.getRec hs
  exact ((inArray_iff hR ng i).1 hi).1

theorem active_lt {ng r : Nat} {i : List Int} (hi : Active m ng r i) : r < m.doms.length :=
  inArray_lt (active_inArray hi)

theorem globalPos_isSome {ng r : Nat} (N : List Nat) {i : List Int} (hi : InArray m ng r i) :
    ∃ p, globalPos m N ng r i = some p := by
  obtain ⟨s, hs, _⟩ := hi
  exact ⟨_, by simp [globalPos, hs]; rfl⟩

theorem wrap_length {N : List Nat} {p : List Int} (h : p.length = N.length) :
    (wrap N p).length = N.length := by simp [wrap, h]

theorem wrap_wrap (N : List Nat) (p : List Int) : wrap N (wrap N p) = wrap N p := by
  unfold wrap
  induction N generalizing p with
  | nil => simp
  | cons n N ih => cases p with
    | nil => simp
    | cons x p => simp [ih]

theorem wrap_add (N : List Nat) (p o : List Int) :
    wrap N (List.zipWith (· + ·) (wrap N p) o) = wrap N (List.zipWith (· + ·) p o) := by
  unfold wrap
  induction N generalizing p o with
  | nil => simp
  | cons n N ih => cases p with
    | nil => simp
    | cons x p => cases o with
      | nil => simp
      | cons y o => simp [ih]

/-- Global position of a shifted cell. -/
theorem globalPos_shift (h : Built m dN) {ng r : Nat} {i o p : List Int} (hr : r < m.doms.length)
    (hi : i.length = dN.length) (ho : o.length = dN.length)
    (hp : globalPos m (dN.map List.sum) ng r i = some p) :
    globalPos m (dN.map List.sum) ng r (List.zipWith (· + ·) i o) =
      some (wrap (dN.map List.sum) (List.zipWith (· + ·) p o)) := by
  obtain ⟨R, hR⟩ := h.getRec_lt hr
  have hl := hR.len
  unfold globalPos at hp ⊢
  rw [hR.dom] at hp ⊢
  simp only [Option.map_some, Option.some.injEq, mkSub] at hp ⊢
  subst hp
  unfold wrap
  apply List.ext_getElem
  · simp [hl, hi, ho]
  · intro k h1 h2
    simp only [List.getElem_zipWith, List.getElem_zip, List.getElem_map]
    rw [Int.emod_add_emod]
    congr 1; ring

theorem globalPos_wrapped (h : Built m dN) {ng r : Nat} {i p : List Int} (hr : r < m.doms.length)
    (hi : i.length = dN.length) (hp : globalPos m (dN.map List.sum) ng r i = some p) :
    p.length = dN.length ∧ wrap (dN.map List.sum) p = p := by
  obtain ⟨R, hR⟩ := h.getRec_lt hr
  have hl := hR.len
  unfold globalPos at hp
  rw [hR.dom] at hp
  simp only [Option.map_some, Option.some.injEq, mkSub] at hp
  subst hp
  refine ⟨by simp [hl, hi], ?_⟩
  unfold wrap
  apply List.ext_getElem
  · simp [hl, hi]
  · intro k h1 h2
    simp

/-- A cell near an active one is in the array. -/
theorem near_inArray (h : Built m dN) {ng r : Nat} {i o : List Int} (hi : Active m ng r i)
    (ho : o.length = dN.length) (hb : ∀ x ∈ o, -(ng : Int) ≤ x ∧ x ≤ ng) :
    InArray m ng r (List.zipWith (· + ·) i o) := by
  obtain ⟨R, hR⟩ := h.getRec_lt (active_lt hi)
  obtain ⟨h1, h2⟩ := (active_iff hR ng i).1 hi
  have hl := hR.len
  refine (inArray_iff hR ng _).2 ⟨by simp [h1, ho], fun a h3 h4 => ?_⟩
  simp only [List.length_zipWith] at h4
  have := h2 a h3 (by omega)
  have := hb o[a] (List.getElem_mem (by omega))
  simp only [List.getElem_zipWith]
  omega

/-! ## Exchange -/

/-- There is a global field that the active cells hold. -/
theorem exists_global [Inhabited K] (h : Built m dN) (ng : Nat) (M : MMem K) :
    ∃ g : GMem K, ShowsActive m (dN.map List.sum) ng (fun _ _ => true) M g := by
  classical
  refine ⟨fun a c p => if hh : ∃ x : Nat × List Int, Active m ng x.1 x.2 ∧
    globalPos m (dN.map List.sum) ng x.1 x.2 = some p then M hh.choose.1 ⟨a, c, hh.choose.2⟩
    else default, ?_⟩
  intro a c _ r i p hi hp
  have hh : ∃ x : Nat × List Int, Active m ng x.1 x.2 ∧
    globalPos m (dN.map List.sum) ng x.1 x.2 = some p := ⟨(r, i), hi, hp⟩
  obtain ⟨h1, h2⟩ := hh.choose_spec
  obtain ⟨e1, e2⟩ := active_image_unique h h1 hi (h2.trans hp.symm)
  show _ = dite _ _ _
  rw [dif_pos hh]
  simp only [e1, e2]

/-- After the exchange all cells hold the global field. -/
theorem shows_of_comm (h : Built m dN) (hp : AllPeriodic m) (h1 : 1 ≤ dN.length)
    (h3 : dN.length ≤ 3) {ng : Nat} (hw : Wide dN ng) {sel sel' : Nat → Nat → Bool} {M M' : MMem K}
    (hc : CommAll m ng sel M M') (hs : ∀ a c, sel' a c = true → sel a c = true) {g : GMem K}
    (hg : ShowsActive m (dN.map List.sum) ng sel' M g) :
    Shows m (dN.map List.sum) ng sel' M' g := by
  intro a c hsel r i p hi hip
  obtain ⟨G, hG, g1, _, g3⟩ := C14_halo_exchange h hp.good h1 h3 hw (fun r i => M r ⟨a, c, i⟩)
  rw [(hc a c).1 (hs a c hsel)] at hG
  cases hG
  by_cases ha : Active m ng r i
  · have := g1 r i ha
    beta_reduce at this
    rw [this]
    exact hg a c hsel r i p ha hip
  · obtain ⟨R, hR⟩ := h.getRec_lt (inArray_lt hi)
    obtain ⟨hjl, _⟩ := (inArray_iff hR ng i).1 hi
    obtain ⟨hsl, hsa⟩ := sideOf_get hR ng hjl
    have hl := hR.len
    have hsg : Signs (sideOf m ng r i) := by
      intro x hx
      obtain ⟨a, ha, rfl⟩ := List.getElem_of_mem hx
      rw [hsa a ha (by omega) (by omega)]; split_ifs <;> simp
    obtain ⟨x, ⟨⟨k1, k2⟩, k3⟩, _⟩ :=
      g3 r i hi ha (not_wall_periodic h hp (inArray_lt hi) hsg hsl)
    beta_reduce at k3
    rw [k3]
    exact hg a c hsel x.1 x.2 p k1 (k2 ▸ hip)

theorem Shows.active {N : List Nat} {ng : Nat} {sel : Nat → Nat → Bool} {M : MMem K} {g : GMem K}
    (h : Shows m N ng sel M g) : ShowsActive m N ng sel M g :=
  fun a c hs r i p hi hp => h a c hs r i p (active_inArray hi) hp

/-! ## Kernels -/

variable [Add K] [Sub K] [Mul K] [Div K] [Neg K]

/-- What a body with offsets makes of the global field. -/
def globalStep (N : List Nat) (as : List (Assign K)) (g : GMem K) : GMem K :=
  fun a c p => runBody as (fun l => g.unroll N (l.at p)) ⟨a, c, here N.length⟩

/-- The body only accesses `D`-dimensional offsets within the ghost layers. -/
def Reach (D ng : Nat) (as : List (Assign K)) : Prop :=
  ∀ l, accessed as l → l.idx.length = D ∧ ∀ x ∈ l.idx, -(ng : Int) ≤ x ∧ x ≤ ng

theorem Reach.dimd {D ng : Nat} {as : List (Assign K)} (h : Reach D ng as) : Dimd D as :=
  fun a ha => ⟨(h _ ⟨a, ha, .inl rfl⟩).1, fun l hl => (h l ⟨a, ha, .inr hl⟩).1⟩

/-- A launch on all ranks, at an active cell. -/
theorem launchAll_active (h : Built m dN) {ng : Nat} {wr : Nat → Nat → Bool}
    {f : Nat → List Int → List (Assign K)} {M M' : MMem K}
    (hf : ∀ r i, Active m ng r i → OwnCell dN.length wr (f r i) ∧ Dimd dN.length (f r i))
    (hl : LaunchAll m ng (fun r t => atCell (f r t) t) M M') {r : Nat} {i : List Int}
    (hi : Active m ng r i) (a c : Nat) :
    M' r ⟨a, c, i⟩ = runBody (f r i) (fun l => M r (l.at i)) ⟨a, c, here dN.length⟩ := by
  have hr := active_lt hi
  have hloc : Local (activeCells m ng r) wr (fun t => atCell (f r t) t) :=
    local_atCell fun t ht => by
      have ha := (mem_activeCells hr).1 ht
      exact ⟨active_length h (active_inArray ha), (hf r t ha).1⟩
  rw [launch_result hloc (hl r hr), result, if_pos ((mem_activeCells hr).2 hi)]
  have hil := active_length h (active_inArray hi)
  have := runBody_at (D := dN.length) (f r i) (hf r i hi).2 hil (M r)
    (l := ⟨a, c, here dN.length⟩) (by simp [here])
  rw [← this]
  congr 1
  simp only [Loc.at]
  rw [← hil, here_at]

/-- A launch on all ranks leaves the components it does not write alone, in all cells. -/
theorem launchAll_other {ng : Nat} (h : Built m dN) {wr : Nat → Nat → Bool}
    {f : Nat → List Int → List (Assign K)} {M M' : MMem K}
    (hf : ∀ r i, Active m ng r i → OwnCell dN.length wr (f r i))
    (hl : LaunchAll m ng (fun r t => atCell (f r t) t) M M') {r : Nat} (hr : r < m.doms.length)
    {a c : Nat} (hw : wr a c = false) (i : List Int) : M' r ⟨a, c, i⟩ = M r ⟨a, c, i⟩ := by
  have hloc : Local (activeCells m ng r) wr (fun t => atCell (f r t) t) :=
    local_atCell fun t ht => by
      have ha := (mem_activeCells hr).1 ht
      exact ⟨active_length h (active_inArray ha), hf r t ha⟩
  rw [launch_result hloc (hl r hr), result]
  split
  · rename_i hc
    apply runBody_other
    intro b hb e
    have := (hloc i hc b hb).1.2
    rw [e, hw] at this
    cases this
  · rfl

/-- A kernel with offsets on all ranks acts as the kernel on the global field. -/
theorem launchAll_shows (h : Built m dN) {ng : Nat} {wr sel : Nat → Nat → Bool}
    {as : List (Assign K)} (ho : OwnCell dN.length wr as) (hr : Reach dN.length ng as)
    (hsel : ∀ l, accessed as l → sel l.arr l.comp = true) {M M' : MMem K} {g : GMem K}
    (hg : Shows m (dN.map List.sum) ng sel M g)
    (hl : LaunchAll m ng (fun _ t => atCell as t) M M') :
    ShowsActive m (dN.map List.sum) ng sel M' (globalStep (dN.map List.sum) as g) := by
  intro a c hs r i p hi hp
  rw [launchAll_active (f := fun _ _ => as) h (fun _ _ _ => ⟨ho, hr.dimd⟩) hl hi]
  unfold globalStep
  have hl0 : (here (dN.map List.sum).length) = here dN.length := by simp
  rw [hl0]
  have hil := active_length h (active_inArray hi)
  obtain ⟨hpl, hpw⟩ := globalPos_wrapped h (active_lt hi) hil hp
  refine runBody_congr as (S := fun l => accessed as l ∨ l = ⟨a, c, here dN.length⟩)
    (fun l hl => .inl hl) ?_ _ (.inr rfl)
  intro l hl
  have key : l.idx.length = dN.length ∧ (∀ x ∈ l.idx, -(ng : Int) ≤ x ∧ x ≤ ng) ∧
      sel l.arr l.comp = true := by
    rcases hl with hl | rfl
    · exact ⟨(hr l hl).1, (hr l hl).2, hsel l hl⟩
    · refine ⟨by simp [here], ?_, hs⟩
      intro x hx
      have := List.eq_of_mem_replicate hx
      omega
  obtain ⟨k1, k2, k3⟩ := key
  have := hg l.arr l.comp k3 r (l.at i).idx _ (near_inArray h hi k1 k2)
    (globalPos_shift h (active_lt hi) hil k1 hp)
  simpa [Loc.at, GMem.unroll] using this

end Entity.Ranks
