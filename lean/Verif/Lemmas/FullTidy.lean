import Verif.Lemmas.FullExch

/-!
# Removing dead particles and sorting keep what the box holds
-/

namespace Entity.Full

open Entity Entity.Topology Entity.Prtl Entity.Tags

section
variable {K : Type} {m : Meta} {k : Kind} {r : Nat} {a b : Store K}

theorem removeDead_pld {σ₁ σ₂ σ₃ : Sched} (hn : a.npart ≤ a.maxnpart) (h1 : σ₁.Fair) (h2 : σ₂.Fair)
    (h3 : σ₃.Fair) (ht : ∀ q ∈ a.used, q.tag = 1 ∨ q.tag = 0) (ha : ArrOk k a.arr)
    (h : removeDead k a σ₁ σ₂ σ₃ = .ok b) : ArrOk k b.arr := by
  obtain ⟨s', e1, e2, e3, e4, e5, e6, e7⟩ := removeDead_eq k a hn (h1 _) (h2 _) h3 ht
  rw [h] at e1
  cases e1
  intro q hq
  obtain ⟨p, hp, e⟩ := List.getElem_of_mem hq
  have hq' : b.arr[p]? = some q := by rw [List.getElem?_eq_getElem hp, e]
  by_cases c1 : p < b.npart
  · obtain ⟨j, src, q0, -, f2, f3, f4⟩ := e5 p c1
    rw [hq'] at f4
    cases f4
    have g1 := ha src (List.mem_of_getElem? f2)
    have g2 := ha q0 (List.mem_of_getElem? f3)
    unfold PldOk copyAttrs at *
    simp only
    constructor
    · split_ifs
      · exact g1.1
      · exact g2.1
    · split_ifs
      · exact g1.2
      · exact g2.2
  · by_cases c2 : p < a.npart
    · have := e6 p (by omega) c2
      rw [hq'] at this
      cases hx : a.arr[p]? with
      | none => rw [hx] at this; simp at this
      | some x =>
        rw [hx] at this
        simp only [Option.map_some, Option.some.injEq] at this
        have g := ha x (List.mem_of_getElem? hx)
        rw [this]
        exact g
    · have := e7 p (by omega)
      rw [hq'] at this
      exact ha q (List.mem_of_getElem? this.symm)

theorem clear_tame (h1 : 1 ≤ k.D) (h3 : k.D ≤ 3) {σ₁ σ₂ σ₃ : Sched} (s1 : σ₁.Fair) (s2 : σ₂.Fair)
    (s3 : σ₃.Fair) (ha : Tame m k r a) (h : removeDead k a σ₁ σ₂ σ₃ = .ok b) :
    Tame m k r b ∧ (b.live.map k.view).Perm (a.live.map k.view) := by
  have ht : ∀ q ∈ a.used, q.tag = 1 ∨ q.tag = 0 := fun q hq => (ha.tags q hq).symm
  obtain ⟨s', e1, e2, e3, e4, e5, -, -⟩ := C18_remove_dead k h1 h3 a ha.npart s1 s2 s3 ht
  rw [h] at e1
  cases e1
  have hl : b.live = b.used := by
    unfold Store.live
    rw [List.filter_eq_self]
    exact fun q hq => decide_eq_true (e5 q hq)
  have hp : (b.live.map k.view).Perm (a.live.map k.view) := hl ▸ e4
  refine ⟨⟨?_, fun q hq => Or.inr (e5 q hq), fun q hq => ?_, ?_⟩, hp⟩
  · rw [e2, e3]
    have : a.live.length ≤ a.used.length := List.length_filter_le _ _
    have : a.used.length ≤ a.maxnpart := by
      unfold Store.used Store.maxnpart; rw [List.length_take]; omega
    omega
  · obtain ⟨q', hq', e⟩ := List.mem_map.1 (hp.mem_iff.1 (List.mem_map_of_mem hq))
    rw [← e]
    exact ha.inside q' hq'
  · exact removeDead_pld ha.npart s1 s2 s3 ht ha.payload h

theorem sort_perm {perm : List Nat} {D : Nat} {n : List Nat} (hn : a.npart ≤ a.maxnpart)
    (hp : BinSortSpec ((a.arr.take a.npart).map (tileIndex D n 1)) perm)
    (h : sortSpatially D n a perm = .ok b) :
    b.npart = a.npart ∧ b.arr.Perm a.arr ∧ b.used.Perm a.used := by
  unfold sortSpatially at h
  simp only at h
  split_ifs at h
  cases h
  have hlen : (a.arr.take a.npart).length = a.npart := by
    unfold Store.maxnpart at hn; rw [List.length_take]; omega
  have hP := hp.isPerm
  rw [List.length_map, hlen] at hP
  have h1 : (perm.filterMap fun j => a.arr[j]?).Perm (a.arr.take a.npart) := by
    rw [take_eq_filterMap]
    exact hP.filterMap _
  refine ⟨rfl, ?_, ?_⟩
  · have := h1.append_right (a.arr.drop a.npart)
    rwa [List.take_append_drop] at this
  · unfold Store.used
    simp only
    rw [List.take_left' (by rw [h1.length_eq, hlen])]
    exact h1

theorem sort_tame {perm : List Nat} {n : List Nat} (ha : Tame m k r a)
    (hp : BinSortSpec ((a.arr.take a.npart).map (tileIndex k.D n 1)) perm)
    (h : sortSpatially k.D n a perm = .ok b) :
    Tame m k r b ∧ (b.live.map k.view).Perm (a.live.map k.view) := by
  obtain ⟨e1, e2, e3⟩ := sort_perm ha.npart hp h
  have hl : b.live.Perm a.live := e3.filter _
  refine ⟨⟨?_, fun q hq => ha.tags q (e3.mem_iff.1 hq), fun q hq => ha.inside q (hl.mem_iff.1 hq),
    fun q hq => ha.payload q (e2.mem_iff.1 hq)⟩, hl.map _⟩
  have := ha.npart
  unfold Store.maxnpart at this ⊢
  rw [e1, e2.length_eq]; exact this

theorem tidy_tame {n : List Nat} (h1 : 1 ≤ k.D) (h3 : k.D ≤ 3) (ha : Tame m k r a)
    (h : Tidy k n a b) : Tame m k r b ∧ (b.live.map k.view).Perm (a.live.map k.view) := by
  induction h with
  | refl => exact ⟨ha, .refl _⟩
  | clear _ s1 s2 s3 h ih =>
    obtain ⟨i1, i2⟩ := ih
    obtain ⟨j1, j2⟩ := clear_tame h1 h3 s1 s2 s3 i1 h
    exact ⟨j1, j2.trans i2⟩
  | sort _ hp h ih =>
    obtain ⟨i1, i2⟩ := ih
    obtain ⟨j1, j2⟩ := sort_tame i1 hp h
    exact ⟨j1, j2.trans i2⟩
end

theorem tidy_held {K : Type} {m : Meta} {dN : List (List Nat)} {k : Kind} (h1 : 1 ≤ k.D)
    (h3 : k.D ≤ 3) {f f' : Nat → Store K} (hf : ∀ r, r < m.doms.length → Tame m k r (f r))
    (h : ∀ r, r < m.doms.length → Tidy k (sizes m r) (f r) (f' r)) :
    (∀ r, r < m.doms.length → Tame m k r (f' r)) ∧ (held m dN k f').Perm (held m dN k f) := by
  refine ⟨fun r hr => (tidy_tame h1 h3 (hf r hr) (h r hr)).1, ?_⟩
  unfold held
  apply flatMap_congr_perm
  intro r hr
  have := (tidy_tame h1 h3 (hf r (List.mem_range.1 hr)) (h r (List.mem_range.1 hr))).2.map
    fun v : View K => ({ v with cell := globalCells m dN r v.cell
                                cellPrev := globalCells m dN r v.cellPrev } : View K)
  rw [List.map_map, List.map_map] at this
  exact this

end Entity.Full
