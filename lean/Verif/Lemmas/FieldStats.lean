import Verif.Spec.FieldStats
import Verif.Lemmas.FieldOps
import Verif.Props.Kernels
import Verif.Lemmas.Prtl

/-!
# Lemmas on statistics of the fields
-/

namespace Entity.FieldStats

open Entity Entity.Topology Entity.Kernel Entity.Ranks Entity.FieldSolver Entity.Decomp

variable {K : Type} {m : Meta} {dN : List (List Nat)}

/-! ## Sums -/

theorem mapM_eq {α β : Type} {g : α → Outcome β} {f : α → β} {l : List α} (h : ∀ a ∈ l, g a = .ok (f a)) :
    l.mapM g = .ok (l.map f) := by
  induction l with
  | nil => rfl
  | cons a l ih =>
    rw [List.mapM_cons, h a (by simp), ih fun b hb => h b (by simp [hb])]
    rfl

theorem box_nodup (rs : List (Int × Int)) : (box rs).Nodup := by
  induction rs with
  | nil => simp [box]
  | cons r rs ih =>
    obtain ⟨lo, hi⟩ := r
    simp only [box]
    rw [List.nodup_flatMap]
    refine ⟨fun x _ => ih.map fun a b h => by simpa using h, ?_⟩
    have hn : ((List.range (hi - lo).toNat).map fun (k : Nat) => lo + (k : Int)).Nodup :=
      List.nodup_range.map fun a b h => by simpa using h
    refine hn.imp fun {x y} hxy => ?_
    intro l h1 h2
    simp only [List.mem_map] at h1 h2
    obtain ⟨a, _, rfl⟩ := h1
    obtain ⟨b, _, e⟩ := h2
    simp at e
    exact hxy e.1.symm

theorem sum_flatMap [AddCommMonoid K] {α β : Type} (l : List α) (g : α → List β) (f : β → K) :
    ((l.flatMap g).map f).sum = (l.map fun a => ((g a).map f).sum).sum := by
  induction l with
  | nil => rfl
  | cons a l ih => simp [List.flatMap_cons, ih]

/-- The sums of the ranks over their active cells are a sum over all active cells. -/
theorem sum_ranks [AddCommMonoid K] {ng : Nat} {A : Finset (Nat × List Int)}
    (hA : ∀ q j, (q, j) ∈ A ↔ Active m ng q j) (f : Nat → List Int → K) :
    ((List.range m.doms.length).map fun r => ((activeCells m ng r).map (f r)).sum).sum =
      ∑ x ∈ A, f x.1 x.2 := by
  classical
  set L := (List.range m.doms.length).flatMap fun r => (activeCells m ng r).map (Prod.mk r) with hL
  have hn : L.Nodup := by
    rw [hL, List.nodup_flatMap]
    refine ⟨fun x _ => (box_nodup _).map fun a b h => by simpa using h, ?_⟩
    refine List.nodup_range.imp fun {x y} hxy => ?_
    intro l h1 h2
    simp only [List.mem_map] at h1 h2
    obtain ⟨a, _, rfl⟩ := h1
    obtain ⟨b, _, e⟩ := h2
    simp at e
    exact hxy e.1.symm
  have hAL : A = L.toFinset := by
    ext ⟨q, j⟩
    simp only [hA, List.mem_toFinset, hL, List.mem_flatMap, List.mem_range, List.mem_map, Prod.mk.injEq]
    constructor
    · intro h
      exact ⟨q, active_lt h, j, (mem_activeCells (active_lt h)).2 h, rfl, rfl⟩
    · rintro ⟨r, hr, i, hi, rfl, rfl⟩
      exact (mem_activeCells hr).1 hi
  rw [hAL, List.sum_toFinset _ hn, hL, sum_flatMap]
  congr 1
  refine List.map_congr_left fun r _ => ?_
  rw [List.map_map]
  rfl

/-! ## Cells of the global grid -/

theorem mem_gridCells (N : List Nat) (p : List Int) :
    p ∈ gridCells N ↔ List.Forall₂ (fun (n : Nat) x => 0 ≤ x ∧ x < (n : Int)) N p := by
  unfold gridCells
  rw [List.mem_toFinset, mem_box, List.forall₂_map_left_iff]

/-- The active cell of a rank, counted from the corner of the global grid. -/
theorem globalPos_active (h : Built m dN) {ng r : Nat} {i p : List Int} (hi : Active m ng r i)
    (hp : globalPos m (dN.map List.sum) ng r i = some p) :
    ∃ s, m.doms[r]? = some s ∧ s.offsetNcells.length = dN.length ∧
      p = List.zipWith (fun (o : Nat) x => (o : Int) + (x - ng)) s.offsetNcells i ∧
      p ∈ gridCells (dN.map List.sum) := by
  obtain ⟨R, hR⟩ := h.getRec_lt (active_lt hi)
  obtain ⟨h1, h2⟩ := (active_iff hR ng i).1 hi
  have hl := hR.len
  unfold globalPos at hp
  rw [hR.dom] at hp ⊢
  simp only [Option.map_some, Option.some.injEq, mkSub] at hp
  have hb : ∀ a (ha : a < dN.length), R[a].off + R[a].n ≤ dN[a].sum := fun a ha => by
    have := axisRecs_bounds (hR.mem a ha (by omega))
    omega
  have e : p = List.zipWith (fun (o : Nat) x => (o : Int) + (x - ng)) (R.map (·.off)) i := by
    subst hp
    apply List.ext_getElem
    · simp [hl]
    · intro k k1 k2
      simp only [List.length_zipWith, List.length_map] at k2
      simp only [List.getElem_zipWith, List.getElem_zip, List.getElem_map]
      have := h2 k (by omega) (by omega)
      have := hb k (by omega)
      rw [Int.emod_eq_of_lt (by omega) (by omega)]
      ring
  refine ⟨_, rfl, by simp [mkSub, hl], e, ?_⟩
  rw [mem_gridCells, e, List.forall₂_iff_get]
  refine ⟨by simp [hl, h1], fun k k1 k2 => ?_⟩
  simp only [List.length_zipWith, List.length_map] at k2
  simp only [List.get_eq_getElem, List.getElem_zipWith, List.getElem_map]
  have := h2 k (by omega) (by omega)
  have := hb k (by simpa using k1)
  omega

theorem wrap_gridCells {N : List Nat} {p : List Int} (h : p ∈ gridCells N) : wrap N p = p := by
  rw [mem_gridCells] at h
  induction h with
  | nil => rfl
  | cons h _ ih =>
    simp only [wrap, List.zipWith_cons_cons] at ih ⊢
    rw [ih, Int.emod_eq_of_lt h.1 h.2]

/-- A sum over the active cells of a decomposition is a sum over the cells of the grid. -/
theorem sum_active [AddCommMonoid K] (h : Built m dN) {ng : Nat} (hw : Wide dN ng)
    {A : Finset (Nat × List Int)} (hA : ∀ q j, (q, j) ∈ A ↔ Active m ng q j) (f : List Int → K)
    (F : Nat × List Int → K)
    (hF : ∀ x ∈ A, ∀ p, globalPos m (dN.map List.sum) ng x.1 x.2 = some p → F x = f p) :
    ∑ x ∈ A, F x = ∑ p ∈ gridCells (dN.map List.sum), f p := by
  have hpos : ∀ x : A, ∃ p, globalPos m (dN.map List.sum) ng x.1.1 x.1.2 = some p := fun x =>
    globalPos_isSome _ (active_inArray ((hA _ _).1 x.2))
  choose pos hp using hpos
  refine Finset.sum_bij (fun x hx => pos ⟨x, hx⟩) ?_ ?_ ?_ ?_
  · intro x hx
    obtain ⟨_, _, _, _, h5⟩ := globalPos_active h ((hA _ _).1 hx) (hp ⟨x, hx⟩)
    exact h5
  · intro x hx y hy e
    obtain ⟨e1, e2⟩ := active_image_unique h ((hA _ _).1 hx) ((hA _ _).1 hy)
      ((hp ⟨x, hx⟩).trans ((congrArg some e).trans (hp ⟨y, hy⟩).symm))
    exact Prod.ext e1 e2
  · intro p hpm
    have hl : p.length = dN.length := by
      have := ((mem_gridCells _ _).1 hpm).length_eq
      simpa using this.symm
    obtain ⟨r, i, hi, hip⟩ := cover h hw hl (wrap_gridCells hpm)
    refine ⟨(r, i), (hA r i).2 hi, ?_⟩
    exact Option.some.inj ((hp ⟨(r, i), (hA r i).2 hi⟩).symm.trans hip)
  · intro x hx
    exact hF x hx _ (hp ⟨x, hx⟩)

theorem card_box (rs : List (Int × Int)) : (box rs).length = (rs.map fun r => (r.2 - r.1).toNat).prod := by
  induction rs with
  | nil => rfl
  | cons r rs ih =>
    obtain ⟨lo, hi⟩ := r
    simp only [box, List.length_flatMap, List.length_map, List.map_map, List.map_cons, List.prod_cons, ih]
    show ((List.range (hi - lo).toNat).map fun _ => (rs.map fun r => (r.2 - r.1).toNat).prod).sum = _
    simp

theorem card_gridCells (N : List Nat) : (gridCells N).card = N.prod := by
  unfold gridCells
  rw [List.toFinset_card_of_nodup (box_nodup _), card_box, List.map_map]
  congr 1
  conv_rhs => rw [← List.map_id N]
  refine List.map_congr_left fun n _ => ?_
  simp

/-! ## One cell -/

variable [Field K]

theorem pos_length (ng : Nat) (ax : Nat → Bool) (i : List Int) : (pos (K := K) ng ax i).length = i.length := by
  simp [pos]

theorem pos_shift {ng : Nat} (ax : Nat → Bool) {o : List Nat} {i : List Int} (hl : o.length = i.length) :
    List.zipWith (fun (o : Nat) y => (o : K) + y) o (pos ng ax i) =
      pos 0 ax (List.zipWith (fun (o : Nat) x => (o : Int) + (x - ng)) o i) := by
  unfold pos
  apply List.ext_getElem
  · simp
  · intro k k1 k2
    simp only [List.getElem_zipWith, List.getElem_mapIdx]
    push_cast
    ring

theorem edgeOffs_bound {D c : Nat} (hD : D ∈ [1, 2, 3]) : ∀ o ∈ edgeOffs D c, o.length = D ∧ ∀ x ∈ o, 0 ≤ x ∧ x ≤ 1 := by
  simp only [List.mem_cons, List.not_mem_nil, or_false] at hD
  rcases hD with rfl | rfl | rfl <;> rcases c with _ | _ | c <;> simp [edgeOffs]

theorem faceOffs_bound {D c : Nat} (hD : D ∈ [1, 2, 3]) : ∀ o ∈ faceOffs D c, o.length = D ∧ ∀ x ∈ o, 0 ≤ x ∧ x ≤ 1 := by
  simp only [List.mem_cons, List.not_mem_nil, or_false] at hD
  rcases hD with rfl | rfl | rfl <;> rcases c with _ | _ | c <;> simp [faceOffs]

theorem average_shows (h : Built m dN) {ng : Nat} (hng : 1 ≤ ng) {sel : Nat → Nat → Bool} {M : MMem K} {g : GMem K}
    (hs : Shows m (dN.map List.sum) ng sel M g) {r : Nat} {i p : List Int} (hi : Active m ng r i)
    (hp : globalPos m (dN.map List.sum) ng r i = some p) {a c : Nat} (hsel : sel a c = true)
    {offs : List (List Int)} (ho : ∀ o ∈ offs, o.length = dN.length ∧ ∀ x ∈ o, 0 ≤ x ∧ x ≤ 1) :
    average (M r) a c offs i = average (g.unroll (dN.map List.sum)) a c offs p := by
  unfold average
  congr 2
  refine List.map_congr_left fun o hoo => ?_
  refine Shows.around h hs hi hp (ho o hoo).1 (fun x hx => ?_) hsel
  have := (ho o hoo).2 x hx
  omega

/-- What a cell adds is a function of the global fields and the metric of the global grid. -/
theorem cellValue_eq (h : Built m dN) (hD : dN.length ∈ [1, 2, 3]) {ng : Nat} (hng : 1 ≤ ng) {S : Nat → SMetric K} {G : SMetric K}
    (hS : SeesMetric m S G) {M : MMem K} {g : GMem K} {F : FStat} {I : Nat}
    (ha : ShowsActive m (dN.map List.sum) ng (fun a _ => a = 0) M g)
    (hs : F = .ExB ∨ F = .JdotE → Shows m (dN.map List.sum) ng (fun a _ => a = 0 ∨ (a = 1 ∧ F = .JdotE)) M g)
    {r : Nat} {i p : List Int} (hi : Active m ng r i) (hp : globalPos m (dN.map List.sum) ng r i = some p) :
    cellValue (S r) dN.length ng F I (M r) i = cellValue G dN.length 0 F I (g.unroll (dN.map List.sum)) p := by
  obtain ⟨s, hs1, hs2, rfl, hs4⟩ := globalPos_active h hi hp
  have hil := active_length h (active_inArray hi)
  have hw := wrap_gridCells hs4
  have met : ∀ ax : Nat → Bool,
      (∀ c v, (S r).low c (pos ng ax i) v =
        G.low c (pos 0 ax (List.zipWith (fun (o : Nat) x => (o : Int) + (x - ng)) s.offsetNcells i)) v) ∧
      (∀ c v, (S r).tet c (pos ng ax i) v =
        G.tet c (pos 0 ax (List.zipWith (fun (o : Nat) x => (o : Int) + (x - ng)) s.offsetNcells i)) v) ∧
      (S r).sqrtDet (pos ng ax i) =
        G.sqrtDet (pos 0 ax (List.zipWith (fun (o : Nat) x => (o : Int) + (x - ng)) s.offsetNcells i)) := by
    intro ax
    have := hS r s hs1 (pos ng ax i) (by rw [pos_length, hil, hs2])
    rw [pos_shift ax (by rw [hs2, hil])] at this
    exact this
  have own : ∀ c, M r ⟨0, c, i⟩ = g.unroll (dN.map List.sum)
      ⟨0, c, List.zipWith (fun (o : Nat) x => (o : Int) + (x - ng)) s.offsetNcells i⟩ := by
    intro c
    rw [ha 0 c (by simp) r i _ hi hp]
    simp [GMem.unroll, hw]
  cases F with
  | E2 => simp only [cellValue, own, (met _).1, (met _).2.2]
  | B2 => simp only [cellValue, own, (met _).1, (met _).2.2]
  | ExB =>
    have hs := hs (Or.inl rfl)
    have e : ∀ c, eT (S r) dN.length ng (M r) i c = eT G dN.length 0 (g.unroll (dN.map List.sum)) _ c := fun c => by
      unfold eT
      rw [average_shows h hng hs hi hp (by simp) (edgeOffs_bound hD), (met _).2.1]
    have b : ∀ c, bT (S r) dN.length ng (M r) i c = bT G dN.length 0 (g.unroll (dN.map List.sum)) _ c := fun c => by
      unfold bT
      rw [average_shows h hng hs hi hp (by simp) (faceOffs_bound hD), (met _).2.1]
    simp only [cellValue, e, b, (met _).2.2]
  | JdotE =>
    have hs := hs (Or.inr rfl)
    have e : ∀ c, eT (S r) dN.length ng (M r) i c = eT G dN.length 0 (g.unroll (dN.map List.sum)) _ c := fun c => by
      unfold eT
      rw [average_shows h hng hs hi hp (by simp) (edgeOffs_bound hD), (met _).2.1]
    have j : ∀ c, jT (S r) dN.length ng (M r) i c = jT G dN.length 0 (g.unroll (dN.map List.sum)) _ c := fun c => by
      unfold jT
      rw [average_shows h hng hs hi hp (by simp) (edgeOffs_bound hD), (met _).2.1]
    simp only [cellValue, e, j, (met _).2.2]

/-! ## The written number -/

theorem reduce_ok [DecidableEq K] {ng : Nat} {srpic : Bool} {F : FStat} {comps : List Nat} {V : K} (hV : V ≠ 0)
    {I : Nat} (hI : compArg srpic F comps = .ok I) (S : SMetric K) (r : Nat) (v : Mem K) :
    reduceFields m ng srpic F comps V S r v =
      .ok (((activeCells m ng r).map (cellValue S (sizes m r).length ng F I v)).sum / V) := by
  unfold reduceFields
  rw [hI]
  show (if V = 0 then _ else _) = _
  rw [if_neg hV]
  rfl

theorem sizes_length (h : Built m dN) {r : Nat} (hr : r < m.doms.length) : (sizes m r).length = dN.length := by
  obtain ⟨R, hR⟩ := h.getRec_lt hr
  rw [hR.sizes]
  simp [hR.len]

theorem stat_ok [DecidableEq K] (h : Built m dN) {ng : Nat} {srpic : Bool} {F : FStat} {comps : List Nat} {V : K} (hV : V ≠ 0)
    {I : Nat} (hI : compArg srpic F comps = .ok I) (S : Nat → SMetric K) (M : MMem K)
    {A : Finset (Nat × List Int)} (hA : ∀ q j, (q, j) ∈ A ↔ Active m ng q j) :
    statCell m ng srpic F comps V S M =
      .ok ((∑ x ∈ A, cellValue (S x.1) dN.length ng F I (M x.1) x.2) / V) := by
  unfold statCell
  rw [mapM_eq (f := fun r => ((activeCells m ng r).map (cellValue (S r) dN.length ng F I (M r))).sum / V)]
  · show Outcome.ok _ = _
    rw [Outcome.ok.injEq, ← sum_ranks hA (fun r i => cellValue (S r) dN.length ng F I (M r) i)]
    induction List.range m.doms.length with
    | nil => simp
    | cons a l ih => simp [ih, add_div]
  · intro r hr
    rw [reduce_ok hV hI, sizes_length h (by simpa using hr)]

end Entity.FieldStats
