import Verif.Lemmas.FieldStats
import Verif.Model.Metric
import Verif.Props.Energy

/-!
# C130: statistics of the fields
-/

namespace Entity.FieldStats

open Entity Entity.Topology Entity.Kernel Entity.Ranks Entity.FieldSolver Entity.Filter

variable {K : Type} [Field K] [DecidableEq K] {m m' : Meta} {dN dN' : List (List Nat)}

/-- The requests the code accepts: the work on the current, and in special relativity a component of
the squared fields or of the Poynting vector. -/
def Accepted (srpic : Bool) (F : FStat) (comps : List Nat) : Prop :=
  (F = .JdotE ∧ comps = []) ∨ (F ≠ .JdotE ∧ srpic = true ∧ comps ∈ [[1], [2], [3]])

omit [Field K] [DecidableEq K] in
theorem accepted_arg {srpic : Bool} {F : FStat} {comps : List Nat} (h : Accepted srpic F comps) :
    ∃ I, compArg srpic F comps = .ok I := by
  rcases h with ⟨rfl, rfl⟩ | ⟨hF, rfl, h⟩
  · exact ⟨0, rfl⟩
  · simp only [List.mem_cons, List.not_mem_nil, or_false] at h
    unfold compArg
    rw [if_neg hF]
    rcases h with rfl | rfl | rfl <;> exact ⟨_, rfl⟩

omit [Field K] [DecidableEq K] in
theorem not_accepted {srpic : Bool} {F : FStat} {comps : List Nat} (h : ¬ Accepted srpic F comps) :
    compArg srpic F comps = .err := by
  unfold Accepted at h
  unfold compArg
  by_cases hF : F = .JdotE
  · simp_all
  · simp only [hF, false_and, ne_eq, not_false_iff, true_and, false_or, if_false] at h ⊢
    by_cases hs : srpic = true
    · simp only [hs, true_and, if_true] at h ⊢
      split <;> simp_all
    · simp [hs]

/-- **C130 (requests).** The reduction succeeds on every rank exactly for the accepted requests,
provided that the volume is not zero; every other request is an error. -/
theorem C130_requests (ng : Nat) (srpic : Bool) (F : FStat) (comps : List Nat) (V : K) (hV : V ≠ 0) (S : SMetric K)
    (r : Nat) (v : Mem K) :
    (Accepted srpic F comps → ∃ x, reduceFields m ng srpic F comps V S r v = .ok x) ∧
    (¬ Accepted srpic F comps → reduceFields m ng srpic F comps V S r v = .err) := by
  constructor
  · intro h
    obtain ⟨I, hI⟩ := accepted_arg h
    exact ⟨_, reduce_ok hV hI S r v⟩
  · intro h
    unfold reduceFields
    rw [not_accepted h]
    rfl

example : Accepted true .ExB [3] ∧ ¬ Accepted false .ExB [3] ∧ ¬ Accepted true .E2 [] ∧ Accepted false .JdotE [] := by
  simp [Accepted]

/-- **C130 (decomposition).** The number that is written does not depend on the number of ranks or on the
decomposition of the grid.  For the squared fields it is enough that the active cells of the two runs
hold the same fields; for the Poynting vector and the work, which use the next cell, the ghost
cells must be up to date.  Every metric, every boundary condition. -/
theorem C130_decomposition (h : Built m dN) (h' : Built m' dN') (hN : dN.map List.sum = dN'.map List.sum)
    (hD : dN.length ∈ [1, 2, 3]) {ng ng' : Nat} (hng : 1 ≤ ng) (hng' : 1 ≤ ng') (hw : Wide dN ng) (hw' : Wide dN' ng')
    {srpic : Bool} {F : FStat} {comps : List Nat} (hc : Accepted srpic F comps) {V : K} (hV : V ≠ 0)
    {S S' : Nat → SMetric K} {G : SMetric K} (hS : SeesMetric m S G) (hS' : SeesMetric m' S' G)
    {M M' : MMem K} {g : GMem K}
    (ha : ShowsActive m (dN.map List.sum) ng (fun a _ => a = 0) M g)
    (ha' : ShowsActive m' (dN.map List.sum) ng' (fun a _ => a = 0) M' g)
    (hs : F = .ExB ∨ F = .JdotE → Shows m (dN.map List.sum) ng (fun a _ => a = 0 ∨ (a = 1 ∧ F = .JdotE)) M g)
    (hs' : F = .ExB ∨ F = .JdotE → Shows m' (dN.map List.sum) ng' (fun a _ => a = 0 ∨ (a = 1 ∧ F = .JdotE)) M' g) :
    ∃ x, statCell m ng srpic F comps V S M = .ok x ∧ statCell m' ng' srpic F comps V S' M' = .ok x := by
  obtain ⟨I, hI⟩ := accepted_arg hc
  obtain ⟨A, hA⟩ := exists_activeCells h ng
  obtain ⟨A', hA'⟩ := exists_activeCells h' ng'
  have hl : dN.length = dN'.length := by simpa using congrArg List.length hN
  refine ⟨_, stat_ok h hV hI S M hA, ?_⟩
  rw [stat_ok h' hV hI S' M' hA', Outcome.ok.injEq]
  congr 1
  rw [sum_active h hw hA (fun p => cellValue G dN.length 0 F I (g.unroll (dN.map List.sum)) p) _ fun x hx p hp =>
      cellValue_eq h hD hng hS ha hs ((hA _ _).1 hx) hp,
    sum_active h' hw' hA' (fun p => cellValue G dN.length 0 F I (g.unroll (dN.map List.sum)) p) _ fun x hx p hp => by
      rw [hl, hN]
      exact cellValue_eq h' (hl ▸ hD) hng' hS' (hN ▸ ha') (fun e => hN ▸ hs' e) ((hA' _ _).1 hx) hp, hN]

/-- The line of ten cells on one rank and on two, with fields that depend on the global cell. -/
def oneMeta : Meta where
  counts := [1]
  doms := (Decomp.createDomains 1 [[10]]).getD []
  bcs := [(.PERIODIC, .PERIODIC)]

example :
    let v : Meta → MMem ℚ := fun m r l =>
      match globalPos m [10] 2 r l.idx with
      | some [p] => if l.comp = 1 then p * p else 3 - p
      | _ => 0
    statCell oneMeta 2 true .ExB [1] 1 (fun _ => mink 1 (1 / 10)) (v oneMeta) = .ok (-111) ∧
    statCell lineMeta 2 true .ExB [1] 1 (fun _ => mink 1 (1 / 10)) (v lineMeta) = .ok (-111) := by
  decide +kernel

/-! ## Cartesian grids -/

omit [DecidableEq K] in
theorem mink_sqrtDet {D : Nat} (hD : D ∈ [1, 2, 3]) (dx : K) (x : List K) : (mink D dx).sqrtDet x = dx ^ D := by
  simp only [List.mem_cons, List.not_mem_nil, or_false] at hD
  rcases hD with rfl | rfl | rfl <;> simp [mink, pow_succ]

omit [DecidableEq K] in
theorem minkVolume_eq {N : List Nat} {ext : List (K × K)} {dx : K}
    (h : List.Forall₂ (fun (n : Nat) e => e.2 - e.1 = (n : K) * dx) N ext) :
    minkVolume ext = (N.prod : K) * dx ^ N.length := by
  unfold minkVolume
  induction h with
  | nil => simp
  | cons h _ ih => simp only [List.map_cons, List.prod_cons, ih, h, List.length_cons]; push_cast; ring

omit [DecidableEq K] [Field K] in
theorem card_active (h : Built m dN) {ng : Nat} (hw : Wide dN ng) {A : Finset (Nat × List Int)}
    (hA : ∀ q j, (q, j) ∈ A ↔ Active m ng q j) : A.card = (dN.map List.sum).prod := by
  rw [Finset.card_eq_sum_ones, sum_active h hw hA (fun _ => 1) _ fun _ _ _ _ => rfl, ← Finset.card_eq_sum_ones,
    card_gridCells]

omit [DecidableEq K] in
theorem zip_zero (h : Built m dN) {ng r : Nat} {i : List Int} (hi : Active m ng r i) :
    List.zipWith (· + ·) i (off dN.length []) = i := by
  have hl := active_length h (active_inArray hi)
  apply List.ext_getElem
  · simp [off, hl]
  · intro k k1 k2; simp [off]

/-- **C130 (mean square).** On a Cartesian grid of any dimension and decomposition, the columns of the
squared fields are the averages over all cells of the squares of the physical components. -/
theorem C130_mean [CharZero K] (h : Built m dN) (hD : dN.length ∈ [1, 2, 3]) {ng : Nat} (hw : Wide dN ng)
    {A : Finset (Nat × List Int)} (hA : ∀ q j, (q, j) ∈ A ↔ Active m ng q j) {dx : K} (hdx : dx ≠ 0)
    {ext : List (K × K)} (hext : List.Forall₂ (fun (n : Nat) e => e.2 - e.1 = (n : K) * dx) (dN.map List.sum) ext)
    (M : MMem K) {c : Nat} (hc : c < 3) :
    statCell m ng true .E2 [c + 1] (minkVolume ext) (fun _ => mink dN.length dx) M =
      .ok ((∑ x ∈ A, elec dN.length dx M x c ^ 2) / A.card) ∧
    statCell m ng true .B2 [c + 1] (minkVolume ext) (fun _ => mink dN.length dx) M =
      .ok ((∑ x ∈ A, magn dN.length dx M x c ^ 2) / A.card) := by
  have hV := minkVolume_eq hext
  have hcard := card_active h hw hA
  have hpos : (dN.map List.sum).prod ≠ 0 := by
    rw [Ne, List.prod_eq_zero_iff]
    intro h0
    obtain ⟨l, hl, e⟩ := List.mem_map.1 h0
    obtain ⟨x, hx⟩ := List.exists_mem_of_ne_nil l (h.ne l hl)
    have := (hw l hl x hx).1
    have := List.single_le_sum (fun _ _ => Nat.zero_le _) x hx
    omega
  rw [← hcard, List.length_map] at hV
  rw [← hcard] at hpos
  have hV0 : minkVolume ext ≠ 0 := by
    rw [hV]; exact mul_ne_zero (Nat.cast_ne_zero.2 hpos) (pow_ne_zero _ hdx)
  have hI : ∀ F : FStat, F ≠ .JdotE → compArg true F [c + 1] = .ok (c + 1) := by
    intro F hF
    unfold compArg
    rw [if_neg hF, if_pos rfl]
    rcases c with _ | _ | _ | c
    · rfl
    · rfl
    · rfl
    · omega
  have hcc : (if c + 1 = 1 then 0 else if c + 1 = 2 then 1 else 2) = c := by
    rcases c with _ | _ | _ | c <;> simp <;> omega
  have fin : ∀ f : Nat × List Int → K, (∑ x ∈ A, f x * dx ^ dN.length) / minkVolume ext = (∑ x ∈ A, f x) / A.card := by
    intro f
    rw [← Finset.sum_mul, hV, mul_div_mul_right _ _ (pow_ne_zero _ hdx)]
  constructor
  · rw [stat_ok h hV0 (hI _ (by simp)) _ M hA, ← fin]
    congr 2
    refine Finset.sum_congr rfl fun x hx => ?_
    simp only [cellValue, hcc, mink_sqrtDet hD, elec, electric, phys, zip_zero h ((hA _ _).1 hx)]
    congr 1
    simp only [mink]
    by_cases hh : c < dN.length
    · rw [if_neg (by omega), if_pos hh]; ring
    · rw [if_pos (by omega), if_neg hh]; ring
  · rw [stat_ok h hV0 (hI _ (by simp)) _ M hA, ← fin]
    congr 2
    refine Finset.sum_congr rfl fun x hx => ?_
    simp only [cellValue, hcc, mink_sqrtDet hD, magn, magnetic, phys, zip_zero h ((hA _ _).1 hx)]
    congr 1
    simp only [mink]
    by_cases hh : c < dN.length
    · rw [if_neg (by omega), if_pos hh]; ring
    · rw [if_pos (by omega), if_neg hh]; ring

/-- Two ranks, a grid of ten cells of size 1/10. -/
example : statCell lineMeta 2 true .E2 [2] (minkVolume [((0 : ℚ), 1)]) (fun _ => mink 1 (1 / 10))
    (fun r l => if l.comp = 1 then r + 1 else 7) = .ok ((4 * 1 + 6 * 4) / 10) := by
  decide +kernel

/-- **C130 (energy).** The six columns of the squared fields add up to the energy of the fields, divided
by the number of cells. -/
theorem C130_energy [CharZero K] (h : Built m dN) (hD : dN.length ∈ [1, 2, 3]) {ng : Nat} (hw : Wide dN ng)
    {A : Finset (Nat × List Int)} (hA : ∀ q j, (q, j) ∈ A ↔ Active m ng q j) {dx : K} (hdx : dx ≠ 0)
    {ext : List (K × K)} (hext : List.Forall₂ (fun (n : Nat) e => e.2 - e.1 = (n : K) * dx) (dN.map List.sum) ext)
    (M : MMem K) :
    ∃ e b : Nat → K,
      (∀ c < 3, statCell m ng true .E2 [c + 1] (minkVolume ext) (fun _ => mink dN.length dx) M = .ok (e c)) ∧
      (∀ c < 3, statCell m ng true .B2 [c + 1] (minkVolume ext) (fun _ => mink dN.length dx) M = .ok (b c)) ∧
      ∑ c ∈ Finset.range 3, (e c + b c) = fieldEnergy A dN.length dx M / A.card := by
  refine ⟨_, _, fun c hc => (C130_mean h hD hw hA hdx hext M hc).1,
    fun c hc => (C130_mean h hD hw hA hdx hext M hc).2, ?_⟩
  unfold fieldEnergy
  simp only [← add_div, ← Finset.sum_add_distrib, ← Finset.sum_div]
  rw [Finset.sum_comm]

omit [DecidableEq K] in
theorem weight_mul [CharZero K] {n : Nat} (hn : n = 1 ∨ n = 2 ∨ n = 4) : weight n * (n : K) = 1 := by
  rcases hn with rfl | rfl | rfl <;> norm_num [weight]

omit [DecidableEq K] in
theorem average_const [CharZero K] {v : Mem K} {a c : Nat} {offs : List (List Int)} {i : List Int} {x : K}
    (hn : offs.length = 1 ∨ offs.length = 2 ∨ offs.length = 4)
    (h : ∀ o ∈ offs, v ⟨a, c, List.zipWith (· + ·) i o⟩ = x) : average v a c offs i = x := by
  unfold average
  rw [List.map_congr_left h, List.map_const', List.sum_replicate, nsmul_eq_mul, ← mul_assoc, weight_mul hn, one_mul]

theorem edgeOffs_length (D c : Nat) :
    (edgeOffs D c).length = 1 ∨ (edgeOffs D c).length = 2 ∨ (edgeOffs D c).length = 4 := by
  unfold edgeOffs; split <;> simp

theorem faceOffs_length (D c : Nat) :
    (faceOffs D c).length = 1 ∨ (faceOffs D c).length = 2 ∨ (faceOffs D c).length = 4 := by
  unfold faceOffs; split <;> simp

/-- **C130 (uniform fields).** If the physical components of the fields and of the current are the same in
all cells, active and ghost, then the Poynting vector and the work on the current are reported exactly. -/
theorem C130_uniform [CharZero K] (h : Built m dN) (hD : dN.length ∈ [1, 2, 3]) {ng : Nat} (hng : 1 ≤ ng)
    (hw : Wide dN ng) {dx : K} (hdx : dx ≠ 0) {ext : List (K × K)}
    (hext : List.Forall₂ (fun (n : Nat) e => e.2 - e.1 = (n : K) * dx) (dN.map List.sum) ext)
    {M : MMem K} {E B J : Nat → K}
    (hE : ∀ r i, InArray m ng r i → ∀ c < 3, M r ⟨0, c, i⟩ * (if c < dN.length then dx else 1) = E c)
    (hB : ∀ r i, InArray m ng r i → ∀ c < 3, M r ⟨0, 3 + c, i⟩ * (if c < dN.length then dx else 1) = B c)
    (hJ : ∀ r i, InArray m ng r i → ∀ c < 3, M r ⟨1, c, i⟩ * (if c < dN.length then dx else 1) = J c) :
    statCell m ng true .ExB [1] (minkVolume ext) (fun _ => mink dN.length dx) M = .ok (E 1 * B 2 - E 2 * B 1) ∧
    statCell m ng true .ExB [2] (minkVolume ext) (fun _ => mink dN.length dx) M = .ok (E 2 * B 0 - E 0 * B 2) ∧
    statCell m ng true .ExB [3] (minkVolume ext) (fun _ => mink dN.length dx) M = .ok (E 0 * B 1 - E 1 * B 0) ∧
    statCell m ng true .JdotE [] (minkVolume ext) (fun _ => mink dN.length dx) M =
      .ok (E 0 * J 0 + E 1 * J 1 + E 2 * J 2) := by
  obtain ⟨A, hA⟩ := exists_activeCells h ng
  have hV := minkVolume_eq hext
  have hcard := card_active h hw hA
  have hpos : (dN.map List.sum).prod ≠ 0 := by
    rw [Ne, List.prod_eq_zero_iff]
    intro h0
    obtain ⟨l, hl, e⟩ := List.mem_map.1 h0
    obtain ⟨x, hx⟩ := List.exists_mem_of_ne_nil l (h.ne l hl)
    have := (hw l hl x hx).1
    have := List.single_le_sum (fun _ _ => Nat.zero_le _) x hx
    omega
  rw [← hcard, List.length_map] at hV
  rw [← hcard] at hpos
  have hV0 : minkVolume ext ≠ 0 := by
    rw [hV]; exact mul_ne_zero (Nat.cast_ne_zero.2 hpos) (pow_ne_zero _ hdx)
  have hd : ∀ c, (if c < dN.length then dx else 1) ≠ (0 : K) := fun c => by split_ifs <;> simp [hdx]
  have tet : ∀ c (x : List K) v, (mink dN.length dx).tet c x v = v * (if c < dN.length then dx else 1) := by
    intro c x v
    simp only [mink]
    by_cases hh : c < dN.length
    · rw [if_neg (by omega), if_pos hh]
    · rw [if_pos (by omega), if_neg hh, mul_one]
  have near : ∀ x ∈ A, ∀ o : List Int, (o.length = dN.length ∧ ∀ y ∈ o, 0 ≤ y ∧ y ≤ 1) →
      InArray m ng x.1 (List.zipWith (· + ·) x.2 o) := fun x hx o ho =>
    near_inArray h ((hA _ _).1 hx) ho.1 fun y hy => by have := ho.2 y hy; omega
  have e : ∀ x ∈ A, ∀ c < 3, eT (mink dN.length dx) dN.length ng (M x.1) x.2 c = E c := by
    intro x hx c hc
    unfold eT
    rw [tet, average_const (x := E c / (if c < dN.length then dx else 1)) (edgeOffs_length _ _) fun o ho => by
      rw [eq_div_iff (hd c)]
      exact hE _ _ (near x hx o (edgeOffs_bound hD o ho)) c hc, div_mul_cancel₀ _ (hd c)]
  have b : ∀ x ∈ A, ∀ c < 3, bT (mink dN.length dx) dN.length ng (M x.1) x.2 c = B c := by
    intro x hx c hc
    unfold bT
    rw [tet, average_const (x := B c / (if c < dN.length then dx else 1)) (faceOffs_length _ _) fun o ho => by
      rw [eq_div_iff (hd c)]
      exact hB _ _ (near x hx o (faceOffs_bound hD o ho)) c hc, div_mul_cancel₀ _ (hd c)]
  have j : ∀ x ∈ A, ∀ c < 3, jT (mink dN.length dx) dN.length ng (M x.1) x.2 c = J c := by
    intro x hx c hc
    unfold jT
    rw [tet, average_const (x := J c / (if c < dN.length then dx else 1)) (edgeOffs_length _ _) fun o ho => by
      rw [eq_div_iff (hd c)]
      exact hJ _ _ (near x hx o (edgeOffs_bound hD o ho)) c hc, div_mul_cancel₀ _ (hd c)]
  have fin : ∀ (f : Nat × List Int → K) (y : K), (∀ x ∈ A, f x = y * dx ^ dN.length) →
      (∑ x ∈ A, f x) / minkVolume ext = y := by
    intro f y hf
    rw [Finset.sum_congr rfl hf, Finset.sum_const, nsmul_eq_mul, hV]
    have h1 : ((A.card : Nat) : K) ≠ 0 := Nat.cast_ne_zero.2 hpos
    have h2 := pow_ne_zero dN.length hdx
    field_simp
  refine ⟨?_, ?_, ?_, ?_⟩
  · rw [stat_ok h hV0 (I := 1) rfl _ M hA, Outcome.ok.injEq]
    refine fin _ _ fun x hx => ?_
    have e0 := e x hx 0 (by omega)
    have e1 := e x hx 1 (by omega)
    have e2 := e x hx 2 (by omega)
    have b0 := b x hx 0 (by omega)
    have b1 := b x hx 1 (by omega)
    have b2 := b x hx 2 (by omega)
    simp [cellValue, mink_sqrtDet hD, e0, e1, e2, b0, b1, b2]
  · rw [stat_ok h hV0 (I := 2) rfl _ M hA, Outcome.ok.injEq]
    refine fin _ _ fun x hx => ?_
    have e0 := e x hx 0 (by omega)
    have e1 := e x hx 1 (by omega)
    have e2 := e x hx 2 (by omega)
    have b0 := b x hx 0 (by omega)
    have b1 := b x hx 1 (by omega)
    have b2 := b x hx 2 (by omega)
    simp [cellValue, mink_sqrtDet hD, e0, e1, e2, b0, b1, b2]
  · rw [stat_ok h hV0 (I := 3) rfl _ M hA, Outcome.ok.injEq]
    refine fin _ _ fun x hx => ?_
    have e0 := e x hx 0 (by omega)
    have e1 := e x hx 1 (by omega)
    have e2 := e x hx 2 (by omega)
    have b0 := b x hx 0 (by omega)
    have b1 := b x hx 1 (by omega)
    have b2 := b x hx 2 (by omega)
    simp [cellValue, mink_sqrtDet hD, e0, e1, e2, b0, b1, b2]
  · rw [stat_ok h hV0 (I := 0) rfl _ M hA, Outcome.ok.injEq]
    refine fin _ _ fun x hx => ?_
    have e0 := e x hx 0 (by omega)
    have e1 := e x hx 1 (by omega)
    have e2 := e x hx 2 (by omega)
    have b0 := j x hx 0 (by omega)
    have b1 := j x hx 1 (by omega)
    have b2 := j x hx 2 (by omega)
    simp [cellValue, mink_sqrtDet hD, e0, e1, e2, b0, b1, b2]

/-- Two ranks, ten cells of size 1/10. -/
example : statCell lineMeta 2 true .ExB [3] (minkVolume [((0 : ℚ), 1)]) (fun _ => mink 1 (1 / 10))
    (fun _ l => if l.comp = 0 then 20 else if l.comp = 1 then 3 else if l.comp = 3 then 50 else 7) =
      .ok (2 * 7 - 3 * 5) := by
  decide +kernel

/-- The work on the current is not the sum of J·E over the cells where the fields are defined: the fields
are averaged to the centres of the cells first.  A current and a field that alternate from cell to cell do
work of one unit per cell, and the statistic is zero. -/
theorem C130_work_counterexample :
    let M : MMem ℚ := fun _ l => if l.comp = 1 then (if l.idx.headD 0 % 2 = 0 then 1 else -1) else 0
    statCell lineMeta 2 true .JdotE [] (minkVolume [((0 : ℚ), 1)]) (fun _ => mink 1 (1 / 10)) M = .ok 0 ∧
    ∀ x : Nat × List Int, Active lineMeta 2 x.1 x.2 →
      ∑ c ∈ Finset.range 3, curr 1 (1 / 10) M x c * elec 1 (1 / 10) M x c = 1 := by
  refine ⟨by decide +kernel, fun x _ => ?_⟩
  simp only [Finset.sum_range_succ, Finset.sum_range_zero, curr, elec, phys, current, electric]
  norm_num
  split_ifs <;> norm_num

/-! ## Curved grids -/

/-- `Spherical` in two dimensions (spherical.h:96-150 and the component-wise `transform`, which
multiplies by `h_ii` or its root). -/
noncomputable def sph (g : Metric.Sph) : SMetric ℝ where
  low c x v := v * g.h_ (x.getD 0 0) (x.getD 1 0) (Fin.ofNat 3 c)
  tet c x v := v * g.sqrtH_ (x.getD 0 0) (x.getD 1 0) (Fin.ofNat 3 c)
  sqrtDet x := g.sqrtDetH (x.getD 0 0) (x.getD 1 0)

open Classical in
/-- In spherical coordinates the volume is taken to be (r₂² - r₁²)(θ₂ - θ₁), which is not a volume: for a
radial field of unit strength everywhere on a given grid, the number reported for the mean square is
not one for every unit of length `k`. -/
theorem C130_spherical_counterexample {n1 n2 : Nat} (h : Built m [[n1], [n2]]) (ng : Nat) (hw : Wide [[n1], [n2]] ng)
    (e1 e2 : Metric.Ext) (hr : e1.lo < e1.hi) (hr0 : 0 ≤ e1.lo) (ht : e2.lo < e2.hi) (hn : e1.n = n1) :
    ¬ ∀ k : ℝ, 0 < k →
      statCell m ng true .E2 [1] (sphVolume (k * e1.lo) (k * e1.hi) e2.lo e2.hi)
        (fun _ => sph (Metric.Sph.make ⟨k * e1.lo, k * e1.hi, e1.n⟩ e2))
        (fun _ _ => 1 / (k * ((e1.hi - e1.lo) / e1.n))) = .ok 1 := by
  obtain ⟨A, hA⟩ := exists_activeCells h ng
  intro hall
  have hn0 : (e1.n : ℝ) ≠ 0 := by
    have := (hw [n1] (by simp) n1 (by simp)).1
    rw [hn]; exact_mod_cast (by omega : n1 ≠ 0)
  have hV : ∀ k : ℝ, 0 < k → sphVolume (k * e1.lo) (k * e1.hi) e2.lo e2.hi =
      k ^ 2 * sphVolume e1.lo e1.hi e2.lo e2.hi := by intro k _; unfold sphVolume; ring
  have hV1 : sphVolume e1.lo e1.hi e2.lo e2.hi ≠ 0 := by
    unfold sphVolume
    refine mul_ne_zero ?_ (by linarith)
    nlinarith
  have key : ∀ k : ℝ, 0 < k → k * ((∑ x ∈ A, (Metric.Sph.make e1 e2).sqrtDetH
      ((pos (K := ℝ) ng (fun a => decide (a = 0)) x.2).getD 0 0) ((pos (K := ℝ) ng (fun a => decide (a = 0)) x.2).getD 1 0)) /
        sphVolume e1.lo e1.hi e2.lo e2.hi) = 1 := by
    intro k hk
    have hk0 : k ≠ 0 := hk.ne'
    have := hall k hk
    rw [stat_ok h (by rw [hV k hk]; exact mul_ne_zero (pow_ne_zero _ hk0) hV1) (I := 1) rfl _ _ hA, Outcome.ok.injEq,
      hV k hk] at this
    rw [← this]
    have hterm : ∀ x ∈ A, cellValue (sph (Metric.Sph.make ⟨k * e1.lo, k * e1.hi, e1.n⟩ e2)) [[n1], [n2]].length ng .E2 1
        (fun _ => 1 / (k * ((e1.hi - e1.lo) / e1.n))) x.2 = k ^ 3 * (Metric.Sph.make e1 e2).sqrtDetH
      ((pos (K := ℝ) ng (fun a => decide (a = 0)) x.2).getD 0 0)
      ((pos (K := ℝ) ng (fun a => decide (a = 0)) x.2).getD 1 0) := by
      intro x _
      have hd : e1.hi - e1.lo ≠ 0 := by linarith
      simp only [cellValue, sph, Metric.Sph.h_, Metric.Sph.sqrtDetH, Metric.Sph.make, if_true]
      norm_num
      field_simp
    rw [Finset.sum_congr rfl hterm, ← Finset.mul_sum]
    field_simp
  have k1 := key 1 one_pos
  have k2 := key 2 two_pos
  linarith

/-- The Kerr-Schild metrics have no volume: neither this statistic nor any other field statistic ever
yields a number. -/
theorem C130_kerr_counterexample (hm : m.doms ≠ []) (ng : Nat) (srpic : Bool) (F : FStat) (comps : List Nat)
    (S : Nat → SMetric K) (M : MMem K) (x : K) : statCell m ng srpic F comps ksVolume S M ≠ .ok x := by
  have h0 : ∀ r, ∀ y, reduceFields m ng srpic F comps ksVolume (S r) r (M r) ≠ .ok y := by
    intro r y hy
    unfold reduceFields at hy
    cases hc : compArg srpic F comps with
    | ok I =>
      rw [hc] at hy
      simp [ksVolume, Bind.bind, Outcome.bind] at hy
    | err => rw [hc] at hy; exact absurd hy (by simp [Bind.bind, Outcome.bind])
    | ub => rw [hc] at hy; exact absurd hy (by simp [Bind.bind, Outcome.bind])
  unfold statCell
  obtain ⟨n, hn⟩ : ∃ n, m.doms.length = n + 1 := ⟨m.doms.length - 1, by
    have := List.length_pos_iff.2 hm; omega⟩
  rw [hn, List.range_succ_eq_map, List.mapM_cons]
  intro hh
  cases hc : reduceFields m ng srpic F comps ksVolume (S 0) 0 (M 0) with
  | ok y => exact h0 0 y hc
  | err => rw [hc] at hh; exact absurd hh (by simp [Bind.bind, Outcome.bind])
  | ub => rw [hc] at hh; exact absurd hh (by simp [Bind.bind, Outcome.bind])

end Entity.FieldStats
