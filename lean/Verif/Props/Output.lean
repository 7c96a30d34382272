import Verif.Model.Output
import Verif.Props.Tiling
import Verif.Lemmas.Prtl
import Mathlib.Tactic.Linarith
import Mathlib.Tactic.Ring
import Mathlib.Tactic.NormNum

/-!
# Properties C40, C41, C81: blocks of output fields and checkpoints
-/

namespace Entity.Output

open Entity Entity.Outcome Entity.Decomp

/-! ## One axis -/

theorem ceilDiv_le {a d k : Nat} (hd : 0 < d) : ceilDiv a d ≤ k ↔ a ≤ k * d := by
  unfold ceilDiv
  rw [← Nat.lt_add_one_iff, Nat.div_lt_iff_lt_mul hd]
  have : (k + 1) * d = k * d + d := by ring
  omega

theorem lt_ceilDiv {a d k : Nat} (hd : 0 < d) : k < ceilDiv a d ↔ k * d < a := by
  have := ceilDiv_le (a := a) (k := k) hd
  omega

theorem first_spec {l d : Nat} (hd : 0 < d) : l + (ceilDiv l d * d - l) = ceilDiv l d * d := by
  have := (ceilDiv_le (a := l) (k := ceilDiv l d) hd).1 (le_refl _)
  omega

/-- An entry of the global output lies in the block of a subdomain exactly if the cell it samples lies
in the subdomain. -/
theorem axis_mem {g l n d k : Nat} (hd : 0 < d) :
    ((axisLayout g l n d).lCorner ≤ k ∧ k < (axisLayout g l n d).lCorner + (axisLayout g l n d).lShape) ↔
    (l ≤ k * d ∧ k * d < l + n) := by
  simp only [axisLayout]
  have hf := first_spec (l := l) hd
  rw [ceilDiv_le hd]
  refine and_congr_right (fun hl => ?_)
  have hk : ceilDiv l d ≤ k := (ceilDiv_le hd).2 hl
  obtain ⟨j, rfl⟩ := Nat.exists_eq_add_of_le hk
  rw [Nat.add_lt_add_iff_left, lt_ceilDiv hd, Nat.add_mul]
  omega

/-- The cell an entry samples. -/
theorem axis_cell {g l n d i : Nat} (hd : 0 < d) :
    l + ((axisLayout g l n d).first + i * d) = ((axisLayout g l n d).lCorner + i) * d := by
  simp only [axisLayout]
  have hf := first_spec (l := l) hd
  rw [Nat.add_mul]; omega

/-! ## Specification -/

/-- The global cell sampled by entry `k` of the output. -/
def sampled (dwn k : List Nat) : List Nat := List.zipWith (· * ·) k dwn

/-- The local arrays (with `ng` ghost cells on each side) show the global field `F`. -/
def Shows {V : Type} (ng : Nat) (doms : List Subdomain) (arr : Subdomain → List Nat → V)
    (F : List Nat → V) : Prop :=
  ∀ s ∈ doms, ∀ c, Owns s c → arr s (List.zipWith (fun x o => x - o + ng) c s.offsetNcells) = F c

theorem mem_fieldBlock {i : Nat} : ∀ {dN : List (List Nat)} {dwn k : List Nat} {r : List AxisRec},
    List.Forall₂ (· ∈ ·) r (dN.map (axisRecs 0 0)) → dwn.length = dN.length → (∀ d ∈ dwn, 0 < d) →
    (InBlock (fieldBlock (dN.map List.sum) dwn (mkSub i r)).1 k ↔
      k.length = dN.length ∧ Owns (mkSub i r) (sampled dwn k))
  | [], dwn, k, r, hr, hl, _ => by
    cases hr
    have : dwn = [] := List.length_eq_zero_iff.1 (by simpa using hl)
    subst this
    cases k with
    | nil => simp [fieldBlock, InBlock, mkSub, sampled, Owns]
    | cons x k => simp [fieldBlock, InBlock, mkSub, sampled]
  | g :: dN, dwn, k, r, hr, hl, hd => by
    cases dwn with
    | nil => simp at hl
    | cons d dwn =>
      simp only [List.map_cons] at hr
      cases hr with
      | @cons a _ r _ ha hr =>
        cases k with
        | nil => simp [fieldBlock, InBlock, mkSub, sampled]
        | cons x k =>
          have ih := mem_fieldBlock (i := i) (dN := dN) (dwn := dwn) (k := k) (r := r) hr (by simpa using hl)
            (fun d hd' => hd d (by simp [hd']))
          have h0 := axis_mem (g := g.sum) (l := a.off) (n := a.n) (d := d) (k := x) (hd d (by simp))
          have e1 : InBlock (fieldBlock ((g :: dN).map List.sum) (d :: dwn) (mkSub i (a :: r))).1 (x :: k) ↔
              ((axisLayout g.sum a.off a.n d).lCorner ≤ x ∧ x < (axisLayout g.sum a.off a.n d).lCorner +
                (axisLayout g.sum a.off a.n d).lShape) ∧
              InBlock (fieldBlock (dN.map List.sum) dwn (mkSub i r)).1 k := by
            simp only [InBlock, fieldBlock, mkSub, List.map_cons, List.zip_cons_cons, List.zipWith_cons_cons,
              List.forall₂_cons]
          have e2 : Owns (mkSub i (a :: r)) (sampled (d :: dwn) (x :: k)) ↔
              (a.off ≤ x * d ∧ x * d < a.off + a.n) ∧ Owns (mkSub i r) (sampled dwn k) := by
            simp only [Owns, mkSub, sampled, List.map_cons, List.zip_cons_cons, List.zipWith_cons_cons,
              List.forall₂_cons]
          rw [e1, e2, ih, h0]
          simp only [List.length_cons, Nat.add_right_cancel_iff]
          tauto

theorem inGrid_sampled : ∀ {g dwn k : List Nat}, dwn.length = g.length → (∀ d ∈ dwn, 0 < d) →
    (InGrid k (outShape g dwn) ↔ k.length = g.length ∧ InGrid (sampled dwn k) g)
  | [], dwn, k, hl, _ => by
    have : dwn = [] := List.length_eq_zero_iff.1 (by simpa using hl)
    subst this
    cases k with
    | nil => simp [InGrid, outShape, sampled]
    | cons x k => simp [InGrid, outShape, sampled]
  | g :: gs, dwn, k, hl, hd => by
    cases dwn with
    | nil => simp at hl
    | cons d dwn =>
      cases k with
      | nil => simp [InGrid, outShape, sampled]
      | cons x k =>
        have ih := inGrid_sampled (g := gs) (dwn := dwn) (k := k) (by simpa using hl)
          (fun d hd' => hd d (by simp [hd']))
        have h0 := lt_ceilDiv (a := g) (d := d) (k := x) (hd d (by simp))
        simp only [InGrid, outShape, sampled, List.zipWith_cons_cons, List.forall₂_cons,
          List.length_cons, Nat.add_right_cancel_iff] at ih ⊢
        rw [ih, h0]
        tauto

/-- The entry a subdomain writes at position `k` of the global array. -/
theorem entry_eq {V : Type} {ng i : Nat} {arr : List Nat → V} :
    ∀ {dN : List (List Nat)} {dwn k : List Nat} {r : List AxisRec},
    List.Forall₂ (· ∈ ·) r (dN.map (axisRecs 0 0)) → dwn.length = dN.length → (∀ d ∈ dwn, 0 < d) →
    InBlock (fieldBlock (dN.map List.sum) dwn (mkSub i r)).1 k →
    List.zipWith (fun (f : Nat) (id : Nat × Nat) => f + id.1 * id.2 + ng)
      (fieldBlock (dN.map List.sum) dwn (mkSub i r)).2
      ((localIdx (fieldBlock (dN.map List.sum) dwn (mkSub i r)).1 k).zip dwn) =
    List.zipWith (fun x o => x - o + ng) (sampled dwn k) (mkSub i r).offsetNcells
  | [], dwn, k, r, hr, hl, _, _ => by
    cases hr
    simp [fieldBlock, mkSub, sampled]
  | g :: dN, dwn, k, r, hr, hl, hd, hk => by
    cases dwn with
    | nil => simp at hl
    | cons d dwn =>
      simp only [List.map_cons] at hr
      cases hr with
      | @cons a _ r _ ha hr =>
        cases k with
        | nil => simp [localIdx, sampled, mkSub, fieldBlock]
        | cons x k =>
          have hk' : ((axisLayout g.sum a.off a.n d).lCorner ≤ x ∧ x < (axisLayout g.sum a.off a.n d).lCorner +
                (axisLayout g.sum a.off a.n d).lShape) ∧
              InBlock (fieldBlock (dN.map List.sum) dwn (mkSub i r)).1 k := by
            simpa only [InBlock, fieldBlock, mkSub, List.map_cons, List.zip_cons_cons, List.zipWith_cons_cons,
              List.forall₂_cons] using hk
          have ih := entry_eq (ng := ng) (i := i) (arr := arr) (dN := dN) (dwn := dwn) (k := k) (r := r) hr
            (by simpa using hl) (fun d hd' => hd d (by simp [hd'])) hk'.2
          have hc := axis_cell (g := g.sum) (l := a.off) (n := a.n) (d := d)
            (i := x - (axisLayout g.sum a.off a.n d).lCorner) (hd d (by simp))
          rw [Nat.add_sub_cancel' hk'.1.1] at hc
          simp only [fieldBlock, mkSub, sampled, localIdx, List.map_cons, List.zip_cons_cons,
            List.zipWith_cons_cons, List.cons.injEq] at ih ⊢
          refine ⟨?_, ih⟩
          omega

/-! ## C40 -/

/-- **C40.** For every decomposition and all downsampling factors: every entry of the global output array
lies in the block of exactly one subdomain, and no block reaches outside the array. -/
theorem C40_tiling (dN : List (List Nat)) (hne : ∀ d ∈ dN, d ≠ []) (dwn : List Nat)
    (hl : dwn.length = dN.length) (hd : ∀ d ∈ dwn, 0 < d) :
    ∃ doms, createDomains (counts dN).prod dN = some doms ∧
      (∀ k, InGrid k (outShape (dN.map List.sum) dwn) →
        ∃! s, s ∈ doms ∧ InBlock (fieldBlock (dN.map List.sum) dwn s).1 k) ∧
      (∀ s ∈ doms, ∀ k, InBlock (fieldBlock (dN.map List.sum) dwn s).1 k →
        InGrid k (outShape (dN.map List.sum) dwn)) := by
  obtain ⟨doms, h1, _, _, h4, h5⟩ := C03_tiling dN hne
  have hdoms : doms = (recTable dN).mapIdx mkSub := by
    have := createDomains_eq dN hne
    unfold counts at h1
    rw [h1] at this
    exact Option.some.inj this
  have hmem : ∀ s ∈ doms, ∃ i r, s = mkSub i r ∧ List.Forall₂ (· ∈ ·) r (dN.map (axisRecs 0 0)) := by
    intro s hs
    rw [hdoms, List.mem_mapIdx] at hs
    obtain ⟨j, hj, rfl⟩ := hs
    exact ⟨j, _, rfl, (mem_tp _ _).1 (List.getElem_mem hj)⟩
  have hl' : dwn.length = (dN.map List.sum).length := by simpa using hl
  refine ⟨doms, h1, ?_, ?_⟩
  · intro k hk
    obtain ⟨hkl, hc⟩ := (inGrid_sampled hl' hd).1 hk
    simp only [List.length_map] at hkl
    obtain ⟨s, ⟨hs, ho⟩, hu⟩ := h4 _ hc
    refine ⟨s, ⟨hs, ?_⟩, ?_⟩
    · obtain ⟨i, r, rfl, hr⟩ := hmem s hs
      exact (mem_fieldBlock hr hl hd).2 ⟨hkl, ho⟩
    · rintro t ⟨ht, hb⟩
      obtain ⟨i, r, rfl, hr⟩ := hmem t ht
      exact hu _ ⟨ht, ((mem_fieldBlock hr hl hd).1 hb).2⟩
  · intro s hs k hb
    obtain ⟨i, r, rfl, hr⟩ := hmem s hs
    obtain ⟨a, b⟩ := (mem_fieldBlock hr hl hd).1 hb
    exact (inGrid_sampled hl' hd).2 ⟨by simpa using a, h5 _ hs _ b⟩

theorem fold_put {V : Type} (blk : Subdomain → Block) (data : Subdomain → List Nat → V) (k : List Nat)
    {s : Subdomain} (hs : InBlock (blk s) k) :
    ∀ (order : List Subdomain) (f : File V), (∀ t ∈ order, InBlock (blk t) k → t = s) →
      (s ∈ order ∨ f k = some (data s (localIdx (blk s) k))) →
      order.foldl (fun f s => put f (blk s) (data s)) f k = some (data s (localIdx (blk s) k))
  | [], f, _, h => by simpa using h
  | t :: order, f, hu, h => by
    rw [List.foldl_cons]
    refine fold_put blk data k hs order _ (fun t ht => hu t (by simp [ht])) ?_
    by_cases ht : InBlock (blk t) k
    · have := hu t (by simp) ht
      subst this
      right; simp [put, ht]
    · have hne : s ≠ t := fun e => ht (e ▸ hs)
      rcases h with h | h
      · simp only [List.mem_cons, hne, false_or] at h; exact .inl h
      · right; simp [put, ht, h]

/-- **C40 (contents).** If the arrays of the subdomains show the field `F`, the output array contains,
whatever the order in which the subdomains write, at every index `k` the value of `F` in the cell
`k * factor`. -/
theorem C40_contents {V : Type} (dN : List (List Nat)) (hne : ∀ d ∈ dN, d ≠ []) (dwn : List Nat)
    (hl : dwn.length = dN.length) (hd : ∀ d ∈ dwn, 0 < d) {doms : List Subdomain}
    (hdoms : createDomains (counts dN).prod dN = some doms) (ng : Nat) (arr : Subdomain → List Nat → V)
    (F : List Nat → V) (hF : Shows ng doms arr F) (order : List Subdomain) (hord : ∀ s, s ∈ order ↔ s ∈ doms)
    (k : List Nat) (hk : InGrid k (outShape (dN.map List.sum) dwn)) :
    writeFieldAll ng (dN.map List.sum) dwn arr order k = some (F (sampled dwn k)) := by
  obtain ⟨doms', h1, h2, _⟩ := C40_tiling dN hne dwn hl hd
  rw [hdoms] at h1
  cases h1
  obtain ⟨s, ⟨hs, hb⟩, hu⟩ := h2 k hk
  unfold writeFieldAll
  rw [fold_put (fun s => (fieldBlock (dN.map List.sum) dwn s).1)
    (fun s => outputEntry ng dwn (fieldBlock (dN.map List.sum) dwn s).2 (arr s)) k hb order _
    (fun t ht hbt => hu t ⟨(hord t).1 ht, hbt⟩) (.inl ((hord s).2 hs))]
  have hdoms' : doms = (recTable dN).mapIdx mkSub := by
    have := createDomains_eq dN hne
    unfold counts at hdoms
    rw [hdoms] at this
    exact Option.some.inj this
  have hs' := hs
  rw [hdoms', List.mem_mapIdx] at hs'
  obtain ⟨j, hj, rfl⟩ := hs'
  have hr := (mem_tp _ _).1 (List.getElem_mem hj)
  simp only [outputEntry]
  rw [entry_eq (arr := arr (mkSub j (recTable dN)[j])) hr hl hd hb]
  rw [hF _ hs _ ((mem_fieldBlock hr hl hd).1 hb).2]

/-- Three subdomains of 5, 4 and 1 cells, every third cell: entries 0, 1 | 2 | 3; the sampled cells are
0, 3 | 6 | 9. -/
example : createDomains 3 [[5, 4, 1]] = some [⟨0, [0], [0], [5]⟩, ⟨1, [1], [5], [4]⟩, ⟨2, [2], [9], [1]⟩] ∧
    outShape [10] [3] = [4] ∧
    ([⟨0, [0], [0], [5]⟩, ⟨1, [1], [5], [4]⟩, ⟨2, [2], [9], [1]⟩] : List Subdomain).map
      (fun s => fieldBlock [10] [3] s) = [(⟨[0], [2]⟩, [0]), (⟨[2], [1]⟩, [1]), (⟨[3], [1]⟩, [0])] := by
  decide +kernel

/-- **Output with ghost cells is undefined**: the loop that widens the layout runs past the end of its
vectors, in any number of dimensions. -/
theorem C40_ghosts_counterexample (ng : Nat) (glob ndom off offd loc : List Nat) (D : Nat)
    (h1 : glob.length = D) (h2 : off.length = D) (h3 : loc.length = D) :
    ghostLayout D ng glob ndom off offd loc = .ub := by
  have main : ∀ (n : Nat) (t : List Nat × List Nat × List Nat), t.1.length = D → t.2.1.length = D →
      t.2.2.length = D → n ≤ D → ∃ t', (List.range n).foldlM (fun (t : List Nat × List Nat × List Nat) d => do
        let g ← addAt t.1 d (2 * ng * ndom.getD d 0)
        let o ← addAt t.2.1 d (2 * ng * offd.getD d 0)
        let l ← addAt t.2.2 d (2 * ng)
        return (g, o, l)) t = Outcome.ok t' ∧ t'.1.length = D ∧ t'.2.1.length = D ∧ t'.2.2.length = D := by
    intro n
    induction n with
    | zero => intro t a b c _; exact ⟨t, rfl, a, b, c⟩
    | succ n ih =>
      intro t a b c hn
      obtain ⟨t', e, a', b', c'⟩ := ih t a b c (by omega)
      rw [List.range_succ, List.foldlM_append, e, bind_ok]
      have g1 : t'.1[n]? = some t'.1[n] := List.getElem?_eq_getElem (by omega)
      have g2 : t'.2.1[n]? = some t'.2.1[n] := List.getElem?_eq_getElem (by omega)
      have g3 : t'.2.2[n]? = some t'.2.2[n] := List.getElem?_eq_getElem (by omega)
      refine ⟨(t'.1.set n (t'.1[n] + 2 * ng * ndom.getD n 0), t'.2.1.set n (t'.2.1[n] + 2 * ng * offd.getD n 0),
        t'.2.2.set n (t'.2.2[n] + 2 * ng)), ?_, by simpa, by simpa, by simpa⟩
      simp only [List.foldlM_cons, List.foldlM_nil, addAt, g1, g2, g3, bind_ok]
      rfl
  obtain ⟨t', e, a', _, _⟩ := main D (glob, off, loc) h1 h2 h3 (le_refl _)
  unfold ghostLayout
  rw [List.range_succ, List.foldlM_append, e, bind_ok]
  simp only [List.foldlM_cons, addAt]
  rw [List.getElem?_eq_none (by omega)]
  rfl

/-! ## C41 -/

/-- The record of a subdomain whose block is enlarged by `h` cells. -/
def infl (h : Nat) (a : AxisRec) : AxisRec := ⟨a.n + h, a.off + h * a.dom, a.dom⟩

theorem axisRecs_infl (h : Nat) : ∀ (d : List Nat) (o k : Nat),
    axisRecs (o + h * k) k (d.map (· + h)) = (axisRecs o k d).map (infl h)
  | [], _, _ => rfl
  | n :: d, o, k => by
    have := axisRecs_infl h d (o + n) (k + 1)
    simp only [axisRecs, List.map_cons, List.cons.injEq]
    refine ⟨rfl, ?_⟩
    rw [← this]
    congr 1; ring

theorem recTable_infl (h : Nat) (dN : List (List Nat)) :
    recTable (dN.map (List.map (· + h))) = (recTable dN).map (List.map (infl h)) := by
  unfold recTable
  rw [← tp_map, List.map_map, List.map_map]
  congr 1
  refine List.map_congr_left (fun d _ => ?_)
  simpa using axisRecs_infl h d 0 0

theorem inBlock_infl (ng i : Nat) (r : List AxisRec) (k : List Nat) :
    InBlock (checkpointBlock ng (mkSub i r)) k ↔ Owns (mkSub i (r.map (infl (2 * ng)))) k := by
  unfold InBlock Owns
  have : (checkpointBlock ng (mkSub i r)).corner = (mkSub i (r.map (infl (2 * ng)))).offsetNcells ∧
      (checkpointBlock ng (mkSub i r)).shape = (mkSub i (r.map (infl (2 * ng)))).ncells := by
    constructor
    · simp [checkpointBlock, mkSub, infl, List.zipWith_map, Function.comp_def]
    · simp [checkpointBlock, mkSub, infl, Function.comp_def]
  rw [this.1, this.2]

theorem sum_map_add (h : Nat) : ∀ d : List Nat, (d.map (· + h)).sum = d.sum + h * d.length
  | [] => by simp
  | n :: d => by
    simp only [List.map_cons, List.sum_cons, List.length_cons, sum_map_add h d]; ring

theorem checkpointShape_eq (ng : Nat) : ∀ dN : List (List Nat),
    checkpointShape ng (dN.map List.sum) (counts dN) = (dN.map (List.map (· + 2 * ng))).map List.sum
  | [] => rfl
  | d :: dN => by
    have := checkpointShape_eq ng dN
    simp only [checkpointShape, counts, List.map_cons, List.zipWith_cons_cons, List.cons.injEq] at this ⊢
    exact ⟨(sum_map_add _ _).symm, this⟩

/-- **C41.** For every decomposition and any number of ghost cells, the blocks the subdomains write into
a checkpoint (ghost cells included) tile the global array of the checkpoint: every entry belongs to the
block of exactly one subdomain, and no block reaches outside the array. -/
theorem C41_tiling (dN : List (List Nat)) (hne : ∀ d ∈ dN, d ≠ []) (ng : Nat) :
    ∃ doms, createDomains (counts dN).prod dN = some doms ∧
      (∀ k, InGrid k (checkpointShape ng (dN.map List.sum) (counts dN)) →
        ∃! s, s ∈ doms ∧ InBlock (checkpointBlock ng s) k) ∧
      (∀ s ∈ doms, ∀ k, InBlock (checkpointBlock ng s) k →
        InGrid k (checkpointShape ng (dN.map List.sum) (counts dN))) := by
  have hne' : ∀ d ∈ dN.map (List.map (· + 2 * ng)), d ≠ [] := by
    intro d hd
    simp only [List.mem_map] at hd
    obtain ⟨e, he, rfl⟩ := hd
    simpa using hne e he
  obtain ⟨doms', h1, _, _, h4, h5⟩ := C03_tiling (dN.map (List.map (· + 2 * ng))) hne'
  have e1 := createDomains_eq _ hne'
  unfold counts at h1
  rw [h1] at e1
  have e1 := Option.some.inj e1
  rw [recTable_infl] at e1
  rw [checkpointShape_eq]
  have hin : ∀ (i : Nat) (hi : i < (recTable dN).length),
      mkSub i ((recTable dN)[i].map (infl (2 * ng))) ∈ doms' := by
    intro i hi
    rw [e1, List.mem_mapIdx]
    exact ⟨i, by simpa using hi, by simp⟩
  refine ⟨(recTable dN).mapIdx mkSub, createDomains_eq dN hne, ?_, ?_⟩
  · intro k hk
    obtain ⟨s', ⟨hs', ho⟩, hu⟩ := h4 k hk
    rw [e1, List.mem_mapIdx] at hs'
    obtain ⟨i, hi, rfl⟩ := hs'
    simp only [List.length_map] at hi
    simp only [List.getElem_map] at ho hu
    refine ⟨mkSub i (recTable dN)[i], ⟨List.mem_mapIdx.2 ⟨i, hi, rfl⟩, (inBlock_infl _ _ _ _).2 ho⟩, ?_⟩
    rintro t ⟨ht, hb⟩
    rw [List.mem_mapIdx] at ht
    obtain ⟨j, hj, rfl⟩ := ht
    have := hu _ ⟨hin j hj, (inBlock_infl _ _ _ _).1 hb⟩
    have hij : j = i := congrArg Subdomain.index this
    subst hij; rfl
  · intro s hs k hb
    rw [List.mem_mapIdx] at hs
    obtain ⟨j, hj, rfl⟩ := hs
    exact h5 _ (hin j hj) k ((inBlock_infl _ _ _ _).1 hb)

theorem inBlock_global : ∀ {c sh i : List Nat}, c.length = sh.length → InGrid i sh →
    InBlock ⟨c, sh⟩ (globalIdx ⟨c, sh⟩ i) ∧ localIdx ⟨c, sh⟩ (globalIdx ⟨c, sh⟩ i) = i
  | [], sh, i, hl, hi => by
    have : sh = [] := List.length_eq_zero_iff.1 (by simpa using hl.symm)
    subst this
    cases hi
    exact ⟨.nil, rfl⟩
  | x :: c, sh, i, hl, hi => by
    cases hi with
    | nil => simp at hl
    | @cons a b i sh hab hi =>
      obtain ⟨p, q⟩ := inBlock_global (c := c) (by simpa using hl) hi
      refine ⟨.cons ?_ p, ?_⟩
      · exact ⟨Nat.le_add_right _ _, by simpa using hab⟩
      · simp only [localIdx, globalIdx, List.zipWith_cons_cons, List.cons.injEq] at q ⊢
        exact ⟨by omega, q⟩

/-- **C41 (round trip).** Whatever the order in which the subdomains write their arrays, reading the block
of a subdomain back gives its array entry by entry, ghost cells included. -/
theorem C41_round_trip {V : Type} (dN : List (List Nat)) (hne : ∀ d ∈ dN, d ≠ []) (ng : Nat)
    {doms : List Subdomain} (hdoms : createDomains (counts dN).prod dN = some doms)
    (arr : Subdomain → List Nat → V) (order : List Subdomain) (hord : ∀ s, s ∈ order ↔ s ∈ doms)
    {s : Subdomain} (hs : s ∈ doms) (i : List Nat) (hi : InGrid i (s.ncells.map (· + 2 * ng))) :
    get (writeAll ng arr order) (checkpointBlock ng s) i = some (arr s i) := by
  obtain ⟨doms', h1, h2, h3⟩ := C41_tiling dN hne ng
  rw [hdoms] at h1
  cases h1
  have hlen : (checkpointBlock ng s).corner.length = (checkpointBlock ng s).shape.length := by
    have := createDomains_eq dN hne
    unfold counts at hdoms
    rw [hdoms] at this
    rw [Option.some.inj this, List.mem_mapIdx] at hs
    obtain ⟨j, hj, rfl⟩ := hs
    simp [checkpointBlock, mkSub]
  obtain ⟨hb, hloc⟩ := inBlock_global (c := (checkpointBlock ng s).corner)
    (sh := (checkpointBlock ng s).shape) (i := i) hlen hi
  have hg := h3 s hs _ hb
  obtain ⟨s', ⟨_, _⟩, hu⟩ := h2 _ hg
  unfold get writeAll
  rw [fold_put (checkpointBlock ng) arr (globalIdx (checkpointBlock ng s) i) hb order _
    (fun t ht hbt => (hu t ⟨(hord t).1 ht, hbt⟩).trans (hu s ⟨hs, hb⟩).symm) (.inl ((hord s).2 hs))]
  exact congrArg some (congrArg (arr s) hloc)

/-- Four subdomains on a 6 × 7 grid with two ghost cells: an array of 14 × 15 entries in four blocks. -/
example : (createDomains 4 [[3, 3], [4, 3]]).map (fun l => l.map (checkpointBlock 2)) =
    some [⟨[0, 0], [7, 8]⟩, ⟨[7, 0], [7, 8]⟩, ⟨[0, 8], [7, 7]⟩, ⟨[7, 8], [7, 7]⟩] ∧
    checkpointShape 2 [6, 7] [2, 2] = [14, 15] := by decide +kernel

/-! ## C81 -/

/-- **C81 (sampled cells).** Along an axis with coordinate `X` (a function of the global cell position),
the coordinates a subdomain starting at cell `l` writes for its entry number `i` — which is entry
`lCorner + i` of the output — are the centre and the lower edge of the cell that entry samples. -/
theorem C81_entries (X : ℚ → ℚ) (g l n d : Nat) (hd : 0 < d) (i : Nat)
    (hi : i < (axisLayout g l n d).lShape) :
    (meshCoords (fun q => X (l + q)) g l n d).1[i]? =
      some (X ((((axisLayout g l n d).lCorner + i) * d : Nat) + 1 / 2)) ∧
    (meshCoords (fun q => X (l + q)) g l n d).2[i]? =
      some (X ((((axisLayout g l n d).lCorner + i) * d : Nat))) := by
  have hc := axis_cell (g := g) (l := l) (n := n) (d := d) (i := i) hd
  have hq : (l : ℚ) + (((axisLayout g l n d).first + i * d : Nat) : ℚ) =
      ((((axisLayout g l n d).lCorner + i) * d : Nat) : ℚ) := by exact_mod_cast hc
  constructor
  · simp only [meshCoords]
    rw [List.getElem?_map, List.getElem?_range hi]
    simp only [Option.map_some, Option.some.injEq]
    rw [← add_assoc, hq]
  · simp only [meshCoords]
    rw [List.getElem?_map, List.getElem?_range (by omega)]
    simp only [Option.map_some, Option.some.injEq, if_pos hi]
    rw [hq]

/-- **C81 (last edge), without downsampling**: the last subdomain closes the edges with the upper end of
the grid, and there is one more edge than centres.  Full claim: the same for every factor.  Missing:
with a factor above 1 the code writes the upper edge of the last sampled cell, not of the grid
(`C81_counterexample`), and 0 if the last subdomain has no sampled cell. -/
theorem C81_last_edge_partial (X : ℚ → ℚ) (g l n : Nat) (hn : 0 < n) (hg : l + n = g) :
    (meshCoords (fun q => X (l + q)) g l n 1).1.length = n ∧
    (meshCoords (fun q => X (l + q)) g l n 1).2.length = n + 1 ∧
    (meshCoords (fun q => X (l + q)) g l n 1).2[n]? = some (X g) := by
  have hf : (axisLayout g l n 1).first = 0 := by simp [axisLayout, ceilDiv]
  have hs : (axisLayout g l n 1).lShape = n := by simp [axisLayout, ceilDiv]
  refine ⟨?_, ?_, ?_⟩
  · simp [meshCoords, hs]
  · simp [meshCoords, hs, hg]
  · simp only [meshCoords, hs, hf]
    rw [List.getElem?_map, List.getElem?_range (by simp [hg])]
    simp only [Option.map_some, Option.some.injEq]
    rw [if_neg (by omega), if_pos hn]
    congr 1
    subst hg
    obtain ⟨m, rfl⟩ := Nat.exists_eq_succ_of_ne_zero (by omega : n ≠ 0)
    push_cast; simp

/-- **C81 is false with downsampling**: eight cells of width 1, every fourth sampled, one subdomain: the
edges are 0, 4, 5 instead of 0, 4, 8.  And three subdomains of 4, 4 and 1 cells with factor 5: the last
one has no sampled cell and closes the edges with 0. -/
theorem C81_counterexample :
    meshCoords (fun q => q) 8 0 8 4 = ([1 / 2, 9 / 2], [0, 4, 5]) ∧
    meshCoords (fun q => 8 + q) 9 8 1 5 = ([], [0]) := by
  decide +kernel

end Entity.Output
