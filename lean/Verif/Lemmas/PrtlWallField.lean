import Verif.Lemmas.PrtlWalls

/-!
# Lemmas: the electric field of particles at walls
-/

namespace Entity.PrtlWalls

open Entity Entity.Shapes Entity.Push Entity.Tags Entity.Deposit Entity.Ranks Entity.Topology
open Entity.FieldSolver Entity.Kernel Entity.Walls Entity.FieldBC Entity.Decomp

variable {K : Type} [Field K]

theorem latticeRun_append (m : Meta) (N : List Nat) (D : Nat) (a b : List (WOp K)) (G : Mem K) :
    latticeRun m N D (a ++ b) G = latticeRun m N D b (latticeRun m N D a G) := by
  induction a generalizing G with
  | nil => rfl
  | cons op a ih => exact ih _

theorem runsW_append {m : Meta} {D ng : Nat} {a b : List (WOp K)} {M M1 M2 : MMem K}
    (h1 : RunsW m D ng a M M1) (h2 : RunsW m D ng b M1 M2) : RunsW m D ng (a ++ b) M M2 := by
  induction h1 with
  | nil => exact h2
  | cons h _ ih => exact .cons h (ih h2)

theorem lattice_faraday {m : Meta} {N : List Nat} {D : Nat} (hD : D ∈ [1, 2, 3]) (dT dx : K) (c : Coeffs K)
    (G : Mem K) {p : List Int} (hp : p.length = D) :
    divDown D (electric (latticeStep m N D (.faraday dT dx c) G) p) = divDown D (electric G p) := by
  refine Gauss.divDown_congr (by simp at hD; omega) fun a ha o ho => ?_
  exact onLattice_other (faraday_own hD dT dx c) G (by simp [hp, ho]) (by simp [selB]; omega)

theorem lattice_electric {m : Meta} {N : List Nat} {D : Nat} (hD : D ∈ [1, 2, 3]) (dT dx coeff ppc0 : K)
    (j : Nat → List Int → K) (G : Mem K) {p : List Int} (hp : p.length = D) :
    divDown D (electric (latticeStep m N D (.electric dT dx (some (coeff, ppc0, j))) G) p) =
      divDown D (electric G p) + coeff * divDown D (fun c o => image m N j c (List.zipWith (· + ·) p o)) := by
  rw [← ampere_div hD dT dx G hp]
  have e : divDown D (electric (latticeStep m N D (.electric dT dx (some (coeff, ppc0, j))) G) p) =
      divDown D (fun c o => electric (stepAll D (ampere D dT dx) G) p c o +
        coeff * image m N j c (List.zipWith (· + ·) p o)) := by
    refine Gauss.divDown_congr (by simp at hD; omega) fun a ha o ho => ?_
    simp only [electric, latticeStep, if_pos ha]
    rw [mul_comm coeff]
    rfl
  rw [e]
  unfold divDown
  rw [← List.sum_map_mul_left, ← List.sum_map_add]
  congr 1
  apply List.map_congr_left
  intro a _
  ring

/-- Away from the ends of the axes the image is the current itself. -/
theorem image_inner {m : Meta} {N : List Nat} (j : Nat → List Int → K) {p : List Int} (hD : p.length ≤ 3)
    (hp : ∀ o < p.length, 1 ≤ p.getD o 0 ∧ p.getD o 0 < N.getD o 0) :
    divDown p.length (fun c o => image m N j c (List.zipWith (· + ·) p o)) =
      ((List.range p.length).map fun d => j d p - j d (p.modify d (· - 1))).sum := by
  unfold divDown
  congr 1
  apply List.map_congr_left
  intro d hd
  have hd : d < p.length := List.mem_range.1 hd
  simp only [Gauss.off_nil rfl, Gauss.off_down rfl]
  rw [image_box j d (fun o ho => by have := hp o ho; omega) (fun o _ h0 hol => by have := hp o hol; omega),
    image_box j d]
  · intro o ho
    simp only [List.length_modify] at ho
    have := hp o ho
    rw [List.getD_eq_getElem?_getD, List.getElem?_modify, List.getElem?_eq_getElem ho] at *
    simp only [Option.map_eq_map, Option.map_some, Option.getD_some] at *
    split <;> omega
  · intro o _ h0 ho
    simp only [List.length_modify] at ho
    have := hp o ho
    rw [List.getD_eq_getElem?_getD, List.getElem?_modify, List.getElem?_eq_getElem ho] at *
    simp only [Option.map_eq_map, Option.map_some, Option.getD_some] at *
    by_cases e : d = o
    · subst e
      have : d < 3 := by omega
      interval_cases d <;> rfl
    · rw [if_neg e] at h0
      omega

theorem modify_map_shift (p : List Int) (d : Nat) (k : Int) :
    (p.modify d (· - 1)).map (· + k) = (p.map (· + k)).modify d (· - 1) := by
  apply List.ext_getElem
  · simp
  · intro i h1 h2
    simp only [List.getElem_map, List.getElem_modify]
    split <;> omega

variable [LinearOrder K] [IsStrictOrderedRing K]
variable {m : Meta} {dN : List (List Nat)}

theorem deposit_live (h : Built m dN) (hD : dN.length ≤ 3) {P : StepPrm K} (hO : P.O ≤ 11) (h3 : P.O = 0 → dN.length ≤ 2)
    (h1 : 1 ≤ dN.length) (hr : 0 < m.doms.length)
    {sps : List (Sp K)} (hi : Inside (dN.map List.sum) sps)
    (hf : ∀ s ∈ sps, s.frozen = false → ∀ p ∈ s.ps, p.tag ≠ dead → ∀ a ∈ p.ax, FitAx a) {v v' : Mem K}
    (hd : DepositRank P.O P.ng P.dt (sizes m 0) sps v v') (n : List Int) (hn : n.length = dN.length) :
    Deposit.div (fun c i => v' ⟨1, c, i⟩) n =
      -(Gauss.rankRho (degree P.O) P.ng xNew sps n - Gauss.rankRho (degree P.O) P.ng xOld sps n) / P.dt := by
  have e1 : (sps.filter fun s => !s.frozen).filter deposits = sps.filter deposits := by
    rw [List.filter_filter]
    congr 1
    funext s
    simp only [deposits]
    cases s.frozen <;> simp
  have e2 : ∀ pos, Gauss.rankRho (degree P.O) P.ng pos (sps.filter fun s => !s.frozen) n =
      Gauss.rankRho (degree P.O) P.ng pos sps n := by
    intro pos
    unfold Gauss.rankRho
    clear hi hf hd e1
    induction sps with
    | nil => rfl
    | cons s sps ih =>
      by_cases hs : s.frozen = true
      · rw [List.filter_cons_of_neg (by simp [hs]), ih]; simp [hs]
      · rw [List.filter_cons_of_pos (by simp [hs]), List.map_cons, List.map_cons, List.sum_cons, List.sum_cons, ih]
  have hd' : DepositRank P.O P.ng P.dt (sizes m 0) (sps.filter fun s => !s.frozen) v v' := by
    unfold DepositRank at hd ⊢
    rw [e1]
    exact hd
  have := (Gauss.deposit_rank h hO hr (fun s hs p hp => ?_) hd').2.2 n hn
  · rw [this, e2, e2]
  · obtain ⟨hs, hz⟩ := List.mem_filter.1 hs
    have hz : s.frozen = false := by simpa using hz
    by_cases ht : p.tag = dead
    · exact ⟨.inl ht, fun _ => .inl ht⟩
    · refine ⟨.inr ⟨?_, hf s hs hz p hp ht⟩, fun h0 => ?_⟩
      · rw [← (hi s hs p hp ht).length_eq]; simp
      · have := h3 h0
        right; omega

/-- One step. -/
theorem step_div (h : Built m dN) (hD : dN.length ∈ [1, 2, 3]) {P : StepPrm K} (hO : P.O ≤ 11)
    (h3 : P.O = 0 → dN.length ≤ 2) (hdt : P.dt ≠ 0) (hr : 0 < m.doms.length)
    {sides : List (PBC × PBC × Int)} (hw : Walled (dN.map List.sum) sides)
    {sps sps1 sps' : List (Sp K)} (hi : Inside (dN.map List.sum) sps) {M M' : MMem K}
    (hs : Step m dN.length P sides sps sps1 sps' M M') :
    Inside (dN.map List.sum) sps' ∧ ∃ ops : List (WOp K), RunsW m dN.length P.ng ops M M' ∧
      ∀ (G : Mem K) (p : List Int), p.length = dN.length →
        (∀ o < p.length, 1 ≤ p.getD o 0 ∧ p.getD o 0 < ((dN.map List.sum).getD o 0 : Nat)) →
        divDown dN.length (electric (latticeRun m (dN.map List.sum) dN.length ops G) p) =
          divDown dN.length (electric G p) + P.q0 / (P.B0 * P.V0) *
            (cloud (degree P.O) (charges sps') p - cloud (degree P.O) (charges sps) p +
              cloud (degree P.O) (lost (sps, sps1)) p) := by
  obtain ⟨M1, v, f1, hp, hd, ht, f2⟩ := hs
  have l3 : dN.length ≤ 3 := by simp at hD; omega
  have l1 : 1 ≤ dN.length := by simp at hD; omega
  obtain ⟨i1, i2⟩ := inside_pushed hw hp hi
  refine ⟨inside_tidied ht i1, _, .cons f1 f2, fun G p hpl hpi => ?_⟩
  simp only [latticeRun]
  rw [lattice_electric hD _ _ _ _ _ _ hpl, lattice_faraday hD _ _ _ _ hpl, lattice_faraday hD _ _ _ _ hpl]
  congr 1
  have e := image_inner (m := m) (N := dN.map List.sum)
    (fun c q => v ⟨1, c, q.map (· + (P.ng : Int))⟩) (p := p) (by omega) hpi
  rw [hpl] at e
  rw [e]
  have e2 := deposit_live h l3 hO h3 l1 hr i1 i2 hd (p.map (· + (P.ng : Int))) (by simp [hpl])
  unfold Deposit.div at e2
  simp only [List.length_map, hpl] at e2
  simp only [modify_map_shift, e2]
  rw [charge_change hw _ _ _ hp hi, cloud_perm (charges_tidied ht)]
  simp only [StepPrm.coeff]
  field_simp

/-- Any number of steps. -/
theorem sim_div (h : Built m dN) (hD : dN.length ∈ [1, 2, 3]) {P : StepPrm K} (hO : P.O ≤ 11)
    (h3 : P.O = 0 → dN.length ≤ 2) (hdt : P.dt ≠ 0) (hr : 0 < m.doms.length)
    {sides : List (PBC × PBC × Int)} (hw : Walled (dN.map List.sum) sides)
    {sps0 : List (Sp K)} (hi : Inside (dN.map List.sum) sps0) {hist : List (List (Sp K) × List (Sp K))}
    {M0 M : MMem K} {sps : List (Sp K)} (hs : Sim m dN.length P sides M0 sps0 hist M sps) :
    Inside (dN.map List.sum) sps ∧ ∃ ops : List (WOp K), RunsW m dN.length P.ng ops M0 M ∧
      ∀ (G : Mem K) (p : List Int), p.length = dN.length →
        (∀ o < p.length, 1 ≤ p.getD o 0 ∧ p.getD o 0 < ((dN.map List.sum).getD o 0 : Nat)) →
        divDown dN.length (electric (latticeRun m (dN.map List.sum) dN.length ops G) p) =
          divDown dN.length (electric G p) + P.q0 / (P.B0 * P.V0) *
            (cloud (degree P.O) (charges sps) p - cloud (degree P.O) (charges sps0) p +
              cloud (degree P.O) (hist.flatMap lost) p) := by
  induction hs with
  | start => exact ⟨hi, [], .nil _, fun G p _ _ => by simp [latticeRun, cloud]⟩
  | step _ hs ih =>
    obtain ⟨i1, ops, r1, e1⟩ := ih
    obtain ⟨i2, ops', r2, e2⟩ := step_div h hD hO h3 hdt hr hw i1 hs
    refine ⟨i2, ops ++ ops', runsW_append r1 r2, fun G p hpl hpi => ?_⟩
    rw [latticeRun_append, e2 _ p hpl hpi, e1 G p hpl hpi, List.flatMap_append, cloud_append]
    simp only [List.flatMap_cons, List.flatMap_nil, List.append_nil]
    ring

/-- The divergence of the field in the memory of the box. -/
theorem box_div (h2 : (2 : K) ≠ 0) (h : Built m dN) (hb : WallBox m) (hD : dN.length ∈ [1, 2, 3]) {ng : Nat}
    (hng : 2 ≤ ng) (hw : Wider dN ng) {f : Nat → List Int → K} {M M0 M' : MMem K}
    (hf : ∀ r i c, c < 6 → Active m ng r i → M r ⟨0, c, i⟩ = f c (latticePos m ng r i))
    (hi : initial m ng M M0) {ops : List (WOp K)} (hr : RunsW m dN.length ng ops M0 M') {r : Nat} {i : List Int}
    (ha : Active m ng r i) :
    divDown dN.length (electric (M' r) i) = divDown dN.length
      (electric (latticeRun m (dN.map List.sum) dN.length ops (imageMem m (dN.map List.sum) f)) (latticePos m ng r i)) := by
  obtain ⟨fo, n, g⟩ := geo h hb hw (active_lt ha)
  obtain ⟨hil, hib⟩ := (g.act i).1 ha
  unfold divDown
  congr 1
  apply List.map_congr_left
  intro d hd
  have hd' : d < dN.length := List.mem_range.1 hd
  have hd3 : d < 3 := by simp at hD; omega
  have key : ∀ o : List Int, o.length = dN.length → (∀ x ∈ o, -(1 : Int) ≤ x ∧ x ≤ 0) →
      electric (M' r) i d o = electric (latticeRun m (dN.map List.sum) dN.length ops
        (imageMem m (dN.map List.sum) f)) (latticePos m ng r i) d o := by
    intro o ho hx
    unfold electric
    rw [← latticePos_add g hil ho]
    refine C143_images_partial h2 h hb hD hng hw hf hi hr (near_inArray h ha ho fun x h' => by have := hx x h'; omega)
      (by omega) fun b hwb _ he => ?_
    have hbl := wallAxis_lt h hb hwb
    have w := g.wide b hbl
    have ib := hib b hbl
    rw [latticePos_add g hil ho, getD_zipWith_add (by rw [(g.pos i hil).1, ho]), (g.pos i hil).2 b hbl] at he
    have : o.getD b 0 ≤ 0 := by
      rw [List.getD_eq_getElem?_getD, List.getElem?_eq_getElem (by omega)]
      exact (hx _ (List.getElem_mem _)).2
    omega
  rw [key _ (by simp [off]) ?_, key _ (by simp [off]) ?_]
  · intro x hx
    rcases List.mem_or_eq_of_mem_set hx with hx | hx
    · have : x = 0 := List.eq_of_mem_replicate hx
      omega
    · omega
  · intro x hx
    have : x = 0 := List.eq_of_mem_replicate hx
    omega

end Entity.PrtlWalls
