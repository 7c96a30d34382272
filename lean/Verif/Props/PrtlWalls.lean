import Verif.Lemmas.PrtlWallField
import Verif.Props.Gauss

/-!
# C147: Gauss's law in a box whose walls absorb or reflect particles
-/

namespace Entity.PrtlWalls

open Entity Entity.Shapes Entity.Push Entity.Tags Entity.Deposit Entity.Ranks Entity.Topology
open Entity.FieldSolver Entity.Kernel Entity.Walls Entity.FieldBC Entity.Decomp

variable {K : Type} [Field K] [LinearOrder K] [IsStrictOrderedRing K] {m : Meta} {dN : List (List Nat)}

/-! ## Lemmas -/

theorem lost_reflect {sides : List (PBC × PBC × Int)}
    (hrf : ∀ s ∈ sides, s.1 = .reflect ∧ s.2.1 = .reflect) {p p' : DPrtl K} (h : Pushed sides p p')
    (hl : p.tag ≠ dead) : p'.tag ≠ dead := by
  have key : ∀ (ss : List (PBC × PBC × Int)), (∀ s ∈ ss, s.1 = .reflect ∧ s.2.1 = .reflect) →
      ∀ (k : Nat) (as : List (Ax K)) (tag : Int), (bcAxes k ss as tag).2 = tag := by
    intro ss
    induction ss with
    | nil => intro _ k as tag; simp [bcAxes]
    | cons s ss ih =>
      intro hs k as tag
      cases as with
      | nil => simp [bcAxes]
      | cons a as =>
        simp only [bcAxes]
        rw [ih fun t ht => hs t (by simp [ht])]
        obtain ⟨e1, e2⟩ := hs s (by simp)
        unfold bcAxis
        simp only [e1, e2, flagsOf]
        split_ifs <;> simp_all
  unfold Pushed at h
  split at h
  · obtain ⟨us, ds, q, -, -, -, h4, -, h6, -⟩ := h
    unfold boundaryConditions at h4
    split at h4
    · simp at h4
    · simp only [Bool.false_eq_true, if_false, Outcome.ok.injEq] at h4
      subst h4
      rw [h6]
      dsimp only
      rw [key sides hrf]
      exact hl
  · exact absurd h.1 hl

/-! ### The undivided box -/

theorem one_rec {N : List Nat} (h : Built m (N.map fun n => [n])) :
    m.doms.length = 1 ∧ m.doms[0]? = some (mkSub 0 (N.map fun n => ⟨n, 0, 0⟩)) := by
  have hl : m.doms.length = 1 := by
    rw [h.doms_eq, List.length_mapIdx, recTable_length, List.map_map]
    simp [Function.comp_def]
  refine ⟨hl, ?_⟩
  obtain ⟨R, hR⟩ := h.getRec_lt (r := 0) (by omega)
  rw [hR.dom]
  have hlen := hR.len
  have : R = N.map fun n => ⟨n, 0, 0⟩ := by
    apply List.ext_getElem
    · simpa using hlen
    · intro k k1 k2
      have := hR.mem k (by rw [← hlen]; exact k1) k1
      simpa [axisRecs] using this
  rw [this]

theorem one_pos {N : List Nat} (h : Built m (N.map fun n => [n])) (ng : Nat) {i : List Int} (hi : i.length = N.length) :
    latticePos m ng 0 i = i.map (· - (ng : Int)) := by
  unfold latticePos
  rw [(one_rec h).2]
  simp only [mkSub, List.map_map]
  apply List.ext_getElem
  · simp [hi]
  · intro k k1 k2
    simp

theorem one_active {N : List Nat} (h : Built m (N.map fun n => [n])) (ng : Nat) (i : List Int) :
    Active m ng 0 i ↔ List.Forall₂ (fun (n : Nat) x => (ng : Int) ≤ x ∧ x < ng + n) N i := by
  unfold Active
  rw [(one_rec h).2]
  constructor
  · rintro ⟨s, hs, hf⟩
    simp only [Option.some.injEq] at hs
    subst hs
    simpa [mkSub, Function.comp_def] using hf
  · intro hf
    refine ⟨_, rfl, ?_⟩
    simpa [mkSub, Function.comp_def] using hf

/-! ## C147 -/

/-- **C147.** An undivided Cartesian box in one to three dimensions with conducting walls, each of which
absorbs or reflects particles; any initial fields and particles, any number of steps, any motion by less
than a cell per step and axis, any momenta, any removal of dead particles.  At every node of the grid off
the walls, the divergence of the electric field minus `q0 / (B0 V0)` times the density of the live
particles is what it was at the beginning plus `q0 / (B0 V0)` times the density of the particles that were
absorbed meanwhile, each at the place where it was before the step that absorbed it: in its last step a
particle deposits no current, so that its charge stays in the field.

Partial: exact arithmetic; the zigzag deposit in three dimensions is excluded, since it violates the
continuity equation (C29); no filter; one subdomain. -/
theorem C147_absorbed_charges_partial {N : List Nat} (h : Built m (N.map fun n => [n]))
    (hb : m.bcs = N.map fun _ => (.CONDUCTOR, .CONDUCTOR)) (hD : N.length ∈ [1, 2, 3])
    {P : StepPrm K} (hng : 2 ≤ P.ng) (hwd : ∀ n ∈ N, P.ng < n) (hO : P.O ≤ 11)
    (h3 : P.O = 0 → N.length ≤ 2) (hdt : P.dt ≠ 0) {sides : List (PBC × PBC × Int)} (hw : Walled N sides)
    {sps0 sps : List (Sp K)} (hi : Inside N sps0)
    {hist : List (List (Sp K) × List (Sp K))} {M M0 M' : MMem K} (h0 : initial m P.ng M M0)
    (hs : Sim m N.length P sides M0 sps0 hist M' sps) {p : List Int}
    (hp : List.Forall₂ (fun (n : Nat) (x : Int) => 1 ≤ x ∧ x < (n : Int)) N p) :
    divDown N.length (electric (M' 0) (p.map (· + (P.ng : Int)))) -
        P.q0 / (P.B0 * P.V0) * cloud (degree P.O) (charges sps) p =
      divDown N.length (electric (M0 0) (p.map (· + (P.ng : Int)))) -
        P.q0 / (P.B0 * P.V0) * cloud (degree P.O) (charges sps0) p +
        P.q0 / (P.B0 * P.V0) * cloud (degree P.O) (hist.flatMap lost) p := by
  have hsum : (N.map fun n => [n]).map List.sum = N := by simp [Function.comp_def]
  have hlen : (N.map fun n => [n]).length = N.length := by simp
  have hbox : WallBox m := by
    refine ⟨?_, ?_⟩
    · rw [hb, h.counts]; simp [Decomp.counts]
    · rw [hb]
      intro b hb'
      obtain ⟨_, _, rfl⟩ := List.mem_map.1 hb'
      exact .inr rfl
  have hwid : Wider (N.map fun n => [n]) P.ng := by
    intro l hl x hx
    obtain ⟨n, hn, rfl⟩ := List.mem_map.1 hl
    rw [List.mem_singleton.1 hx]
    exact hwd n hn
  obtain ⟨hd1, -⟩ := one_rec h
  have hpl : p.length = N.length := hp.length_eq.symm
  have hq : (p.map (· + (P.ng : Int))).length = N.length := by simp [hpl]
  have hact : Active m P.ng 0 (p.map (· + (P.ng : Int))) := by
    rw [one_active h, List.forall₂_map_right_iff]
    exact hp.imp fun n x hx => by omega
  have hlat : latticePos m P.ng 0 (p.map (· + (P.ng : Int))) = p := by
    rw [one_pos h _ hq, List.map_map]
    simp [Function.comp_def]
  obtain ⟨f, hf⟩ : ∃ f : Nat → List Int → K, ∀ r i c, c < 6 → Active m P.ng r i →
      M r ⟨0, c, i⟩ = f c (latticePos m P.ng r i) := by
    refine ⟨fun c q => M 0 ⟨0, c, q.map (· + (P.ng : Int))⟩, ?_⟩
    intro r i c _ ha
    have hr := active_lt ha
    have : r = 0 := by omega
    subst this
    have hil : i.length = N.length := ((one_active h _ _).1 ha).length_eq.symm
    rw [one_pos h _ hil]
    simp [Function.comp_def]
  have h2 : (2 : K) ≠ 0 := two_ne_zero
  obtain ⟨-, ops, r1, e1⟩ := sim_div (dN := N.map fun n => [n]) h (by rw [hlen]; exact hD) hO (by rw [hlen]; exact h3) hdt
    (by omega) (by rw [hsum]; exact hw) (by rw [hsum]; exact hi) (by rw [hlen]; exact hs)
  have b0 := box_div h2 h hbox (by rw [hlen]; exact hD) hng hwid hf h0 (.nil M0) hact
  have b1 := box_div h2 h hbox (by rw [hlen]; exact hD) hng hwid hf h0 r1 hact
  rw [hlat] at b0 b1
  rw [e1 _ p (by rw [hlen]; exact hpl)] at b1
  · simp only [latticeRun] at b0
    rw [hlen] at b0 b1
    rw [b1, b0]
    ring
  · intro o ho
    rw [hsum]
    have := (List.forall₂_iff_get.1 hp).2 o (by omega) ho
    simpa [List.getD_eq_getElem?_getD, List.getElem?_eq_getElem ho, List.getElem?_eq_getElem (show o < N.length by omega)] using this

/-- **C147 (reflecting walls).** If all the walls reflect particles, Gauss's law is preserved. -/
theorem C147_reflected_charges_partial {N : List Nat} (h : Built m (N.map fun n => [n]))
    (hb : m.bcs = N.map fun _ => (.CONDUCTOR, .CONDUCTOR)) (hD : N.length ∈ [1, 2, 3])
    {P : StepPrm K} (hng : 2 ≤ P.ng) (hwd : ∀ n ∈ N, P.ng < n) (hO : P.O ≤ 11)
    (h3 : P.O = 0 → N.length ≤ 2) (hdt : P.dt ≠ 0) {sides : List (PBC × PBC × Int)}
    (hw : sides = N.map (fun n : Nat => (PBC.reflect, PBC.reflect, Int.ofNat n)))
    {sps0 sps : List (Sp K)} (hi : Inside N sps0)
    {hist : List (List (Sp K) × List (Sp K))} {M M0 M' : MMem K} (h0 : initial m P.ng M M0)
    (hs : Sim m N.length P sides M0 sps0 hist M' sps) {p : List Int}
    (hp : List.Forall₂ (fun (n : Nat) (x : Int) => 1 ≤ x ∧ x < (n : Int)) N p) :
    divDown N.length (electric (M' 0) (p.map (· + (P.ng : Int)))) -
        P.q0 / (P.B0 * P.V0) * cloud (degree P.O) (charges sps) p =
      divDown N.length (electric (M0 0) (p.map (· + (P.ng : Int)))) -
        P.q0 / (P.B0 * P.V0) * cloud (degree P.O) (charges sps0) p := by
  have hwall : Walled N sides := by
    rw [hw]
    unfold Walled
    rw [List.forall₂_map_right_iff]
    exact List.forall₂_same.2 fun (n : Nat) _ => ⟨.inr rfl, .inr rfl, rfl⟩
  have hz : hist.flatMap lost = [] := by
    have hrf : ∀ s ∈ sides, s.1 = .reflect ∧ s.2.1 = .reflect := by
      rw [hw]; intro s hs; obtain ⟨n, -, rfl⟩ := List.mem_map.1 hs; exact ⟨rfl, rfl⟩
    clear hi hp
    induction hs with
    | start => rfl
    | @step hist sps sps1 sps' M M' _ hs ih =>
      rw [List.flatMap_append, ih]
      obtain ⟨M1, v, -, hp, -⟩ := hs
      simp only [List.flatMap_cons, List.flatMap_nil, List.append_nil, List.nil_append, lost]
      rw [List.flatMap_eq_nil_iff]
      rintro ⟨s, s1⟩ hm
      obtain ⟨k, hk, e⟩ := List.getElem_of_mem hm
      simp only [List.getElem_zip, Prod.mk.injEq] at e
      simp only [List.length_zip] at hk
      have hps := (List.forall₂_iff_get.1 hp).2 k (by omega) (by omega)
      simp only [List.get_eq_getElem, e] at hps
      rw [List.map_eq_nil_iff, List.filter_eq_nil_iff]
      rintro ⟨a, b⟩ hab
      obtain ⟨k', hk', e'⟩ := List.getElem_of_mem hab
      simp only [List.getElem_zip, Prod.mk.injEq] at e'
      simp only [List.length_zip] at hk'
      simp only [decide_eq_true_eq, not_and]
      intro ha
      have h3 := hps.2.2
      split at h3
      · simp only [h3] at e'
        rw [← e'.2, e'.1]; exact ha
      · have := (List.forall₂_iff_get.1 h3).2 k' (by omega) (by omega)
        simp only [List.get_eq_getElem, e'] at this
        exact lost_reflect hrf this ha
  have := C147_absorbed_charges_partial h hb hD hng hwd hO h3 hdt hwall hi h0 hs hp
  rw [hz] at this
  rw [this]
  simp [cloud]

/-! ## Concrete cases -/

/-- A box of five by four cells. -/
def roomMeta : Meta where
  counts := [1, 1]
  doms := (createDomains 1 [[5], [4]]).getD []
  bcs := [(.CONDUCTOR, .CONDUCTOR), (.CONDUCTOR, .CONDUCTOR)]

theorem roomMeta_built : Built roomMeta ([5, 4].map fun n => [n]) := ⟨by decide, rfl, by decide +kernel⟩

def roomPrm : StepPrm ℚ where
  O := 1
  ng := 2
  nf := 0
  dt := 1/2
  dx := 1
  correction := 1
  q0 := 3
  B0 := 2
  V0 := 5
  ppc0 := 1
  c := skew
  fieldsolver := true
  deposit := true

/-- A charge in the corner cell of the box. -/
def guest : DPrtl ℚ := ⟨[⟨0, 0, 3/10, 3/10, 0⟩, ⟨0, 0, 2/5, 2/5, 0⟩], 2, 0, 0, alive⟩

/-- The guest after a push by (-1/2, -7/10) between reflecting walls. -/
def guestBack : DPrtl ℚ := ⟨[⟨0, 0, 1/5, 3/10, 1⟩, ⟨0, 0, 3/10, 2/5, 1⟩], 2, 0, 1/9, alive⟩

/-- The same with a wall across the first axis that absorbs. -/
def guestGone : DPrtl ℚ := ⟨[⟨-1, 0, 4/5, 3/10, -1⟩, ⟨0, 0, 3/10, 2/5, 1⟩], 2, 0, 1/9, dead⟩

/-- A step of the box with one species, from any memory. -/
theorem room_step {sides : List (PBC × PBC × Int)} {sps sps1 sps' : List (Sp ℚ)}
    (hp : List.Forall₂ (PushedSp sides) sps sps1) (ht : List.Forall₂ Tidied sps1 sps')
    (hd : Gauss.depositsB 1 2 (1/2) [5, 4] sps1 = true) (M : MMem ℚ) :
    ∃ M0 M', initial roomMeta 2 M M0 ∧ Step roomMeta 2 roomPrm sides sps sps1 sps' M0 M' := by
  obtain ⟨w, uss, vs, J, d1, d2, d3, d4⟩ := Gauss.deposits_of hd (fun _ => 0)
  have hbox : WallBox roomMeta := ⟨rfl, by decide⟩
  obtain ⟨M0, M', h1, h2⟩ := C143_runs_exist_partial roomMeta_built hbox (by decide) (ng := 2)
    (by unfold Wider; decide)
    [.faraday (1 / 2 * roomPrm.correction * roomPrm.dt) roomPrm.dx roomPrm.c,
     .faraday (1 / 2 * roomPrm.correction * roomPrm.dt) roomPrm.dx roomPrm.c,
     .electric (1 * roomPrm.correction * roomPrm.dt) roomPrm.dx
       (some (roomPrm.coeff, roomPrm.ppc0, fun c p => J c (p.map (· + ((2 : Nat) : Int)))))] M
  refine ⟨M0, M', h1, ?_⟩
  cases h2 with
  | @cons _ _ _ M1 _ f1 f2 =>
    exact ⟨M1, fun l => if l.arr = 1 then J l.comp l.idx else M1 0 l, f1, hp, ⟨uss, vs, J, d1, d2, d3, fun _ => rfl⟩, ht, f2⟩

theorem tidied_refl (sps : List (Sp ℚ)) : List.Forall₂ Tidied sps sps :=
  List.forall₂_same.2 fun _ _ => ⟨rfl, rfl, .refl _⟩

/-- **C147 (violation).** Gauss's law is not preserved by walls that absorb particles: a charge in the
corner cell is absorbed, and its charge is missing from the density but not from the divergence of the
field at the node next to it. -/
theorem C147_counterexample : ∃ (sides : List (PBC × PBC × Int)) (sps0 sps : List (Sp ℚ))
    (hist : List (List (Sp ℚ) × List (Sp ℚ))) (M M0 M' : MMem ℚ) (p : List Int),
    Walled [5, 4] sides ∧ Inside [5, 4] sps0 ∧ initial roomMeta 2 M M0 ∧
    Sim roomMeta 2 roomPrm sides M0 sps0 hist M' sps ∧
    List.Forall₂ (fun (n : Nat) (x : Int) => 1 ≤ x ∧ x < (n : Int)) [5, 4] p ∧ charges sps = [] ∧
    divDown 2 (electric (M' 0) (p.map (· + 2))) - 3 / (2 * 5) * cloud 1 (charges sps) p ≠
      divDown 2 (electric (M0 0) (p.map (· + 2))) - 3 / (2 * 5) * cloud 1 (charges sps0) p := by
  have hp : List.Forall₂ (PushedSp [(.absorb, .reflect, 5), (.reflect, .reflect, 4)])
      [(⟨1, false, [guest]⟩ : Sp ℚ)] [⟨1, false, [guestGone]⟩] := by
    refine .cons ⟨rfl, rfl, ?_⟩ .nil
    refine .cons ?_ .nil
    unfold Pushed
    rw [if_pos (show guest.tag = alive from rfl)]
    refine ⟨[-1, -1], [-1/2, -7/10], ⟨guestGone.ax, [], dead⟩, rfl, rfl, by decide +kernel, by decide +kernel, rfl, rfl, rfl⟩
  obtain ⟨M0, M', h0, h1⟩ := room_step hp (tidied_refl _) (by decide +kernel) (fun _ _ => 0)
  have hw : Walled [5, 4] [(.absorb, .reflect, 5), (.reflect, .reflect, 4)] :=
    .cons (by decide) (.cons (by decide) .nil)
  have hi : Inside [5, 4] [(⟨1, false, [guest]⟩ : Sp ℚ)] := by
    intro s hs p hp _
    rw [List.mem_singleton.1 hs] at hp
    rw [List.mem_singleton.1 hp]
    exact .cons (by decide +kernel) (.cons (by decide +kernel) .nil)
  have hpp : List.Forall₂ (fun (n : Nat) (x : Int) => 1 ≤ x ∧ x < (n : Int)) [5, 4] [1, 1] :=
    .cons (by decide) (.cons (by decide) .nil)
  have hs : Sim roomMeta 2 roomPrm [(.absorb, .reflect, 5), (.reflect, .reflect, 4)] M0 _ _ M' _ := .step .start h1
  refine ⟨_, _, _, _, _, M0, M', [1, 1], hw, hi, h0, hs, hpp, rfl, ?_⟩
  have e := C147_absorbed_charges_partial (P := roomPrm) roomMeta_built rfl (by decide) (by decide) (by decide) (by decide)
    (by decide) (by decide +kernel) hw hi h0 hs hpp
  intro h
  have e' := e.symm.trans h
  have : (3 : ℚ) / (2 * 5) * cloud 1 (([] ++ [([(⟨1, false, [guest]⟩ : Sp ℚ)], [(⟨1, false, [guestGone]⟩ : Sp ℚ)])]).flatMap lost) [1, 1] = 0 := by
    exact add_eq_left.1 e'
  revert this
  decide +kernel

/-- Between reflecting walls the same charge bounces off two walls at once. -/
example (M : MMem ℚ) : ∃ (hist : List (List (Sp ℚ) × List (Sp ℚ))) (M0 M' : MMem ℚ), initial roomMeta 2 M M0 ∧
    Inside [5, 4] [(⟨1, false, [guest]⟩ : Sp ℚ)] ∧
    Sim roomMeta 2 roomPrm ([5, 4].map (fun n : Nat => (PBC.reflect, PBC.reflect, Int.ofNat n))) M0 [⟨1, false, [guest]⟩] hist M'
      [⟨1, false, [guestBack]⟩] ∧
    cloud 1 (charges [(⟨1, false, [guest]⟩ : Sp ℚ)]) [1, 1] = 6/25 ∧
    cloud 1 (charges [(⟨1, false, [guestBack]⟩ : Sp ℚ)]) [1, 1] = 3/25 := by
  have hp : List.Forall₂ (PushedSp ([5, 4].map (fun n : Nat => (PBC.reflect, PBC.reflect, Int.ofNat n))))
      [(⟨1, false, [guest]⟩ : Sp ℚ)] [⟨1, false, [guestBack]⟩] := by
    refine .cons ⟨rfl, rfl, ?_⟩ .nil
    refine .cons ?_ .nil
    unfold Pushed
    rw [if_pos (show guest.tag = alive from rfl)]
    refine ⟨[-1, -1], [-1/2, -7/10], ⟨guestBack.ax, [], alive⟩, rfl, rfl, by decide +kernel, by decide +kernel, rfl, rfl, rfl⟩
  obtain ⟨M0, M', h0, h1⟩ := room_step hp (tidied_refl _) (by decide +kernel) M
  refine ⟨_, M0, M', h0, ?_, .step .start h1, by decide +kernel, by decide +kernel⟩
  intro s hs p hp _
  rw [List.mem_singleton.1 hs] at hp
  rw [List.mem_singleton.1 hp]
  exact .cons (by decide +kernel) (.cons (by decide +kernel) .nil)

end Entity.PrtlWalls
