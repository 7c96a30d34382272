import Verif.Lemmas.WallMain
import Verif.Props.FieldSolver

/-!
# C143: a box with conducting walls evolves by the method of images
-/

namespace Entity.Walls

open Entity Entity.Topology Entity.Kernel Entity.FieldSolver Entity.FieldBC Entity.Ranks Entity.Decomp Entity.Dir

variable {K : Type} [Field K] {m : Meta} {dN : List (List Nat)}

/-! ## Lemmas -/

theorem latticeRun_congr {m1 m2 : Meta} (h : m1.bcs = m2.bcs) (N : List Nat) (D : Nat) :
    ∀ (ops : List (WOp K)) (G : Mem K), latticeRun m1 N D ops G = latticeRun m2 N D ops G := by
  have hf : fold m1 N = fold m2 N := by
    have : isWallAxis m1 = isWallAxis m2 := by funext o; simp [isWallAxis, h]
    funext c o x
    simp only [fold, this]
  intro ops
  induction ops with
  | nil => intro G; rfl
  | cons op ops ih =>
    intro G
    have : latticeStep m1 N D op G = latticeStep m2 N D op G := by
      match op with
      | .faraday _ _ _ => rfl
      | .electric _ _ none => rfl
      | .electric _ _ (some (_, _, j)) => simp only [latticeStep, image, hf]
    simp only [latticeRun, this, ih]

theorem exists_commW (h : Built m dN) (hb : WallBox m) (hD : dN.length ∈ [1, 2, 3]) {ng : Nat}
    (hw : Wider dN ng) (sel : Nat → Nat → Bool) (M : MMem K) : ∃ M', CommAll m ng sel M M' := by
  have h1 : 1 ≤ dN.length := by simp at hD; omega
  have h3 : dN.length ≤ 3 := by simp at hD; omega
  have key : ∀ a c, ∃ G : Fields K, communicateFields m ng (fun r i => M r ⟨a, c, i⟩) = .ok G := by
    intro a c
    obtain ⟨G, hG, _⟩ := C14_halo_exchange h hb.good h1 h3 hw.wide (fun r i => M r ⟨a, c, i⟩)
    exact ⟨G, hG⟩
  choose G hG using key
  refine ⟨fun r l => if sel l.arr l.comp then G l.arr l.comp r l.idx else M r l, fun a c => ⟨?_, ?_⟩⟩
  · intro hs; rw [hG a c]; simp [hs]
  · intro hs r i; simp [hs]

theorem exists_boundaries (hD : dN.length ∈ [1, 2, 3]) (ng : Nat) (setE setB : Bool) :
    ∀ (ds : List Direction), (∀ d ∈ ds, d ∈ orthDirs dN.length) → ∀ M : MMem K,
      ∃ M', boundariesIn m ng setE setB ds M M' := by
  intro ds
  induction ds with
  | nil => intro _ M; exact ⟨M, fun _ _ => rfl⟩
  | cons d ds ih =>
    intro hds M
    obtain ⟨a, s, _, _, e1, e2, _⟩ := orth_table hD (hds d (by simp))
    have key : ∀ r, ∃ m' : Mem K, if globalBC m a s = .CONDUCTOR ∧ dirBC m r d = .ok .CONDUCTOR then
        conductor ⟨ng, sizes m r⟩ a (decide (0 < s)) setE setB (M r) m' else m' = M r := by
      intro r
      split
      · exact launch_exists _ _ _
      · exact ⟨_, rfl⟩
    choose M1 h1 using key
    obtain ⟨M2, h2⟩ := ih (fun d hd => hds d (by simp [hd])) M1
    exact ⟨M2, M1, ⟨a, s, e1, e2, fun r _ => h1 r⟩, h2⟩

theorem exists_deposited (m : Meta) (ng : Nat) (j : Nat → List Int → K) (M : MMem K) :
    ∃ M', deposited m ng j M M' := by
  refine ⟨fun r l => if l.arr = 1 then j l.comp (latticePos m ng r l.idx) else M r l, ?_, ?_⟩
  · intro r l hl; simp [hl]
  · intro r i c _ _ _; simp

/-- As `divExt_congr`, with the offsets along the other axes at most one. -/
theorem divExt_congr1 {D : Nat} (hD : D ∈ [1, 2, 3]) (c : Coeffs K) {F G : Nat → List Int → K}
    (h : ∀ a, a < D → ∀ o : List Int, o.length = D → (∀ x ∈ o, (-2 : Int) ≤ x ∧ x ≤ 2) →
      (∀ b, b < D → b ≠ a → o.getD b 0 ≤ 1) → F a o = G a o) :
    divExt D c F = divExt D c G := by
  simp only [List.mem_cons, List.not_mem_nil, or_false] at hD
  rcases hD with rfl | rfl | rfl
  · rw [divExt1, divExt1]
    repeat rw [h 0 (by decide) _ (by decide) (by decide) (by decide)]
  · rw [divExt2, divExt2]
    repeat rw [h 0 (by decide) _ (by decide) (by decide) (by decide)]
    repeat rw [h 1 (by decide) _ (by decide) (by decide) (by decide)]
  · rw [divExt3, divExt3]
    repeat rw [h 0 (by decide) _ (by decide) (by decide) (by decide)]
    repeat rw [h 1 (by decide) _ (by decide) (by decide) (by decide)]
    repeat rw [h 2 (by decide) _ (by decide) (by decide) (by decide)]

theorem divExt_good (h : Built m dN) (hb : WallBox m) (hD : dN.length ∈ [1, 2, 3]) {ng : Nat} (hng : 2 ≤ ng)
    (hw : Wider dN ng) (c : Coeffs K) {M : MMem K} {G : Mem K}
    (hs : ShowsOn m (dN.map List.sum) ng (fun _ _ => True) (· < 6) M G) {r : Nat} {i : List Int}
    (hi : Active m ng r i) :
    divExt dN.length c (magnetic (M r) i) = divExt dN.length c (magnetic G (latticePos m ng r i)) := by
  obtain ⟨off, n, g⟩ := geo h hb hw (active_lt hi)
  obtain ⟨hil, hib⟩ := (g.act i).1 hi
  obtain ⟨p1, p2⟩ := g.pos i hil
  refine divExt_congr1 hD c fun a ha o ho hob hoh => ?_
  unfold magnetic
  have e := latticePos_add g hil ho
  rw [← e]
  have hD3 : dN.length ≤ 3 := by simp at hD; omega
  refine hs r _ (3 + a) (by omega) (near_inArray h hi ho fun x hx => ?_) fun b hwb => ⟨fun _ => trivial, fun _ => ⟨trivial, ?_⟩⟩
  · have := hob x hx; omega
  · rintro ⟨hh, he⟩
    have hbl := wallAxis_lt h hb hwb
    have hba : b ≠ a := by
      rintro rfl
      simp [halfAlong] at hh
      omega
    have u := hoh b hbl hba
    have bb := hib b hbl
    have w := g.wide b hbl
    rw [e, getD_zipWith_add (by omega), p2 b hbl] at he
    omega

theorem latticeRun_div (m : Meta) (N : List Nat) {D : Nat} (hD : D ∈ [1, 2, 3]) {c : Coeffs K} {p : List Int} (hp : p.length = D) :
    ∀ {ops : List (WOp K)} (_ : ∀ op ∈ ops, ∀ dT dx c', op = .faraday dT dx c' → c' = c) (G : Mem K),
    divExt D c (magnetic (latticeRun m N D ops G) p) = divExt D c (magnetic G p) := by
  intro ops
  induction ops with
  | nil => intro _ G; rfl
  | cons op ops ih =>
    intro hc G
    rw [latticeRun, ih (fun o ho => hc o (by simp [ho]))]
    have hB : ∀ (dT dx : K), divExt D c (magnetic (onLattice D (ampere D dT dx) G) p) = divExt D c (magnetic G p) := by
      intro dT dx
      refine divExt_congr hD c fun a _ o ho _ => ?_
      exact onLattice_other (ampere_own hD dT dx) G (by simp [hp, ho]) (by simp [selE])
    match op with
    | .faraday dT dx c' =>
      have := hc _ (by simp) dT dx c' rfl
      subst this
      exact faraday_div c' hD dT dx G hp
    | .electric dT dx none => exact hB dT dx
    | .electric dT dx (some (coeff, _, j)) =>
      rw [← hB dT dx]
      refine divExt_congr hD c fun a _ o ho _ => ?_
      show _ + (if 3 + a < 3 then _ else _) = _
      rw [if_neg (by omega), add_zero]
      rfl

/-! ## C143 -/

/-- **C143 (method of images).** A box whose axes are periodic or end in conducting walls on both sides,
divided in any way into subdomains wider than the ghost layer, in one to three dimensions, with any
initial fields `f`.  Any sequence of updates of the magnetic field and of the electric field, with or
without currents, each followed by the exchange between ranks and by the boundary conditions, leaves in
every cell of every rank what the equations on an unbounded lattice make of the images of `f`: no walls,
ranks or ghost cells.  This includes the ghost cells, except for components between the nodes of the
outermost layer beyond an upper wall. -/
theorem C143_images_partial (h2 : (2 : K) ≠ 0) (h : Built m dN) (hb : WallBox m) (hD : dN.length ∈ [1, 2, 3])
    {ng : Nat} (hng : 2 ≤ ng) (hw : Wider dN ng) {f : Nat → List Int → K} {M M0 M' : MMem K}
    (hf : ∀ r i c, c < 6 → Active m ng r i → M r ⟨0, c, i⟩ = f c (latticePos m ng r i))
    (hi : initial m ng M M0) {ops : List (WOp K)} (hr : RunsW m dN.length ng ops M0 M') {r : Nat} {i : List Int}
    (hin : InArray m ng r i) {c : Nat} (hc : c < 6)
    (ho : ∀ o, isWallAxis m o = true → halfAlong c o = true →
      (latticePos m ng r i).getD o 0 ≠ (dN.map List.sum).getD o 0 + ng - 1) :
    M' r ⟨0, c, i⟩ = latticeRun m (dN.map List.sum) dN.length ops (imageMem m (dN.map List.sum) f)
      ⟨0, c, latticePos m ng r i⟩ := by
  obtain ⟨hG, hs⟩ := initial_shows h2 h hb hD hng hw hf hi
  exact (runs_shows_walls h2 h hb hD hng hw hr hG hs).2 r i c hc hin
    fun o hwo => ⟨fun _ => trivial, fun _ => ⟨trivial, fun hh => ho o hwo hh.1 hh.2⟩⟩

/-- The active cells are among them. -/
theorem C143_active_partial (h2 : (2 : K) ≠ 0) (h : Built m dN) (hb : WallBox m) (hD : dN.length ∈ [1, 2, 3])
    {ng : Nat} (hng : 2 ≤ ng) (hw : Wider dN ng) {f : Nat → List Int → K} {M M0 M' : MMem K}
    (hf : ∀ r i c, c < 6 → Active m ng r i → M r ⟨0, c, i⟩ = f c (latticePos m ng r i))
    (hi : initial m ng M M0) {ops : List (WOp K)} (hr : RunsW m dN.length ng ops M0 M') {r : Nat} {i : List Int}
    (ha : Active m ng r i) {c : Nat} (hc : c < 6) :
    M' r ⟨0, c, i⟩ = latticeRun m (dN.map List.sum) dN.length ops (imageMem m (dN.map List.sum) f)
      ⟨0, c, latticePos m ng r i⟩ := by
  refine C143_images_partial h2 h hb hD hng hw hf hi hr (active_inArray ha) hc fun o hwo _ he => ?_
  obtain ⟨off, n, g⟩ := geo h hb hw (active_lt ha)
  obtain ⟨hil, hib⟩ := (g.act i).1 ha
  have hol := wallAxis_lt h hb hwo
  have := hib o hol
  have := g.wide o hol
  rw [(g.pos i hil).2 o hol] at he
  omega

/-- **C143 (decomposition).** Two runs of the same box, divided in two ways, with the same initial fields
and the same operations have the same fields in every cell of the box. -/
theorem C143_decomposition_partial (h2 : (2 : K) ≠ 0) {m1 m2 : Meta} {d1 d2 : List (List Nat)} (h1 : Built m1 d1)
    (h1' : Built m2 d2) (hb : WallBox m1) (hbc : m1.bcs = m2.bcs) (hN : d1.map List.sum = d2.map List.sum)
    (hD : d1.length ∈ [1, 2, 3]) {ng : Nat} (hng : 2 ≤ ng) (hw1 : Wider d1 ng) (hw2 : Wider d2 ng)
    {f : Nat → List Int → K} {M M0 M' L L0 L' : MMem K}
    (hf : ∀ r i c, c < 6 → Active m1 ng r i → M r ⟨0, c, i⟩ = f c (latticePos m1 ng r i))
    (hf' : ∀ r i c, c < 6 → Active m2 ng r i → L r ⟨0, c, i⟩ = f c (latticePos m2 ng r i))
    (hi : initial m1 ng M M0) (hi' : initial m2 ng L L0) {ops : List (WOp K)}
    (hr : RunsW m1 d1.length ng ops M0 M') (hr' : RunsW m2 d2.length ng ops L0 L')
    {r r' : Nat} {i i' : List Int} (ha : Active m1 ng r i) (ha' : Active m2 ng r' i')
    (hp : latticePos m1 ng r i = latticePos m2 ng r' i') {c : Nat} (hc : c < 6) :
    M' r ⟨0, c, i⟩ = L' r' ⟨0, c, i'⟩ := by
  have hl : d1.length = d2.length := by
    have := congrArg List.length hN
    simpa using this
  have hb2 : WallBox m2 := by
    have e1 : m1.counts.length = d1.length := by rw [h1.counts]; simp [Decomp.counts]
    have e2 : m2.counts.length = d2.length := by rw [h1'.counts]; simp [Decomp.counts]
    refine ⟨?_, ?_⟩
    · rw [← hbc, hb.1]; omega
    · rw [← hbc]; exact hb.2
  rw [C143_active_partial h2 h1 hb hD hng hw1 hf hi hr ha hc,
    C143_active_partial h2 h1' hb2 (hl ▸ hD) hng hw2 hf' hi' hr' ha' hc, hp, hN, hl,
    latticeRun_congr hbc]
  congr 1
  unfold imageMem image fold isWallAxis
  rw [hbc]

/-- **C143 (walls).** On the nodes of a wall, and on those of the wall's other end, the components that sit
there (the tangential electric and the normal magnetic field) are zero at all times, on every rank. -/
theorem C143_walls_partial (h2 : (2 : K) ≠ 0) (h : Built m dN) (hb : WallBox m) (hD : dN.length ∈ [1, 2, 3])
    {ng : Nat} (hng : 2 ≤ ng) (hw : Wider dN ng) {f : Nat → List Int → K} {M M0 M' : MMem K}
    (hf : ∀ r i c, c < 6 → Active m ng r i → M r ⟨0, c, i⟩ = f c (latticePos m ng r i))
    (hi : initial m ng M M0) {ops : List (WOp K)} (hr : RunsW m dN.length ng ops M0 M') {r : Nat} {i : List Int}
    (hin : InArray m ng r i) {c o : Nat} (hc : c < 6) (hwo : isWallAxis m o = true) (hh : halfAlong c o = false)
    (hp : (latticePos m ng r i).getD o 0 = 0 ∨ (latticePos m ng r i).getD o 0 = (dN.map List.sum).getD o 0)
    (ho : ∀ b, isWallAxis m b = true → halfAlong c b = true →
      (latticePos m ng r i).getD b 0 ≠ (dN.map List.sum).getD b 0 + ng - 1) :
    M' r ⟨0, c, i⟩ = 0 := by
  rw [C143_images_partial h2 h hb hD hng hw hf hi hr hin hc ho]
  obtain ⟨hG, hs⟩ := initial_shows h2 h hb hD hng hw hf hi
  have hG' := (runs_shows_walls h2 h hb hD hng hw hr hG hs).1
  have hol := wallAxis_lt h hb hwo
  have hpl := good_latticePos_len h hb hw hin
  have key : ∀ A : Int, (latticePos m ng r i).getD o 0 = A - (latticePos m ng r i).getD o 0 →
      (latticePos m ng r i).set o (A - (latticePos m ng r i).getD o 0 - 0) = latticePos m ng r i := by
    intro A e
    rw [← e, sub_zero]
    apply List.ext_getElem (by simp)
    intro k k1 k2
    rw [List.getElem_set]
    split
    · rename_i e; subst e; exact getD_lt _ _
    · rfl
  rcases hp with hp | hp
  · have := hG'.lower o hol hwo c (latticePos m ng r i) hc hpl
    rw [hh, if_neg (by simp), if_neg (by simp), key 0 (by omega)] at this
    exact zero_of_neg_eq h2 this
  · have := hG'.upper o hol hwo c (latticePos m ng r i) hc hpl
    rw [hh, if_neg (by simp), if_neg (by simp), key _ (by omega)] at this
    exact zero_of_neg_eq h2 this

/-- **C143 (divergence).** The divergence of `B`, taken with the differences of the solver, is the same in
every active cell as after the start, also next to the walls. -/
theorem C143_divergence_partial (h2 : (2 : K) ≠ 0) (h : Built m dN) (hb : WallBox m) (hD : dN.length ∈ [1, 2, 3])
    {ng : Nat} (hng : 2 ≤ ng) (hw : Wider dN ng) {f : Nat → List Int → K} {M M0 M' : MMem K}
    (hf : ∀ r i c, c < 6 → Active m ng r i → M r ⟨0, c, i⟩ = f c (latticePos m ng r i))
    (hi : initial m ng M M0) {ops : List (WOp K)} (hr : RunsW m dN.length ng ops M0 M') {c : Coeffs K}
    (hc : ∀ op ∈ ops, ∀ dT dx c', op = .faraday dT dx c' → c' = c) {r : Nat} {i : List Int} (ha : Active m ng r i) :
    divExt dN.length c (magnetic (M' r) i) = divExt dN.length c (magnetic (M0 r) i) := by
  obtain ⟨hG, hs⟩ := initial_shows h2 h hb hD hng hw hf hi
  obtain ⟨_, hs'⟩ := runs_shows_walls h2 h hb hD hng hw hr hG hs
  rw [divExt_good h hb hD hng hw c hs' ha, divExt_good h hb hD hng hw c hs ha,
    latticeRun_div m _ hD (good_latticePos_len h hb hw (active_inArray ha)) hc]

/-- **C143 (no failure).** From any fields, any sequence of operations can be carried out. -/
theorem C143_runs_exist_partial (h : Built m dN) (hb : WallBox m) (hD : dN.length ∈ [1, 2, 3]) {ng : Nat}
    (hw : Wider dN ng) (ops : List (WOp K)) (M : MMem K) :
    ∃ M0 M', initial m ng M M0 ∧ RunsW m dN.length ng ops M0 M' := by
  have hcl : m.counts.length = dN.length := by rw [h.counts]; simp [Decomp.counts]
  have hbd : ∀ (setE setB : Bool) (M : MMem K), ∃ M', fieldBoundaries m ng setE setB M M' := by
    intro setE setB M
    unfold fieldBoundaries
    rw [hcl]
    exact exists_boundaries hD ng setE setB _ (fun d hd => hd) M
  have hel : ∀ (dT dx : K) (dep : Option (K × K)) (M : MMem K), ∃ M', Does m dN.length ng (.electric dT dx dep) M M' := by
    intro dT dx dep M
    obtain ⟨Ma, ha⟩ := exists_launchAll m ng (fun _ t => atCell (ampere dN.length dT dx) t) M
    match dep with
    | none =>
      obtain ⟨M', hc⟩ := exists_commW h hb hD hw (fun a c => selE a c || selJ a c) Ma
      exact ⟨M', Ma, Ma, ha, rfl, hc⟩
    | some (coeff, ppc0) =>
      obtain ⟨Mb, hb'⟩ := exists_launchAll m ng (fun _ t => atCell (currentsAmpere dN.length coeff ppc0) t) Ma
      obtain ⟨M', hc⟩ := exists_commW h hb hD hw (fun a c => selE a c || selJ a c) Mb
      exact ⟨M', Ma, Mb, ha, hb', hc⟩
  have hruns : ∀ (ops : List (WOp K)) (M : MMem K), ∃ M', RunsW m dN.length ng ops M M' := by
    intro ops
    induction ops with
    | nil => intro M; exact ⟨M, .nil M⟩
    | cons op ops ih =>
      intro M
      have : ∃ M1, doesW m dN.length ng op M M1 := by
        match op with
        | .faraday dT dx c =>
          obtain ⟨Ma, ha⟩ := exists_launchAll m ng (fun _ t => atCell (faraday dN.length dT dx c) t) M
          obtain ⟨M', hc⟩ := exists_commW h hb hD hw selB Ma
          obtain ⟨M1, h1⟩ := hbd false true M'
          exact ⟨M1, M', ⟨Ma, ha, hc⟩, h1⟩
        | .electric dT dx none =>
          obtain ⟨M', h'⟩ := hel dT dx none M
          obtain ⟨M1, h1⟩ := hbd true false M'
          exact ⟨M1, M', h', h1⟩
        | .electric dT dx (some (coeff, ppc0, j)) =>
          obtain ⟨Md, hd⟩ := exists_deposited m ng j M
          obtain ⟨M', h'⟩ := hel dT dx (some (coeff, ppc0)) Md
          obtain ⟨M1, h1⟩ := hbd true false M'
          exact ⟨M1, Md, M', hd, h', h1⟩
      obtain ⟨M1, h1⟩ := this
      obtain ⟨M2, hr⟩ := ih M1
      exact ⟨M2, .cons h1 hr⟩
  obtain ⟨Mc, hc⟩ := exists_commW h hb hD hw (fun a c => selE a c || selB a c) M
  obtain ⟨M0, h0⟩ := hbd true true Mc
  obtain ⟨M', hr⟩ := hruns ops M0
  exact ⟨M0, M', ⟨Mc, hc, h0⟩, hr⟩

/-! ## The hypotheses can be met -/

/-- Walls in x1, periodic in x2, four ranks. -/
def tubeMeta : Meta where
  counts := [2, 2]
  doms := (createDomains 4 [[3, 4], [5, 3]]).getD []
  bcs := [(.CONDUCTOR, .CONDUCTOR), (.PERIODIC, .PERIODIC)]

/-- The same box on one rank. -/
def tubeMeta1 : Meta where
  counts := [1, 1]
  doms := (createDomains 1 [[7], [8]]).getD []
  bcs := [(.CONDUCTOR, .CONDUCTOR), (.PERIODIC, .PERIODIC)]

theorem tubeMeta_built : Built tubeMeta [[3, 4], [5, 3]] := ⟨by decide, rfl, by decide +kernel⟩
theorem tubeMeta1_built : Built tubeMeta1 [[7], [8]] := ⟨by decide, rfl, by decide +kernel⟩
theorem tubeMeta_box : WallBox tubeMeta := ⟨rfl, by decide⟩

/-- A leap-frog step with currents. -/
def tubeOps : List (WOp ℚ) :=
  [.faraday (1/4) (1/2) skew, .electric (1/2) (1/2) (some (3, 2, fun c p => c + p.getD 0 0)), .faraday (1/4) (1/2) skew]

/-- The same fields on four ranks and on one, and a leap-frog step of either. -/
example (f : Nat → List Int → ℚ) : ∃ M M0 M' L L0 L' : MMem ℚ,
    (∀ r i c, c < 6 → Active tubeMeta 2 r i → M r ⟨0, c, i⟩ = f c (latticePos tubeMeta 2 r i)) ∧
    (∀ r i c, c < 6 → Active tubeMeta1 2 r i → L r ⟨0, c, i⟩ = f c (latticePos tubeMeta1 2 r i)) ∧
    initial tubeMeta 2 M M0 ∧ initial tubeMeta1 2 L L0 ∧ RunsW tubeMeta 2 2 tubeOps M0 M' ∧
    RunsW tubeMeta1 2 2 tubeOps L0 L' := by
  obtain ⟨M0, M', h1, h2⟩ := C143_runs_exist_partial tubeMeta_built tubeMeta_box (by decide) (ng := 2)
    (by unfold Wider; decide) tubeOps (fun r l => f l.comp (latticePos tubeMeta 2 r l.idx))
  obtain ⟨L0, L', h3, h4⟩ := C143_runs_exist_partial tubeMeta1_built (⟨rfl, by decide⟩ : WallBox tubeMeta1) (by decide) (ng := 2)
    (by unfold Wider; decide) tubeOps (fun r l => f l.comp (latticePos tubeMeta1 2 r l.idx))
  exact ⟨_, M0, M', _, L0, L', fun _ _ _ _ _ => rfl, fun _ _ _ _ _ => rfl, h1, h3, h2, h4⟩

/-- Cell (3, 2) of rank 1, the second along x1, is cell (6, 2) of the undivided box, next to the upper wall;
three cells up is the image of the cell four below. -/
example : latticePos tubeMeta 2 1 [5, 4] = [6, 2] ∧ latticePos tubeMeta1 2 0 [8, 4] = [6, 2] ∧
    fold tubeMeta [7, 8] 1 0 9 = (-1, 5) ∧ fold tubeMeta [7, 8] 0 0 9 = (1, 4) ∧ fold tubeMeta [7, 8] 1 0 7 = (0, 0) ∧
    fold tubeMeta [7, 8] 1 1 (-1) = (1, 7) := by decide +kernel

end Entity.Walls
