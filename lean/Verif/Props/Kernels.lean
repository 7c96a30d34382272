import Verif.Lemmas.FieldOps
import Verif.Model.Rounded
import Mathlib.Algebra.Field.Rat

/-!
# C36: field kernels do not depend on the schedule; C76: they stay inside the arrays;
# C75: fields do not depend on the decomposition
-/

namespace Entity.FieldSolver

open Entity Entity.Topology Entity.Kernel Entity.Ranks Entity.Filter Entity.Decomp

variable {K : Type} [Add K] [Sub K] [Mul K] [Div K] [Neg K] [Zero K] [One K] [NatCast K] [IntCast K] {m : Meta} {dN : List (List Nat)}

/-- The parallel kernels that update fields on a grid. -/
inductive FieldKernel (K : Type) where
  | faraday (dT dx : K) (c : Coeffs K)
  | ampere (dT dx : K)
  | currents (coeff ppc0 : K)
  /-- with an external current -/
  | currentsExt (coeff ppc0 dx : K) (NG : Int) (xmin : List K) (ext : Nat → List K → K)
  | divergence (buffIdx : Fin 3)
  | filter (c : Cfg)
  /-- the filter on a two-dimensional spherical grid -/
  | filterSpherical (c : Cfg)

/-- The dimensions a kernel is made for. -/
def FieldKernel.Dims : FieldKernel K → Nat → Prop
  | .filterSpherical _, D => D = 2
  | _, D => D ∈ [1, 2, 3]

/-- What the kernel does at cell `t`, with offsets. -/
def FieldKernel.rel (D : Nat) : FieldKernel K → List Int → List (Assign K)
  | .faraday dT dx c, _ => Entity.FieldSolver.faraday D dT dx c
  | .ampere dT dx, _ => Entity.FieldSolver.ampere D dT dx
  | .currents coeff ppc0, _ => currentsAmpere D coeff ppc0
  | .currentsExt coeff ppc0 dx NG xmin ext, t =>
      extCurrent NG dx xmin ppc0 ext t ++ currentsAmpere D coeff ppc0
  | .divergence k, _ => Entity.FieldSolver.divergence D k
  | .filter c, t => filterCart c t
  | .filterSpherical c, t => filterSph c t

/-- What the kernel does at cell `t`. -/
def FieldKernel.body (D : Nat) (k : FieldKernel K) (t : List Int) : List (Assign K) :=
  atCell (k.rel D t) t

/-- What the kernel writes. -/
def FieldKernel.wr : FieldKernel K → Nat → Nat → Bool
  | .faraday .. => selB
  | .ampere .. => selE
  | .currents .. => selEJ
  | .currentsExt .. => selEJ
  | .divergence _ => selBuf
  | .filter _ => selJ
  | .filterSpherical _ => selJ

theorem FieldKernel.own (k : FieldKernel K) {D : Nat} (hk : k.Dims D) {t : List Int}
    (ht : t.length = D) : OwnCell D k.wr (k.rel D t) := by
  cases k with
  | faraday dT dx c => exact faraday_own hk dT dx c
  | ampere dT dx => exact ampere_own hk dT dx
  | currents coeff ppc0 => exact currentsAmpere_own hk coeff ppc0
  | currentsExt coeff ppc0 dx NG xmin ext =>
    refine ownB_append ?_ (currentsAmpere_own hk coeff ppc0)
    rw [← ht]; exact extCurrent_own NG dx xmin ppc0 ext t
  | divergence k => exact divergence_own hk k.2
  | filter c => rw [← ht]; exact filterCart_own c (by rw [ht]; exact hk)
  | filterSpherical c => rw [← ht]; exact filterSph_own c (ht.trans hk)

theorem filterSph_reach (c : Cfg) {t : List Int} (ht : t.length = 2) {ng : Nat}
    (hng : 1 ≤ ng) : Reach 2 ng (filterSph c t : List (Assign K)) := by
  match t, ht with
  | [i1, i2], _ =>
    simp only [filterSph, filter2sph]
    repeat' split
    all_goals exact reach_of (k := 1) (by kernel_rfl) hng

theorem FieldKernel.reach (k : FieldKernel K) {D : Nat} (hk : k.Dims D) {t : List Int}
    (ht : t.length = D) {ng : Nat} (hng : 2 ≤ ng) : Reach D ng (k.rel D t) := by
  cases k with
  | faraday dT dx c => exact faraday_reach hk hng dT dx c
  | ampere dT dx => exact ampere_reach hk hng dT dx
  | currents coeff ppc0 => exact currentsAmpere_reach hk hng coeff ppc0
  | currentsExt coeff ppc0 dx NG xmin ext =>
    refine reach_append ?_ (currentsAmpere_reach hk hng coeff ppc0)
    rw [← ht]; exact extCurrent_reach NG dx xmin ppc0 ext t ng
  | divergence k => exact divergence_reach hk hng k
  | filter c => rw [← ht]; exact filterCart_reach c (by rw [ht]; exact hk) hng
  | filterSpherical c =>
    have hk : D = 2 := hk
    subst hk; exact filterSph_reach c ht (by omega)

/-- A launched kernel at one of its cells. -/
theorem FieldKernel.launch_at (k : FieldKernel K) {D : Nat} (hk : k.Dims D)
    {cells : List (List Int)} (hc : ∀ t ∈ cells, t.length = D) {mem mem' : Mem K}
    (hl : Launch cells (k.body D) mem mem') {t : List Int} (ht : t ∈ cells) (a c : Nat) :
    mem' ⟨a, c, t⟩ = runBody (k.rel D t) (fun l => mem (l.at t)) ⟨a, c, here D⟩ := by
  have hloc : Local cells k.wr (k.body D) :=
    local_atCell (f := k.rel D) fun t ht => ⟨hc t ht, k.own hk (hc t ht)⟩
  rw [launch_result hloc hl, result, if_pos ht]
  have := runBody_at (D := D) (k.rel D t) (k.reach hk (hc t ht) (ng := 2) le_rfl).dimd (hc t ht) mem
    (l := ⟨a, c, here D⟩) (by simp [here])
  rw [← this]
  show runBody _ _ _ = runBody _ _ _
  congr 1
  simp only [Loc.at]
  rw [← hc t ht, here_at]

/-! ## C36 -/

/-- **C36.** Whatever the order and interleaving of the instructions of the cells: a field kernel
can always run to the end, there is exactly one memory it can leave, in that memory each processed
cell holds what its body alone makes of the *old* memory, and nothing else has changed. -/
theorem C36_schedule_independent (k : FieldKernel K) {D : Nat} (hk : k.Dims D)
    {cells : List (List Int)} (hc : ∀ t ∈ cells, t.length = D) (mem : Mem K) :
    ∃ mem', (∀ mem'', Launch cells (k.body D) mem mem'' ↔ mem'' = mem') ∧
      (∀ t ∈ cells, ∀ a c, mem' ⟨a, c, t⟩ = runBody (k.body D t) mem ⟨a, c, t⟩) ∧
      ∀ l, l.idx ∉ cells → mem' l = mem l := by
  have hloc : Local cells k.wr (k.body D) :=
    local_atCell (f := k.rel D) fun t ht => ⟨hc t ht, k.own hk (hc t ht)⟩
  refine ⟨result cells (k.body D) mem, fun mem'' => launch_iff hloc, ?_, ?_⟩
  · intro t ht a c
    simp only [result, if_pos ht]
  · intro l hl
    simp only [result, if_neg hl]

/-- The claim is not vacuous: smoothing *in place* (reading the array that is written) has two
different results, depending on the order of the cells. -/
def inPlace (t : List Int) : List (Assign ℚ) :=
  atCell [⟨⟨1, 0, [0]⟩, .add (.ld ⟨1, 0, [0]⟩) (.ld ⟨1, 0, [-1]⟩)⟩] t

/-- 1 in cell 0, 0 elsewhere -/
def bump : Mem ℚ := fun l => if l = ⟨1, 0, [0]⟩ then 1 else 0

example : ∃ m1 m2, Launch [[1], [2]] inPlace bump m1 ∧ Launch [[1], [2]] inPlace bump m2 ∧
    m1 ⟨1, 0, [2]⟩ = 1 ∧ m2 ⟨1, 0, [2]⟩ = 0 := by
  have done : ∀ (s : List (List Int)), (s = [[1], [1], [1], [1], [2], [2], [2], [2]] ∨
      s = [[2], [2], [2], [2], [1], [1], [1], [1]]) → ∀ t : List Int,
      ((s.foldl (fun s t => stepThread t s) (start [[1], [2]] inPlace bump)).1 t).code = [] := by
    intro s hs t
    by_cases h1 : t = [1]
    · subst h1; rcases hs with rfl | rfl <;> rfl
    · by_cases h2 : t = [2]
      · subst h2; rcases hs with rfl | rfl <;> rfl
      · have h0 : ((start [[1], [2]] inPlace bump).1 t).code = [] := by
          simp [start, h1, h2]
        rcases hs with rfl | rfl <;>
        simp [stepThread, start, h1, h2, inPlace, atCell, compile, Ex.at, Ex.compile, Instr.run]
  exact ⟨_, _, ⟨_, done _ (.inl rfl), rfl⟩, ⟨_, done _ (.inr rfl), rfl⟩, by decide +kernel,
    by decide +kernel⟩

/-! ## C76 -/

/-- **C76.** On every subdomain, a field kernel launched on the active cells reads and writes only
elements of the arrays (active cells and ghost layers), if there are two or more ghost layers. -/
theorem C76_in_bounds (h : Built m dN) (k : FieldKernel K) (hk : k.Dims dN.length) {ng : Nat}
    (hng : 2 ≤ ng) {r : Nat} {t : List Int} (ht : Active m ng r t) {l : Loc}
    (hl : accessed (k.body dN.length t) l) : InArray m ng r l.idx := by
  have htl := active_length h (active_inArray ht)
  obtain ⟨a, ha, hl⟩ := hl
  obtain ⟨b, hb, rfl⟩ := List.mem_map.1 ha
  have hr := k.reach hk htl hng
  rcases hl with rfl | hl
  · obtain ⟨h1, h2⟩ := hr _ ⟨b, hb, .inl rfl⟩
    exact near_inArray h ht h1 h2
  · rw [loads_at] at hl
    obtain ⟨l', hl', rfl⟩ := List.mem_map.1 hl
    obtain ⟨h1, h2⟩ := hr _ ⟨b, hb, .inr hl'⟩
    exact near_inArray h ht h1 h2

/-- With a single ghost layer the extended stencil would leave the array: the bound is sharp. -/
example : ∃ l, accessed ((FieldKernel.faraday 1 1 Coeffs.yee : FieldKernel ℚ).body 2 [6, 7]) l ∧
    l.idx = [8, 7] := by
  refine ⟨⟨0, 2, [8, 7]⟩, ?_, rfl⟩
  rw [accessed_iff]
  decide +kernel

/-- The hypotheses hold for cell (2, 8) at the corner of the second subdomain. -/
example : Active perMeta 2 1 [2, 8] ∧ (FieldKernel.faraday 1 1 Coeffs.yee : FieldKernel ℚ).Dims 2 :=
  ⟨⟨⟨1, [1, 0], [5, 0], [6, 7]⟩, by decide +kernel, by
    refine .cons ?_ (.cons ?_ .nil) <;> decide⟩, by simp [FieldKernel.Dims]⟩

/-! ## C75 -/

/-- Two decompositions hold the same fields: whenever active cells stand for the same cell of the
box, they hold the same electric and magnetic fields and currents. -/
def SameFields (m m' : Meta) (N : List Nat) (ng : Nat) (M M' : MMem K) : Prop :=
  ∀ r i r' i' p, Active m ng r i → Active m' ng r' i' → globalPos m N ng r i = some p →
    globalPos m' N ng r' i' = some p → ∀ a c, selAll a c = true → M r ⟨a, c, i⟩ = M' r' ⟨a, c, i'⟩

omit [Add K] [Sub K] [Mul K] [Div K] [Neg K] [Zero K] [One K] [NatCast K] [IntCast K] in
/-- The active cells of a decomposition cover the box. -/
theorem cover (h : Built m dN) {ng : Nat} (hw : Wide dN ng) {p : List Int}
    (hpl : p.length = dN.length) (hpw : wrap (dN.map List.sum) p = p) :
    ∃ r i, Active m ng r i ∧ globalPos m (dN.map List.sum) ng r i = some p := by
  have hpos : ∀ l ∈ dN, 0 < l.sum := by
    intro l hl
    obtain ⟨x, hx⟩ := List.exists_mem_of_ne_nil l (h.ne l hl)
    have := (hw l hl x hx).1
    have := List.single_le_sum (fun _ _ => Nat.zero_le _) x hx
    omega
  have hb : ∀ a (h1 : a < p.length) (h2 : a < dN.length), 0 ≤ p[a] ∧ p[a] < (dN[a].sum : Int) ∧
      p[a] % (dN[a].sum : Int) = p[a] := by
    intro a h1 h2
    have h0 := hpos dN[a] (List.getElem_mem h2)
    have e : (wrap (dN.map List.sum) p)[a]'(by simp [wrap, h1, h2]) = p[a] := by
      simp only [hpw]
    simp only [wrap, List.getElem_zipWith, List.getElem_map] at e
    refine ⟨?_, ?_, e⟩
    · rw [← e]; exact Int.emod_nonneg _ (by omega)
    · rw [← e]; exact Int.emod_lt_of_pos _ (by omega)
  obtain ⟨doms, hd, _, _, hown, _⟩ := C03_tiling dN h.ne
  rw [h.doms] at hd
  cases hd
  have hin : InGrid (p.map Int.toNat) (dN.map List.sum) := by
    refine List.forall₂_iff_get.2 ⟨by simp [hpl], fun a h1 h2 => ?_⟩
    simp only [List.length_map] at h1 h2
    have := hb a h1 h2
    simp only [List.get_eq_getElem, List.getElem_map]
    omega
  obtain ⟨s, ⟨hs, ho⟩, _⟩ := hown _ hin
  obtain ⟨r, hr, hrs⟩ := List.getElem_of_mem hs
  obtain ⟨R, hR⟩ := h.getRec_lt hr
  have hl := hR.len
  have hdom := hR.dom
  rw [List.getElem?_eq_getElem hr, hrs] at hdom
  have hsm : s = mkSub r R := by simpa using hdom
  rw [hsm, owns_mkSub] at ho
  have hlen : R.length = p.length := by simpa using ho.length_eq
  have hbo : ∀ a (h1 : a < p.length) (h2 : a < R.length),
      (R[a].off : Int) ≤ p[a] ∧ p[a] < R[a].off + R[a].n := by
    intro a h1 h2
    have := (List.forall₂_iff_get.1 ho).2 a h2 (by simpa using h1)
    simp only [List.get_eq_getElem, List.getElem_map] at this
    have := hb a h1 (by omega)
    omega
  refine ⟨r, List.zipWith (fun x (A : AxisRec) => x - A.off + ng) p R, ?_, ?_⟩
  · refine (active_iff hR ng _).2 ⟨by simp [hpl, hlen], fun a h1 h2 => ?_⟩
    simp only [List.length_zipWith] at h2
    have := hbo a (by omega) h1
    simp only [List.getElem_zipWith]
    omega
  · unfold globalPos
    rw [hR.dom]
    simp only [Option.map_some, Option.some.injEq, mkSub]
    apply List.ext_getElem
    · simp [hl, hpl]
    · intro a h1 h2
      simp only [List.getElem_zipWith, List.getElem_zip, List.getElem_map]
      rw [← (hb a h2 (by omega)).2.2]
      congr 1
      have := hb a h2 (by omega)
      rw [this.2.2]
      ring

/-- **C75.** Let the same periodic box be decomposed in two ways among any numbers of ranks, with
the same fields in the active cells at the beginning.  After an exchange of all components and any
sequence of field operations (magnetic updates, electric updates with or without currents, filter
passes), each with its exchange, both decompositions hold the same fields in all active cells. -/
theorem C75_decomposition_independent {m' : Meta} {dN' : List (List Nat)} (h : Built m dN)
    (h' : Built m' dN') (hN : dN.map List.sum = dN'.map List.sum) (hp : AllPeriodic m)
    (hp' : AllPeriodic m') (hD : dN.length ∈ [1, 2, 3]) {ng : Nat} (hng : 2 ≤ ng) (hw : Wide dN ng)
    (hw' : Wide dN' ng) {I I' S S' F F' : MMem K}
    (hI : SameFields m m' (dN.map List.sum) ng I I') (hS : CommAll m ng selAll I S)
    (hS' : CommAll m' ng selAll I' S') {ops : List (Op K)} (hF : Runs m dN.length ng ops S F)
    (hF' : Runs m' dN.length ng ops S' F') : SameFields m m' (dN.map List.sum) ng F F' := by
  have h1 : 1 ≤ dN.length := by simp at hD; omega
  have h3 : dN.length ≤ 3 := by simp at hD; omega
  have hDD : dN'.length = dN.length := by
    have := congrArg List.length hN
    simpa using this.symm
  have : Inhabited K := ⟨0⟩
  obtain ⟨g, hg⟩ := exists_global h ng I
  have hg' : ShowsActive m' (dN'.map List.sum) ng selAll I' g := by
    intro a c hs r i p hi hip
    have hil := active_length h' (active_inArray hi)
    obtain ⟨hpl, hpw⟩ := globalPos_wrapped h' (active_lt hi) hil hip
    obtain ⟨q, j, hj, hjp⟩ := cover h hw (p := p) (by omega) (by rw [hN]; exact hpw)
    rw [← hI q j r i p hj hi hjp (by rw [hN]; exact hip) a c hs]
    exact hg a c rfl q j p hj hjp
  have s1 := shows_of_comm h hp h1 h3 hw hS (fun _ _ h => h) (fun a c _ => hg a c rfl)
  have s1' := shows_of_comm h' hp' (by omega) (by omega) hw' hS' (fun _ _ h => h) hg'
  have s2 := runs_shows h hp hD hng hw s1 hF
  rw [← hDD] at hF'
  have s2' := runs_shows h' hp' (by rw [hDD]; exact hD) hng hw' s1' hF'
  intro r i r' i' p hi hi' hip hip' a c hs
  rw [s2.active a c hs r i p hi hip, s2'.active a c hs r' i' p hi' (by rw [← hN]; exact hip'),
    hN, hDD]

/-- **C75 in floating-point numbers.** No law of arithmetic is used above, so that the fields agree to the
last bit in single and double precision (and any other binary format), where sums are not associative. -/
theorem C75_bitwise (F : Float.Fmt) {m m' : Meta} {dN dN' : List (List Nat)} (h : Built m dN)
    (h' : Built m' dN') (hN : dN.map List.sum = dN'.map List.sum) (hp : AllPeriodic m)
    (hp' : AllPeriodic m') (hD : dN.length ∈ [1, 2, 3]) {ng : Nat} (hng : 2 ≤ ng) (hw : Wide dN ng)
    (hw' : Wide dN' ng) {I I' S S' G G' : MMem (Float.Rounded F)}
    (hI : SameFields m m' (dN.map List.sum) ng I I') (hS : CommAll m ng selAll I S)
    (hS' : CommAll m' ng selAll I' S') {ops : List (Op (Float.Rounded F))} (hF : Runs m dN.length ng ops S G)
    (hF' : Runs m' dN.length ng ops S' G') : SameFields m m' (dN.map List.sum) ng G G' :=
  C75_decomposition_independent h h' hN hp hp' hD hng hw hw' hI hS hS' hF hF'

/-- In single precision `(2^24 + 1) + 1 ≠ 2^24 + (1 + 1)`. -/
example : let b : Float.Rounded Float.b32 := ⟨2 ^ 24⟩
    b + 1 + 1 ≠ b + (1 + 1) := by decide +kernel

/-- Any sequence of operations can be carried out. -/
theorem exists_runs (h : Built m dN) (hp : AllPeriodic m) (hD : dN.length ∈ [1, 2, 3]) {ng : Nat}
    (hw : Wide dN ng) (ops : List (Op K)) (M : MMem K) : ∃ M', Runs m dN.length ng ops M M' := by
  induction ops generalizing M with
  | nil => exact ⟨M, .nil M⟩
  | cons op ops ih =>
    have : ∃ M1, Does m dN.length ng op M M1 := by
      cases op with
      | faraday dT dx c =>
        obtain ⟨M1, h1⟩ := exists_launchAll m ng (fun _ t => atCell (faraday dN.length dT dx c) t) M
        obtain ⟨M2, h2⟩ := exists_comm h hp hD hw selB M1
        exact ⟨M2, M1, h1, h2⟩
      | electric dT dx dep =>
        obtain ⟨M1, h1⟩ := exists_launchAll m ng (fun _ t => atCell (ampere dN.length dT dx) t) M
        match dep with
        | none =>
          obtain ⟨M3, h3⟩ := exists_comm h hp hD hw (fun a c => selE a c || selJ a c) M1
          exact ⟨M3, M1, M1, h1, rfl, h3⟩
        | some (coeff, ppc0) =>
          obtain ⟨M2, h2⟩ := exists_launchAll m ng
            (fun _ t => atCell (currentsAmpere dN.length coeff ppc0) t) M1
          obtain ⟨M3, h3⟩ := exists_comm h hp hD hw (fun a c => selE a c || selJ a c) M2
          exact ⟨M3, M1, M2, h1, h2, h3⟩
      | filter =>
        obtain ⟨M1, h1⟩ := exists_launchAll m ng
          (fun r t => atCell (filterCart (filterCfg m ng r) t) t) (fun r => copyToBuffer (M r))
        obtain ⟨M2, h2⟩ := exists_comm h hp hD hw selJ M1
        exact ⟨M2, M1, h1, h2⟩
    obtain ⟨M1, h1⟩ := this
    obtain ⟨M2, h2⟩ := ih M1
    exact ⟨M2, .cons h1 h2⟩

/-- An 11 × 7 box in one piece. -/
def oneMeta : Meta where
  counts := [1, 1]
  doms := (Decomp.createDomains 1 [[11], [7]]).getD []
  bcs := [(.PERIODIC, .PERIODIC), (.PERIODIC, .PERIODIC)]

/-- The hypotheses of C75 can be met: the 11 × 7 box in two pieces and in one piece, with the same
non-uniform fields, both run through a whole sequence of operations. -/
example (ops : List (Op ℚ)) : ∃ I I' S S' F F' : MMem ℚ,
    SameFields perMeta oneMeta [11, 7] 2 I I' ∧ CommAll perMeta 2 selAll I S ∧
    CommAll oneMeta 2 selAll I' S' ∧ Runs perMeta 2 2 ops S F ∧ Runs oneMeta 2 2 ops S' F' ∧
    I 0 ⟨0, 1, [2, 4]⟩ = 2 ∧ I 1 ⟨0, 1, [2, 4]⟩ = 7 := by
  have hb1 : Built oneMeta [[11], [7]] := ⟨by decide, rfl, by decide +kernel⟩
  have hp : AllPeriodic perMeta := ⟨rfl, by decide⟩
  have hp1 : AllPeriodic oneMeta := ⟨rfl, by decide⟩
  have hw : Wide [[5, 6], [7]] 2 := by unfold Wide; decide
  have hw1 : Wide [[11], [7]] 2 := by unfold Wide; decide
  let f : Option (List Int) → ℚ := fun p => match p with
    | some [x, y] => x + y
    | _ => 0
  let I : MMem ℚ := fun r l => f (globalPos perMeta [11, 7] 2 r l.idx)
  let I' : MMem ℚ := fun r l => f (globalPos oneMeta [11, 7] 2 r l.idx)
  obtain ⟨S, hS⟩ := exists_comm perMeta_built hp (by decide) hw selAll I
  obtain ⟨S', hS'⟩ := exists_comm hb1 hp1 (by decide) hw1 selAll I'
  obtain ⟨F, hF⟩ := exists_runs perMeta_built hp (by decide) hw ops S
  obtain ⟨F', hF'⟩ := exists_runs hb1 hp1 (by decide) hw1 ops S'
  refine ⟨I, I', S, S', F, F', ?_, hS, hS', hF, hF', by decide +kernel, by decide +kernel⟩
  intro r i r' i' p _ _ hip hip' a c _
  show f _ = f _
  rw [hip, hip']

end Entity.FieldSolver
