import Verif.Lemmas.FieldSetter
import Verif.Props.Energy

/-!
# C131: initial fields, C132: conditional update of the fields
-/

namespace Entity.FieldSetter

open Entity Entity.Kernel Entity.Ranks Entity.Topology Entity.FieldOut

variable {K : Type} [Field K] {m : Meta} {dN : List (List Nat)}

omit [Field K] in
theorem eb_e (fs : Setter K) {c : Nat} (hc : c < 3) : fs.eb c = fs.e c := if_pos hc

omit [Field K] in
theorem eb_b (fs : Setter K) (c : Nat) : fs.eb (3 + c) = fs.b c := by
  unfold Setter.eb
  rw [if_neg (by omega), Nat.add_sub_cancel_left]

theorem sr_value (h : Built m dN) (hD : dN.length ∈ [1, 2, 3]) {ng : Nat} {fs : Setter K} {met : Nat → FMetric K}
    {M M' : MMem K} (hl : InitFields false m ng fs met M M') {r : Nat} {i : List Int} (hi : Active m ng r i)
    {c : Nat} (hc : c < 6) :
    M' r ⟨0, c, i⟩ = ((fs.eb c).map fun f => (met r).toU (c % 3) (fieldSite ng c i)
      (f ((met r).phys (fieldSite ng c i)))).getD (M r ⟨0, c, i⟩) := by
  have hr := active_lt hi
  have hil : i.length ∈ [1, 2, 3] := by rw [active_length h (active_inArray hi)]; exact hD
  have hl' : LaunchAll m ng (fun r t => litBody (fun c => (fs.eb c).map fun f =>
      (met r).toU (c % 3) (coord ng ((srHalf t.length).getD c []) t)
        (f ((met r).phys (coord ng ((srHalf t.length).getD c []) t)))) t) M M' := by
    unfold InitFields at hl
    simp only [Bool.false_eq_true, if_false] at hl
    intro r hr
    have := hl r hr
    simpa only [funext fun t => srBody_lit fs (met r) ng t] using this
  have := launch_lit (vals := fun r t c => (fs.eb c).map fun f =>
      (met r).toU (c % 3) (coord ng ((srHalf t.length).getD c []) t)
        (f ((met r).phys (coord ng ((srHalf t.length).getD c []) t)))) hl' hr ⟨0, c, i⟩
  rw [this, if_pos ⟨rfl, hc, (mem_activeCells hr).2 hi⟩]
  simp only [coord_site ng hil hc]

/-- **C131 (special relativity).** Every metric, every decomposition, every order of the threads: after the
initialisation each component of the fields for which the problem generator has a function holds, in every
active cell, the value of that function at the physical position where the component is defined,
converted from the orthonormal basis. -/
theorem C131_values (h : Built m dN) (hD : dN.length ∈ [1, 2, 3]) {ng : Nat} {fs : Setter K} {met : Nat → FMetric K}
    {M M' : MMem K} (hl : InitFields false m ng fs met M M') {r : Nat} {i : List Int} (hi : Active m ng r i)
    {c : Nat} (hc : c < 3) (f : List K → K) :
    (fs.e c = some f → M' r ⟨0, c, i⟩ =
      (met r).toU c (FieldsToPhys.site ng .edges c i) (f ((met r).phys (FieldsToPhys.site ng .edges c i)))) ∧
    (fs.b c = some f → M' r ⟨0, 3 + c, i⟩ =
      (met r).toU c (FieldsToPhys.site ng .faces c i) (f ((met r).phys (FieldsToPhys.site ng .faces c i)))) := by
  constructor
  · intro hf
    rw [sr_value h hD hl hi (by omega : c < 6), eb_e fs hc, hf]
    simp [fieldSite, hc, Nat.mod_eq_of_lt hc]
  · intro hf
    rw [sr_value h hD hl hi (by omega : 3 + c < 6), eb_b fs c, hf]
    have : (3 + c) % 3 = c := by omega
    simp [fieldSite, this]

/-- **C131 (nothing else).** Components without a function, ghost cells and all other arrays keep their
values; in general relativity a vector is left alone unless all three of its functions exist. -/
theorem C131_untouched (gr : Bool) {ng : Nat} {fs : Setter K} {met : Nat → FMetric K} {M M' : MMem K}
    (hl : InitFields gr m ng fs met M M') {r : Nat} (hr : r < m.doms.length) {a c : Nat} {i : List Int}
    (hx : a ≠ 0 ∨ 6 ≤ c ∨ ¬ Active m ng r i ∨ (gr = false ∧ c < 3 ∧ fs.e c = none) ∨ (gr = false ∧ 3 ≤ c ∧ fs.b (c - 3) = none) ∨
      (gr = true ∧ c < 3 ∧ ∃ k < 3, fs.d k = none) ∨ (gr = true ∧ 3 ≤ c ∧ ∃ k < 3, fs.b k = none)) :
    M' r ⟨a, c, i⟩ = M r ⟨a, c, i⟩ := by
  unfold InitFields at hl
  have three : ∀ (g : Nat → Option (List K → K)), (∃ k < 3, g k = none) →
      ¬ ((g 0).isSome = true ∧ (g 1).isSome = true ∧ (g 2).isSome = true) := by
    rintro g ⟨k, hk, hg⟩ ⟨h0, h1, h2⟩
    rcases k with _ | _ | _ | k
    · simp [hg] at h0
    · simp [hg] at h1
    · simp [hg] at h2
    · omega
  have fin : ∀ vals : Nat → List Int → Nat → Option K, (c < 6 → Active m ng r i → a = 0 → vals r i c = none) →
      LaunchAll m ng (fun r t => litBody (vals r t) t) M M' → M' r ⟨a, c, i⟩ = M r ⟨a, c, i⟩ := by
    intro vals hv hl
    rw [launch_lit hl hr]
    split_ifs with h1
    · obtain ⟨h1, h2, h3⟩ := h1
      simp only at h1 h2 h3
      rw [show vals r (Loc.mk a c i).idx (Loc.mk a c i).comp = none from hv h2 ((mem_activeCells hr).1 h3) h1]
      rfl
    · rfl
  cases gr with
  | false =>
    simp only [Bool.false_eq_true, if_false] at hl
    refine fin (fun r t c => (fs.eb c).map fun f =>
      (met r).toU (c % 3) (coord ng ((srHalf t.length).getD c []) t)
        (f ((met r).phys (coord ng ((srHalf t.length).getD c []) t)))) ?_ ?_
    · intro h1 h2 h3
      rw [Option.map_eq_none_iff]
      unfold Setter.eb
      rcases hx with hx | hx | hx | hx | hx | hx | hx
      · exact absurd h3 hx
      · omega
      · exact absurd h2 hx
      · rw [if_pos hx.2.1, hx.2.2]
      · rw [if_neg (by omega), hx.2.2]
      · exact absurd hx.1 (by simp)
      · exact absurd hx.1 (by simp)
    · intro r hr
      simpa only [funext fun t => srBody_lit fs (met r) ng t] using hl r hr
  | true =>
    simp only [if_true] at hl
    refine fin (fun r t c => (grFun fs c).map fun f =>
      f ((coord ng ((grHalf t.length).getD c []) t).mapIdx (met r).phys1)) ?_ ?_
    · intro h1 h2 h3
      rw [Option.map_eq_none_iff]
      unfold grFun
      rcases hx with hx | hx | hx | hx | hx | hx | hx
      · exact absurd h3 hx
      · omega
      · exact absurd h2 hx
      · exact absurd hx.1 (by simp)
      · exact absurd hx.1 (by simp)
      · rw [if_pos hx.2.1, if_neg (three _ hx.2.2)]
      · rw [if_neg (by omega), if_neg (three _ hx.2.2)]
    · intro r hr
      simpa only [funext fun t => grBody_lit fs (met r) ng t] using hl r hr

/-- The initialisation always ends. -/
theorem C131_ends (gr : Bool) (m : Meta) (ng : Nat) (fs : Setter K) (met : Nat → FMetric K) (M : MMem K) :
    ∃ M', InitFields gr m ng fs met M M' := by
  unfold InitFields LaunchAll
  choose f hf using fun r => launch_exists (activeCells m ng r)
    (if gr = true then grBody fs (met r) ng else srBody fs (met r) ng) (M r)
  exact ⟨f, fun r _ => hf r⟩

/-- **C131 (decomposition).** Starting from arrays of zeros, the initial fields do not depend on the number of
ranks or on the decomposition: there are global fields, given by the functions and the metric alone, which
the active cells of all ranks hold after the initialisation, whatever the boundaries; and after the
exchange before the first step of a periodic box the ghost cells hold them too. -/
theorem C131_decomposition (fs : Setter K) (G : FMetric K) :
    ∃ g : GMem K, ∀ (m : Meta) (dN : List (List Nat)) (ng : Nat) (met : Nat → FMetric K) (M M' : MMem K),
      Built m dN → dN.length ∈ [1, 2, 3] → Wide dN ng → SeesMetric m met G →
      (∀ r i c, M r ⟨0, c, i⟩ = 0) → InitFields false m ng fs met M M' →
      ShowsActive m (dN.map List.sum) ng (fun a c => selE a c || selB a c) M' g ∧
      (AllPeriodic m → ∀ M0, CommAll m ng (fun a c => selE a c || selB a c) M' M0 →
        Shows m (dN.map List.sum) ng (fun a c => selE a c || selB a c) M0 g) := by
  refine ⟨fun _ c p => ((fs.eb c).map fun f => G.toU (c % 3) (fieldSite 0 c p) (f (G.phys (fieldSite 0 c p)))).getD 0,
    fun m dN ng met M M' h hD hw hS h0 hl => ?_⟩
  have hact : ShowsActive m (dN.map List.sum) ng (fun a c => selE a c || selB a c) M' (fun _ c p =>
      ((fs.eb c).map fun f => G.toU (c % 3) (fieldSite 0 c p) (f (G.phys (fieldSite 0 c p)))).getD 0) := by
    intro a c hs r i p hi hp
    obtain ⟨rfl, hc⟩ : a = 0 ∧ c < 6 := by
      simp only [selE, selB, Bool.or_eq_true, Bool.and_eq_true, beq_iff_eq, decide_eq_true_eq] at hs
      omega
    obtain ⟨s, hs1, hs2, rfl, _⟩ := FieldStats.globalPos_active h hi hp
    have hil := active_length h (active_inArray hi)
    obtain ⟨e1, e2⟩ := hS r s hs1 (fieldSite ng c i) (by rw [fieldSite_length, hil, hs2])
    rw [fieldSite_shift] at e1 e2
    rw [sr_value h hD hl hi hc, h0]
    simp only [e1, e2]
  refine ⟨hact, fun hp M0 hc => ?_⟩
  simp only [List.mem_cons, List.not_mem_nil, or_false] at hD
  exact shows_of_comm h hp (by omega) (by omega) hw hc (fun _ _ h => h) hact

/-! ## Cartesian grids -/

/-- `Minkowski` (minkowski.h:105-125, 158-215, 264-299): the extents begin at `lo`, the cells have size `dx`. -/
def mink (D : Nat) (dx : K) (lo : List K) : FMetric K where
  phys x := List.zipWith (fun l y => y * dx + l) lo x
  phys1 a y := y * dx + lo.getD a 0
  toU c _ v := if D ≤ c then v else v / dx
  toT _ v := v.mapIdx fun c y => if D ≤ c then y else y * dx

/-- **C131 (Cartesian grids).** The physical component of the field in the global cell `p` is the function of
the user at `lo + (p + 1/2 along the staggered axes) dx`. -/
theorem C131_cartesian (h : Built m dN) (hD : dN.length ∈ [1, 2, 3]) {ng : Nat} {fs : Setter K} {dx : K} (hdx : dx ≠ 0)
    {lo : List K} (hlo : lo.length = dN.length) {los : Nat → List K}
    (hlos : ∀ r s, m.doms[r]? = some s → los r = List.zipWith (fun l (o : Nat) => l + o * dx) lo s.offsetNcells)
    {M M' : MMem K} (hl : InitFields false m ng fs (fun r => mink dN.length dx (los r)) M M')
    {r : Nat} {i p : List Int} (hi : Active m ng r i) (hp : globalPos m (dN.map List.sum) ng r i = some p)
    {c : Nat} (hc : c < 3) (f : List K → K) :
    (fs.e c = some f → M' r ⟨0, c, i⟩ * (if c < dN.length then dx else 1) =
      f ((List.zip lo p).mapIdx fun a q => q.1 + ((q.2 : K) + if c = a then 1 / 2 else 0) * dx)) ∧
    (fs.b c = some f → M' r ⟨0, 3 + c, i⟩ * (if c < dN.length then dx else 1) =
      f ((List.zip lo p).mapIdx fun a q => q.1 + ((q.2 : K) + if c = a then 0 else 1 / 2) * dx)) := by
  obtain ⟨s, hs1, hs2, rfl, _⟩ := FieldStats.globalPos_active h hi hp
  have hil := active_length h (active_inArray hi)
  obtain ⟨v1, v2⟩ := C131_values h hD hl hi hc f
  have hpos : ∀ it : Interp, (mink dN.length dx (los r)).phys (FieldsToPhys.site ng it c i) =
      (List.zip lo (List.zipWith (fun (o : Nat) (x : Int) => (o : Int) + (x - ng)) s.offsetNcells i)).mapIdx
        fun a q => q.1 + ((q.2 : K) + if FieldsToPhys.half it c a then 1 / 2 else 0) * dx := by
    intro it
    simp only [mink, hlos r s hs1, FieldsToPhys.site]
    apply List.ext_getElem
    · simp [hlo, hil, hs2]
    · intro k k1 k2
      simp only [List.getElem_zipWith, List.getElem_mapIdx, List.getElem_zip]
      push_cast
      ring
  have hsc : ∀ x v, (mink dN.length dx (los r)).toU c x v * (if c < dN.length then dx else 1) = v := by
    intro x v
    simp only [mink]
    by_cases hh : c < dN.length
    · rw [if_neg (by omega), if_pos hh, div_mul_cancel₀ _ hdx]
    · rw [if_pos (by omega), if_neg hh, mul_one]
  constructor
  · intro hf
    rw [v1 hf, hsc, hpos]
    simp [FieldsToPhys.half]
  · intro hf
    rw [v2 hf, hsc, hpos]
    congr 2
    funext a q
    by_cases hh : c = a <;> simp [FieldsToPhys.half, hh]

/-- Two ranks, ten cells of size 1/10 from 3: the first component of E is x². -/
example : ∃ M' : MMem ℚ,
    let fs : Setter ℚ := ⟨fun c => if c = 0 then some (fun x => x.getD 0 0 ^ 2) else none, fun _ => none, fun _ => none⟩
    InitFields false FieldSolver.lineMeta 2 fs
      (fun r => mink 1 (1 / 10) [if r = 0 then 3 else 3 + 4 / 10]) (fun _ _ => 0) M' ∧
    M' 1 ⟨0, 0, [3]⟩ * (1 / 10) = (3 + (5 + 1 / 2) * (1 / 10)) ^ 2 := by
  obtain ⟨M', hM⟩ := C131_ends false FieldSolver.lineMeta 2
    (⟨fun c => if c = 0 then some (fun x => x.getD 0 0 ^ 2) else none, fun _ => none, fun _ => none⟩ : Setter ℚ)
    (fun r => mink 1 (1 / 10) [if r = 0 then 3 else 3 + 4 / 10]) (fun _ _ => 0)
  refine ⟨M', hM, ?_⟩
  have := (C131_cartesian FieldSolver.lineMeta_built (by decide) (dx := (1 / 10 : ℚ)) (by norm_num) (lo := [3]) rfl
    (los := fun r => [if r = 0 then 3 else 3 + 4 / 10]) ?_ hM (r := 1) (i := [3]) (p := [5]) ?_ ?_ (c := 0)
    (by omega) _).1 rfl
  · simpa using this
  · intro r s hs
    rcases r with _ | _ | r
    · cases hs; norm_num
    · cases hs; norm_num
    · cases hs
  · exact (mem_activeCells (by decide +kernel)).1 (by decide +kernel)
  · decide +kernel

/-! ## General relativity -/

/-- **C131 (general relativity), partial.** If all three functions of a vector exist, its components hold in
every active cell exactly what the functions return at the physical position where the component is
defined.  Missing: the comment in the header says the functions return components in the physical basis,
which the kernel converts; it does not (next theorem). -/
theorem C131_gr_partial (h : Built m dN) (hD : dN.length ∈ [2, 3]) {ng : Nat} {fs : Setter K} {met : Nat → FMetric K}
    {M M' : MMem K} (hl : InitFields true m ng fs met M M') {r : Nat} {i : List Int} (hi : Active m ng r i)
    {c : Nat} (hc : c < 3) (f : Nat → List K → K) :
    ((∀ k < 3, fs.d k = some (f k)) →
      M' r ⟨0, c, i⟩ = f c ((FieldsToPhys.site ng .edges c i).mapIdx (met r).phys1)) ∧
    ((∀ k < 3, fs.b k = some (f k)) →
      M' r ⟨0, 3 + c, i⟩ = f c ((FieldsToPhys.site ng .faces c i).mapIdx (met r).phys1)) := by
  have hr := active_lt hi
  have hil : i.length = dN.length := active_length h (active_inArray hi)
  have hil' : i.length ∈ [1, 2, 3] := by
    rw [hil]; simp only [List.mem_cons, List.not_mem_nil, or_false] at hD ⊢; omega
  unfold InitFields at hl
  simp only [if_true] at hl
  have hl' : LaunchAll m ng (fun r t => litBody (fun c => (grFun fs c).map fun f =>
      f ((coord ng ((grHalf t.length).getD c []) t).mapIdx (met r).phys1)) t) M M' := by
    intro r hr
    simpa only [funext fun t => grBody_lit fs (met r) ng t] using hl r hr
  have val : ∀ c < 6, M' r ⟨0, c, i⟩ = ((grFun fs c).map fun f => f ((fieldSite ng c i).mapIdx (met r).phys1)).getD
      (M r ⟨0, c, i⟩) := by
    intro c hc
    have := launch_lit (vals := fun r t c => (grFun fs c).map fun f =>
      f ((coord ng ((grHalf t.length).getD c []) t).mapIdx (met r).phys1)) hl' hr ⟨0, c, i⟩
    rw [this, if_pos ⟨rfl, hc, (mem_activeCells hr).2 hi⟩]
    have hD' : i.length ∈ [2, 3] := hil ▸ hD
    simp only [grHalf_eq hD', coord_site ng hil' hc]
  constructor
  · intro hf
    have h0 := hf 0 (by omega)
    have h1 := hf 1 (by omega)
    have h2 := hf 2 (by omega)
    rw [val c (by omega)]
    simp [grFun, hc, h0, h1, h2, hf c hc, fieldSite, Nat.mod_eq_of_lt hc]
  · intro hf
    have h0 := hf 0 (by omega)
    have h1 := hf 1 (by omega)
    have h2 := hf 2 (by omega)
    rw [val (3 + c) (by omega)]
    have e1 : ¬ 3 + c < 3 := by omega
    have e2 : 3 + c - 3 = c := by omega
    have e3 : (3 + c) % 3 = c := by omega
    simp [grFun, e1, e2, e3, h0, h1, h2, hf c hc, fieldSite]

/-- In general relativity the functions are documented to return components in the physical basis.  Whenever
the conversion from code to physical components is not the identity on the value, what is stored is
not the prescribed physical component. -/
theorem C131_basis_counterexample (h : Built m dN) (hD : dN.length ∈ [2, 3]) {ng : Nat} {fs : Setter K}
    {met : Nat → FMetric K} {M M' : MMem K} (hl : InitFields true m ng fs met M M') {r : Nat} {i : List Int}
    (hi : Active m ng r i) (f : Nat → List K → K) (hf : ∀ k < 3, fs.d k = some (f k)) (toPU : List K → K → K) {scale : K}
    (hPU : ∀ x v, toPU x v = v * scale) (hs : scale ≠ 1)
    (hv : f 0 ((FieldsToPhys.site ng .edges 0 i).mapIdx (met r).phys1) ≠ 0) :
    toPU (FieldsToPhys.site ng .edges 0 i) (M' r ⟨0, 0, i⟩) ≠
      f 0 ((FieldsToPhys.site ng .edges 0 i).mapIdx (met r).phys1) := by
  rw [(C131_gr_partial h hD hl hi (by omega : 0 < 3) f).1 hf, hPU]
  intro e
  exact hs (mul_left_cancel₀ hv (by rw [e, mul_one]))

/-- A 2D grid on two ranks, cells of size 1/10: a function that returns one everywhere leaves a physical
component of 1/10. -/
example : ∃ M' : MMem ℚ,
    InitFields true Topology.perMeta 2 ⟨fun _ => none, fun _ => none, fun _ => some fun _ => 1⟩ (fun _ => mink 2 (1 / 10) [1, 0])
      (fun _ _ => 0) M' ∧ M' 1 ⟨0, 0, [3, 4]⟩ * (1 / 10) = 1 / 10 ∧ M' 1 ⟨0, 3, [3, 4]⟩ = 0 := by
  obtain ⟨M', hM⟩ := C131_ends true Topology.perMeta 2
    (⟨fun _ => none, fun _ => none, fun _ => some fun _ => 1⟩ : Setter ℚ) (fun _ => mink 2 (1 / 10) [1, 0]) (fun _ _ => 0)
  refine ⟨M', hM, ?_, ?_⟩
  · rw [(C131_gr_partial Topology.perMeta_built (by decide) hM (r := 1) (i := [3, 4])
      ((mem_activeCells (by decide +kernel)).1 (by decide +kernel)) (c := 0) (by omega) fun _ _ => 1).1 fun _ _ => rfl]
    norm_num
  · exact C131_untouched true hM (by decide +kernel) (.inr (.inr (.inr (.inr (.inr (.inr ⟨rfl, by omega, 0, by omega, rfl⟩))))))

/-! ## Conditional update -/

/-- **C132 (the call as it is).** For every problem generator with at least one function, every metric, every
non-empty range of cells in every order: `UpdateEMFields` reads from a view without memory. -/
theorem C132_buffer_counterexample (fs : CSetter K) {c : Nat} (hc : c < 6) (hf : fs c ≠ none) (met : FMetric K) (ng : Nat)
    {sched : List (List Int)} (hs : ∀ t ∈ sched, t.length ∈ [1, 2, 3]) (hne : sched ≠ []) (v : Mem K) :
    updateEMFields true fs met ng sched v = .ub := by
  obtain ⟨t, ts, rfl⟩ := List.exists_cons_of_ne_nil hne
  have ht := hs t (by simp)
  have hub : ∀ g ∈ groups t.length, g.2.all (fun c => (fs c).isNone) ≠ true → ∀ v, block fs met ng none t v g = .ub := by
    intro g hg hn v
    have hst : ∀ D ∈ [1, 2, 3], ∀ g ∈ groups D, ∃ o os s, stencil g.1 = (o :: os) :: s := by
      intro D hD g hg
      simp only [List.mem_cons, List.not_mem_nil, or_false] at hD
      rcases hD with rfl | rfl | rfl <;>
        simp only [groups, List.mem_cons, List.not_mem_nil, or_false] at hg
      · rcases hg with rfl | rfl <;> exact ⟨_, _, _, rfl⟩
      · rcases hg with rfl | rfl | rfl | rfl <;> exact ⟨_, _, _, rfl⟩
      · rcases hg with rfl | rfl | rfl | rfl | rfl | rfl <;> exact ⟨_, _, _, rfl⟩
    obtain ⟨o, os, s, he⟩ := hst _ ht g hg
    unfold block
    rw [if_neg hn, he]
    rfl
  have key : ∀ gs : List (List Bool × List Nat), (∀ g ∈ gs, g ∈ groups t.length) →
      (∃ g ∈ gs, g.2.all (fun c => (fs c).isNone) ≠ true) → ∀ v, gs.foldlM (block fs met ng none t) v = .ub := by
    intro gs
    induction gs with
    | nil => rintro _ ⟨g, hg, _⟩; cases hg
    | cons g gs ih =>
      intro hgs hex v
      rw [List.foldlM_cons]
      by_cases hn : g.2.all (fun c => (fs c).isNone) = true
      · have : block fs met ng none t v g = .ok v := by unfold block; rw [if_pos hn]
        rw [this]
        refine ih (fun g' hg' => hgs g' (by simp [hg'])) ?_ v
        obtain ⟨g', hg', hn'⟩ := hex
        rcases List.mem_cons.1 hg' with rfl | hg'
        · exact absurd hn hn'
        · exact ⟨g', hg', hn'⟩
      · rw [hub g (hgs g (by simp)) hn v]
        rfl
  have hcell : customCell fs met ng none t (deepCopy v) = .ub := by
    refine key _ (fun _ h => h) ?_ _
    have := (groups_all _ ht).mem_iff.2 (List.mem_range.2 hc)
    obtain ⟨g, hg, hcg⟩ := List.mem_flatMap.1 this
    refine ⟨g, hg, fun hall => hf ?_⟩
    have := List.all_eq_true.1 hall c hcg
    simpa [Option.isNone_iff_eq_none] using this
  unfold updateEMFields runCustom constructed
  rw [if_pos rfl, List.foldlM_cons, hcell]
  rfl

/-- Outside special relativity the call is refused. -/
theorem C132_grpic (fs : CSetter K) (met : FMetric K) (ng : Nat) (sched : List (List Int)) (v : Mem K) :
    updateEMFields false fs met ng sched v = .err := rfl

/-- **C132 (the kernel), partial.** If the kernel used the buffer it is given, then for every order of the cells:
each component of each cell of the range is set to the value its function returns for the old fields, or keeps its old
value; ghost cells and other arrays (apart from the buffer) are untouched.  Missing: the constructor drops the
buffer (`C132_buffer_counterexample`). -/
theorem C132_update_partial [CharZero K] (fs : CSetter K) (met : FMetric K) (ng : Nat) {sched : List (List Int)}
    (hs : ∀ t ∈ sched, t.length ∈ [1, 2, 3]) (v : Mem K) :
    ∃ v', runCustom fs met ng (some 9) sched (deepCopy v) = .ok v' ∧
      (∀ t ∈ sched, ∀ c < 6, v' ⟨0, c, t⟩ = prescribed fs met ng v c t) ∧
      (∀ a c t, a ≠ 9 → (a ≠ 0 ∨ 6 ≤ c ∨ t ∉ sched) → v' ⟨a, c, t⟩ = v ⟨a, c, t⟩) := by
  have h0 : Done fs met ng v (fun _ _ => False) (deepCopy v) := fun l => ⟨fun h => absurd h.2 id, fun _ => rfl⟩
  obtain ⟨v', e, d⟩ := run_done hs h0
  refine ⟨v', e, fun t ht c hc => (d ⟨0, c, t⟩).1 ⟨rfl, .inr ⟨ht, hc⟩⟩, fun a c t ha hx => ?_⟩
  rw [(d ⟨a, c, t⟩).2 ?_]
  · simp [deepCopy, ha]
  · rintro ⟨h1, h2 | ⟨h2, h3⟩⟩
    · exact h2
    · simp only at h1 h2 h3
      rcases hx with hx | hx | hx
      · exact hx h1
      · omega
      · exact hx h2

/-- **C132 (interpolation).** The average handed to the function of component `c` is exact for fields that are
linear along every axis (in code coordinates): it is the field where component `c` is defined. -/
theorem C132_interpolation [CharZero K] {ng : Nat} {w : Mem K} {k c : Nat} {t : List Int} {φ : List K → K}
    (hφ : FieldsToPhys.Multilinear φ)
    (h : ∀ n : List Int, n.length = t.length → (∀ d < t.length, |n.getD d 0 - t.getD d 0| ≤ 1) →
      w ⟨0, k, n⟩ = φ (fieldSite ng k n)) : nearMean w k c t = φ (fieldSite ng c t) := by
  unfold nearMean
  have hl : ((halves t.length k).zip (halves t.length c)).length = t.length := by simp [halves]
  have hm1 : ((halves t.length k).zip (halves t.length c)).map (·.1) = halves t.length k :=
    List.map_fst_zip (by simp [halves])
  have hm2 : ((halves t.length k).zip (halves t.length c)).map (·.2) = halves t.length c :=
    List.map_snd_zip (by simp [halves])
  have := nearest_sum ng ((halves t.length k).zip (halves t.length c)) φ hφ t hl.symm
  rw [hm1, hm2, halves_coord] at this
  have hne : ((nearest ((halves t.length k).zip (halves t.length c))).length : K) ≠ 0 :=
    Nat.cast_ne_zero.2 fun e => nearest_ne _ (List.length_eq_zero_iff.1 e)
  simp only
  rw [div_eq_iff hne, mul_comm, ← this]
  congr 1
  refine List.map_congr_left fun o ho => ?_
  obtain ⟨ho1, ho2⟩ := nearest_bound _ o ho
  rw [hl] at ho1
  rw [h _ (by simp [ho1]) fun d hd => ?_]
  · have hlen : (List.zipWith (· + ·) t o).length = t.length := by simp [ho1]
    have := halves_coord (K := K) ng (t := List.zipWith (· + ·) t o) (c := k)
    rw [hlen] at this
    rw [this]
  · have h1 : d < o.length := by omega
    have := ho2 o[d] (List.getElem_mem h1)
    simp only [List.getD_eq_getElem?_getD, List.getElem?_zipWith, List.getElem?_eq_getElem hd,
      List.getElem?_eq_getElem h1, Option.getD_some]
    rw [abs_le]
    omega

/-- A setter that doubles `E₂` where `B₁ = 2`, on a line. -/
example :
    let fs : CSetter ℚ := fun c => if c = 1 then some (fun _ e b => (b.getD 0 0 == 2, 2 * e.getD 1 0)) else none
    let v : Mem ℚ := fun l => match l with
      | ⟨0, 1, [i]⟩ => i
      | ⟨0, 3, [i]⟩ => i
      | _ => 0
    prescribed fs (mink 1 (1 / 2) [0]) 2 v 1 [3] = 3 ∧ prescribed fs (mink 1 (1 / 2) [0]) 2 v 1 [4] = 4 * 2 ∧
    prescribed fs (mink 1 (1 / 2) [0]) 2 v 2 [4] = 0 := by
  decide +kernel

end Entity.FieldSetter
