import Verif.Lemmas.FieldSolver
import Verif.Lemmas.Faraday
import Verif.Model.FieldOps
import Mathlib.Tactic.Choose

/-!
# Operations on all ranks of a periodic box act on the global field
-/

set_option linter.unusedSectionVars false

namespace Entity.FieldSolver

open Entity Entity.Topology Entity.Kernel Entity.Ranks Entity.Filter

variable {K : Type} [Add K] [Sub K] [Mul K] [Div K] [Neg K] [Zero K] [One K] [NatCast K] {m : Meta} {dN : List (List Nat)}

theorem unroll_globalStep (N : List Nat) (as : List (Assign K)) (g : GMem K) (l : Loc) :
    (globalStep N as g).unroll N l = stepAll N.length as (g.unroll N) l := by
  unfold GMem.unroll globalStep stepAll
  simp only [GMem.unroll]
  congr 1
  funext l'
  simp only [Loc.at, wrap_add]

/-- Values around an active cell. -/
theorem Shows.around (h : Built m dN) {ng : Nat} {sel : Nat → Nat → Bool} {M : MMem K} {g : GMem K}
    (hs : Shows m (dN.map List.sum) ng sel M g) {r : Nat} {i p o : List Int} (hi : Active m ng r i)
    (hp : globalPos m (dN.map List.sum) ng r i = some p) (ho : o.length = dN.length)
    (hb : ∀ x ∈ o, -(ng : Int) ≤ x ∧ x ≤ ng) {a c : Nat} (hsel : sel a c = true) :
    M r ⟨a, c, List.zipWith (· + ·) i o⟩ =
      g.unroll (dN.map List.sum) ⟨a, c, List.zipWith (· + ·) p o⟩ := by
  have hil := active_length h (active_inArray hi)
  exact hs a c hsel r _ _ (near_inArray h hi ho hb) (globalPos_shift h (active_lt hi) hil ho hp)

theorem shows_mono {N : List Nat} {ng : Nat} {sel sel' : Nat → Nat → Bool} {M : MMem K} {g : GMem K}
    (h : Shows m N ng sel M g) (hs : ∀ a c, sel' a c = true → sel a c = true) :
    Shows m N ng sel' M g := fun a c hsel => h a c (hs a c hsel)

/-- Components shown separately. -/
theorem shows_join {N : List Nat} {ng : Nat} {s1 s2 : Nat → Nat → Bool} {M : MMem K} {g1 g2 : GMem K}
    (h1 : Shows m N ng s1 M g1) (h2 : Shows m N ng s2 M g2) :
    Shows m N ng (fun a c => s1 a c || s2 a c) M (fun a c p => if s1 a c then g1 a c p else g2 a c p) := by
  intro a c hsel r i p hi hp
  show _ = if s1 a c = true then _ else _
  by_cases hs : s1 a c = true
  · rw [if_pos hs]; exact h1 a c hs r i p hi hp
  · rw [if_neg hs]
    have hsel : (s1 a c || s2 a c) = true := hsel
    simp only [hs, Bool.false_or] at hsel
    exact h2 a c hsel r i p hi hp

/-- A kernel with offsets on the active cells of all ranks, followed by the exchange of what it
writes, acts as the kernel on the undivided box. -/
theorem kernel_comm_shows (h : Built m dN) (hp : AllPeriodic m) (hD : dN.length ∈ [1, 2, 3])
    {ng : Nat} (hw : Wide dN ng) {wr sel : Nat → Nat → Bool} {as : List (Assign K)}
    (ho : OwnCell dN.length wr as) (hr : Reach dN.length ng as)
    (hsel : ∀ l, accessed as l → sel l.arr l.comp = true) {M M1 M2 : MMem K}
    {g : GMem K} (hg : Shows m (dN.map List.sum) ng sel M g)
    (hl : LaunchAll m ng (fun _ t => atCell as t) M M1) (hc : CommAll m ng wr M1 M2) :
    Shows m (dN.map List.sum) ng sel M2 (globalStep (dN.map List.sum) as g) := by
  have h1 : 1 ≤ dN.length := by simp at hD; omega
  have h3 : dN.length ≤ 3 := by simp at hD; omega
  have hact := launchAll_shows h ho hr hsel hg hl
  have hB : Shows m (dN.map List.sum) ng (fun a c => wr a c && sel a c) M2
      (globalStep (dN.map List.sum) as g) :=
    shows_of_comm h hp h1 h3 hw hc (fun _ _ h => (Bool.and_eq_true_iff.1 h).1)
      (fun a k hs => hact a k (Bool.and_eq_true_iff.1 hs).2)
  intro a k hs r i p hi hip
  by_cases hs' : wr a k = true
  · exact hB a k (by simp [hs', hs]) r i p hi hip
  · have hs' : wr a k = false := by simpa using hs'
    have hrl := inArray_lt hi
    rw [(hc a k).2 hs' r i,
      launchAll_other (f := fun _ _ => as) h (fun _ _ _ => ho) hl hrl hs' i,
      hg a k hs r i p hi hip]
    unfold globalStep
    rw [runBody_other]
    · obtain ⟨hpl, hpw⟩ := globalPos_wrapped h hrl (active_length h hi) hip
      have := here_at p
      rw [hpl] at this
      simp only [GMem.unroll, Loc.at, List.length_map]
      rw [this, hpw]
    · intro b hb e
      have := (ho b hb).1.2
      rw [e, hs'] at this; cases this

theorem exists_comm (h : Built m dN) (hp : AllPeriodic m) (hD : dN.length ∈ [1, 2, 3]) {ng : Nat}
    (hw : Wide dN ng) (sel : Nat → Nat → Bool) (M : MMem K) : ∃ M', CommAll m ng sel M M' := by
  have h1 : 1 ≤ dN.length := by simp at hD; omega
  have h3 : dN.length ≤ 3 := by simp at hD; omega
  have key : ∀ a c, ∃ G : Fields K, communicateFields m ng (fun r i => M r ⟨a, c, i⟩) = .ok G := by
    intro a c
    obtain ⟨G, hG, _⟩ := C14_halo_exchange h hp.good h1 h3 hw (fun r i => M r ⟨a, c, i⟩)
    exact ⟨G, hG⟩
  choose G hG using key
  refine ⟨fun r l => if sel l.arr l.comp then G l.arr l.comp r l.idx else M r l, fun a c => ⟨?_, ?_⟩⟩
  · intro hs; rw [hG a c]; simp [hs]
  · intro hs r i; simp [hs]

theorem exists_launchAll (m : Meta) (ng : Nat) (body : Nat → List Int → List (Assign K)) (M : MMem K) :
    ∃ M', LaunchAll m ng body M M' := by
  have key : ∀ r, ∃ m', Launch (activeCells m ng r) (body r) (M r) m' := fun r =>
    launch_exists _ _ _
  choose M' hM' using key
  exact ⟨M', fun r _ => hM' r⟩

/-! ## A second kernel on the cell itself -/

/-- As `launchAll_shows`, for bodies that only access their own cell. -/
theorem launchAll_shows0 (h : Built m dN) {ng : Nat} {wr sel : Nat → Nat → Bool}
    {as : List (Assign K)} (ho : OwnCell dN.length wr as) (hr : Reach dN.length 0 as)
    (hsel : ∀ l, accessed as l → sel l.arr l.comp = true) {M M' : MMem K} {g : GMem K}
    (hg : ShowsActive m (dN.map List.sum) ng sel M g)
    (hl : LaunchAll m ng (fun _ t => atCell as t) M M') :
    ShowsActive m (dN.map List.sum) ng sel M' (globalStep (dN.map List.sum) as g) := by
  intro a c hs r i p hi hp
  rw [launchAll_active (f := fun _ _ => as) h (fun _ _ _ => ⟨ho, hr.dimd⟩) hl hi]
  unfold globalStep
  have hl0 : (here (dN.map List.sum).length) = here dN.length := by simp
  rw [hl0]
  have hil := active_length h (active_inArray hi)
  obtain ⟨hpl, hpw⟩ := globalPos_wrapped h (active_lt hi) hil hp
  refine runBody_congr as (S := fun l => accessed as l ∨ l = ⟨a, c, here dN.length⟩)
    (fun l hl => .inl hl) ?_ _ (.inr rfl)
  intro l hl
  have key : l.idx = here dN.length ∧ sel l.arr l.comp = true := by
    rcases hl with hl | rfl
    · refine ⟨?_, hsel l hl⟩
      obtain ⟨h1, h2⟩ := hr l hl
      refine List.eq_replicate_of_mem (fun x hx => ?_) |>.trans (by rw [h1]; rfl)
      have := h2 x hx
      omega
    · exact ⟨rfl, hs⟩
  obtain ⟨k1, k2⟩ := key
  have e1 : (l.at i).idx = i := by
    simp only [Loc.at, k1]; rw [← hil]; exact here_at i
  have e2 : (l.at p).idx = p := by
    simp only [Loc.at, k1]; rw [← hpl]; exact here_at p
  have h1 : M r (l.at i) = M r ⟨l.arr, l.comp, i⟩ := by
    conv_rhs => rw [← e1]
    rfl
  have h2 : GMem.unroll (dN.map List.sum) g (l.at p) = g l.arr l.comp p := by
    simp only [GMem.unroll, e2, hpw]; rfl
  show M r (l.at i) = GMem.unroll (dN.map List.sum) g (l.at p)
  rw [h1, h2, hg l.arr l.comp k2 r i p hi hp]

/-! ## The filter without walls -/

/-- The filter away from walls. -/
def plainFilter : Nat → List (Assign K)
  | 1 => [ arr 1 0 :=. interior1 0, arr 1 1 :=. interior1 1, arr 1 2 :=. interior1 2 ]
  | 2 => [ arr 2 0 :=. interior2 0, arr 2 1 :=. interior2 1, arr 2 2 :=. interior2 2 ]
  | 3 => [ arr 3 0 :=. interior3 0, arr 3 1 :=. interior3 1, arr 3 2 :=. interior3 2 ]
  | _ => []

theorem filterCart_plain {c : Cfg} (hc : ∀ a, c.cond a = (false, false)) {t : List Int}
    (ht : t.length ∈ [1, 2, 3]) : (filterCart c t : List (Assign K)) = plainFilter t.length := by
  match t, ht with
  | [i1], _ => simp [filterCart, filter1, Cfg.atWall, Cfg.nextWall, hc, plainFilter]
  | [i1, i2], _ => simp [filterCart, filter2, Cfg.atWall, Cfg.nextWall, hc, plainFilter]
  | [i1, i2, i3], _ => simp [filterCart, filter3, Cfg.atWall, Cfg.nextWall, hc, plainFilter]

theorem unitDir_signs (D a : Nat) {s : Int} (hs : s = -1 ∨ s = 1) :
    Signs (unitDir D a s) ∧ (unitDir D a s).length = D := by
  refine ⟨fun x hx => ?_, by simp [unitDir]⟩
  rcases List.mem_or_eq_of_mem_set hx with h | rfl
  · right; left; exact List.eq_of_mem_replicate h
  · rcases hs with rfl | rfl <;> simp

omit [Add K] [Sub K] [Mul K] [Div K] [Neg K] [Zero K] [One K] [NatCast K] in
theorem filterCfg_cond (h : Built m dN) (hp : AllPeriodic m) (ng : Nat) {r : Nat}
    (hr : r < m.doms.length) (a : Nat) : (filterCfg m ng r).cond a = (false, false) := by
  have key : ∀ s : Int, s = -1 ∨ s = 1 → bcIs m r .CONDUCTOR a s = false := by
    intro s hs
    obtain ⟨h1, h2⟩ := unitDir_signs m.counts.length a hs
    have := not_wall_periodic h hp hr h1 (by rw [h2, h.counts]; simp [Decomp.counts])
    unfold bcIs
    split
    · rename_i x hx
      by_contra hc
      simp only [Bool.not_eq_false, beq_iff_eq] at hc
      exact this ⟨x, hx, by rw [hc]; decide, by rw [hc]; decide⟩
    · rfl
  unfold filterCfg
  simp only
  split
  · rw [key _ (.inl rfl), key _ (.inr rfl)]
  · rfl

theorem launch_congr {cells : List (List Int)} {body body' : List Int → List (Assign K)}
    (hb : ∀ t ∈ cells, body t = body' t) {m m' : Mem K} (hl : Launch cells body m m') :
    Launch cells body' m m' := by
  have : start cells body m = start cells body' m := by
    unfold start
    congr 1
    funext t
    split
    · rename_i ht; rw [hb t ht]
    · rfl
  unfold Launch at hl ⊢
  rwa [← this]

theorem plainFilter_own {D : Nat} (hD : D ∈ [1, 2, 3]) :
    OwnCell D selJ (plainFilter D : List (Assign K)) := by
  simp only [List.mem_cons, List.not_mem_nil, or_false] at hD
  rcases hD with rfl | rfl | rfl <;> exact own_of (by kernel_rfl)

theorem plainFilter_reach {D : Nat} (hD : D ∈ [1, 2, 3]) {ng : Nat} (hng : 1 ≤ ng) :
    Reach D ng (plainFilter D : List (Assign K)) := by
  simp only [List.mem_cons, List.not_mem_nil, or_false] at hD
  rcases hD with rfl | rfl | rfl <;> exact reach_of (k := 1) (by kernel_rfl) hng

theorem plainFilter_sel {D : Nat} (hD : D ∈ [1, 2, 3]) :
    ∀ l, accessed (plainFilter D : List (Assign K)) l → (selJ l.arr l.comp || selBuf l.arr l.comp) = true := by
  simp only [List.mem_cons, List.not_mem_nil, or_false] at hD
  rcases hD with rfl | rfl | rfl <;>
  exact sel_of (sel := fun a c => selJ a c || selBuf a c) (by kernel_rfl)

theorem currentsAmpere_reach0 {D : Nat} (hD : D ∈ [1, 2, 3]) (coeff ppc0 : K) :
    Reach D 0 (currentsAmpere D coeff ppc0) := by
  simp only [List.mem_cons, List.not_mem_nil, or_false] at hD
  rcases hD with rfl | rfl | rfl <;> exact reach_of (k := 0) (by kernel_rfl) le_rfl

/-! ## Operations -/

/-- All field components and currents. -/
def selAll (a c : Nat) : Bool := selE a c || selB a c || selJ a c

/-- What the copy to the buffer makes of global fields. -/
def copyG (g : GMem K) : GMem K := fun a c p => if a = 2 ∧ c < 3 then g 1 c p else g a c p

/-- What an operation makes of the global fields. -/
def opG (D : Nat) (N : List Nat) : Op K → GMem K → GMem K
  | .faraday dT dx c, g => globalStep N (faraday D dT dx c) g
  | .electric dT dx none, g => globalStep N (ampere D dT dx) g
  | .electric dT dx (some (coeff, ppc0)), g =>
      globalStep N (currentsAmpere D coeff ppc0) (globalStep N (ampere D dT dx) g)
  | .filter, g => globalStep N (plainFilter D) (copyG g)

/-- Exchange after kernels that only write the exchanged components. -/
theorem comm_shows (h : Built m dN) (hp : AllPeriodic m) (hD : dN.length ∈ [1, 2, 3])
    {ng : Nat} (hw : Wide dN ng) {wr sel : Nat → Nat → Bool} {M M1 M2 : MMem K} {g g' : GMem K}
    (hg : Shows m (dN.map List.sum) ng sel M g)
    (hact : ShowsActive m (dN.map List.sum) ng sel M1 g')
    (hM : ∀ r, r < m.doms.length → ∀ a c i, wr a c = false → M1 r ⟨a, c, i⟩ = M r ⟨a, c, i⟩)
    (hgg : ∀ a c p, wr a c = false → p.length = dN.length → wrap (dN.map List.sum) p = p →
      g' a c p = g a c p)
    (hc : CommAll m ng wr M1 M2) :
    Shows m (dN.map List.sum) ng sel M2 g' := by
  have h1 : 1 ≤ dN.length := by simp at hD; omega
  have h3 : dN.length ≤ 3 := by simp at hD; omega
  have hB : Shows m (dN.map List.sum) ng (fun a c => wr a c && sel a c) M2 g' :=
    shows_of_comm h hp h1 h3 hw hc (fun _ _ h => (Bool.and_eq_true_iff.1 h).1)
      (fun a k hs => hact a k (Bool.and_eq_true_iff.1 hs).2)
  intro a k hs r i p hi hip
  by_cases hs' : wr a k = true
  · exact hB a k (by simp [hs', hs]) r i p hi hip
  · have hs' : wr a k = false := by simpa using hs'
    have hrl := inArray_lt hi
    obtain ⟨hpl, hpw⟩ := globalPos_wrapped h hrl (active_length h hi) hip
    rw [(hc a k).2 hs' r i, hM r hrl a k i hs', hg a k hs r i p hi hip, hgg a k p hs' hpl hpw]

theorem globalStep_other {D : Nat} {wr : Nat → Nat → Bool} {as : List (Assign K)}
    (ho : OwnCell D wr as) {N : List Nat} (hN : N.length = D) (g : GMem K) {a c : Nat}
    {p : List Int} (hw : wr a c = false) (hpl : p.length = D) (hpw : wrap N p = p) :
    globalStep N as g a c p = g a c p := by
  unfold globalStep
  rw [runBody_other]
  · have := here_at p
    rw [hpl] at this
    simp only [GMem.unroll, Loc.at]
    rw [hN, this, hpw]
  · intro b hb e
    have := (ho b hb).1.2
    rw [e, hw] at this; cases this

theorem selEJ_of_E {a c : Nat} (h : (selE a c || selJ a c) = false) : selE a c = false :=
  (Bool.or_eq_false_iff.1 h).1

/-- A filter pass acts on the global fields. -/
theorem filterPass_shows (h : Built m dN) (hp : AllPeriodic m) (hD : dN.length ∈ [1, 2, 3])
    {ng : Nat} (hng : 1 ≤ ng) (hw : Wide dN ng) {sel : Nat → Nat → Bool}
    (hJ : ∀ c, c < 3 → sel 1 c = true) {M M' : MMem K} {g : GMem K}
    (hg : Shows m (dN.map List.sum) ng sel M g) (hd : FilterPass m ng M M') :
    Shows m (dN.map List.sum) ng sel M'
      (globalStep (dN.map List.sum) (plainFilter dN.length) (copyG g)) := by
  obtain ⟨M1, hl, hc⟩ := hd
  have hg' : Shows m (dN.map List.sum) ng (fun a c => sel a c || selBuf a c)
      (fun r => copyToBuffer (M r)) (copyG g) := by
    intro a c hs r i p hi hip
    simp only [copyToBuffer, copyG]
    by_cases ha : a = 2 ∧ c < 3
    · rw [if_pos ha, if_pos ha]
      exact hg 1 c (hJ c ha.2) r i p hi hip
    · rw [if_neg ha, if_neg ha]
      have hs : (sel a c || selBuf a c) = true := hs
      have : selBuf a c = false := by
        simp only [selBuf, Bool.and_eq_false_iff, beq_eq_false_iff_ne, decide_eq_false_iff_not]
        tauto
      rw [this, Bool.or_false] at hs
      exact hg a c hs r i p hi hip
  have hl' : LaunchAll m ng (fun _ t => atCell (plainFilter dN.length) t)
      (fun r => copyToBuffer (M r)) M1 := by
    intro r hr
    refine launch_congr (fun t ht => ?_) (hl r hr)
    have htl := active_length h (active_inArray ((mem_activeCells hr).1 ht))
    show atCell (filterCart (filterCfg m ng r) t) t = atCell (plainFilter dN.length) t
    rw [filterCart_plain (filterCfg_cond h hp ng hr) (by rw [htl]; exact hD), htl]
  have := kernel_comm_shows h hp hD hw (plainFilter_own hD) (plainFilter_reach hD hng)
    (fun l hl => by
      have := plainFilter_sel hD l hl
      simp only [Bool.or_eq_true] at this ⊢
      rcases this with h' | h'
      · left
        simp only [selJ, Bool.and_eq_true, beq_iff_eq, decide_eq_true_eq] at h'
        rw [h'.1]; exact hJ _ h'.2
      · exact .inr h') hg' hl' hc
  exact shows_mono this (fun a c hs => by simp only [hs, Bool.true_or])

/-- Operations act on the global fields. -/
theorem does_shows (h : Built m dN) (hp : AllPeriodic m) (hD : dN.length ∈ [1, 2, 3])
    {ng : Nat} (hng : 2 ≤ ng) (hw : Wide dN ng) {op : Op K} {M M' : MMem K} {g : GMem K}
    (hg : Shows m (dN.map List.sum) ng selAll M g) (hd : Does m dN.length ng op M M') :
    Shows m (dN.map List.sum) ng selAll M' (opG dN.length (dN.map List.sum) op g) := by
  cases op with
  | faraday dT dx c =>
    obtain ⟨M1, hl, hc⟩ := hd
    refine kernel_comm_shows h hp hD hw (faraday_own hD dT dx c) (faraday_reach hD hng dT dx c)
      (fun l hl => ?_) hg hl hc
    have := faraday_sel hD dT dx c l hl
    simp only [selAll, selEB] at this ⊢
    rw [this]; rfl
  | electric dT dx dep =>
    obtain ⟨M1, M2, hl, hm, hc⟩ := hd
    have hselA : ∀ l, accessed (ampere dN.length dT dx) l → selAll l.arr l.comp = true := by
      intro l hl
      have := ampere_sel hD dT dx l hl
      simp only [selAll, selEB] at this ⊢
      rw [this]; rfl
    have hact := launchAll_shows h (ampere_own hD dT dx) (ampere_reach hD hng dT dx) hselA hg hl
    have hM1 : ∀ r, r < m.doms.length → ∀ a c i, (selE a c || selJ a c) = false →
        M1 r ⟨a, c, i⟩ = M r ⟨a, c, i⟩ := fun r hr a c i hs =>
      launchAll_other (f := fun _ _ => ampere dN.length dT dx) h
        (fun _ _ _ => ampere_own hD dT dx) hl hr (selEJ_of_E hs) i
    have hG1 : ∀ a c p, (selE a c || selJ a c) = false → p.length = dN.length →
        wrap (dN.map List.sum) p = p →
        globalStep (dN.map List.sum) (ampere dN.length dT dx) g a c p = g a c p :=
      fun a c p hs hpl hpw => globalStep_other (ampere_own hD dT dx) (by simp) g (selEJ_of_E hs) hpl hpw
    match dep, hm with
    | none, hm =>
      have hm : M2 = M1 := hm
      subst hm
      exact comm_shows h hp hD hw hg hact hM1 hG1 hc
    | some (coeff, ppc0), hm =>
      have hm : LaunchAll m ng (fun _ t => atCell (currentsAmpere dN.length coeff ppc0) t) M1 M2 := hm
      have hact2 := launchAll_shows0 h (currentsAmpere_own hD coeff ppc0)
        (currentsAmpere_reach0 hD coeff ppc0) (fun l hl => by
          have := currentsAmpere_sel hD coeff ppc0 l hl
          simp only [selAll, selEJ, Bool.or_eq_true] at this ⊢
          tauto) hact hm
      refine comm_shows h hp hD hw hg hact2 ?_ ?_ hc
      · intro r hr a c i hs
        rw [launchAll_other (f := fun _ _ => currentsAmpere dN.length coeff ppc0) h
          (fun _ _ _ => currentsAmpere_own hD coeff ppc0) hm hr hs i, hM1 r hr a c i hs]
      · intro a c p hs hpl hpw
        show globalStep _ _ (globalStep _ _ g) a c p = g a c p
        rw [globalStep_other (currentsAmpere_own hD coeff ppc0) (by simp) _ hs hpl hpw,
          hG1 a c p hs hpl hpw]
  | filter =>
    exact filterPass_shows h hp hD (by omega) hw (fun c hc => by simp [selAll, selJ, hc]) hg hd

theorem runs_shows (h : Built m dN) (hp : AllPeriodic m) (hD : dN.length ∈ [1, 2, 3])
    {ng : Nat} (hng : 2 ≤ ng) (hw : Wide dN ng) {ops : List (Op K)} {M M' : MMem K} {g : GMem K}
    (hg : Shows m (dN.map List.sum) ng selAll M g) (hd : Runs m dN.length ng ops M M') :
    Shows m (dN.map List.sum) ng selAll M'
      (ops.foldl (fun g op => opG dN.length (dN.map List.sum) op g) g) := by
  induction hd generalizing g with
  | nil M => exact hg
  | cons hd _ ih => exact ih (does_shows h hp hD hng hw hg hd)

end Entity.FieldSolver
