import Verif.Lemmas.Inject
import Verif.Props.Prtl
import Verif.Props.Tiling
import Mathlib.Tactic.Linarith
import Mathlib.Tactic.NormNum
import Mathlib.Algebra.Order.Field.Rat
import Mathlib.Data.Rat.Floor
import Mathlib.Order.Interval.Set.Basic

/-!
# C57, C58 (injection from a list), C91 (pairs), C92 (where and how many), C21 (capacity)
-/

namespace Entity.Inject

open Entity Entity.Prtl Entity.Push Entity.Decomp Entity.Tags Entity.MeshBox

variable {K : Type}

/-- A species as it is constructed: one to three dimensions, payload arrays of the declared extent with
room for the identifier, no more particles than the arrays hold, a counter of 32 bits. -/
structure Valid (mpi : Bool) (a : Sp K) : Prop where
  dim : 1 ≤ a.kind.D ∧ a.kind.D ≤ 3
  room : Room mpi a
  pld : PldOk a
  fits : a.st.npart ≤ a.st.arr.length
  ctr : a.counter < 2 ^ 32

/-- Cell index of a particle along axis `d`. -/
def cellOf (q : Prtl K) : Nat → Int
  | 0 => q.i1
  | 1 => q.i2
  | _ => q.i3

/-- Offset of a particle in its cell along axis `d`. -/
def fracOf (q : Prtl K) : Nat → K
  | 0 => q.dx1
  | 1 => q.dx2
  | _ => q.dx3

theorem IsNew.at {k : Kind} {w : New K} {q : Prtl K} (h : IsNew k w q) (h3 : k.D ≤ 3) (d : Nat)
    (hd : d < k.D) : cellOf q d = w.xi d ∧ fracOf q d = w.dxi d := by
  have : d = 0 ∨ d = 1 ∨ d = 2 := by omega
  rcases this with rfl | rfl | rfl
  · exact h.x1 (by omega)
  · exact h.x2 (by omega)
  · exact h.x3 (by omega)

section Field

variable [Field K] [LinearOrder K] [IsStrictOrderedRing K] [FloorRing K]

theorem toInt_nonneg {x : K} (h : 0 ≤ x) : toInt x = ⌊x⌋ := if_pos h

/-! ## Injection from a list -/

/-- The conversions of the global metric along the axes of a grid with `N d` cells: increasing, and
inverse to each other on the grid (C62 for the metrics of the code). -/
structure GeoOk (D : Nat) (g : Geo K) (N : Nat → Nat) : Prop where
  mono : ∀ d, d < D → StrictMonoOn (g.toPh d) (Set.Icc 0 (N d : K))
  inv : ∀ d, d < D → ∀ x, g.toPh d 0 ≤ x → x < g.toPh d (N d) →
    0 ≤ g.toCd d x ∧ g.toCd d x ≤ N d ∧ g.toPh d (g.toCd d x) = x

/-- Specification: the physical position `x` lies in the global box. -/
def InBox (D : Nat) (g : Geo K) (N : Nat → Nat) (x : Nat → K) : Prop :=
  ∀ d, d < D → g.toPh d 0 ≤ x d ∧ x d < g.toPh d (N d)

/-- Specification: the position with code coordinates `c` lies in the cells of subdomain `s`. -/
def OwnsPoint (D : Nat) (s : Subdomain) (c : Nat → K) : Prop :=
  ∀ d, d < D → (s.offsetNcells.getD d 0 : K) ≤ c d ∧
    c d < (s.offsetNcells.getD d 0 + s.ncells.getD d 0 : Nat)

/-- Specification: entry `p` of the list belongs to subdomain `s`. -/
def Belongs (D : Nat) (g : Geo K) (N : Nat → Nat) (s : Subdomain) (x : Nat → K) : Prop :=
  InBox D g N x ∧ OwnsPoint D s (fun d => g.toCd d (x d))

theorem sub_shape (dN : List (List Nat)) (hne : ∀ d ∈ dN, d ≠ []) (doms : List Subdomain)
    (hd : createDomains (counts dN).prod dN = some doms) (s : Subdomain) (hs : s ∈ doms) :
    ∃ i r, s = mkSub i r ∧ List.Forall₂ (· ∈ ·) r (dN.map (axisRecs 0 0)) := by
  have := createDomains_eq dN hne
  unfold counts at hd
  rw [this] at hd
  simp only [Option.some.injEq] at hd
  subst hd
  rw [List.mem_mapIdx] at hs
  obtain ⟨i, hi, rfl⟩ := hs
  exact ⟨i, _, rfl, (mem_tp _ _).1 (List.getElem_mem hi)⟩

theorem sub_axis (dN : List (List Nat)) (hne : ∀ d ∈ dN, d ≠ []) (doms : List Subdomain)
    (hd : createDomains (counts dN).prod dN = some doms) (s : Subdomain) (hs : s ∈ doms) :
    s.offsetNcells.length = dN.length ∧ s.ncells.length = dN.length ∧
    ∀ d, d < dN.length → s.offsetNcells.getD d 0 + s.ncells.getD d 0 ≤ (dN.getD d []).sum := by
  obtain ⟨i, r, rfl, hr⟩ := sub_shape dN hne doms hd s hs
  have hl : r.length = dN.length := by simpa using hr.length_eq
  refine ⟨by simp [mkSub, hl], by simp [mkSub, hl], fun d hdl => ?_⟩
  have h := (List.forall₂_iff_get.1 hr).2 d (by omega) (by simpa using hdl)
  simp only [List.get_eq_getElem, List.getElem_map] at h
  have hb := axisRecs_bounds h
  simp only [mkSub, List.getD_eq_getElem?_getD, List.getElem?_map, List.getElem?_eq_getElem (hl ▸ hdl),
    List.getElem?_eq_getElem hdl, Option.map_some, Option.getD_some]
  omega

theorem owns_iff (dN : List (List Nat)) (hne : ∀ d ∈ dN, d ≠ []) (doms : List Subdomain)
    (hd : createDomains (counts dN).prod dN = some doms) (s : Subdomain) (hs : s ∈ doms) (c : Nat → K)
    (hc : ∀ d, d < dN.length → 0 ≤ c d) :
    Owns s ((List.range dN.length).map fun d => ⌊c d⌋.toNat) ↔ OwnsPoint dN.length s c := by
  obtain ⟨l1, l2, _⟩ := sub_axis dN hne doms hd s hs
  unfold Owns OwnsPoint
  rw [List.forall₂_iff_get]
  have key : ∀ d, d < dN.length → ∀ o n : Nat,
      (o ≤ ⌊c d⌋.toNat ∧ ⌊c d⌋.toNat < o + n ↔ (o : K) ≤ c d ∧ c d < (o + n : Nat)) := by
    intro d hdl o n
    have h0 : 0 ≤ ⌊c d⌋ := Int.floor_nonneg.2 (hc d hdl)
    have e1 : (o : K) ≤ c d ↔ (o : Int) ≤ ⌊c d⌋ := by
      rw [Int.le_floor]; simp
    have e2 : c d < ((o + n : Nat) : K) ↔ ⌊c d⌋ < ((o + n : Nat) : Int) := by
      rw [Int.floor_lt]; simp
    rw [e1, e2]
    omega
  constructor
  · rintro ⟨_, h⟩ d hdl
    have := h d (by simp [l1, l2, hdl]) (by simp [hdl])
    simp only [List.get_eq_getElem, List.getElem_zip, List.getElem_map, List.getElem_range] at this
    rw [← key d hdl]
    simpa [List.getD_eq_getElem?_getD, List.getElem?_eq_getElem (l1.symm ▸ hdl),
      List.getElem?_eq_getElem (l2.symm ▸ hdl)] using this
  · intro h
    refine ⟨by simp [l1, l2], fun d h1 h2 => ?_⟩
    have hdl : d < dN.length := by simpa using h2
    have := (key d hdl _ _).2 (h d hdl)
    simp only [List.get_eq_getElem, List.getElem_zip, List.getElem_map, List.getElem_range]
    simpa [List.getD_eq_getElem?_getD, List.getElem?_eq_getElem (l1.symm ▸ hdl),
      List.getElem?_eq_getElem (l2.symm ▸ hdl)] using this

/-- Exactly one subdomain owns a position inside the box. -/
theorem owner_unique (dN : List (List Nat)) (hne : ∀ d ∈ dN, d ≠ []) (doms : List Subdomain)
    (hd : createDomains (counts dN).prod dN = some doms) (g : Geo K)
    (hg : GeoOk dN.length g fun d => (dN.getD d []).sum) (x : Nat → K)
    (hx : InBox dN.length g (fun d => (dN.getD d []).sum) x) :
    ∃! s, s ∈ doms ∧ Belongs dN.length g (fun d => (dN.getD d []).sum) s x := by
  obtain ⟨doms', e1, _, _, e4, _⟩ := C03_tiling dN hne
  rw [hd] at e1
  simp only [Option.some.injEq] at e1
  subst e1
  have hc : ∀ d, d < dN.length → 0 ≤ g.toCd d (x d) ∧ g.toCd d (x d) < ((dN.getD d []).sum : Nat) := by
    intro d hdl
    obtain ⟨a1, a2⟩ := hx d hdl
    obtain ⟨b1, b2, b3⟩ := hg.inv d hdl (x d) a1 a2
    refine ⟨b1, lt_of_le_of_ne b2 ?_⟩
    intro he
    rw [he] at b3
    rw [b3] at a2
    exact lt_irrefl _ a2
  have hgrid : InGrid ((List.range dN.length).map fun d => ⌊g.toCd d (x d)⌋.toNat) (dN.map List.sum) := by
    unfold InGrid
    rw [List.forall₂_iff_get]
    refine ⟨by simp, fun d h1 h2 => ?_⟩
    have hdl : d < dN.length := by simpa using h1
    obtain ⟨c1, c2⟩ := hc d hdl
    simp only [List.get_eq_getElem, List.getElem_map, List.getElem_range]
    have : ⌊g.toCd d (x d)⌋ < ((dN.getD d []).sum : Int) := by
      rw [Int.floor_lt, Int.cast_natCast]; exact c2
    have h0 : 0 ≤ ⌊g.toCd d (x d)⌋ := Int.floor_nonneg.2 c1
    have e : (dN.getD d []).sum = dN[d].sum := by
      simp [List.getD_eq_getElem?_getD, List.getElem?_eq_getElem hdl]
    rw [e] at this
    omega
  obtain ⟨s, ⟨s1, s2⟩, s3⟩ := e4 _ hgrid
  refine ⟨s, ⟨s1, hx, (owns_iff dN hne doms hd s s1 _ fun d hdl => (hc d hdl).1).1 s2⟩, ?_⟩
  rintro t ⟨t1, _, t2⟩
  exact s3 t ⟨t1, (owns_iff dN hne doms hd t t1 _ fun d hdl => (hc d hdl).1).2 t2⟩

omit [FloorRing K] in
theorem axis_iff {f : K → K} {b : K → K} {N o n : Nat} (hf : StrictMonoOn f (Set.Icc 0 (N : K)))
    (hb : ∀ x, f 0 ≤ x → x < f N → 0 ≤ b x ∧ b x ≤ N ∧ f (b x) = x) (hon : o + n ≤ N) (x : K) :
    (f (o : K) ≤ x ∧ x < f ((o + n : Nat) : K)) ↔
      (f 0 ≤ x ∧ x < f N) ∧ ((o : K) ≤ b x ∧ b x < ((o + n : Nat) : K)) := by
  have m0 : (0 : K) ∈ Set.Icc (0 : K) N := ⟨le_refl _, Nat.cast_nonneg _⟩
  have mo : (o : K) ∈ Set.Icc (0 : K) N := ⟨Nat.cast_nonneg _, Nat.cast_le.2 (by omega)⟩
  have mn : ((o + n : Nat) : K) ∈ Set.Icc (0 : K) N := ⟨Nat.cast_nonneg _, Nat.cast_le.2 hon⟩
  have mN : (N : K) ∈ Set.Icc (0 : K) N := ⟨Nat.cast_nonneg _, le_refl _⟩
  constructor
  · rintro ⟨h1, h2⟩
    have i1 : f 0 ≤ x := le_trans ((hf.le_iff_le m0 mo).2 mo.1) h1
    have i2 : x < f N := lt_of_lt_of_le h2 ((hf.le_iff_le mn mN).2 mn.2)
    obtain ⟨b1, b2, b3⟩ := hb x i1 i2
    refine ⟨⟨i1, i2⟩, (hf.le_iff_le mo ⟨b1, b2⟩).1 (by rw [b3]; exact h1),
      (hf.lt_iff_lt ⟨b1, b2⟩ mn).1 (by rw [b3]; exact h2)⟩
  · rintro ⟨⟨i1, i2⟩, h1, h2⟩
    obtain ⟨b1, b2, b3⟩ := hb x i1 i2
    have k1 := (hf.le_iff_le mo ⟨b1, b2⟩).2 h1
    have k2 := (hf.lt_iff_lt ⟨b1, b2⟩ mn).2 h2
    rw [b3] at k1 k2
    exact ⟨k1, k2⟩

/-- The test of the kernel, made on physical extents, decides to which subdomain a position belongs. -/
theorem shouldInject_iff (dN : List (List Nat)) (hne : ∀ d ∈ dN, d ≠ []) (doms : List Subdomain)
    (hd : createDomains (counts dN).prod dN = some doms) (g : Geo K)
    (hg : GeoOk dN.length g fun d => (dN.getD d []).sum) (s : Subdomain) (hs : s ∈ doms) (x : Nat → K) :
    shouldInject dN.length g s x = true ↔
      Belongs dN.length g (fun d => (dN.getD d []).sum) s x := by
  obtain ⟨_, _, hb⟩ := sub_axis dN hne doms hd s hs
  unfold shouldInject Belongs InBox OwnsPoint extent
  simp only [List.all_eq_true, List.mem_range, Bool.and_eq_true, decide_eq_true_eq]
  constructor
  · intro h
    exact ⟨fun d hdl => ((axis_iff (hg.mono d hdl) (hg.inv d hdl) (hb d hdl) _).1 (h d hdl)).1,
      fun d hdl => ((axis_iff (hg.mono d hdl) (hg.inv d hdl) (hb d hdl) _).1 (h d hdl)).2⟩
  · rintro ⟨h1, h2⟩ d hdl
    exact (axis_iff (hg.mono d hdl) (hg.inv d hdl) (hb d hdl) _).2 ⟨h1 d hdl, h2 d hdl⟩

omit [Field K] [LinearOrder K] [IsStrictOrderedRing K] [FloorRing K] in
theorem foldlM_if {α β : Type} (b : β → Bool) (f : α → β → Outcome α) (l : List β) (a : α) :
    l.foldlM (fun acc e => if b e then f acc e else pure acc) a = (l.filter b).foldlM f a := by
  induction l generalizing a with
  | nil => rfl
  | cons e l ih =>
    rw [List.foldlM_cons]
    by_cases h : b e = true
    · rw [if_pos h, List.filter_cons_of_pos h, List.foldlM_cons]
      congr 1
      funext a
      exact ih a
    · rw [if_neg h, List.filter_cons_of_neg h, Outcome.pure_eq, Outcome.bind_ok]
      exact ih a

/-- Specification: the velocity that the list gives for entry `p`. -/
def GData.vel (dt : GData K) (p : Nat) : V3 K := ⟨dt.ux1.getD p 0, dt.ux2.getD p 0, dt.ux3.getD p 0⟩

/-- Specification: the azimuth that the list gives for entry `p`. -/
def GData.az (dt : GData K) (k : Kind) (p : Nat) : K := if k.hasPhi then dt.phi.getD p 0 else 0

/-- Specification: particle `q` on subdomain `s` is a live particle at the position and with the velocity
of entry `p` of the list: its cell is one of the cells of `s`, its offset lies in `[0, 1)`, and corner of
`s` plus cell plus offset is the code coordinate of the position. -/
structure Realises (k : Kind) (g : Geo K) (s : Subdomain) (dt : GData K) (p : Nat) (q : Prtl K) : Prop where
  tag : q.tag = 1
  cell : ∀ d, d < k.D → 0 ≤ cellOf q d ∧ cellOf q d < (s.ncells.getD d 0 : Int)
  frac : ∀ d, d < k.D → 0 ≤ fracOf q d ∧ fracOf q d < 1
  pos : ∀ d, d < k.D →
    (s.offsetNcells.getD d 0 : K) + cellOf q d + fracOf q d = g.toCd d (dt.pos p d)
  vel : (⟨q.ux1, q.ux2, q.ux3⟩ : V3 K) = g.vel (fun d => g.toCd d (dt.pos p d)) (dt.az k p) (dt.vel p)
  phi : k.D = 2 → k.curv = true → q.phi = dt.phi.getD p 0

theorem realises_of_isNew (k : Kind) (h3 : k.D ≤ 3) (g : Geo K) (N : Nat → Nat) (s : Subdomain)
    (dt : GData K) (p : Nat) (hg : GeoOk k.D g N) (hb : Belongs k.D g N s (dt.pos p)) (w : K) (q : Prtl K)
    (h : IsNew k (gNew g s (dt.pos p) (dt.az k p) (dt.vel p) w) q) : Realises k g s dt p q := by
  have key : ∀ d, d < k.D → 0 ≤ g.toCd d (dt.pos p d) := fun d hdl =>
    (hg.inv d hdl _ (hb.1 d hdl).1 (hb.1 d hdl).2).1
  refine ⟨h.tag, ?_, ?_, ?_, ?_, ?_⟩
  · intro d hdl
    rw [(h.at h3 d hdl).1]
    simp only [gNew]
    rw [toInt_nonneg (key d hdl)]
    obtain ⟨o1, o2⟩ := hb.2 d hdl
    have f1 : (s.offsetNcells.getD d 0 : Int) ≤ ⌊g.toCd d (dt.pos p d)⌋ := by
      rw [Int.le_floor, Int.cast_natCast]; exact o1
    have f2 : ⌊g.toCd d (dt.pos p d)⌋ < ((s.offsetNcells.getD d 0 + s.ncells.getD d 0 : Nat) : Int) := by
      rw [Int.floor_lt, Int.cast_natCast]; exact o2
    push_cast at f2
    omega
  · intro d hdl
    rw [(h.at h3 d hdl).2]
    simp only [gNew, sub_add_cancel]
    rw [toInt_nonneg (key d hdl)]
    exact ⟨sub_nonneg.2 (Int.floor_le _), by linarith [Int.lt_floor_add_one (g.toCd d (dt.pos p d))]⟩
  · intro d hdl
    rw [(h.at h3 d hdl).1, (h.at h3 d hdl).2]
    simp only [gNew]
    push_cast
    ring
  · obtain ⟨u1, u2, u3⟩ := h.u
    rw [u1, u2, u3]
    rfl
  · intro hd hc
    rw [h.phi hd hc]
    simp [gNew, GData.az, Kind.hasPhi, hd, hc]

omit [LinearOrder K] [IsStrictOrderedRing K] [FloorRing K] [Field K] in
theorem globalData_ux1 {k : Kind} {data : Col → Option (List K)} {useWeights : Bool} {dt : GData K}
    (h : globalData k data useWeights = .ok dt) : data .ux1 = some dt.ux1 := by
  unfold globalData at h
  simp only [Outcome.bind_eq_ok] at h
  obtain ⟨x1, _, x, _, u1, hu1, u2, _, u3, _, w, _, f, _, hf⟩ := h
  simp only [Outcome.pure_eq, Outcome.ok.injEq] at hf
  subst hf
  unfold copyFromVector at hu1
  cases hc : data .ux1 with
  | none => simp [hc] at hu1
  | some v =>
    simp only [hc, Outcome.bind_eq_ok, Outcome.pure_eq, Outcome.ok.injEq] at hu1
    obtain ⟨_, _, rfl⟩ := hu1
    rfl

open Classical in
/-- What `InjectGlobally` adds to a subdomain. -/
theorem injectGlobally_spec (mpi : Bool) (k : Kind) (h3 : k.D ≤ 3) (dN : List (List Nat))
    (hD : dN.length = k.D) (hne : ∀ d ∈ dN, d ≠ []) (doms : List Subdomain)
    (hd : createDomains (counts dN).prod dN = some doms) (g : Geo K)
    (hg : GeoOk k.D g fun d => (dN.getD d []).sum)
    (data : Col → Option (List K)) (useWeights : Bool) (dt : GData K)
    (hdt : globalData k data useWeights = .ok dt) (s : Subdomain) (hs : s ∈ doms) (sp : Nat) (hsp : sp ≠ 0)
    (sps : List (Sp K)) (a : Sp K) (ha : sps[sp - 1]? = some a) (hk : a.kind = k) (hv : Valid mpi a)
    (σ : Sched) (hσ : σ.Fair)
    (hfit : a.st.npart + ((List.range dt.ux1.length).filter fun p =>
      decide (Belongs k.D g (fun d => (dN.getD d []).sum) s (dt.pos p))).length ≤ a.st.arr.length)
    (hwei : useWeights = true → dt.ux1.length ≤ a.st.arr.length) :
    ∃ b M, injectGlobally mpi k g s sp data useWeights σ sps = .ok (sps.set (sp - 1) b) ∧
      List.Perm M ((List.range dt.ux1.length).filter fun p =>
        decide (Belongs k.D g (fun d => (dN.getD d []).sum) s (dt.pos p))) ∧
      b.st.npart = a.st.npart + M.length ∧
      (∀ p, p < a.st.npart → b.st.arr[p]? = a.st.arr[p]?) ∧
      ∀ i (hi : i < M.length), ∃ q, b.st.arr[a.st.npart + i]? = some q ∧
        Realises k g s dt M[i] q ∧ (useWeights = false → q.weight = 1) := by
  have hux := globalData_ux1 hdt
  have hiff : ∀ p, shouldInject k.D g s (dt.pos p) =
      decide (Belongs k.D g (fun d => (dN.getD d []).sum) s (dt.pos p)) := by
    intro p
    rw [Bool.eq_iff_iff, decide_eq_true_eq, ← hD]
    rw [← hD] at hg
    exact shouldInject_iff dN hne doms hd g hg s hs _
  set B : Nat → Bool := fun p => decide (Belongs k.D g (fun d => (dN.getD d []).sum) s (dt.pos p)) with hB
  set M := (σ dt.ux1.length).filter B with hM
  have hMp : List.Perm M ((List.range dt.ux1.length).filter B) := (hσ _).filter _
  have hMlt : ∀ p ∈ M, p < dt.ux1.length := by
    intro p hp
    have := hMp.mem_iff.1 hp
    rw [List.mem_filter, List.mem_range] at this
    exact this.1
  -- the kernel
  let c : Cap := ⟨sp, a.st.npart, a.counter⟩
  let rd : Nat → List (Sp K) → Outcome (New K) := fun p sps => do
    let w ← readWeight useWeights sps c.sp p
    pure (gNew g s (dt.pos p) (dt.az k p) (dt.vel p) w)
  have hbody : (σ dt.ux1.length).foldlM (globalBody mpi k g s dt useWeights c) (0, sps) =
      M.foldlM (fun (acc : Nat × List (Sp K)) p => do
        let w ← rd p acc.2
        let sps ← injectAt mpi s.index c acc.1 w acc.2
        pure (acc.1 + 1, sps)) (0, sps) := by
    rw [hM, ← foldlM_if]
    congr 1
    funext acc p
    simp only [globalBody]
    rw [hiff p]
    change (if B p = true then _ else _) = _
    by_cases hp : B p = true
    · rw [if_pos hp, if_pos hp]
      simp only [rd]
      cases readWeight useWeights acc.2 c.sp p <;> rfl
    · rw [if_neg hp, if_neg hp]
  obtain ⟨ws, hws, hfold⟩ := reading_fold mpi s.index c hsp rd
    (fun p w => ∃ wt, w = gNew g s (dt.pos p) (dt.az k p) (dt.vel p) wt ∧ (useWeights = false → wt = 1)) a.st.arr.length M 0 sps
    ⟨a, ha, rfl⟩ (by
      intro p hp t ht
      obtain ⟨b, hb, hbl⟩ := ht
      by_cases hu : useWeights = true
      · have hlt : p < b.st.arr.length := by rw [hbl]; exact lt_of_lt_of_le (hMlt p hp) (hwei hu)
        refine ⟨gNew g s (dt.pos p) (dt.az k p) (dt.vel p) b.st.arr[p].weight, ?_, _, rfl, by simp [hu]⟩
        simp only [rd, readWeight, hu, if_true, hb, List.getElem?_eq_getElem hlt]
        rfl
      · refine ⟨gNew g s (dt.pos p) (dt.az k p) (dt.vel p) 1, ?_, _, rfl, fun _ => rfl⟩
        simp only [rd, readWeight, hu]
        rfl)
  have hwl : ws.length = M.length := hws.length_eq.symm
  obtain ⟨t, g1, g2, b, g3, g4⟩ := single_spec mpi s.index sp hsp sps a ha hv.dim hv.room hv.pld ws
    (by rw [hwl, hMp.length_eq]; exact hfit) ⟨fun _ => 0, fun _ => 0, ⟨0, 0, 0⟩, 0, 0⟩
  refine ⟨b, M, ?_, hMp, by rw [g4.npart, hwl], fun p hp => g4.old p (Or.inl hp), ?_⟩
  · unfold injectGlobally
    rw [show dataAt data .ux1 = .ok dt.ux1 by simp [dataAt, hux], Outcome.bind_ok,
      capture_ok hsp ha, Outcome.bind_ok, hdt, Outcome.bind_ok, hbody, hfold, g1]
    simp only [Outcome.bind_ok, Outcome.pure_eq, Nat.zero_add]
    rw [← hwl]
    exact g3
  · intro i hi
    obtain ⟨q, q1, q2, _⟩ := g4.new i (by rw [hwl]; exact hi)
    refine ⟨q, q1, ?_⟩
    have hi' : i < ws.length := by rw [hwl]; exact hi
    obtain ⟨wt, hwt, hwt1⟩ := (List.forall₂_iff_get.1 hws).2 i hi hi'
    simp only [List.get_eq_getElem] at hwt
    rw [show ws.getD i ⟨fun _ => 0, fun _ => 0, ⟨0, 0, 0⟩, 0, 0⟩ = ws[i] by
      simp [List.getD_eq_getElem?_getD, List.getElem?_eq_getElem hi'], hwt, hk] at q2
    have hbel : B M[i] = true := (List.mem_filter.1 (List.getElem_mem hi)).2
    simp only [hB, decide_eq_true_eq] at hbel
    exact ⟨realises_of_isNew k h3 g _ s dt M[i] hg hbel wt q q2,
      fun hu => by rw [q2.weight]; exact hwt1 hu⟩

open Classical in
/-- **C57.** A list of particles is given to every subdomain of any decomposition, for any number of
dimensions and any metric whose coordinates are increasing.  Every entry inside the global box belongs
to exactly one subdomain; and each subdomain, for any schedule and any particles it already has, adds
exactly one live particle for each entry that belongs to it and no other, at the position and with the
velocity of that entry. -/
theorem C57_exactly_once (mpi : Bool) (k : Kind) (h3 : k.D ≤ 3) (dN : List (List Nat))
    (hD : dN.length = k.D) (hne : ∀ d ∈ dN, d ≠ []) (doms : List Subdomain)
    (hd : createDomains (counts dN).prod dN = some doms) (g : Geo K)
    (hg : GeoOk k.D g fun d => (dN.getD d []).sum)
    (data : Col → Option (List K)) (useWeights : Bool) (dt : GData K)
    (hdt : globalData k data useWeights = .ok dt) :
    (∀ p, InBox k.D g (fun d => (dN.getD d []).sum) (dt.pos p) →
      ∃! s, s ∈ doms ∧ Belongs k.D g (fun d => (dN.getD d []).sum) s (dt.pos p)) ∧
    ∀ s ∈ doms, ∀ (sp : Nat) (_ : sp ≠ 0) (sps : List (Sp K)) (a : Sp K), sps[sp - 1]? = some a →
      a.kind = k → Valid mpi a → ∀ σ : Sched, σ.Fair →
      a.st.npart + ((List.range dt.ux1.length).filter fun p =>
          decide (Belongs k.D g (fun d => (dN.getD d []).sum) s (dt.pos p))).length ≤ a.st.arr.length →
      (useWeights = true → dt.ux1.length ≤ a.st.arr.length) →
      ∃ b M, injectGlobally mpi k g s sp data useWeights σ sps = .ok (sps.set (sp - 1) b) ∧
        List.Perm M ((List.range dt.ux1.length).filter fun p =>
          decide (Belongs k.D g (fun d => (dN.getD d []).sum) s (dt.pos p))) ∧
        b.st.npart = a.st.npart + M.length ∧
        (∀ p, p < a.st.npart → b.st.arr[p]? = a.st.arr[p]?) ∧
        ∀ i (hi : i < M.length), ∃ q, b.st.arr[a.st.npart + i]? = some q ∧ Realises k g s dt M[i] q := by
  refine ⟨fun p hp => by rw [← hD] at *; exact owner_unique dN hne doms hd g hg _ hp, ?_⟩
  intro s hs sp hsp sps a ha hk hv σ hσ hfit hwei
  obtain ⟨b, M, e1, e2, e3, e4, e5⟩ := injectGlobally_spec mpi k h3 dN hD hne doms hd g hg data useWeights
    dt hdt s hs sp hsp sps a ha hk hv σ hσ hfit hwei
  refine ⟨b, M, e1, e2, e3, e4, fun i hi => ?_⟩
  obtain ⟨q, q1, q2, _⟩ := e5 i hi
  exact ⟨q, q1, q2⟩

open Classical in
/-- **C58**, for lists without weights: all particles added have weight one.  What is missing is the case
with weights, where the property fails (next theorem). -/
theorem C58_unweighted_partial (mpi : Bool) (k : Kind) (h3 : k.D ≤ 3) (dN : List (List Nat))
    (hD : dN.length = k.D) (hne : ∀ d ∈ dN, d ≠ []) (doms : List Subdomain)
    (hd : createDomains (counts dN).prod dN = some doms) (g : Geo K)
    (hg : GeoOk k.D g fun d => (dN.getD d []).sum) (data : Col → Option (List K)) (dt : GData K)
    (hdt : globalData k data false = .ok dt) (s : Subdomain) (hs : s ∈ doms) (sp : Nat) (hsp : sp ≠ 0)
    (sps : List (Sp K)) (a : Sp K) (ha : sps[sp - 1]? = some a) (hk : a.kind = k) (hv : Valid mpi a)
    (σ : Sched) (hσ : σ.Fair)
    (hfit : a.st.npart + ((List.range dt.ux1.length).filter fun p =>
      decide (Belongs k.D g (fun d => (dN.getD d []).sum) s (dt.pos p))).length ≤ a.st.arr.length) :
    ∃ b, injectGlobally mpi k g s sp data false σ sps = .ok (sps.set (sp - 1) b) ∧
      ∀ q ∈ b.st.used.drop a.st.npart, q.weight = 1 := by
  obtain ⟨b, M, e1, _, e3, _, e5⟩ := injectGlobally_spec mpi k h3 dN hD hne doms hd g hg data false
    dt hdt s hs sp hsp sps a ha hk hv σ hσ hfit (by simp)
  refine ⟨b, e1, fun q hq => ?_⟩
  obtain ⟨i, hi, rfl⟩ := List.getElem_of_mem hq
  have hi' : i < M.length := by
    simp only [Store.used, List.length_drop, List.length_take] at hi; omega
  obtain ⟨q, q1, _, q3⟩ := e5 i hi'
  have : (b.st.used.drop a.st.npart)[i]? = some q := by
    rw [List.getElem?_drop, Store.used, List.getElem?_take_of_lt (by omega)]; exact q1
  rw [List.getElem?_eq_getElem hi, Option.some.injEq] at this
  rw [this]
  exact q3 rfl

end Field

/-! ## Cases -/

/-- A grid of two subdomains with two and three cells of width `1/2`; the box begins at `-1`. -/
def exGeo : Geo ℚ where
  toPh := fun _ c => -1 + c / 2
  toCd := fun _ x => 2 * (x + 1)
  vel := fun _ _ u => u

/-- An empty place in the arrays. -/
def blank : Prtl ℚ :=
  { i1 := 0, i1_prev := 0, i2 := 0, i2_prev := 0, i3 := 0, i3_prev := 0, dx1 := 0, dx1_prev := 0,
    dx2 := 0, dx2_prev := 0, dx3 := 0, dx3_prev := 0, ux1 := 0, ux2 := 0, ux3 := 0, weight := 0, phi := 0,
    pld_r := [], pld_i := [0, 0], tag := 0 }

/-- A tracked species with room for `m` particles. -/
def exSp (m : Nat) : Sp ℚ :=
  { kind := ⟨1, false, 0, 2⟩, tracking := true, st := ⟨List.replicate m blank, 0⟩, counter := 0 }

/-- Three particles: one in each subdomain, the first exactly on the boundary between them, and one on
the upper end of the box. -/
def exData : Col → Option (List ℚ)
  | .x1 => some [0, -3 / 4, 3 / 2]
  | .ux1 => some [1, 2, 3]
  | .ux2 => some [0, 0, 0]
  | .ux3 => some [0, 0, 0]
  | .weights => some [3, 4, 5]
  | _ => none

example : GeoOk 1 exGeo (fun d => ([[2, 3]].getD d []).sum) := by
  constructor
  · intro d _ a _ b _ h
    simp only [exGeo]
    linarith
  · intro d hd x h1 h2
    have : d = 0 := by omega
    subst this
    simp only [exGeo, List.getD_cons_zero, List.sum_cons, List.sum_nil] at *
    norm_num at *
    constructor
    · linarith
    · linarith

example : Valid true (exSp 4) := by
  refine ⟨⟨by decide, by decide⟩, by intro _; decide, ?_, by decide, by decide⟩
  intro q hq
  simp only [exSp, List.mem_replicate] at hq
  rw [hq.2]
  rfl

/-- The particles present after the list has been injected on each of the two subdomains, seen through
`f`. -/
def exAfter {β : Type} (useWeights : Bool) (m : Nat) (f : Prtl ℚ → β) : List (List β) :=
  ((createDomains 2 [[2, 3]]).getD []).map fun s =>
    match injectGlobally true ⟨1, false, 0, 2⟩ exGeo s 1 exData useWeights List.range [exSp m] with
    | .ok sps => sps.flatMap fun b => b.st.used.map f
    | _ => []

example : exAfter false 4 (fun q => (q.i1, q.dx1, q.ux1)) = [[(0, 1 / 2, 2)], [(0, 0, 1)]] := by
  decide +kernel

example : exAfter false 4 Prtl.pld_i = [[[0, 0]], [[0, 1]]] := by decide +kernel

/-- **C58**, violated: the particle at `-3/4` is listed with weight 4 and is injected with weight 0, the
content of the weight array of the species; and if the list is longer than that array, the kernel reads
outside it. -/
theorem C58_weights_counterexample :
    exData .weights = some [3, 4, 5] ∧
    exAfter true 4 (fun q => (q.ux1, q.weight)) = [[(2, 0)], [(1, 0)]] ∧
    ((createDomains 2 [[2, 3]]).map fun l => l.map fun s =>
      match injectGlobally true ⟨1, false, 0, 2⟩ exGeo s 1 exData true List.range [exSp 1] with
      | .ub => true
      | _ => false) = some [true, false] := by
  decide +kernel

end Entity.Inject
