import Verif.Props.Inject
import Verif.Props.MeshBox
import Mathlib.Algebra.BigOperators.Group.List.Basic

/-!
# C91 (injection of pairs), C92 (where and how many particles are injected)
-/

namespace Entity.Inject

open Entity Entity.Prtl Entity.Push Entity.Decomp Entity.Tags Entity.MeshBox Entity.Props.MeshBox

variable {K : Type}

/-! ## Specification -/

/-- The particles that `b` has in addition to those of `a`. -/
def news (a b : Sp K) : List (Prtl K) := b.st.used.drop a.st.npart

/-- Two particles sit at the same place with the same weight. -/
structure SameSpot (D : Nat) (q1 q2 : Prtl K) : Prop where
  cell : ∀ d, d < D → cellOf q1 d = cellOf q2 d
  frac : ∀ d, d < D → fracOf q1 d = fracOf q2 d
  weight : q1.weight = q2.weight

/-- `b` is `a` with `n` live particles added behind those it had, which are kept. -/
structure Extends (a b : Sp K) (n : Nat) : Prop where
  npart : b.st.npart = a.st.npart + n
  capacity : b.st.arr.length = a.st.arr.length
  fits : b.st.npart ≤ b.st.arr.length
  kept : b.st.used.take a.st.npart = a.st.used
  count : (news a b).length = n
  live : ∀ q ∈ news a b, q.tag = alive

theorem Added.extends {mpi : Bool} {dom : Nat} {a b : Sp K} {n : Nat} {w : Nat → New K}
    (h : Added mpi dom a b n w) : Extends a b n := by
  have hf := h.fits
  have hl := h.len
  have hn := h.npart
  have hc : (news a b).length = n := by
    simp only [news, Store.used, List.length_drop, List.length_take]; omega
  refine ⟨hn, hl, by omega, ?_, hc, ?_⟩
  · apply List.ext_getElem?
    intro p
    simp only [Store.used]
    rw [List.getElem?_take, List.getElem?_take, List.getElem?_take]
    by_cases hp : p < a.st.npart
    · rw [if_pos hp, if_pos (by omega), if_pos hp, h.old p (Or.inl hp)]
    · rw [if_neg hp, if_neg hp]
  · intro q hq
    obtain ⟨i, hi, rfl⟩ := List.getElem_of_mem hq
    obtain ⟨q, q1, q2, _⟩ := h.new i (hc ▸ hi)
    have e : (news a b)[i]? = some q := by
      rw [news, List.getElem?_drop, Store.used, List.getElem?_take_of_lt (by omega)]; exact q1
    rw [List.getElem?_eq_getElem hi, Option.some.injEq] at e
    rw [e, q2.tag]; rfl

theorem Added.news_at {mpi : Bool} {dom : Nat} {a b : Sp K} {n : Nat} {w : Nat → New K}
    (h : Added mpi dom a b n w) (i : Nat) (hi : i < n) :
    ∃ q, (news a b)[i]? = some q ∧ IsNew a.kind (w i) q ∧
      Labelled mpi a.tracking dom (u32 (a.counter + i)) q := by
  obtain ⟨q, q1, q2⟩ := h.new i hi
  have hn := h.npart
  exact ⟨q, by rw [news, List.getElem?_drop, Store.used, List.getElem?_take_of_lt (by omega)]; exact q1,
    q2⟩

theorem Added.pairs {mpi : Bool} {dom : Nat} {a1 b1 a2 b2 : Sp K} {n : Nat} {w1 w2 : Nat → New K}
    (h1 : Added mpi dom a1 b1 n w1) (h2 : Added mpi dom a2 b2 n w2) (D : Nat) (h3 : D ≤ 3)
    (e1 : a1.kind.D = D) (e2 : a2.kind.D = D)
    (hw : ∀ i, i < n → (w1 i).xi = (w2 i).xi ∧ (w1 i).dxi = (w2 i).dxi ∧ (w1 i).weight = (w2 i).weight) :
    List.Forall₂ (SameSpot D) (news a1 b1) (news a2 b2) := by
  have c1 := h1.extends.count
  have c2 := h2.extends.count
  rw [List.forall₂_iff_get]
  refine ⟨by omega, fun i hi1 hi2 => ?_⟩
  obtain ⟨q1, p1, r1, _⟩ := h1.news_at i (by omega)
  obtain ⟨q2, p2, r2, _⟩ := h2.news_at i (by omega)
  rw [List.getElem?_eq_getElem hi1, Option.some.injEq] at p1
  rw [List.getElem?_eq_getElem hi2, Option.some.injEq] at p2
  simp only [List.get_eq_getElem]
  rw [p1, p2]
  obtain ⟨x1, x2, x3⟩ := hw i (by omega)
  refine ⟨fun d hd => ?_, fun d hd => ?_, by rw [r1.weight, r2.weight, x3]⟩
  · rw [(r1.at (by omega) d (by omega)).1, (r2.at (by omega) d (by omega)).1, x1]
  · rw [(r1.at (by omega) d (by omega)).2, (r2.at (by omega) d (by omega)).2, x2]

section Field

variable [Field K] [LinearOrder K] [IsStrictOrderedRing K] [FloorRing K]

/-! ## Uniform injection -/

theorem checkPayload_ok {mpi : Bool} {sps : List (Sp K)} {s : Nat} (hs : s ≠ 0) {a : Sp K}
    (ha : sps[s - 1]? = some a) (hr : Room mpi a) : checkPayload mpi sps s = .ok () := by
  unfold checkPayload
  rw [if_neg hs, ha]
  simp only [Outcome.errorIf]
  rw [if_neg]
  rintro ⟨h1, h2⟩
  have := hr h1
  omega

theorem injectUniform_spec (mpi : Bool) (l : Loc K) (conv : Nat → K → K) (ppc0 density : K)
    (box : List (Bnd K × Bnd K)) (s1 s2 : Nat) (hs1 : s1 ≠ 0) (hs2 : s2 ≠ 0) (hne : s1 ≠ s2)
    (dr : UDraw K) (σ : Sched) (hσ : σ.Fair) (sps : List (Sp K)) (a1 a2 : Sp K)
    (ha1 : sps[s1 - 1]? = some a1) (ha2 : sps[s2 - 1]? = some a2) (hv1 : Valid mpi a1)
    (hv2 : Valid mpi a2) (reg : List (K × K))
    (hreg : deduceRegion l.ext conv (completeBox l.ext.length box) = .ok (some reg)) (n : Nat)
    (hn : numInject ppc0 density reg = .ok n)
    (hf1 : a1.st.npart + n ≤ a1.st.arr.length) (hf2 : a2.st.npart + n ≤ a2.st.arr.length) :
    ∃ b1 b2, injectUniform mpi l conv ppc0 density l.curv l.curv box s1 s2 dr σ sps =
        .ok ((sps.set (s1 - 1) b1).set (s2 - 1) b2) ∧
      Added mpi l.dom a1 b1 n (uNew l.curv dr reg dr.v1) ∧
      Added mpi l.dom a2 b2 n (uNew l.curv dr reg dr.v2) := by
  obtain ⟨b1, b2, e, r1, r2⟩ := pair_spec mpi l.dom s1 s2 hs1 hs2 hne sps a1 a2 ha1 ha2 hv1.dim hv2.dim
    hv1.room hv2.room hv1.pld hv2.pld n hf1 hf2
    ((σ n).map fun p => (p, uNew l.curv dr reg dr.v1 p, uNew l.curv dr reg dr.v2 p))
    (by simpa [Function.comp_def] using hσ n)
    (uNew l.curv dr reg dr.v1) (uNew l.curv dr reg dr.v2)
    (by intro e he
        obtain ⟨p, _, rfl⟩ := List.mem_map.1 he
        exact ⟨rfl, rfl⟩)
  refine ⟨b1, b2, ?_, r1, r2⟩
  rw [List.foldlM_map] at e
  rw [← e]
  unfold injectUniform
  have h1 : ¬ (l.curv = true ∧ l.curv = false) := by simp
  have h2 : ¬ (l.curv = false ∧ l.curv = true) := by simp
  simp only [Outcome.errorIf, if_neg h1, if_neg h2, Outcome.bind_ok, hreg, hn, capture_ok hs1 ha1,
    capture_ok hs2 ha2, checkPayload_ok hs1 ha1 hv1.room, checkPayload_ok hs2 ha2 hv2.room, ne_eq,
    not_true_eq_false, if_false]
  rfl

/-- The local metric along the axes of a subdomain with `N d` cells: `ph` takes code to physical
coordinates, increases, takes `0` and `N d` to the ends of the extent, and `conv` is its inverse
(C62 for the metrics of the code). -/
structure LocOk (ext : List (K × K)) (conv ph : Nat → K → K) (N : Nat → Nat) : Prop where
  mono : ∀ d, d < ext.length → StrictMonoOn (ph d) (Set.Icc 0 (N d : K))
  lo : ∀ (d : Nat) (e : K × K), ext[d]? = some e → ph d 0 = e.1
  hi : ∀ (d : Nat) (e : K × K), ext[d]? = some e → ph d (N d) = e.2
  inv : ∀ (d : Nat) (e : K × K), ext[d]? = some e → ∀ x, e.1 ≤ x → x ≤ e.2 →
    0 ≤ conv d x ∧ conv d x ≤ N d ∧ ph d (conv d x) = x

/-- `x` is not below a lower bound. -/
def AtLeast : Bnd K → K → Prop
  | .min, _ => True
  | .max, _ => False
  | .at a, x => a ≤ x

/-- Specification: a particle lies in a cell of the subdomain and, in physical coordinates, in the extent
and in the box (axes beyond those of the box are not restricted). -/
structure Inside (ext : List (K × K)) (ph : Nat → K → K) (N : Nat → Nat) (box : List (Bnd K × Bnd K))
    (q : Prtl K) : Prop where
  cell : ∀ d, d < ext.length → 0 ≤ cellOf q d ∧ cellOf q d < N d
  frac : ∀ d, d < ext.length → 0 ≤ fracOf q d ∧ fracOf q d < 1
  extent : ∀ (d : Nat) (e : K × K), ext[d]? = some e →
    e.1 ≤ ph d (cellOf q d + fracOf q d) ∧ ph d (cellOf q d + fracOf q d) < e.2
  box : ∀ (d : Nat) (b : Bnd K × Bnd K), d < ext.length → box[d]? = some b →
    AtLeast b.1 (ph d (cellOf q d + fracOf q d)) ∧ Below b.2 (ph d (cellOf q d + fracOf q d))

/-- The interval along axis `d`, in physical coordinates, that belongs to both the extent and the box. -/
def overlapOf (ext : List (K × K)) (box : List (Bnd K × Bnd K)) (d : Nat) : K × K :=
  (clampLo (ext.getD d (0, 0)) (box.getD d (.min, .max)).1,
   clampHi (ext.getD d (0, 0)) (box.getD d (.min, .max)).2)

theorem deduceRegion_some {ext : List (K × K)} {conv : Nat → K → K} {box : List (Bnd K × Bnd K)}
    {reg : List (K × K)} (h : deduceRegion ext conv (completeBox ext.length box) = .ok (some reg)) :
    reg = (List.range ext.length).map fun d =>
      (conv d (overlapOf ext box d).1, conv d (overlapOf ext box d).2) := by
  unfold deduceRegion at h
  rw [Outcome.bind_eq_ok] at h
  obtain ⟨m, _, h⟩ := h
  cases m with
  | false => simp [Outcome.pure_eq] at h
  | true =>
    simp only [if_true, Outcome.pure_eq, Outcome.ok.injEq, Option.some.injEq] at h
    rw [← h]
    apply List.ext_getElem?
    intro d
    rw [List.getElem?_mapIdx, List.getElem?_map]
    by_cases hd : d < ext.length
    · have hz : (ext.zip (completeBox ext.length box))[d]? = some (ext[d], box.getD d (.min, .max)) := by
        rw [List.getElem?_zip_eq_some]
        exact ⟨List.getElem?_eq_getElem hd, by simp [completeBox, hd]⟩
      rw [hz, List.getElem?_range hd]
      simp [overlapOf, List.getD_eq_getElem?_getD, List.getElem?_eq_getElem hd]
    · have hz : (ext.zip (completeBox ext.length box))[d]? = none := by
        rw [List.getElem?_eq_none_iff]; simp [completeBox]; omega
      rw [hz, List.getElem?_eq_none (by simp; omega)]
      rfl

theorem box_of_between (e : K × K) (b : Bnd K × Bnd K) (x : K) (h1 : clampLo e b.1 ≤ x)
    (h2 : x < clampHi e b.2) (he1 : e.1 ≤ x) (he2 : x < e.2) : AtLeast b.1 x ∧ Below b.2 x := by
  obtain ⟨b1, b2⟩ := b
  constructor
  · cases b1 with
    | min => trivial
    | max => simp only [clampLo] at h1; exact absurd he2 (not_lt.2 h1)
    | «at» a =>
      simp only [clampLo, min_le_iff, max_le_iff] at h1
      rcases h1 with h1 | h1
      · exact absurd he2 (not_lt.2 h1)
      · exact h1.2
  · cases b2 with
    | max => trivial
    | min => simp only [clampHi] at h2; exact absurd he1 (not_le.2 h2)
    | «at» a =>
      simp only [clampHi, lt_max_iff, lt_min_iff] at h2
      rcases h2 with h2 | h2
      · exact absurd he1 (not_le.2 h2)
      · exact h2.2

theorem boxLoop_all (es : List (K × K)) (hes : ∀ e ∈ es, e.1 ≤ e.2) (bs : List (Bnd K × Bnd K)) :
    ((boxLoop es bs).all fun i => !(decide (i.1 > i.2) || decide (i.1 = i.2))) = true ↔
      ∀ eb ∈ es.zip bs, ¬ HalfOpenUp eb.2 → clampLo eb.1 eb.2.1 < clampHi eb.1 eb.2.2 := by
  induction es generalizing bs with
  | nil => simp [boxLoop]
  | cons e es ih =>
    cases bs with
    | nil => simp [boxLoop]
    | cons b bs =>
      have he := hes e (by simp)
      have ih := ih (fun e h => hes e (List.mem_cons_of_mem _ h)) bs
      simp only [boxLoop, List.all_append, Bool.and_eq_true, List.zip_cons_cons, List.forall_mem_cons]
      rw [ih]
      refine and_congr_left fun _ => ?_
      by_cases hb : HalfOpenUp b
      · obtain ⟨b1, b2⟩ := b
        obtain ⟨hb1, hb2⟩ := hb
        simp only at hb1 hb2
        subst hb2
        have : boxEntry e (b1, Bnd.max) = [] := by cases b1 <;> simp_all [boxEntry, isAll]
        simp [this, HalfOpenUp, hb1]
      · rw [boxEntry_eq e he b hb]
        simp only [List.all_cons, List.all_nil, Bool.and_true, Bool.not_eq_true', Bool.or_eq_false_iff,
          decide_eq_false_iff_not, not_lt, hb, not_false_eq_true, true_imp_iff]
        exact ⟨fun h => lt_of_le_of_ne h.1 h.2, fun h => ⟨h.le, h.ne⟩⟩

theorem region_cases (ext : List (K × K)) (hext : ∀ e ∈ ext, e.1 ≤ e.2) (conv : Nat → K → K)
    (box : List (Bnd K × Bnd K)) :
    (deduceRegion ext conv (completeBox ext.length box) = .ok none ∧
      ∃ d, d < ext.length ∧ (overlapOf ext box d).2 ≤ (overlapOf ext box d).1) ∨
    ((∃ reg, deduceRegion ext conv (completeBox ext.length box) = .ok (some reg)) ∧
      ∀ d, d < ext.length → (overlapOf ext box d).1 ≤ (overlapOf ext box d).2) := by
  have hz : ∀ d (hd : d < ext.length), (ext.zip (completeBox ext.length box))[d]? =
      some (ext[d], box.getD d (.min, .max)) := by
    intro d hd
    rw [List.getElem?_zip_eq_some]
    exact ⟨List.getElem?_eq_getElem hd, by simp [completeBox, hd]⟩
  have ho : ∀ d (hd : d < ext.length), overlapOf ext box d =
      (clampLo ext[d] (box.getD d (.min, .max)).1, clampHi ext[d] (box.getD d (.min, .max)).2) := by
    intro d hd
    simp [overlapOf, List.getD_eq_getElem?_getD, List.getElem?_eq_getElem hd]
  have hi : intersects ext (completeBox ext.length box) = .ok ((boxLoop ext (completeBox ext.length box)).all
      fun i => !(decide (i.1 > i.2) || decide (i.1 = i.2))) := by
    simp [intersects, intersection, Outcome.errorIf, completeBox]
  by_cases hv : ((boxLoop ext (completeBox ext.length box)).all
      fun i => !(decide (i.1 > i.2) || decide (i.1 = i.2))) = true
  · right
    refine ⟨⟨_, by rw [deduceRegion, hi, hv, Outcome.bind_ok]; rfl⟩, fun d hd => ?_⟩
    have := (boxLoop_all ext hext _).1 hv _ (List.mem_of_getElem? (hz d hd))
    rw [ho d hd]
    simp only at this ⊢
    by_cases hb : HalfOpenUp (box.getD d (.min, .max))
    · rw [hb.2]
      simp only [clampHi]
      exact (clampLo_le _ _).trans (le_max_right _ _)
    · exact (this hb).le
  · left
    have hv' : ((boxLoop ext (completeBox ext.length box)).all
      fun i => !(decide (i.1 > i.2) || decide (i.1 = i.2))) = false := by simpa using hv
    refine ⟨by rw [deduceRegion, hi, hv', Outcome.bind_ok]; rfl, ?_⟩
    rw [boxLoop_all ext hext] at hv
    push Not at hv
    obtain ⟨eb, hm, _, hlt⟩ := hv
    obtain ⟨d, hd, rfl⟩ := List.getElem_of_mem hm
    have hd' : d < ext.length := by
      simp only [List.length_zip] at hd; omega
    have := hz d hd'
    rw [List.getElem?_eq_getElem hd, Option.some.injEq] at this
    rw [this] at hlt
    exact ⟨d, hd', by rw [ho d hd']; exact hlt⟩

/-- Specification: the number of pairs to be injected uniformly, the integer part of half the requested
number of particles per cell times the number of cells covered by the box, counting fractions. -/
def uniformCount (ppc0 density : K) (conv : Nat → K → K) (ext : List (K × K)) (box : List (Bnd K × Bnd K)) :
    Nat :=
  ⌊ppc0 * density / 2 * ((List.range ext.length).map fun d =>
    max 0 (conv d (overlapOf ext box d).2 - conv d (overlapOf ext box d).1)).prod⌋.toNat

theorem LocOk.conv_le {ext : List (K × K)} {conv ph : Nat → K → K} {N : Nat → Nat}
    (h : LocOk ext conv ph N) {d : Nat} {e : K × K} (he : ext[d]? = some e) {x y : K} (hx : e.1 ≤ x)
    (hxy : x ≤ y) (hy : y ≤ e.2) : conv d x ≤ conv d y := by
  obtain ⟨x1, x2, x3⟩ := h.inv d e he x hx (hxy.trans hy)
  obtain ⟨y1, y2, y3⟩ := h.inv d e he y (hx.trans hxy) hy
  have hd : d < ext.length := (List.getElem?_eq_some_iff.1 he).1
  exact ((h.mono d hd).le_iff_le ⟨x1, x2⟩ ⟨y1, y2⟩).1 (by rw [x3, y3]; exact hxy)

theorem LocOk.ext_le {ext : List (K × K)} {conv ph : Nat → K → K} {N : Nat → Nat}
    (h : LocOk ext conv ph N) : ∀ e ∈ ext, e.1 ≤ e.2 := by
  intro e he
  obtain ⟨d, hd⟩ := List.getElem?_of_mem he
  rw [← h.lo d e hd, ← h.hi d e hd]
  exact (h.mono d (List.getElem?_eq_some_iff.1 hd).1).monotoneOn ⟨le_refl _, Nat.cast_nonneg _⟩
    ⟨Nat.cast_nonneg _, le_refl _⟩ (Nat.cast_nonneg _)

theorem inside_of_new (k : Kind) (h3 : k.D ≤ 3) (ext : List (K × K)) (hD : k.D = ext.length)
    (conv ph : Nat → K → K) (N : Nat → Nat) (h : LocOk ext conv ph N) (box : List (Bnd K × Bnd K))
    (dr : UDraw K) (reg : List (K × K)) (hreg : reg = (List.range ext.length).map fun d =>
      (conv d (overlapOf ext box d).1, conv d (overlapOf ext box d).2))
    (hpos : ∀ d, d < ext.length → conv d (overlapOf ext box d).1 < conv d (overlapOf ext box d).2)
    (curv : Bool) (v : Nat → (Nat → K) → V3 K) (p : Nat) (hr : ∀ d, 0 ≤ dr.r p d ∧ dr.r p d < 1)
    (q : Prtl K) (hq : IsNew k (uNew curv dr reg v p) q) : Inside ext ph N box q := by
  have key : ∀ (d : Nat) (e : K × K), ext[d]? = some e →
      (0 ≤ cellOf q d ∧ cellOf q d < N d) ∧ (0 ≤ fracOf q d ∧ fracOf q d < 1) ∧
      (e.1 ≤ ph d (cellOf q d + fracOf q d) ∧ ph d (cellOf q d + fracOf q d) < e.2) ∧
      (overlapOf ext box d).1 ≤ ph d (cellOf q d + fracOf q d) ∧
      ph d (cellOf q d + fracOf q d) < (overlapOf ext box d).2 := by
    intro d e he
    have hd : d < ext.length := (List.getElem?_eq_some_iff.1 he).1
    have hee := h.ext_le e (List.mem_of_getElem? he)
    obtain ⟨hc, hf⟩ := hq.at h3 d (by omega)
    set lo := overlapOf ext box d |>.1 with hlo
    set hi := overlapOf ext box d |>.2 with hhi
    have ge : ext.getD d (0, 0) = e := by simp [List.getD_eq_getElem?_getD, he]
    have l1 : e.1 ≤ lo := by rw [hlo, overlapOf, ge]; exact le_clampLo e hee _
    have l2 : lo ≤ e.2 := by rw [hlo, overlapOf, ge]; exact clampLo_le e _
    have m1 : e.1 ≤ hi := by rw [hhi, overlapOf, ge]; exact le_clampHi e _
    have m2 : hi ≤ e.2 := by rw [hhi, overlapOf, ge]; exact clampHi_le e hee _
    obtain ⟨a1, a2, a3⟩ := h.inv d e he lo l1 l2
    obtain ⟨c1, c2, c3⟩ := h.inv d e he hi m1 m2
    have hlt := hpos d hd
    have hregd : reg.getD d (0, 0) = (conv d lo, conv d hi) := by
      rw [hreg, List.getD_eq_getElem?_getD, List.getElem?_map, List.getElem?_range hd]; rfl
    set x := uPos dr reg p d with hx
    have hxe : x = conv d lo + dr.r p d * (conv d hi - conv d lo) := by rw [hx, uPos, hregd]
    obtain ⟨r1, r2⟩ := hr d
    have x1 : conv d lo ≤ x := by
      rw [hxe]; have := mul_nonneg r1 (sub_nonneg.2 hlt.le); linarith
    have x2 : x < conv d hi := by
      rw [hxe]
      have := mul_lt_mul_of_pos_right r2 (sub_pos.2 hlt)
      linarith
    have x0 : 0 ≤ x := a1.trans x1
    have hc' : cellOf q d = ⌊x⌋ := by rw [hc]; exact toInt_nonneg x0
    have hf' : fracOf q d = x - ⌊x⌋ := by
      rw [hf]; change x - ((toInt x : Int) : K) = _; rw [toInt_nonneg x0]
    have hs : (cellOf q d : K) + fracOf q d = x := by rw [hc', hf']; ring
    rw [hs]
    have xN : x < N d := lt_of_lt_of_le x2 c2
    have hmo := h.mono d hd
    have xm : x ∈ Set.Icc (0 : K) (N d) := ⟨x0, xN.le⟩
    have b1 : lo ≤ ph d x := by
      rw [← a3]; exact (hmo.le_iff_le ⟨a1, a2⟩ xm).2 x1
    have b2 : ph d x < hi := by
      rw [← c3]; exact (hmo.lt_iff_lt xm ⟨c1, c2⟩).2 x2
    refine ⟨⟨by rw [hc']; exact Int.floor_nonneg.2 x0, ?_⟩, ⟨?_, ?_⟩, ⟨l1.trans b1, lt_of_lt_of_le b2 m2⟩, b1, b2⟩
    · rw [hc', Int.floor_lt]; exact_mod_cast xN
    · rw [hf']; exact sub_nonneg.2 (Int.floor_le x)
    · rw [hf']; have := Int.lt_floor_add_one x; linarith
  refine ⟨fun d hd => (key d _ (List.getElem?_eq_getElem hd)).1,
    fun d hd => (key d _ (List.getElem?_eq_getElem hd)).2.1, fun d e he => (key d e he).2.2.1,
    fun d b hd hb => ?_⟩
  obtain ⟨_, _, ⟨k1, k2⟩, k3, k4⟩ := key d _ (List.getElem?_eq_getElem hd)
  have ge : ext.getD d (0, 0) = ext[d] := by simp [List.getD_eq_getElem?_getD, List.getElem?_eq_getElem hd]
  have gb : box.getD d (.min, .max) = b := by simp [List.getD_eq_getElem?_getD, hb]
  rw [overlapOf, ge, gb] at k3 k4
  exact box_of_between _ b _ k3 k4 k1 k2

theorem uniform_core (mpi : Bool) (l : Loc K) (conv ph : Nat → K → K) (N : Nat → Nat)
    (hloc : LocOk l.ext conv ph N) (ppc0 density : K) (h0 : 0 ≤ ppc0) (h0' : 0 ≤ density)
    (box : List (Bnd K × Bnd K)) (s1 s2 : Nat) (hs1 : s1 ≠ 0) (hs2 : s2 ≠ 0) (hne : s1 ≠ s2)
    (dr : UDraw K) (hdr : ∀ p d, 0 ≤ dr.r p d ∧ dr.r p d < 1) (σ : Sched) (hσ : σ.Fair)
    (sps : List (Sp K)) (a1 a2 : Sp K) (ha1 : sps[s1 - 1]? = some a1) (ha2 : sps[s2 - 1]? = some a2)
    (hv1 : Valid mpi a1) (hv2 : Valid mpi a2) (hD1 : a1.kind.D = l.ext.length)
    (hD2 : a2.kind.D = l.ext.length) (n : Nat) (hn : n = uniformCount ppc0 density conv l.ext box)
    (hf1 : a1.st.npart + n ≤ a1.st.arr.length) (hf2 : a2.st.npart + n ≤ a2.st.arr.length) :
    ∃ b1 b2, injectUniform mpi l conv ppc0 density l.curv l.curv box s1 s2 dr σ sps =
        .ok ((sps.set (s1 - 1) b1).set (s2 - 1) b2) ∧
      Extends a1 b1 n ∧ Extends a2 b2 n ∧
      List.Forall₂ (SameSpot l.ext.length) (news a1 b1) (news a2 b2) ∧
      (∀ q ∈ news a1 b1, Inside l.ext ph N box q) ∧ (∀ q ∈ news a2 b2, Inside l.ext ph N box q) := by
  have triv : ∀ a : Sp K, a.st.npart ≤ a.st.arr.length → Extends a a 0 ∧ news a a = [] := by
    intro a ha
    have : news a a = [] := by
      rw [news, List.drop_eq_nil_iff]; simp [Store.used]
    exact ⟨⟨rfl, rfl, ha, by rw [Store.used, List.take_take, min_self], by simp [this], by simp [this]⟩, this⟩
  rcases region_cases l.ext hloc.ext_le conv box with ⟨hr, d, hd, hle⟩ | ⟨⟨reg, hr⟩, hle⟩
  · have hz : n = 0 := by
      rw [hn, uniformCount, List.prod_eq_zero, mul_zero, Int.floor_zero]; rfl
      rw [List.mem_map]
      have he := List.getElem?_eq_getElem hd
      have hee := hloc.ext_le _ (List.mem_of_getElem? he)
      have ge : l.ext.getD d (0, 0) = l.ext[d] := by simp [List.getD_eq_getElem?_getD, he]
      refine ⟨d, List.mem_range.2 hd, max_eq_left (sub_nonpos.2 (hloc.conv_le he ?_ hle ?_))⟩
      · rw [overlapOf, ge]; exact le_clampHi _ _
      · rw [overlapOf, ge]; exact clampLo_le _ _
    subst hz
    obtain ⟨t1, u1⟩ := triv a1 hv1.fits
    obtain ⟨t2, u2⟩ := triv a2 hv2.fits
    refine ⟨a1, a2, ?_, t1, t2, by rw [u1, u2]; exact .nil, by simp [u1], by simp [u2]⟩
    rw [set_self ha1, set_self ha2]
    unfold injectUniform
    have h1 : ¬ (l.curv = true ∧ l.curv = false) := by simp
    have h2 : ¬ (l.curv = false ∧ l.curv = true) := by simp
    simp only [Outcome.errorIf, if_neg h1, if_neg h2, Outcome.bind_ok, hr, ne_eq, not_true_eq_false, if_false]
    rfl
  · have hreg := deduceRegion_some hr
    have hcle : ∀ d, d < l.ext.length → conv d (overlapOf l.ext box d).1 ≤ conv d (overlapOf l.ext box d).2 := by
      intro d hd
      have he := List.getElem?_eq_getElem hd
      have hee := hloc.ext_le _ (List.mem_of_getElem? he)
      have ge : l.ext.getD d (0, 0) = l.ext[d] := by simp [List.getD_eq_getElem?_getD, he]
      refine hloc.conv_le he ?_ (hle d hd) ?_
      · rw [overlapOf, ge]; exact le_clampLo _ hee _
      · rw [overlapOf, ge]; exact clampHi_le _ hee _
    have hvol : (reg.map fun r => r.2 - r.1).prod = ((List.range l.ext.length).map fun d =>
        max 0 (conv d (overlapOf l.ext box d).2 - conv d (overlapOf l.ext box d).1)).prod := by
      rw [hreg, List.map_map]
      congr 1
      apply List.map_congr_left
      intro d hd
      exact (max_eq_right (sub_nonneg.2 (hcle d (List.mem_range.1 hd)))).symm
    have hnum : numInject ppc0 density reg = .ok n := by
      have hnn : 0 ≤ ppc0 * density * (1 / 2) * (reg.map fun r => r.2 - r.1).prod := by
        apply mul_nonneg (by positivity)
        rw [hvol]
        apply List.prod_nonneg
        intro x hx
        obtain ⟨d, _, rfl⟩ := List.mem_map.1 hx
        exact le_max_left _ _
      rw [numInject, toNpart, if_neg (by intro h; linarith), hn, uniformCount, hvol]
      congr 4
      ring
    obtain ⟨b1, b2, e, r1, r2⟩ := injectUniform_spec mpi l conv ppc0 density box s1 s2 hs1 hs2 hne dr σ hσ
      sps a1 a2 ha1 ha2 hv1 hv2 reg hr n hnum hf1 hf2
    have h3 : l.ext.length ≤ 3 := by rw [← hD1]; exact hv1.dim.2
    have hpos : 0 < n → ∀ d, d < l.ext.length →
        conv d (overlapOf l.ext box d).1 < conv d (overlapOf l.ext box d).2 := by
      intro hn0 d hd
      refine lt_of_le_of_ne (hcle d hd) fun heq => ?_
      have : n = 0 := by
        rw [hn, uniformCount, List.prod_eq_zero, mul_zero, Int.floor_zero]; rfl
        rw [List.mem_map]
        exact ⟨d, List.mem_range.2 hd, by rw [heq, sub_self, max_self]⟩
      omega
    have hin : ∀ (a b : Sp K) (v : Nat → (Nat → K) → V3 K), a.kind.D = l.ext.length →
        Added mpi l.dom a b n (uNew l.curv dr reg v) → ∀ q ∈ news a b, Inside l.ext ph N box q := by
      intro a b v hD hA q hq
      obtain ⟨i, hi, rfl⟩ := List.getElem_of_mem hq
      have hin : i < n := by rw [← hA.extends.count]; exact hi
      obtain ⟨q, q1, q2, _⟩ := hA.news_at i hin
      rw [List.getElem?_eq_getElem hi, Option.some.injEq] at q1
      rw [q1]
      exact inside_of_new a.kind (by omega) l.ext hD conv ph N hloc box dr reg hreg
        (hpos (by omega)) l.curv v i (hdr i) q q2
    exact ⟨b1, b2, e, r1.extends, r2.extends,
      r1.pairs r2 _ h3 hD1 hD2 (fun i _ => ⟨rfl, rfl, rfl⟩), hin a1 b1 _ hD1 r1, hin a2 b2 _ hD2 r2⟩

/-- **C91** for uniform injection: with any box, metric, density, schedule and random numbers, both
species receive the same number of live particles, behind those they had, and the `i`-th new particles
of the two sit at the same place with the same weight. -/
theorem C91_uniform_pairs (mpi : Bool) (l : Loc K) (conv ph : Nat → K → K) (N : Nat → Nat)
    (hloc : LocOk l.ext conv ph N) (ppc0 density : K) (h0 : 0 ≤ ppc0) (h0' : 0 ≤ density)
    (box : List (Bnd K × Bnd K)) (s1 s2 : Nat) (hs1 : s1 ≠ 0) (hs2 : s2 ≠ 0) (hne : s1 ≠ s2)
    (dr : UDraw K) (hdr : ∀ p d, 0 ≤ dr.r p d ∧ dr.r p d < 1) (σ : Sched) (hσ : σ.Fair)
    (sps : List (Sp K)) (a1 a2 : Sp K) (ha1 : sps[s1 - 1]? = some a1) (ha2 : sps[s2 - 1]? = some a2)
    (hv1 : Valid mpi a1) (hv2 : Valid mpi a2) (hD1 : a1.kind.D = l.ext.length)
    (hD2 : a2.kind.D = l.ext.length) (n : Nat) (hn : n = uniformCount ppc0 density conv l.ext box)
    (hf1 : a1.st.npart + n ≤ a1.st.arr.length) (hf2 : a2.st.npart + n ≤ a2.st.arr.length) :
    ∃ b1 b2, injectUniform mpi l conv ppc0 density l.curv l.curv box s1 s2 dr σ sps =
        .ok ((sps.set (s1 - 1) b1).set (s2 - 1) b2) ∧
      Extends a1 b1 n ∧ Extends a2 b2 n ∧
      List.Forall₂ (SameSpot l.ext.length) (news a1 b1) (news a2 b2) := by
  obtain ⟨b1, b2, e, r1, r2, r3, _⟩ := uniform_core mpi l conv ph N hloc ppc0 density h0 h0' box s1 s2 hs1
    hs2 hne dr hdr σ hσ sps a1 a2 ha1 ha2 hv1 hv2 hD1 hD2 n hn hf1 hf2
  exact ⟨b1, b2, e, r1, r2, r3⟩

/-- **C92** for uniform injection: each species receives exactly the integer part of half the requested
number of particles per cell times the number of cells of this subdomain covered by the box, and every
new particle lies in a cell of the subdomain and inside the box; nothing is injected where the box does
not reach. -/
theorem C92_uniform_where (mpi : Bool) (l : Loc K) (conv ph : Nat → K → K) (N : Nat → Nat)
    (hloc : LocOk l.ext conv ph N) (ppc0 density : K) (h0 : 0 ≤ ppc0) (h0' : 0 ≤ density)
    (box : List (Bnd K × Bnd K)) (s1 s2 : Nat) (hs1 : s1 ≠ 0) (hs2 : s2 ≠ 0) (hne : s1 ≠ s2)
    (dr : UDraw K) (hdr : ∀ p d, 0 ≤ dr.r p d ∧ dr.r p d < 1) (σ : Sched) (hσ : σ.Fair)
    (sps : List (Sp K)) (a1 a2 : Sp K) (ha1 : sps[s1 - 1]? = some a1) (ha2 : sps[s2 - 1]? = some a2)
    (hv1 : Valid mpi a1) (hv2 : Valid mpi a2) (hD1 : a1.kind.D = l.ext.length)
    (hD2 : a2.kind.D = l.ext.length) (n : Nat) (hn : n = uniformCount ppc0 density conv l.ext box)
    (hf1 : a1.st.npart + n ≤ a1.st.arr.length) (hf2 : a2.st.npart + n ≤ a2.st.arr.length) :
    ∃ b1 b2, injectUniform mpi l conv ppc0 density l.curv l.curv box s1 s2 dr σ sps =
        .ok ((sps.set (s1 - 1) b1).set (s2 - 1) b2) ∧
      (news a1 b1).length = n ∧ (news a2 b2).length = n ∧
      (∀ q ∈ news a1 b1, Inside l.ext ph N box q) ∧ (∀ q ∈ news a2 b2, Inside l.ext ph N box q) := by
  obtain ⟨b1, b2, e, r1, r2, _, r4, r5⟩ := uniform_core mpi l conv ph N hloc ppc0 density h0 h0' box s1 s2
    hs1 hs2 hne dr hdr σ hσ sps a1 a2 ha1 ha2 hv1 hv2 hD1 hD2 n hn hf1 hf2
  exact ⟨b1, b2, e, r1.count, r2.count, r4, r5⟩

/-! ## Non-uniform injection -/

theorem mapM_ok {α β : Type} (f : α → Outcome β) (g : α → β) (l : List α) (h : ∀ a ∈ l, f a = .ok (g a)) :
    l.mapM f = .ok (l.map g) := by
  induction l with
  | nil => rfl
  | cons a l ih =>
    rw [List.mapM_cons, h a (by simp), Outcome.bind_ok, ih fun b hb => h b (List.mem_cons_of_mem _ hb)]
    rfl

/-- Number of particles drawn for a cell. -/
def cellCount (dr : NDraw K) (c : Cell) : Nat :=
  if dr.rnd c < Int.fract (dr.ppc c) then ⌊dr.ppc c⌋.toNat + 1 else ⌊dr.ppc c⌋.toNat

theorem injectedPpc_ok (dr : NDraw K) (c : Cell) (h : 0 ≤ dr.ppc c) :
    injectedPpc dr c = .ok (cellCount dr c) := by
  have h1 : ¬ dr.ppc c ≤ -1 := by intro h'; linarith
  have h2 : ((⌊dr.ppc c⌋.toNat : Nat) : K) = ⌊dr.ppc c⌋ := by
    have : ((⌊dr.ppc c⌋.toNat : Int) : K) = (⌊dr.ppc c⌋ : K) := by
      rw [Int.toNat_of_nonneg (Int.floor_nonneg.2 h)]
    rw [← this]; norm_cast
  unfold injectedPpc cellCount toNpart
  rw [if_neg h1, Outcome.bind_ok, h2]
  rfl

/-- Cells of the new particles, in all dimensions. -/
def cells (D : Nat) (q : Prtl K) : Cell := (List.range D).map (cellOf q)

theorem nonUniform_core (mpi : Bool) (l : Loc K) (w : Bool) (hcw : l.curv = true → w = true)
    (range : List Cell) (s1 s2 : Nat) (hs1 : s1 ≠ 0) (hs2 : s2 ≠ 0) (hne : s1 ≠ s2) (dr : NDraw K)
    (hppc : ∀ c ∈ range, 0 ≤ dr.ppc c) (σ : List (Cell × Nat) → List (Cell × Nat))
    (hσ : ∀ l, (σ l).Perm l) (sps : List (Sp K)) (a1 a2 : Sp K) (ha1 : sps[s1 - 1]? = some a1)
    (ha2 : sps[s2 - 1]? = some a2) (hv1 : Valid mpi a1) (hv2 : Valid mpi a2) (D : Nat)
    (hD1 : a1.kind.D = D) (hD2 : a2.kind.D = D) (n : Nat) (hn : n = (range.map (cellCount dr)).sum)
    (hf1 : a1.st.npart + n ≤ a1.st.arr.length) (hf2 : a2.st.npart + n ≤ a2.st.arr.length) :
    ∃ (b1 b2 : Sp K) (evs : List (Cell × Nat)),
      injectNonUniform mpi l w w range s1 s2 dr σ sps =
        .ok ((sps.set (s1 - 1) b1).set (s2 - 1) b2) ∧
      evs.Perm (range.flatMap fun c => (List.range (cellCount dr c)).map fun j => (c, j)) ∧
      evs.length = n ∧
      Added mpi l.dom a1 b1 n (fun i => nNew dr dr.v1 (evs.getD i ([], 0))) ∧
      Added mpi l.dom a2 b2 n (fun i => nNew dr dr.v2 (evs.getD i ([], 0))) := by
  set all := range.flatMap fun c => (List.range (cellCount dr c)).map fun j => (c, j) with hall
  set evs := σ all with hevs
  have hlen : evs.length = n := by
    rw [(hσ all).length_eq, hall, List.length_flatMap, hn]
    simp
  obtain ⟨b1, b2, e, r1, r2⟩ := pair_spec mpi l.dom s1 s2 hs1 hs2 hne sps a1 a2 ha1 ha2 hv1.dim hv2.dim
    hv1.room hv2.room hv1.pld hv2.pld n hf1 hf2
    (evs.zipIdx.map fun x => (x.2, nNew dr dr.v1 x.1, nNew dr dr.v2 x.1))
    (by rw [List.map_map]
        have : evs.zipIdx.map (Prod.fst ∘ fun x : (Cell × Nat) × Nat =>
            (x.2, nNew dr dr.v1 x.1, nNew dr dr.v2 x.1)) = evs.zipIdx.map Prod.snd := rfl
        rw [this, List.zipIdx_map_snd, hlen, List.range_eq_range'])
    (fun i => nNew dr dr.v1 (evs.getD i ([], 0))) (fun i => nNew dr dr.v2 (evs.getD i ([], 0)))
    (by intro e he
        obtain ⟨x, hx, rfl⟩ := List.mem_map.1 he
        have := List.mem_zipIdx_iff_getElem?.1 hx
        simp [List.getD_eq_getElem?_getD, this])
  refine ⟨b1, b2, evs, ?_, hσ all, hlen, r1, r2⟩
  rw [List.foldlM_map] at e
  rw [← e]
  have hm : range.mapM (fun c => do
      let n ← injectedPpc dr c
      pure ((List.range n).map fun j => (c, j))) =
      .ok (range.map fun c => (List.range (cellCount dr c)).map fun j => (c, j)) :=
    mapM_ok _ _ _ fun c hc => by rw [injectedPpc_ok dr c (hppc c hc)]; rfl
  have hbody : nonUniformBody mpi l.dom dr ⟨s1, a1.st.npart, a1.counter⟩ ⟨s2, a2.st.npart, a2.counter⟩ =
      (fun (acc : Nat × List (Sp K)) (e : Cell × Nat) => do
        let sps ← (do
          let sps ← injectAt mpi l.dom ⟨s1, a1.st.npart, a1.counter⟩ acc.1 (nNew dr dr.v1 e) acc.2
          injectAt mpi l.dom ⟨s2, a2.st.npart, a2.counter⟩ acc.1 (nNew dr dr.v2 e) sps)
        pure (acc.1 + 1, sps)) := by
    funext acc e
    simp only [nonUniformBody, bind_assoc]
  have h1 : ¬ (l.curv = true ∧ w = false) := by
    rintro ⟨x, y⟩; rw [hcw x] at y; exact Bool.noConfusion y
  have h2 : ¬ (w = true ∧ w = false) := by simp
  have h3 : ¬ (w = false ∧ w = true) := by simp
  unfold injectNonUniform
  simp only [Outcome.errorIf, if_neg h1, if_neg h2, if_neg h3, Outcome.bind_ok, capture_ok hs1 ha1,
    capture_ok hs2 ha2]
  rw [hm, Outcome.bind_ok, ← List.flatMap_def, ← hall, ← hevs, hbody,
    counter_fold (fun i e sps => do
      let sps ← injectAt mpi l.dom ⟨s1, a1.st.npart, a1.counter⟩ i (nNew dr dr.v1 e) sps
      injectAt mpi l.dom ⟨s2, a2.st.npart, a2.counter⟩ i (nNew dr dr.v2 e) sps)]
  simp only [bind_assoc, pure_bind, Nat.zero_add, hlen]

/-- **C91** for injection with a spatial distribution: for any cells, densities, order in which the
parallel loops claim places and random numbers, both species receive the same number of live particles,
and the `i`-th new particles of the two sit at the same place with the same weight. -/
theorem C91_nonuniform_pairs (mpi : Bool) (l : Loc K) (w : Bool) (hcw : l.curv = true → w = true)
    (range : List Cell) (s1 s2 : Nat) (hs1 : s1 ≠ 0) (hs2 : s2 ≠ 0) (hne : s1 ≠ s2) (dr : NDraw K)
    (hppc : ∀ c ∈ range, 0 ≤ dr.ppc c) (σ : List (Cell × Nat) → List (Cell × Nat))
    (hσ : ∀ l, (σ l).Perm l) (sps : List (Sp K)) (a1 a2 : Sp K) (ha1 : sps[s1 - 1]? = some a1)
    (ha2 : sps[s2 - 1]? = some a2) (hv1 : Valid mpi a1) (hv2 : Valid mpi a2) (D : Nat)
    (hD1 : a1.kind.D = D) (hD2 : a2.kind.D = D) (n : Nat) (hn : n = (range.map (cellCount dr)).sum)
    (hf1 : a1.st.npart + n ≤ a1.st.arr.length) (hf2 : a2.st.npart + n ≤ a2.st.arr.length) :
    ∃ b1 b2, injectNonUniform mpi l w w range s1 s2 dr σ sps =
        .ok ((sps.set (s1 - 1) b1).set (s2 - 1) b2) ∧
      Extends a1 b1 n ∧ Extends a2 b2 n ∧
      List.Forall₂ (SameSpot D) (news a1 b1) (news a2 b2) := by
  obtain ⟨b1, b2, evs, e, _, _, r1, r2⟩ := nonUniform_core mpi l w hcw range s1 s2 hs1 hs2 hne dr hppc σ hσ
    sps a1 a2 ha1 ha2 hv1 hv2 D hD1 hD2 n hn hf1 hf2
  exact ⟨b1, b2, e, r1.extends, r2.extends,
    r1.pairs r2 _ (by rw [← hD1]; exact hv1.dim.2) hD1 hD2 (fun i _ => ⟨rfl, rfl, rfl⟩)⟩

/-- **C92** for injection with a spatial distribution: every new particle lies in a cell of the range, at
an offset between 0 and 1; and the number of new particles in each of those cells differs from the
requested number by less than one (and so is exact if that is an integer). -/
theorem C92_nonuniform_where (mpi : Bool) (l : Loc K) (w : Bool) (hcw : l.curv = true → w = true)
    (range : List Cell) (hnd : range.Nodup) (s1 s2 : Nat) (hs1 : s1 ≠ 0) (hs2 : s2 ≠ 0) (hne : s1 ≠ s2)
    (dr : NDraw K) (hppc : ∀ c ∈ range, 0 ≤ dr.ppc c) (hrnd : ∀ c, 0 ≤ dr.rnd c ∧ dr.rnd c < 1)
    (hdx : ∀ c j d, 0 ≤ dr.dx c j d ∧ dr.dx c j d < 1)
    (σ : List (Cell × Nat) → List (Cell × Nat))
    (hσ : ∀ l, (σ l).Perm l) (sps : List (Sp K)) (a1 a2 : Sp K) (ha1 : sps[s1 - 1]? = some a1)
    (ha2 : sps[s2 - 1]? = some a2) (hv1 : Valid mpi a1) (hv2 : Valid mpi a2) (D : Nat)
    (hD1 : a1.kind.D = D) (hD2 : a2.kind.D = D) (hrange : ∀ c ∈ range, c.length = D) (n : Nat)
    (hn : n = (range.map (cellCount dr)).sum)
    (hf1 : a1.st.npart + n ≤ a1.st.arr.length) (hf2 : a2.st.npart + n ≤ a2.st.arr.length) :
    ∃ b1 b2, injectNonUniform mpi l w w range s1 s2 dr σ sps =
        .ok ((sps.set (s1 - 1) b1).set (s2 - 1) b2) ∧
      ∀ N ∈ [news a1 b1, news a2 b2],
        (∀ q ∈ N, cells D q ∈ range ∧ ∀ d, d < D → 0 ≤ fracOf q d ∧ fracOf q d < 1) ∧
        ∀ c ∈ range, |((N.map (cells D)).count c : K) - dr.ppc c| < 1 := by
  obtain ⟨b1, b2, evs, e, hp, hl, r1, r2⟩ := nonUniform_core mpi l w hcw range s1 s2 hs1 hs2 hne dr hppc σ
    hσ sps a1 a2 ha1 ha2 hv1 hv2 D hD1 hD2 n hn hf1 hf2
  refine ⟨b1, b2, e, ?_⟩
  have hmem : ∀ x ∈ evs, x.1 ∈ range := by
    intro x hx
    obtain ⟨c, hc, hx⟩ := List.mem_flatMap.1 (hp.mem_iff.1 hx)
    obtain ⟨j, _, rfl⟩ := List.mem_map.1 hx
    exact hc
  have hcount : ∀ c ∈ range, (evs.map Prod.fst).count c = cellCount dr c := by
    intro c hc
    rw [(hp.map Prod.fst).count_eq, List.map_flatMap]
    have : ∀ l : List Cell, (l.flatMap fun a => ((List.range (cellCount dr a)).map fun j => (a, j)).map
        Prod.fst).count c = l.count c * cellCount dr c := by
      intro l
      induction l with
      | nil => simp
      | cons a l ih =>
        rw [List.flatMap_cons, List.count_append, ih, List.count_cons, List.map_map]
        have : (List.range (cellCount dr a)).map (Prod.fst ∘ fun j => (a, j)) =
            List.replicate (cellCount dr a) a := by
          simp [Function.comp_def, List.map_const']
        rw [this, List.count_replicate]
        by_cases h : a = c
        · subst h; simp; ring
        · simp [h]
    rw [this, List.count_eq_one_of_mem hnd hc, one_mul]
  have hclose : ∀ c, 0 ≤ dr.ppc c → |(cellCount dr c : K) - dr.ppc c| < 1 := by
    intro c hc
    have h2 : ((⌊dr.ppc c⌋.toNat : Nat) : K) = ⌊dr.ppc c⌋ := by
      have : ((⌊dr.ppc c⌋.toNat : Int) : K) = (⌊dr.ppc c⌋ : K) := by
        rw [Int.toNat_of_nonneg (Int.floor_nonneg.2 hc)]
      rw [← this]; norm_cast
    have h3 := Int.floor_add_fract (dr.ppc c)
    have h4 := Int.fract_nonneg (dr.ppc c)
    have h5 := Int.fract_lt_one (dr.ppc c)
    have h6 := (hrnd c).1
    unfold cellCount
    split_ifs with h
    · push_cast; rw [h2, abs_lt]; constructor <;> linarith
    · rw [h2, abs_lt]; constructor <;> linarith
  have side : ∀ (a b : Sp K) (v : Cell → Nat → V3 K), a.kind.D = D → a.kind.D ≤ 3 →
      Added mpi l.dom a b n (fun i => nNew dr v (evs.getD i ([], 0))) →
      (∀ q ∈ news a b, cells D q ∈ range ∧ ∀ d, d < D → 0 ≤ fracOf q d ∧ fracOf q d < 1) ∧
        (news a b).map (cells D) = evs.map Prod.fst := by
    intro a b v hD h3 hA
    have hc := hA.extends.count
    have key : ∀ i (hi : i < n) (hi' : i < (news a b).length) (hi'' : i < evs.length),
        cells D (news a b)[i] = evs[i].1 ∧
        ∀ d, d < D → 0 ≤ fracOf (news a b)[i] d ∧ fracOf (news a b)[i] d < 1 := by
      intro i hi hi' hi''
      obtain ⟨q, q1, q2, _⟩ := hA.news_at i hi
      rw [List.getElem?_eq_getElem hi', Option.some.injEq] at q1
      rw [q1]
      have hg : evs.getD i ([], 0) = evs[i] := by
        simp [List.getD_eq_getElem?_getD, List.getElem?_eq_getElem hi'']
      rw [hg] at q2
      have hlenc : evs[i].1.length = D := hrange _ (hmem _ (List.getElem_mem hi''))
      constructor
      · apply List.ext_getElem
        · simp [cells, hlenc]
        · intro d h1 h2
          simp only [cells, List.getElem_map, List.getElem_range]
          have hdD : d < D := by omega
          rw [(q2.at h3 d (by omega)).1]
          simp [nNew, List.getD_eq_getElem?_getD, List.getElem?_eq_getElem h2]
      · intro d hd
        rw [(q2.at h3 d (by omega)).2]
        exact hdx _ _ _
    constructor
    · intro q hq
      obtain ⟨i, hi, rfl⟩ := List.getElem_of_mem hq
      obtain ⟨k1, k2⟩ := key i (by omega) hi (by omega)
      exact ⟨by rw [k1]; exact hmem _ (List.getElem_mem _), k2⟩
    · apply List.ext_getElem
      · simp [hc, hl]
      · intro i h1 h2
        simp only [List.getElem_map]
        exact (key i (by simp at h2; omega) (by simpa using h1) (by simpa using h2)).1
  intro N hN
  simp only [List.mem_cons, List.not_mem_nil, or_false] at hN
  rcases hN with rfl | rfl
  · obtain ⟨k1, k2⟩ := side a1 b1 _ hD1 hv1.dim.2 r1
    exact ⟨k1, fun c hc => by rw [k2, hcount c hc]; exact hclose c (hppc c hc)⟩
  · obtain ⟨k1, k2⟩ := side a2 b2 _ hD2 hv2.dim.2 r2
    exact ⟨k1, fun c hc => by rw [k2, hcount c hc]; exact hclose c (hppc c hc)⟩

end Field

/-! ## Cases -/

/-- A subdomain of four cells over `[-1, 1)`. -/
def exLoc : Loc ℚ := ⟨0, [(-1, 1)], false⟩

example : LocOk exLoc.ext (fun _ x => 2 * (x + 1)) (fun _ c => -1 + c / 2) (fun _ => 4) := by
  constructor
  · intro d _ a _ b _ h
    simp only
    linarith
  · intro d e he
    have := List.getElem?_eq_some_iff.1 he
    obtain ⟨h1, h2⟩ := this
    have : d = 0 := by simp only [exLoc, List.length_cons, List.length_nil] at h1; omega
    subst this
    subst h2
    norm_num [exLoc]
  · intro d e he
    have := List.getElem?_eq_some_iff.1 he
    obtain ⟨h1, h2⟩ := this
    have : d = 0 := by simp only [exLoc, List.length_cons, List.length_nil] at h1; omega
    subst this
    subst h2
    norm_num [exLoc]
  · intro d e he x h1 h2
    obtain ⟨h3, h4⟩ := List.getElem?_eq_some_iff.1 he
    have : d = 0 := by simp only [exLoc, List.length_cons, List.length_nil] at h3; omega
    subst this
    subst h4
    simp only [exLoc, List.getElem_cons_zero] at h1 h2
    refine ⟨by linarith, by norm_num; linarith, by ring⟩

/-- Draws for the cases. -/
def exU : UDraw ℚ :=
  { r := fun p _ => p / 4, v1 := fun p _ => ⟨p, 0, 0⟩, v2 := fun p _ => ⟨0, p, 0⟩, wei := fun _ => 1 }

/-- The particles of both species after an injection, seen through `f`. -/
def exSee {β : Type} (f : Prtl ℚ → β) : Outcome (List (Sp ℚ)) → List (List β)
  | .ok sps => sps.map fun b => b.st.used.map f
  | _ => []

/-- Two particles per cell of each kind together, in the box `[-3/4, 3/4)`: three pairs. -/
example : uniformCount (K := ℚ) 2 1 (fun _ x => 2 * (x + 1)) exLoc.ext [(.at (-3 / 4), .at (3 / 4))] = 3 ∧
    exSee (fun q => (q.i1, q.dx1, q.weight)) (injectUniform true exLoc (fun _ x => 2 * (x + 1)) 2 1 false false
      [(.at (-3 / 4), .at (3 / 4))] 1 2 exU List.range [exSp 4, exSp 5]) =
    [[(0, 1 / 2, 1), (1, 1 / 4, 1), (2, 0, 1)], [(0, 1 / 2, 1), (1, 1 / 4, 1), (2, 0, 1)]] := by
  decide +kernel

/-- Draws for the cases: one and a half particles per cell. -/
def exN : NDraw ℚ :=
  { ppc := fun _ => 3 / 2, wei := fun _ => 1, rnd := fun c => if c = [1] then 1 / 4 else 3 / 4,
    dx := fun _ j _ => j / 8, v1 := fun _ j => ⟨j, 0, 0⟩, v2 := fun _ j => ⟨0, j, 0⟩ }

example : exSee (fun q => (q.i1, q.dx1)) (injectNonUniform true exLoc false false [[1], [2]] 1 2 exN
      List.reverse [exSp 4, exSp 5]) =
    [[(2, 0), (1, 1 / 8), (1, 0)], [(2, 0), (1, 1 / 8), (1, 0)]] := by
  decide +kernel

/-- **C91** does not hold if both species are the same: each pair is written to one and the same place
and the count grows by two per pair, so the arrays end with places that no one wrote (here dead). -/
theorem C91_same_species_counterexample :
    exSee (fun q => (q.ux1, q.ux2, q.tag)) (injectUniform true exLoc (fun _ x => 2 * (x + 1)) 2 1 false false
      [(.at (-3 / 4), .at (3 / 4))] 1 1 exU List.range [exSp 8]) =
    [[(0, 0, 1), (0, 1, 1), (0, 2, 1), (0, 0, 0), (0, 0, 0), (0, 0, 0)]] := by
  decide +kernel

end Entity.Inject
