import Verif.Lemmas.PrtlSort
import Mathlib.Tactic.IntervalCases

/-!
# Particle containers: C18 (removal of dead particles), C19 (counts per tag), C20 (spatial
sorting), C22 (clearing intervals)
-/

namespace Entity.Prtl

open Entity Entity.Dir Entity.Tags

/-! ## Specification -/

/-- Everything the code stores about a particle of a given kind of species (attributes that do not
exist for the dimension or coordinates left out), except whether it is alive. -/
structure View (R : Type) where
  cell : List Int
  cellPrev : List Int
  dx : List R
  dxPrev : List R
  u : List R
  weight : R
  phi : Option R
  pldr : List R
  pldi : List Nat
  deriving DecidableEq

/-- The view of a stored record. -/
def Kind.view {R : Type} (k : Kind) (q : Prtl R) : View R where
  cell := [q.i1, q.i2, q.i3].take k.D
  cellPrev := [q.i1_prev, q.i2_prev, q.i3_prev].take k.D
  dx := [q.dx1, q.dx2, q.dx3].take k.D
  dxPrev := [q.dx1_prev, q.dx2_prev, q.dx3_prev].take k.D
  u := [q.ux1, q.ux2, q.ux3]
  weight := q.weight
  phi := if k.D = 2 ∧ k.curv = true then some q.phi else none
  pldr := q.pld_r.take k.npldr
  pldi := q.pld_i.take k.npldi

/-- The particles in use: the first `npart` entries. -/
def Store.used {R : Type} (s : Store R) : List (Prtl R) := s.arr.take s.npart

/-- The live particles in use. -/
def Store.live {R : Type} (s : Store R) : List (Prtl R) :=
  s.used.filter (fun q => decide (q.tag = 1))

/-- A schedule that runs every index exactly once, in whatever order. -/
def Sched.Fair (σ : Sched) : Prop := ∀ n, (σ n).Perm (List.range n)

theorem view_copy {R : Type} (k : Kind) (h1 : 1 ≤ k.D) (h3 : k.D ≤ 3) (src q : Prtl R) (t : Int) :
    k.view { copyAttrs k src q with tag := t } = k.view src := by
  obtain ⟨D, c, nr, ni⟩ := k
  have hr : ∀ (a b : List R), (if nr > 0 then a else b).take nr = a.take nr := by
    intro a b; rcases nr with _ | n <;> simp
  have hi : ∀ (a b : List Nat), (if ni > 0 then a else b).take ni = a.take ni := by
    intro a b; rcases ni with _ | n <;> simp
  simp only at h1 h3
  interval_cases D <;> cases c <;> simp [Kind.view, copyAttrs, Kind.hasPhi, hr, hi]

/-! ## C18 -/

theorem filterMap_live {R : Type} (arr : List (Prtl R)) (l : List Nat)
    (h : ∀ p ∈ l, p < arr.length) :
    (l.filter (fun p => decide (tagAt arr p = 1))).filterMap (fun p => arr[p]?) =
      (l.filterMap (fun p => arr[p]?)).filter (fun q => decide (q.tag = 1)) := by
  induction l with
  | nil => rfl
  | cons p ps ih =>
    have hlt : p < arr.length := h p (by simp)
    have hp : arr[p]? = some arr[p] := List.getElem?_eq_getElem hlt
    have ih' := ih fun x hx => h x (List.mem_cons_of_mem _ hx)
    rw [List.filterMap_cons, hp]
    by_cases ht : arr[p].tag = 1
    · rw [List.filter_cons_of_pos (by simp [tagAt_some hp, ht]), List.filterMap_cons, hp]
      simp only
      rw [List.filter_cons_of_pos (by simpa using ht), ih']
    · rw [List.filter_cons_of_neg (by simp [tagAt_some hp, ht])]
      simp only
      rw [List.filter_cons_of_neg (by simpa using ht), ih']

/-- **C18.** `RemoveDead` on any species with tags alive and dead, under any schedule of its
kernels: it succeeds; the new count is the number of live particles; the particles now in use are all
alive and are, with all their attributes, a rearrangement of the previously live ones; the entries
after them up to the old count are dead; entries beyond the old count are untouched. -/
theorem C18_remove_dead {R : Type} (k : Kind) (h1 : 1 ≤ k.D) (h3 : k.D ≤ 3) (s : Store R)
    (hn : s.npart ≤ s.maxnpart) {σ₁ σ₂ σ₃ : Sched} (hσ₁ : σ₁.Fair) (hσ₂ : σ₂.Fair) (hσ₃ : σ₃.Fair)
    (ht : ∀ q ∈ s.used, q.tag = 1 ∨ q.tag = 0) :
    ∃ s', removeDead k s σ₁ σ₂ σ₃ = .ok s' ∧ s'.maxnpart = s.maxnpart ∧
      s'.npart = s.live.length ∧
      (s'.used.map k.view).Perm (s.live.map k.view) ∧
      (∀ q ∈ s'.used, q.tag = 1) ∧
      (∀ q ∈ (s'.arr.take s.npart).drop s'.npart, q.tag = 0) ∧
      s'.arr.drop s.npart = s.arr.drop s.npart := by
  obtain ⟨s', e1, e2, e3, e4, e5, e6, e7⟩ := removeDead_eq k s hn (hσ₁ _) (hσ₂ _) hσ₃ ht
  have hlive : s.live = ((List.range s.npart).filter
      (fun p => decide (tagAt s.arr p = 1))).filterMap (fun p => s.arr[p]?) := by
    rw [filterMap_live, ← take_eq_filterMap]
    · rfl
    · intro p hp; rw [List.mem_range] at hp; unfold Store.maxnpart at hn; omega
  set F := (σ₂ s.npart).filter (fun p => decide (tagAt s.arr p = alive)) with hF
  have hperm : F.Perm ((List.range s.npart).filter (fun p => decide (tagAt s.arr p = 1))) :=
    (hσ₂ s.npart).filter _
  have hFm : ∀ j ∈ F, j < s.arr.length := by
    intro j hj
    have h := List.mem_of_mem_filter (hperm.mem_iff.1 hj)
    rw [List.mem_range] at h
    unfold Store.maxnpart at hn; omega
  have hFl : F.length = s'.npart := by
    rw [e3, cnt_eq_length]; exact hperm.length_eq
  have hlen : (F.filterMap (fun p => s.arr[p]?)).length = F.length := by
    rw [List.length_filterMap_eq_countP, List.countP_eq_length]
    intro j hj
    simp [List.getElem?_eq_getElem (hFm j hj)]
  have hnp : s'.npart ≤ s.npart := by omega
  have hused : s'.used.map k.view = (F.filterMap (fun p => s.arr[p]?)).map k.view := by
    apply List.ext_getElem?
    intro p
    simp only [List.getElem?_map, Store.used]
    by_cases hp : p < s'.npart
    · obtain ⟨j, src, q, f1, f2, f3, f4⟩ := e5 p hp
      rw [List.getElem?_take_of_lt hp, f4]
      have f5 : (F.filterMap (fun p => s.arr[p]?))[p]? = some src := by
        have hF2 : F.filterMap (fun p => s.arr[p]?) =
            F.attach.map (fun j => s.arr[j.1]'(hFm _ j.2)) := by
          rw [← List.filterMap_eq_map]
          conv_lhs => rw [← List.attach_map_subtype_val F]
          rw [List.filterMap_map]
          apply List.filterMap_congr
          rintro ⟨a, ha⟩ _
          simp [List.getElem?_eq_getElem (hFm a ha)]
        rw [hF2, List.getElem?_map]
        obtain ⟨hpl, hpe⟩ := List.getElem?_eq_some_iff.1 f1
        rw [List.getElem?_eq_getElem (by simpa using hpl)]
        simp only [Option.map_some, List.getElem_attach]
        obtain ⟨hjl, hje⟩ := List.getElem?_eq_some_iff.1 f2
        simp only [hpe, hje]
      rw [f5]
      simp only [Option.map_some]
      rw [view_copy k h1 h3]
    · rw [List.getElem?_take_eq_none (by omega), List.getElem?_eq_none (by omega)]
  refine ⟨s', e1, e2, ?_, ?_, ?_, ?_, ?_⟩
  · rw [hlive, ← (hperm.filterMap _).length_eq, hlen, hFl]
  · rw [hused, hlive]
    exact (hperm.filterMap _).map _
  · intro q hq
    obtain ⟨p, hp, rfl⟩ := List.mem_take_iff_getElem.1 hq
    obtain ⟨j, src, q, f1, f2, f3, f4⟩ := e5 p (by omega)
    rw [(List.getElem?_eq_some_iff.1 f4).2]; rfl
  · intro q hq
    obtain ⟨p, hp, hqe⟩ := List.mem_iff_getElem.1 hq
    have hp' : s'.npart + p < s.npart := by
      simp only [List.length_drop, List.length_take] at hp; omega
    have h8 := e6 (s'.npart + p) (by omega) hp'
    have h9 : s'.arr[s'.npart + p]? = some q := by
      rw [← hqe, List.getElem_drop, List.getElem_take, List.getElem?_eq_getElem]
    rw [h9] at h8
    obtain ⟨a, _, ha⟩ := Option.map_eq_some_iff.1 h8.symm
    rw [← ha]; rfl
  · apply List.ext_getElem?
    intro p
    rw [List.getElem?_drop, List.getElem?_drop, e7 _ (by omega)]

/-! ## C19 -/

/-- **C19 (counts).** For every species whose tags are valid and every schedule: the count of each
tag is the number of particles carrying it, the counts add up to the number of particles, and the
offsets place the leaving particles of tags 2, 3, … in consecutive, gap-free ranges. -/
theorem C19_tag_counts {R : Type} (D : Nat) (h1 : 1 ≤ D) (s : Store R)
    (hn : s.npart ≤ s.maxnpart) {σ : Sched} (hσ : σ.Fair)
    (ht : ∀ q ∈ s.used, 0 ≤ q.tag ∧ q.tag < (2 + 3 ^ D - 1 : Nat)) :
    ∃ vec offs, npartsPerTagAndOffsets s D σ = .ok (vec, offs) ∧
      vec.length = 2 + 3 ^ D - 1 ∧
      (∀ t : Nat, t < 2 + 3 ^ D - 1 → vec[t]? = some (s.used.countP fun q => q.tag = (t : Int))) ∧
      vec.sum = s.npart ∧
      offs.length + 3 = 2 + 3 ^ D - 1 ∧
      -- start of the range of tag `t ≥ 2`; tag 2 starts at 0, tag `t ≥ 3` at `offs[t - 3]`
      (∀ start : Nat → Nat, start 2 = 0 → (∀ t, offs[t]? = some (start (t + 3)) ∨ offs.length ≤ t) →
        (∀ t, 2 ≤ t → t + 1 < 2 + 3 ^ D - 1 → vec[t]? = some (start (t + 1) - start t) ∧
          start t ≤ start (t + 1)) ∧
        start (3 ^ D) + vec.getD (3 ^ D) 0 + vec.getD 0 0 + vec.getD 1 0 = s.npart) := by
  have hD : 3 ^ 1 ≤ 3 ^ D := Nat.pow_le_pow_right (by decide) h1
  obtain ⟨vec, e1, e2, e3⟩ := nparts_spec hn h1 (hσ _) ht
  have hnt : ntags D = 2 + 3 ^ D - 1 := rfl
  have hc : ∀ t : Nat, t < ntags D →
      vec[t]? = some (s.used.countP fun q => q.tag = (t : Int)) := by
    intro t h
    have := e3 t h
    rw [cnt_perm (hσ _), cnt_range _ hn] at this
    rw [List.getElem?_eq_getElem (by omega)]
    rw [List.getD_eq_getElem?_getD, List.getElem?_eq_getElem (by omega)] at this
    exact congrArg some this
  have hsum : vec.sum = s.npart := by
    have := cnt_sum s.arr (ntags D) (σ s.npart) (fun p hp => by
      have hp' : p < s.npart := by simpa using ((hσ _).mem_iff (a := p)).1 hp
      have hl : p < s.arr.length := by unfold Store.maxnpart at hn; omega
      rw [tagAt_some (List.getElem?_eq_getElem hl)]
      exact ht _ (List.mem_take_iff_getElem.2 ⟨p, by omega, rfl⟩))
    rw [(hσ _).length_eq, List.length_range] at this
    rw [← this, eq_map_range e2]
    congr 1
    apply List.map_congr_left
    intro t htt
    exact e3 t (List.mem_range.1 htt)
  refine ⟨vec, _, e1, e2, hc, hsum, by simp; omega, ?_⟩
  intro start s2 hs
  have hst : ∀ t, t < ntags D - 3 → start (t + 3) = tagOffset vec t := by
    intro t h
    rcases hs t with h' | h'
    · rw [List.getElem?_map, List.getElem?_range h] at h'
      simpa using h'.symm
    · simp at h'; omega
  have hnext : ∀ t, 2 ≤ t → t + 1 < ntags D → start (t + 1) = start t + vec.getD t 0 := by
    intro t h4 h5
    obtain ⟨u, rfl⟩ : ∃ u, t = u + 2 := ⟨t - 2, by omega⟩
    rw [show u + 2 + 1 = u + 3 from rfl, hst u (by omega)]
    cases u with
    | zero => rw [s2]; simp [tagOffset]
    | succ u => rw [show u + 1 + 2 = u + 3 from rfl, hst u (by omega), tagOffset]; omega
  refine ⟨fun t h4 h5 => ?_, ?_⟩
  · have := hnext t h4 (by omega)
    rw [List.getD_eq_getElem?_getD, List.getElem?_eq_getElem (by omega)] at this
    simp only [Option.getD_some] at this
    refine ⟨?_, by omega⟩
    rw [List.getElem?_eq_getElem (by omega)]
    congr 1; omega
  · have h6 : ∀ n, n + 2 < ntags D →
        start (n + 2) = ((List.range n).map fun j => vec.getD (j + 2) 0).sum := by
      intro n
      induction n with
      | zero => intro _; simpa using s2
      | succ n ih =>
        intro h
        rw [show n + 1 + 2 = (n + 2) + 1 from rfl, hnext (n + 2) (by omega) (by omega),
          ih (by omega), List.range_succ, List.map_append, List.sum_append, List.map_singleton,
          List.sum_singleton]
    rw [eq_map_range e2, show ntags D = (3 ^ D - 1) + 2 by omega, sum_split,
      show 3 ^ D - 1 = (3 ^ D - 2) + 1 by omega, List.range_succ, List.map_append, List.sum_append,
      List.map_singleton, List.sum_singleton, ← h6 (3 ^ D - 2) (by omega),
      show 3 ^ D - 2 + 2 = 3 ^ D by omega] at hsum
    omega

/-- **C19 (errors).** A particle in use with a tag outside the table makes the function raise. -/
theorem C19_invalid_tag_raises {R : Type} (D : Nat) (s : Store R)
    (hn : s.npart ≤ s.maxnpart) {σ : Sched} (hσ : σ.Fair)
    (ht : ∃ q ∈ s.used, q.tag < 0 ∨ q.tag ≥ (2 + 3 ^ D - 1 : Nat)) :
    npartsPerTagAndOffsets s D σ = .err := by
  obtain ⟨q, hq, hb⟩ := ht
  obtain ⟨p, hp, rfl⟩ := List.mem_take_iff_getElem.1 hq
  have := count_fold_err s (ntags D) (σ s.npart)
    (fun x hx => by
      have : x < s.npart := by simpa using ((hσ _).mem_iff (a := x)).1 hx
      unfold Store.maxnpart at hn; omega)
    ⟨p, ((hσ _).mem_iff (a := p)).2 (by simp; omega), _, List.getElem?_eq_getElem (by omega), hb⟩
    (List.replicate (ntags D) 0)
  simp only [npartsPerTagAndOffsets, this, Outcome.bind_err]

/-! ## C20 -/

/-- The cell of the particle lies in the box with `nx` cells per dimension. -/
def InBox {R : Type} (nx : List Nat) (q : Prtl R) : Prop :=
  ∀ a n : Nat, nx[a]? = some n → 0 ≤ [q.i1, q.i2, q.i3].getD a 0 ∧ [q.i1, q.i2, q.i3].getD a 0 < n

/-- Lexicographic order of cells, first dimension first. -/
def LexLe : List Int → List Int → Prop
  | a :: as, b :: bs => a < b ∨ (a = b ∧ LexLe as bs)
  | _, _ => True

theorem lt_ntiles {i n t : Nat} (ht : 0 < t) (h : i < n) : i / t < ntiles n t := by
  unfold ntiles
  rw [Nat.div_lt_iff_lt_mul ht]
  have := Nat.div_add_mod (n + t - 1) t
  have h2 := Nat.mod_lt (n + t - 1) ht
  rw [Nat.mul_comm] at this
  omega

theorem row_lt {a b i j : Nat} (hi : i < a) (hj : j < b) : i * b + j < a * b := by
  have : (i + 1) * b ≤ a * b := Nat.mul_le_mul_right _ hi
  rw [Nat.add_mul] at this; omega

theorem u32_small {i : Int} {n : Nat} (h0 : 0 ≤ i) (h1 : i < n) (hn : n ≤ 4294967296) :
    (i % 4294967296).toNat = i.toNat := by omega

/-- **C20 (tile index).** For every tile size, a live particle inside the box gets the row-major
number of its tile, and that number is below the number of tiles; all others get a number beyond
all tiles. -/
theorem C20_tile_index {R : Type} (D : Nat) (h1 : 1 ≤ D) (h3 : D ≤ 3) (nx : List Nat)
    (hl : nx.length = D) (hnx : ∀ n ∈ nx, n ≤ 2 ^ 32) (tile : Nat) (ht : 0 < tile) (q : Prtl R) :
    (q.tag = 1 → InBox nx q →
      tileIndex D nx tile q < (nx.map fun n => (n + tile - 1) / tile).prod ∧
      tileIndex D nx tile q =
        (List.zipWith (fun (i : Int) n => (i.toNat / tile, (n + tile - 1) / tile))
          [q.i1, q.i2, q.i3] nx).foldl (fun acc x => acc * x.2 + x.1) 0) ∧
    (q.tag ≠ 1 → tileIndex D nx tile q = (nx.map fun n => (n + tile - 1) / tile).prod + 1) := by
  have hbox : ∀ a n (_ : nx[a]? = some n), InBox nx q →
      (([q.i1, q.i2, q.i3].getD a 0) % 4294967296).toNat = ([q.i1, q.i2, q.i3].getD a 0).toNat ∧
      ([q.i1, q.i2, q.i3].getD a 0).toNat < n := by
    intro a n ha hb
    obtain ⟨h4, h5⟩ := hb a n ha
    have := hnx n (List.mem_of_getElem? ha)
    exact ⟨u32_small h4 h5 (by omega), by omega⟩
  match D, nx, hl, h1, h3 with
  | 1, [n1], _, _, _ =>
    refine ⟨fun hq hb => ?_, fun hq => ?_⟩
    · obtain ⟨e1, f1⟩ := hbox 0 n1 rfl hb
      simp only [List.getD_cons_zero] at e1 f1
      simp [tileIndex, hq, alive, e1]
      exact lt_ntiles ht f1
    · simp [tileIndex, hq, alive, ntiles]
  | 2, [n1, n2], _, _, _ =>
    refine ⟨fun hq hb => ?_, fun hq => ?_⟩
    · obtain ⟨e1, f1⟩ := hbox 0 n1 rfl hb
      obtain ⟨e2, f2⟩ := hbox 1 n2 rfl hb
      simp only [List.getD_cons_zero, List.getD_cons_succ] at e1 f1 e2 f2
      simp [tileIndex, hq, alive, e1, e2]
      exact ⟨row_lt (lt_ntiles ht f1) (lt_ntiles ht f2), .inl rfl⟩
    · simp [tileIndex, hq, alive, ntiles, List.range_succ]
  | 3, [n1, n2, n3], _, _, _ =>
    refine ⟨fun hq hb => ?_, fun hq => ?_⟩
    · obtain ⟨e1, f1⟩ := hbox 0 n1 rfl hb
      obtain ⟨e2, f2⟩ := hbox 1 n2 rfl hb
      obtain ⟨e3, f3⟩ := hbox 2 n3 rfl hb
      simp only [List.getD_cons_zero, List.getD_cons_succ] at e1 f1 e2 f2 e3 f3
      simp [tileIndex, hq, alive, e1, e2, e3]
      refine ⟨?_, rfl⟩
      have := row_lt (row_lt (lt_ntiles ht f1) (lt_ntiles ht f2)) (lt_ntiles ht f3)
      rw [Nat.mul_assoc] at this
      exact this
    · simp [tileIndex, hq, alive, ntiles, List.range_succ, Nat.mul_assoc]

theorem row_lex {n i j i' j' : Nat} (hj : j < n) (hj' : j' < n) (h : i * n + j ≤ i' * n + j') :
    i < i' ∨ (i = i' ∧ j ≤ j') := by
  by_contra hc
  push Not at hc
  obtain ⟨h1, h2⟩ := hc
  rcases Nat.lt_or_ge i' i with h3 | h3
  · have : (i' + 1) * n ≤ i * n := Nat.mul_le_mul_right _ h3
    rw [Nat.add_mul] at this; omega
  · have : i = i' := by omega
    subst this
    have := h2 rfl; omega

theorem tile_lex {R : Type} {D : Nat} (h1 : 1 ≤ D) (h3 : D ≤ 3) {nx : List Nat}
    (hl : nx.length = D) (hnx : ∀ n ∈ nx, n ≤ 2 ^ 32) {p q : Prtl R} (hp : p.tag = 1)
    (hq : q.tag = 1) (hbp : InBox nx p) (hbq : InBox nx q)
    (h : tileIndex D nx 1 p ≤ tileIndex D nx 1 q) :
    LexLe ([p.i1, p.i2, p.i3].take D) ([q.i1, q.i2, q.i3].take D) := by
  have ep := ((C20_tile_index D h1 h3 nx hl hnx 1 (by decide) p).1 hp hbp).2
  have eq := ((C20_tile_index D h1 h3 nx hl hnx 1 (by decide) q).1 hq hbq).2
  rw [ep, eq] at h
  match D, nx, hl, h1, h3 with
  | 1, [n1], _, _, _ =>
    have a1 := hbp 0 n1 rfl; have b1 := hbq 0 n1 rfl
    simp only [List.getD_cons_zero] at a1 b1
    simp only [List.zipWith, List.foldl, Nat.div_one] at h
    simp only [List.take, LexLe, and_true]
    omega
  | 2, [n1, n2], _, _, _ =>
    have a1 := hbp 0 n1 rfl; have b1 := hbq 0 n1 rfl
    have a2 := hbp 1 n2 rfl; have b2 := hbq 1 n2 rfl
    simp only [List.getD_cons_zero, List.getD_cons_succ] at a1 b1 a2 b2
    simp only [List.zipWith, List.foldl, Nat.div_one, Nat.zero_mul, Nat.zero_add,
      Nat.add_sub_cancel] at h
    have := row_lex (by omega) (by omega) h
    simp only [List.take, LexLe, and_true]
    omega
  | 3, [n1, n2, n3], _, _, _ =>
    have a1 := hbp 0 n1 rfl; have b1 := hbq 0 n1 rfl
    have a2 := hbp 1 n2 rfl; have b2 := hbq 1 n2 rfl
    have a3 := hbp 2 n3 rfl; have b3 := hbq 2 n3 rfl
    simp only [List.getD_cons_zero, List.getD_cons_succ] at a1 b1 a2 b2 a3 b3
    simp only [List.zipWith, List.foldl, Nat.div_one, Nat.zero_mul, Nat.zero_add,
      Nat.add_sub_cancel] at h
    simp only [List.take, LexLe, and_true]
    rcases row_lex (by omega) (by omega) h with h4 | ⟨h4, h5⟩
    · have := row_lex (by omega) (by omega) (Nat.le_of_lt h4)
      rcases this with h6 | ⟨h6, h7⟩
      · left; omega
      · right
        refine ⟨by omega, ?_⟩
        rcases Nat.lt_or_ge p.i2.toNat q.i2.toNat with h8 | h8
        · left; omega
        · have : p.i2.toNat = q.i2.toNat := by omega
          rw [h6, this] at h4; omega
    · rcases row_lex (by omega) (by omega) (Nat.le_of_eq h4) with h6 | ⟨h6, h7⟩
      · left; omega
      · right
        have : p.i2.toNat = q.i2.toNat := by rw [h6] at h4; omega
        exact ⟨by omega, .inr ⟨by omega, by omega⟩⟩

/-- **C20 (sorting).** Let the live particles lie inside the box.  Whatever permutation the Kokkos
bin sort returns (any one along which the bins do not decrease), spatial sorting succeeds, keeps
the count and the entries beyond it, permutes the whole records in use, puts the live particles
before all others and orders them by cell. -/
theorem C20_spatial_sort {R : Type} (D : Nat) (h1 : 1 ≤ D) (h3 : D ≤ 3) (nx : List Nat)
    (hl : nx.length = D) (hnx : ∀ n ∈ nx, n ≤ 2 ^ 32) (s : Store R) (hn : s.npart ≤ s.maxnpart)
    (hin : ∀ q ∈ s.used, q.tag = 1 → InBox nx q) (perm : List Nat)
    (hp : BinSortSpec (s.used.map (tileIndex D nx 1)) perm) :
    ∃ s', sortSpatially D nx s perm = .ok s' ∧ s'.npart = s.npart ∧ s'.used.Perm s.used ∧
      s'.arr.drop s'.npart = s.arr.drop s.npart ∧
      s'.used.Pairwise (fun a b => b.tag = 1 → a.tag = 1) ∧
      s'.live.Pairwise (fun a b =>
        LexLe ([a.i1, a.i2, a.i3].take D) ([b.i1, b.i2, b.i3].take D)) := by
  have hprod : (nx.map fun n => (n + 1 - 1) / 1).prod = nx.prod := by simp
  have hkey : ∀ q ∈ s.used, (q.tag = 1 → tileIndex D nx 1 q < nx.prod) ∧
      (q.tag ≠ 1 → tileIndex D nx 1 q = nx.prod + 1) := by
    intro q hq
    have := C20_tile_index D h1 h3 nx hl hnx 1 (by decide) q
    rw [hprod] at this
    exact ⟨fun h => (this.1 h (hin q hq h)).1, this.2⟩
  have hlen : s.used.length = s.npart := by
    simp only [Store.used, List.length_take]; unfold Store.maxnpart at hn; omega
  have hmem : ∀ j ∈ perm, j < s.npart := by
    intro j hj
    have := hp.isPerm.mem_iff.1 hj
    simpa [hlen] using this
  set P := perm.filterMap fun j => s.arr[j]? with hP
  have hPu : P = perm.filterMap fun j => s.used[j]? := by
    apply List.filterMap_congr
    intro j hj
    rw [Store.used, List.getElem?_take_of_lt (hmem j hj)]
  have hperm : P.Perm s.used := by
    rw [hPu]
    have h4 : s.used = (List.range s.used.length).filterMap (fun j => s.used[j]?) := by
      rw [← take_eq_filterMap, List.take_length]
    conv_rhs => rw [h4]
    have h5 := hp.isPerm
    rw [List.length_map] at h5
    exact h5.filterMap _
  have hPl : P.length = s.npart := by rw [hperm.length_eq, hlen]
  have husd : (P ++ s.arr.drop s.npart).take s.npart = P := by rw [← hPl, List.take_left]
  have hsorted : P.Pairwise (fun a b => tileIndex D nx 1 a ≤ tileIndex D nx 1 b) := by
    rw [hPu]
    have h4 := hp.sorted
    rw [List.pairwise_map] at h4
    apply List.Pairwise.filterMap _ _ h4
    intro a a' haa b hb b' hb'
    have k1 : (s.used.map (tileIndex D nx 1)).getD a 0 = tileIndex D nx 1 b := by
      simp [List.getD_eq_getElem?_getD, Option.mem_def.1 hb]
    have k2 : (s.used.map (tileIndex D nx 1)).getD a' 0 = tileIndex D nx 1 b' := by
      simp [List.getD_eq_getElem?_getD, Option.mem_def.1 hb']
    rw [k1, k2] at haa
    exact haa
  refine ⟨⟨P ++ s.arr.drop s.npart, s.npart⟩, ?_, rfl, ?_, ?_, ?_, ?_⟩
  · simp only [sortSpatially]
    rw [if_neg]
    simp only [List.any_map, List.any_eq_true, not_exists, not_and, Function.comp,
      decide_eq_true_eq, not_lt]
    intro q hq
    rw [show nx.take D = nx by rw [← hl, List.take_length]]
    obtain ⟨k1, k2⟩ := hkey q hq
    by_cases h : q.tag = 1
    · have := k1 h; omega
    · have := k2 h; omega
  · simp only [Store.used] at husd ⊢; rw [husd]; exact hperm
  · simp only; rw [← hPl, List.drop_left]
  · simp only [Store.used]; rw [husd]
    apply hsorted.imp_of_mem
    intro a b ha hb hab hb1
    by_contra hc
    have k1 := (hkey a (hperm.mem_iff.1 ha)).2 hc
    have k2 := (hkey b (hperm.mem_iff.1 hb)).1 hb1
    omega
  · simp only [Store.live, Store.used]; rw [husd]
    apply (hsorted.filter _).imp_of_mem
    intro a b ha hb hab
    rw [List.mem_filter] at ha hb
    have ta : a.tag = 1 := by simpa using ha.2
    have tb : b.tag = 1 := by simpa using hb.2
    exact tile_lex h1 h3 hl hnx ta tb (hin a (hperm.mem_iff.1 ha.1) ta)
      (hin b (hperm.mem_iff.1 hb.1) tb) hab

/-! ## C22 -/

/-- What C22 asks: in one call at `step` every species is cleared exactly when its own interval
says so (and sorted when its own sorting interval says so). -/
def OwnIntervals (step : Nat) : Prop :=
  ∀ (α : Type) (clear sort : α → α) (sp : List (SortSpecies α)),
    sortParticles clear sort step sp = sp.map fun s =>
      let c := if 0 < s.clearingInterval ∧ s.clearingInterval ∣ step ∧ 0 < step then clear s.content
        else s.content
      { s with content :=
          if s.sortingInterval > 0 ∧ step % s.sortingInterval = 0 then sort c else c }

/-- **C22 fails**: at step 10, with species whose clearing intervals are 10 and 0 ("never"), the
second one is cleared as well.  (`content` counts the calls of `RemoveDead`.) -/
theorem C22_clearing_counterexample :
    sortParticles (· + 1) id 10 [⟨10, 0, (0 : Nat)⟩, ⟨0, 0, 0⟩] = [⟨10, 0, 1⟩, ⟨0, 0, 1⟩] ∧
    ¬ OwnIntervals 10 := by
  refine ⟨by decide, fun h => ?_⟩
  have := h Nat (· + 1) id [⟨10, 0, 0⟩, ⟨0, 0, 0⟩]
  exact absurd this (by decide)

/-- **C22 (partial).** What does hold: if no species is due for clearing at this step then none is
cleared — the call only sorts, each species by its own sorting interval. Missing: when some species is
due, the others are cleared too (see the counterexample). -/
theorem C22_clearing_partial {α : Type} (clear sort : α → α) (step : Nat)
    (sp : List (SortSpecies α))
    (h : ∀ s ∈ sp, s.clearingInterval = 0 ∨ step % s.clearingInterval ≠ 0 ∨ step = 0) :
    sortParticles clear sort step sp = sp.map fun s =>
      { s with content :=
          if s.sortingInterval > 0 ∧ step % s.sortingInterval = 0 then sort s.content
          else s.content } := by
  have hdue : ∀ s ∈ sp, clearingDue step s.clearingInterval = false := by
    intro s hs
    simp only [clearingDue, Bool.and_eq_false_iff, decide_eq_false_iff_not]
    rcases h s hs with h | h | h
    · left; left; omega
    · left; right; exact h
    · right; omega
  have key : ∀ n, n ≤ sp.length → (List.range n).foldl (sortTurn clear sort step) sp =
      sp.mapIdx fun i s => if i < n then { s with content :=
        if s.sortingInterval > 0 ∧ step % s.sortingInterval = 0 then sort s.content
        else s.content } else s := by
    intro n
    induction n with
    | zero =>
      intro _
      simp only [List.range_zero, List.foldl_nil, Nat.not_lt_zero, if_false]
      apply List.ext_getElem?
      intro i
      simp [List.getElem?_mapIdx]
    | succ n ih =>
      intro hn
      rw [List.range_succ, List.foldl_append, ih (by omega), List.foldl_cons, List.foldl_nil]
      unfold sortTurn
      have hlt : n < sp.length := by omega
      have hd := hdue _ (List.getElem_mem hlt)
      simp only [List.getElem?_mapIdx, List.getElem?_eq_getElem hlt, Option.map_some,
        lt_self_iff_false, if_false, hd, Bool.false_eq_true]
      apply List.ext_getElem?
      intro i
      by_cases hi : i < sp.length
      · by_cases hin : i = n
        · subst hin
          split_ifs with hs <;>
            simp [List.getElem?_modify, List.getElem?_mapIdx, List.getElem?_eq_getElem hi, hs]
        · have : i < n + 1 ↔ i < n := by omega
          split_ifs with hs <;>
            simp [List.getElem?_modify, List.getElem?_mapIdx, List.getElem?_eq_getElem hi, this,
              Ne.symm hin]
      · rw [List.getElem?_eq_none (by split_ifs <;> simpa using hi),
          List.getElem?_eq_none (by simpa using hi)]
  rw [sortParticles, key _ (Nat.le_refl _)]
  apply List.ext_getElem?
  intro i
  simp only [List.getElem?_mapIdx, List.getElem?_map]
  by_cases hi : i < sp.length
  · simp [List.getElem?_eq_getElem hi, hi]
  · simp [List.getElem?_eq_none (Nat.le_of_not_lt hi)]

/-- **C22 (partial).** How often species are cleared in a call in which none is sorted: every species
once for each species whose interval divides the step.  In particular no species that is due is left
out.  Missing: the species that are not due are cleared as often (see the counterexample). -/
theorem C22_cleared_partial {α : Type} (clear sort : α → α) (step : Nat) (sp : List (SortSpecies α))
    (hsort : ∀ s ∈ sp, s.sortingInterval = 0) :
    sortParticles clear sort step sp = sp.map fun s =>
      { s with content := clear^[(sp.filter fun (t : SortSpecies α) =>
          decide (0 < t.clearingInterval ∧ t.clearingInterval ∣ step ∧ 0 < step)).length] s.content } := by
  have key : ∀ n, n ≤ sp.length → (List.range n).foldl (sortTurn clear sort step) sp =
      sp.map fun s => { s with content := clear^[((sp.take n).filter fun (t : SortSpecies α) =>
          decide (0 < t.clearingInterval ∧ t.clearingInterval ∣ step ∧ 0 < step)).length] s.content } := by
    intro n
    induction n with
    | zero => intro _; simp
    | succ n ih =>
      intro hn
      have hlt : n < sp.length := by omega
      rw [List.range_succ, List.foldl_append, ih (by omega), List.foldl_cons, List.foldl_nil,
        List.take_succ_eq_append_getElem hlt, List.filter_append, List.length_append]
      unfold sortTurn
      simp only [List.getElem?_map, List.getElem?_eq_getElem hlt, Option.map_some]
      rw [if_neg (by rw [hsort _ (List.getElem_mem hlt)]; simp)]
      have hdue : (clearingDue step sp[n].clearingInterval = true) ↔
          (0 < sp[n].clearingInterval ∧ sp[n].clearingInterval ∣ step ∧ 0 < step) := by
        simp only [clearingDue, Bool.and_eq_true, decide_eq_true_eq, Nat.dvd_iff_mod_eq_zero]
        tauto
      by_cases hd : clearingDue step sp[n].clearingInterval = true
      · rw [if_pos hd, List.map_map, List.filter_cons_of_pos (by simpa using hdue.mp hd)]
        apply List.map_congr_left
        intro s _
        simp only [Function.comp, List.filter_nil, List.length_cons, List.length_nil, Nat.zero_add,
          Function.iterate_succ_apply']
      · rw [if_neg hd, List.filter_cons_of_neg (by simpa using fun a b c => hd (hdue.mpr ⟨a, b, c⟩))]
        simp
  rw [sortParticles, key _ (Nat.le_refl _), List.take_length]

/-- Species with intervals 10, 5 and 0 at step 10: each is cleared twice. -/
example : sortParticles (· + 1) id 10 [⟨10, 0, (0 : Nat)⟩, ⟨5, 0, 0⟩, ⟨0, 0, 0⟩] =
    [⟨10, 0, 2⟩, ⟨5, 0, 2⟩, ⟨0, 0, 2⟩] := by decide

/-! ## Concrete cases -/

/-- A particle in cell `(a, b)` with weight `w` and tag `t`. -/
def mkP (a b : Int) (w : Int) (t : Int) : Prtl Int :=
  ⟨a, a, b, b, 0, 0, 1, 2, 3, 4, 0, 0, 5, 6, 7, w, 0, [8], [], t⟩

/-- Six slots, five in use: live, dead, live, dead, live. -/
def exStore : Store Int :=
  ⟨[mkP 3 1 10 1, mkP 0 0 11 0, mkP 1 2 12 1, mkP 0 0 13 0, mkP 1 0 14 1, mkP 0 0 0 0], 5⟩

/-- The reverse order is a fair schedule, different from the sequential one. -/
theorem fair_reverse : Sched.Fair fun n => (List.range n).reverse :=
  fun n => List.reverse_perm _

/-- Hypotheses of C18 are met; the result under the reverse schedule. -/
example : exStore.npart ≤ exStore.maxnpart ∧ (∀ q ∈ exStore.used, q.tag = 1 ∨ q.tag = 0) ∧
    (match removeDead ⟨2, false, 1, 0⟩ exStore (fun n => (List.range n).reverse)
      (fun n => (List.range n).reverse) (fun n => (List.range n).reverse) with
    | .ok s => some (s.npart, s.arr.map fun q => (q.weight, q.tag))
    | _ => none) = some (3, [(14, 1), (12, 1), (10, 1), (13, 0), (14, 0), (0, 0)]) := by
  decide +kernel

/-- Hypotheses of C19 are met by a species with leaving particles; the counts and offsets. -/
example : let s : Store Int := ⟨[mkP 3 1 1 1, mkP 0 0 2 2, mkP 0 0 3 9, mkP 0 0 4 2, mkP 0 0 5 4,
      mkP 0 0 6 0], 6⟩
    (∀ q ∈ s.used, 0 ≤ q.tag ∧ q.tag < (2 + 3 ^ 2 - 1 : Nat)) ∧
    npartsPerTagAndOffsets s 2 (fun n => (List.range n).reverse) =
      .ok ([1, 1, 2, 0, 1, 0, 0, 0, 0, 1], [2, 2, 3, 3, 3, 3, 3]) := by
  decide +kernel

/-- Hypotheses of C20 are met: box of 4 × 3 cells, and a bin sort of the keys of `exStore`. -/
example : (∀ q ∈ exStore.used, q.tag = 1 → InBox [4, 3] q) ∧
    BinSortSpec (exStore.used.map (tileIndex 2 [4, 3] 1)) [4, 2, 0, 3, 1] ∧
    (match sortSpatially 2 [4, 3] exStore [4, 2, 0, 3, 1] with
    | .ok s => some (s.arr.map fun q => (q.i1, q.i2, q.tag))
    | _ => none) = some [(1, 0, 1), (1, 2, 1), (3, 1, 1), (0, 0, 0), (0, 0, 0), (0, 0, 0)] := by
  refine ⟨?_, ⟨by decide +kernel, by decide +kernel⟩, by decide +kernel⟩
  intro q hq ht a n ha
  have h2 : ∀ q ∈ exStore.used, q.tag = 1 → (0 ≤ q.i1 ∧ q.i1 < 4) ∧ (0 ≤ q.i2 ∧ q.i2 < 3) := by
    decide
  obtain ⟨k1, k2⟩ := h2 q hq ht
  match a with
  | 0 => simp at ha; subst ha; exact k1
  | 1 => simp at ha; subst ha; exact k2
  | a + 2 => simp at ha

/-- Hypotheses of `C22_clearing_partial` are met: intervals 10 and 0 at step 7, sorting every 7. -/
example : (∀ s ∈ [(⟨10, 7, 0⟩ : SortSpecies Nat), ⟨0, 0, 0⟩],
      s.clearingInterval = 0 ∨ 7 % s.clearingInterval ≠ 0 ∨ 7 = 0) ∧
    sortParticles (· + 1) (· + 100) 7 [⟨10, 7, 0⟩, ⟨0, 0, 0⟩] = [⟨10, 7, 100⟩, ⟨0, 0, 0⟩] := by
  decide

end Entity.Prtl
