import Verif.Lemmas.Mirror
import Verif.Lemmas.FieldOps
import Verif.Lemmas.FieldBC

/-!
# Mirror images and conducting walls
-/

namespace Entity.Walls

open Entity Entity.Topology Entity.Kernel Entity.FieldSolver Entity.FieldBC Entity.Ranks Entity.Decomp Entity.Dir

variable {K : Type} [Field K]

/-! ## Images -/

theorem emod_unique {x y n k : Int} (h0 : 0 ≤ y) (h1 : y < n) (h : x = y + n * k) : x % n = y := by
  rw [h, Int.add_mul_emod_self_left, Int.emod_eq_of_lt h0 h1]

/-- Sign of the image of a component. -/
def sgn (half : Bool) : Int := if half = true then 1 else -1

theorem foldWall_mirror {N : Nat} (hN : 0 < N) (half : Bool) {A : Int} (hA : A = 0 ∨ A = 2 * N) (x : Int) :
    foldWall N half (A - x - if half = true then 1 else 0) =
      (sgn half * (foldWall N half x).1, (foldWall N half x).2) := by
  have e := Int.emod_add_mul_ediv x (2 * N)
  have h0 := Int.emod_nonneg x (b := 2 * N) (by omega)
  have h1 := Int.emod_lt_of_pos x (b := 2 * N) (by omega)
  unfold foldWall
  generalize hy : x % (2 * N) = y at *
  generalize x / (2 * N) = k at *
  have hA' : ∃ j : Int, A = 2 * N * j := by
    rcases hA with rfl | rfl
    · exact ⟨0, by simp⟩
    · exact ⟨1, by simp⟩
  obtain ⟨j, rfl⟩ := hA'
  cases half
  · simp only [Bool.false_eq_true, if_false, sgn]
    by_cases hz : y = 0
    · have : (2 * (N : Int) * j - x - 0) % (2 * N) = 0 :=
        emod_unique (k := j - k) (by omega) (by omega) (by rw [← e, hz]; ring)
      rw [this]
      split_ifs <;> simp only [Prod.mk.injEq, and_true] <;> omega
    · have : (2 * (N : Int) * j - x - 0) % (2 * N) = 2 * N - y :=
        emod_unique (k := j - k - 1) (by omega) (by omega) (by rw [← e]; ring)
      rw [this]
      split_ifs <;> simp only [Prod.mk.injEq, and_true] <;> omega
  · simp only [if_true, sgn]
    have : (2 * (N : Int) * j - x - 1) % (2 * N) = 2 * N - 1 - y :=
      emod_unique (k := j - k - 1) (by omega) (by omega) (by rw [← e]; ring)
    rw [this]
    by_cases hlt : y < N
    · rw [if_neg (by omega), if_pos hlt]; simp
    · rw [if_pos (by omega), if_neg hlt]; simp

theorem foldWall_box {N : Nat} {half : Bool} {x : Int} (h0 : 0 ≤ x) (h1 : x < N)
    (hh : x = 0 → half = true) : foldWall N half x = (1, x) := by
  have : x % (2 * N) = x := Int.emod_eq_of_lt h0 (by omega)
  unfold foldWall
  rw [this]
  cases half
  · simp only [Bool.false_eq_true, if_false, imp_false] at hh ⊢
    rw [if_neg (by omega), if_pos h1]
  · simp [h1]

theorem map_set_snd (q : List (Int × Int)) (o : Nat) (s y σ : Int) (h : q[o]? = some (s, y)) :
    (q.set o (σ * s, y)).map (·.2) = q.map (·.2) := by
  induction q generalizing o with
  | nil => simp
  | cons a q ih =>
    cases o with
    | zero => simp at h; simp [h]
    | succ o => simp at h; simp [ih o h]

theorem map_set_fst (q : List (Int × Int)) (o : Nat) (s y σ : Int) (h : q[o]? = some (s, y)) :
    ((q.set o (σ * s, y)).map (·.1)).prod = σ * (q.map (·.1)).prod := by
  induction q generalizing o with
  | nil => simp at h
  | cons a q ih =>
    cases o with
    | zero => simp at h; simp [h, mul_assoc]
    | succ o => simp at h; simp only [List.set_cons_succ, List.map_cons, List.prod_cons, ih o h]; ring

variable {m : Meta} {N : List Nat}

theorem image_mirror (f : Nat → List Int → K) (c : Nat) {o : Nat} {p : List Int} (hw : isWallAxis m o = true)
    (hN : 0 < N.getD o 0) (ho : o < p.length) {A : Int} (hA : A = 0 ∨ A = 2 * (N.getD o 0 : Nat)) :
    image m N f c (p.set o (A - p.getD o 0 - if halfAlong c o = true then 1 else 0)) =
      if halfAlong c o = true then image m N f c p else - image m N f c p := by
  unfold image
  simp only
  have hg : p.getD o 0 = p[o] := by simp [ho]
  have hset : (p.set o (A - p.getD o 0 - if halfAlong c o = true then 1 else 0)).mapIdx (fun o x => fold m N c o x) =
      (p.mapIdx (fun o x => fold m N c o x)).set o (sgn (halfAlong c o) * (fold m N c o p[o]).1, (fold m N c o p[o]).2) := by
    apply List.ext_getElem
    · simp
    · intro k h1 h2
      simp only [List.getElem_mapIdx, List.getElem_set]
      split
      · subst_vars
        rw [hg]
        simp only [fold, hw, if_true]
        exact foldWall_mirror hN _ hA _
      · rfl
  have hq : (p.mapIdx (fun o x => fold m N c o x))[o]? = some ((fold m N c o p[o]).1, (fold m N c o p[o]).2) := by
    simp [ho]
  rw [hset, map_set_snd _ _ _ _ _ hq, map_set_fst _ _ _ _ _ hq]
  unfold sgn
  split <;> simp

theorem image_congr (f : Nat → List Int → K) (c : Nat) {p q : List Int} (hl : p.length = q.length)
    (h1 : ∀ o, p.getD o 0 % (N.getD o 0 : Int) = q.getD o 0 % (N.getD o 0 : Int))
    (h2 : ∀ o, isWallAxis m o = true → p.getD o 0 = q.getD o 0) : image m N f c p = image m N f c q := by
  have : p.mapIdx (fun o x => fold m N c o x) = q.mapIdx (fun o x => fold m N c o x) := by
    apply List.ext_getElem
    · simp [hl]
    · intro k k1 k2
      simp only [List.length_mapIdx] at k1 k2
      have a1 := h1 k; have a2 := h2 k
      simp only [List.getD_eq_getElem?_getD, List.getElem?_eq_getElem k1, List.getElem?_eq_getElem k2,
        Option.getD_some] at a1 a2
      simp only [List.getElem_mapIdx, fold]
      split
      · rename_i hw; rw [a2 hw]
      · simp only [List.getD_eq_getElem?_getD, a1]
  unfold image
  rw [this]

theorem image_box (f : Nat → List Int → K) (c : Nat) {p : List Int}
    (h : ∀ o < p.length, 0 ≤ p.getD o 0 ∧ p.getD o 0 < N.getD o 0)
    (hh : ∀ o, isWallAxis m o = true → p.getD o 0 = 0 → o < p.length → halfAlong c o = true) :
    image m N f c p = f c p := by
  have : p.mapIdx (fun o x => fold m N c o x) = p.map (fun x => ((1 : Int), x)) := by
    apply List.ext_getElem
    · simp
    · intro k k1 k2
      simp only [List.length_mapIdx] at k1
      have a1 := h k k1; have a2 := hh k
      simp only [List.getD_eq_getElem?_getD, List.getElem?_eq_getElem k1, Option.getD_some] at a1 a2
      simp only [List.getElem_mapIdx, List.getElem_map, fold]
      split
      · rename_i hw
        simp only [List.getD_eq_getElem?_getD]
        exact foldWall_box a1.1 a1.2 (fun hz => a2 hw hz k1)
      · rw [List.getD_eq_getElem?_getD, Int.emod_eq_of_lt a1.1 a1.2]
  unfold image
  rw [this]
  simp only [List.map_map, Function.comp_def, List.map_id']
  simp

/-- Lattice fields with the symmetries of the box. -/
structure Images (m : Meta) (N : List Nat) (D : Nat) (G : Mem K) : Prop where
  per : ∀ c p q, p.length = D → q.length = D →
    (∀ o, p.getD o 0 % (N.getD o 0 : Int) = q.getD o 0 % (N.getD o 0 : Int)) →
    (∀ o, isWallAxis m o = true → p.getD o 0 = q.getD o 0) → G ⟨0, c, p⟩ = G ⟨0, c, q⟩
  lower : ∀ o < D, isWallAxis m o = true → Mirror D 0 o G
  upper : ∀ o < D, isWallAxis m o = true → Mirror D (2 * (N.getD o 0 : Nat)) o G

theorem imageMem_images (f : Nat → List Int → K) {D : Nat} (hN : ∀ o < D, 0 < N.getD o 0) :
    Images m N D (imageMem m N f) where
  per c p q hp hq h1 h2 := image_congr f c (hp.trans hq.symm) h1 h2
  lower o ho hw c p _ hp := image_mirror f c hw (hN o ho) (by omega) (.inl rfl)
  upper o ho hw c p _ hp := image_mirror f c hw (hN o ho) (by omega) (.inr rfl)

/-! ### The operations keep the symmetries -/

theorem onLattice_other {D : Nat} {wr : Nat → Nat → Bool} {as : List (Assign K)} (ho : OwnCell D wr as)
    (G : Mem K) {a c : Nat} {p : List Int} (hp : p.length = D) (hw : wr a c = false) :
    onLattice D as G ⟨a, c, p⟩ = G ⟨a, c, p⟩ := by
  unfold onLattice
  rw [runBody_other]
  · simp only [Loc.at]
    rw [← hp, here_at]
  · intro b hb e
    have := (ho b hb).1.2
    rw [e, hw] at this
    cases this

theorem getD_zipWith_add {p q : List Int} (h : p.length = q.length) (o : Nat) :
    (List.zipWith (· + ·) p q).getD o 0 = p.getD o 0 + q.getD o 0 := by
  simp only [List.getD_eq_getElem?_getD, List.getElem?_zipWith]
  by_cases ho : o < p.length
  · simp [ho, h ▸ ho]
  · have : ¬ o < q.length := by omega
    simp [ho, this]

theorem onLattice_per {D : Nat} {as : List (Assign K)} {ng : Nat} (hr : Reach D ng as) {G : Mem K} {c : Nat}
    (h0 : ∀ l, accessed as l → l.arr = 0)
    (h : ∀ c p q, p.length = D → q.length = D →
      (∀ o, p.getD o 0 % (N.getD o 0 : Int) = q.getD o 0 % (N.getD o 0 : Int)) →
      (∀ o, isWallAxis m o = true → p.getD o 0 = q.getD o 0) → G ⟨0, c, p⟩ = G ⟨0, c, q⟩)
    {p q : List Int} (hp : p.length = D) (hq : q.length = D)
    (h1 : ∀ o, p.getD o 0 % (N.getD o 0 : Int) = q.getD o 0 % (N.getD o 0 : Int))
    (h2 : ∀ o, isWallAxis m o = true → p.getD o 0 = q.getD o 0) :
    onLattice D as G ⟨0, c, p⟩ = onLattice D as G ⟨0, c, q⟩ := by
  unfold onLattice
  refine runBody_congr as (S := fun l => accessed as l ∨ l = ⟨0, c, here D⟩) (fun l hl => .inl hl) ?_ _ (.inr rfl)
  intro l hl
  have key : l.arr = 0 ∧ l.idx.length = D := by
    rcases hl with hl | rfl
    · exact ⟨h0 l hl, (hr l hl).1⟩
    · exact ⟨rfl, by simp [here]⟩
  obtain ⟨k1, k2⟩ := key
  simp only [Loc.at, k1]
  refine h _ _ _ (by simp [hp, k2]) (by simp [hq, k2]) (fun o => ?_) (fun o ho => ?_)
  · rw [getD_zipWith_add (by omega), getD_zipWith_add (by omega), Int.add_emod, h1 o, ← Int.add_emod]
  · rw [getD_zipWith_add (by omega), getD_zipWith_add (by omega), h2 o ho]

theorem list1 {p : List Int} (h : p.length = 1) : ∃ x, p = [x] := List.length_eq_one_iff.1 h
theorem list2 {p : List Int} (h : p.length = 2) : ∃ x y, p = [x, y] := List.length_eq_two.1 h
theorem list3 {p : List Int} (h : p.length = 3) : ∃ x y z, p = [x, y, z] := List.length_eq_three.1 h

theorem mirror_faraday {D : Nat} (hD : D ∈ [1, 2, 3]) (dT dx : K) (cf : Coeffs K) {A : Int} {o : Nat} (ho : o < D)
    {G : Mem K} (h : Mirror D A o G) : Mirror D A o (onLattice D (faraday D dT dx cf) G) := by
  intro c p hc hp
  by_cases hb : c < 3
  · have hsel : selB 0 c = false := by simp [selB]; omega
    rw [onLattice_other (faraday_own hD dT dx cf) G (by simp [hp]) hsel,
      onLattice_other (faraday_own hD dT dx cf) G hp hsel]
    exact h c p hc hp
  · have hb : 3 ≤ c := by omega
    simp only [List.mem_cons, List.not_mem_nil, or_false] at hD
    rcases hD with rfl | rfl | rfl
    · obtain ⟨x, rfl⟩ := list1 hp
      obtain rfl : o = 0 := by omega
      exact mirror_far10 _ cf h x c hb hc
    · obtain ⟨x, y, rfl⟩ := list2 hp
      obtain rfl | rfl : o = 0 ∨ o = 1 := by omega
      · exact mirror_far20 _ _ cf h x y c hb hc
      · exact mirror_far21 _ _ cf h x y c hb hc
    · obtain ⟨x, y, z, rfl⟩ := list3 hp
      obtain rfl | rfl | rfl : o = 0 ∨ o = 1 ∨ o = 2 := by omega
      · exact mirror_far30 _ cf h x y z c hb hc
      · exact mirror_far31 _ cf h x y z c hb hc
      · exact mirror_far32 _ cf h x y z c hb hc

theorem mirror_ampere {D : Nat} (hD : D ∈ [1, 2, 3]) (dT dx : K) {A : Int} {o : Nat} (ho : o < D)
    {G : Mem K} (h : Mirror D A o G) : Mirror D A o (onLattice D (ampere D dT dx) G) := by
  intro c p hc hp
  by_cases hb : 3 ≤ c
  · have hsel : selE 0 c = false := by simp [selE]; omega
    rw [onLattice_other (ampere_own hD dT dx) G (by simp [hp]) hsel,
      onLattice_other (ampere_own hD dT dx) G hp hsel]
    exact h c p hc hp
  · have hc' : c < 3 := by omega
    simp only [List.mem_cons, List.not_mem_nil, or_false] at hD
    rcases hD with rfl | rfl | rfl
    · obtain ⟨x, rfl⟩ := list1 hp
      obtain rfl : o = 0 := by omega
      exact mirror_amp10 _ h x c (by omega) hc'
    · obtain ⟨x, y, rfl⟩ := list2 hp
      obtain rfl | rfl : o = 0 ∨ o = 1 := by omega
      · exact mirror_amp20 _ _ h x y c (by omega) hc'
      · exact mirror_amp21 _ _ h x y c (by omega) hc'
    · obtain ⟨x, y, z, rfl⟩ := list3 hp
      obtain rfl | rfl | rfl : o = 0 ∨ o = 1 ∨ o = 2 := by omega
      · exact mirror_amp30 _ h x y z c (by omega) hc'
      · exact mirror_amp31 _ h x y z c (by omega) hc'
      · exact mirror_amp32 _ h x y z c (by omega) hc'

theorem selEB_arr {as : List (Assign K)} (h : ∀ l, accessed as l → selEB l.arr l.comp = true) :
    ∀ l, accessed as l → l.arr = 0 ∧ l.comp < 6 := by
  intro l hl
  have := h l hl
  simp only [selEB, selE, selB, Bool.or_eq_true, Bool.and_eq_true, beq_iff_eq, decide_eq_true_eq] at this
  omega

theorem images_faraday {D : Nat} (hD : D ∈ [1, 2, 3]) (dT dx : K) (cf : Coeffs K) {G : Mem K}
    (h : Images m N D G) : Images m N D (onLattice D (faraday D dT dx cf) G) where
  per _ _ _ hp hq h1 h2 := onLattice_per (faraday_reach hD le_rfl dT dx cf)
    (fun l hl => (selEB_arr (faraday_sel hD dT dx cf) l hl).1) h.per hp hq h1 h2
  lower o ho hw := mirror_faraday hD dT dx cf ho (h.lower o ho hw)
  upper o ho hw := mirror_faraday hD dT dx cf ho (h.upper o ho hw)

theorem images_ampere {D : Nat} (hD : D ∈ [1, 2, 3]) (dT dx : K) {G : Mem K}
    (h : Images m N D G) : Images m N D (onLattice D (ampere D dT dx) G) where
  per _ _ _ hp hq h1 h2 := onLattice_per (ampere_reach hD le_rfl dT dx)
    (fun l hl => (selEB_arr (ampere_sel hD dT dx) l hl).1) h.per hp hq h1 h2
  lower o ho hw := mirror_ampere hD dT dx ho (h.lower o ho hw)
  upper o ho hw := mirror_ampere hD dT dx ho (h.upper o ho hw)

theorem images_step {D : Nat} (hD : D ∈ [1, 2, 3]) (hN : ∀ o < D, 0 < N.getD o 0) (op : WOp K) {G : Mem K}
    (h : Images m N D G) : Images m N D (latticeStep m N D op G) := by
  match op with
  | .faraday dT dx c => exact images_faraday hD dT dx c h
  | .electric dT dx none => exact images_ampere hD dT dx h
  | .electric dT dx (some (coeff, ppc0, j)) =>
    have h' := images_ampere hD dT dx h
    refine ⟨fun c p q hp hq h1 h2 => ?_, fun o ho hw c p hc hp => ?_, fun o ho hw c p hc hp => ?_⟩
    · simp only [latticeStep]
      rw [h'.per c p q hp hq h1 h2, image_congr j c (by omega) h1 h2]
    · simp only [latticeStep]
      rw [h'.lower o ho hw c p hc hp, image_mirror j c hw (hN o ho) (by omega) (.inl rfl)]
      split <;> split <;> ring
    · simp only [latticeStep]
      rw [h'.upper o ho hw c p hc hp, image_mirror j c hw (hN o ho) (by omega) (.inr rfl)]
      split <;> split <;> ring

end Entity.Walls
