import Verif.Lemmas.KernelOwn
import Verif.Model.FieldBC

/-!
# Effects of the boundary kernels
-/

namespace Entity.FieldBC

open Entity Entity.Kernel Entity.Ranks

variable {K : Type} [Field K]

omit [Field K] in
theorem mem_byComp {arr : Nat} {sel : List Nat} {g : Nat → Option (List Int × Ex K)}
    {a : Assign K} : a ∈ byComp arr sel g ↔
      ∃ c ∈ sel, ∃ p, g c = some p ∧ a = ⟨⟨arr, c, p.1⟩, p.2⟩ := by
  simp only [byComp, List.mem_filterMap, Option.map_eq_some_iff]
  constructor
  · rintro ⟨c, hc, p, hp, rfl⟩; exact ⟨c, hc, p, hp, rfl⟩
  · rintro ⟨c, hc, p, hp, rfl⟩; exact ⟨c, hc, p, hp, rfl⟩

omit [Field K] in
theorem byComp_pairwise {arr : Nat} {sel : List Nat} (hs : sel.Nodup)
    (g : Nat → Option (List Int × Ex K)) :
    (byComp arr sel g).Pairwise (fun a b => a.dst ≠ b.dst) := by
  induction sel with
  | nil => exact List.Pairwise.nil
  | cons c cs ih =>
    rw [List.nodup_cons] at hs
    simp only [byComp, List.filterMap_cons]
    cases hg : g c with
    | none => exact ih hs.2
    | some p =>
      refine List.Pairwise.cons ?_ (ih hs.2)
      intro b hb
      obtain ⟨c', hc', p', _, rfl⟩ := mem_byComp.mp hb
      intro h
      exact hs.1 (by rw [show c = c' from congrArg Loc.comp h]; exact hc')

theorem tagged_nodup (setE setB : Bool) : (tagged setE setB).Nodup := by
  cases setE <;> cases setB <;> decide

theorem mem_tagged {setE setB : Bool} {c : Nat} :
    c ∈ tagged setE setB ↔ (setE = true ∧ c < 3) ∨ (setB = true ∧ 3 ≤ c ∧ c < 6) := by
  cases setE <;> cases setB <;> simp [tagged] <;> omega

/-- What a kernel of component-wise assignments does. -/
theorem launch_byComp {cells : List (List Int)} {arr : Nat} {sel : List Nat}
    {g : List Int → Nat → Option (List Int × Ex K)} {own : Nat → List Int → Option (List Int)}
    (hs : sel.Nodup)
    (ho : ∀ t ∈ cells, ∀ c ∈ sel, ∀ p, g t c = some p → own c p.1 = some t ∧
      ∀ l ∈ p.2.loads, l.arr = arr ∧ l.comp = c ∧ ∀ u ∈ cells, own c l.idx = some u → u = t)
    {m m' : Mem K} (h : Launch cells (fun t => byComp arr sel (g t)) m m') :
    (∀ t ∈ cells, ∀ c ∈ sel, ∀ p, g t c = some p → m' ⟨arr, c, p.1⟩ = p.2.eval m) ∧
    ∀ l, (∀ t ∈ cells, ∀ c ∈ sel, ∀ p, g t c = some p → l ≠ ⟨arr, c, p.1⟩) → m' l = m l := by
  have hO : OwnedL cells (fun l => own l.comp l.idx) (fun t => byComp arr sel (g t)) := by
    intro t ht a ha
    obtain ⟨c, hc, p, hp, rfl⟩ := mem_byComp.mp ha
    obtain ⟨h1, h2⟩ := ho t ht c hc p hp
    refine ⟨h1, fun l hl u hu hlu => ?_⟩
    obtain ⟨_, hlc, h3⟩ := h2 l hl
    exact h3 u hu (hlc ▸ hlu)
  have hm := launch_ownedL hO h
  subst hm
  constructor
  · intro t ht c hc p hp
    have hrd : ∀ a ∈ byComp arr sel (g t), ∀ b ∈ byComp arr sel (g t), a.dst ∈ b.rhs.loads →
        a.dst = b.dst := by
      intro a ha b hb hab
      obtain ⟨c1, hc1, p1, hp1, rfl⟩ := mem_byComp.mp ha
      obtain ⟨c2, hc2, p2, hp2, rfl⟩ := mem_byComp.mp hb
      obtain ⟨_, hcc, _⟩ := (ho t ht c2 hc2 p2 hp2).2 _ hab
      simp only at hcc
      subst hcc
      rw [hp1] at hp2
      simp only [Option.some.inj hp2]
    simp only [resultL, (ho t ht c hc p hp).1, if_pos ht]
    exact runBody_one (byComp_pairwise hs _) hrd (a := ⟨⟨arr, c, p.1⟩, p.2⟩)
      (mem_byComp.mpr ⟨c, hc, p, hp, rfl⟩) m
  · intro l hl
    simp only [resultL]
    cases hol : own l.comp l.idx with
    | none => rfl
    | some t =>
      simp only
      split
      · rename_i ht
        apply runBody_other
        intro a ha had
        obtain ⟨c, hc, p, hp, rfl⟩ := mem_byComp.mp ha
        exact hl t ht c hc p hp had.symm
      · rfl

/-- Two runs of such a kernel give the same. -/
theorem launch_byComp_det {cells : List (List Int)} {arr : Nat} {sel : List Nat}
    {g : List Int → Nat → Option (List Int × Ex K)} {own : Nat → List Int → Option (List Int)}
    (hs : sel.Nodup)
    (ho : ∀ t ∈ cells, ∀ c ∈ sel, ∀ p, g t c = some p → own c p.1 = some t ∧
      ∀ l ∈ p.2.loads, l.arr = arr ∧ l.comp = c ∧ ∀ u ∈ cells, own c l.idx = some u → u = t)
    {m m1 m2 : Mem K} (h1 : Launch cells (fun t => byComp arr sel (g t)) m m1)
    (h2 : Launch cells (fun t => byComp arr sel (g t)) m m2) : m1 = m2 := by
  obtain ⟨a1, b1⟩ := launch_byComp hs ho h1
  obtain ⟨a2, b2⟩ := launch_byComp hs ho h2
  funext l
  by_cases hl : ∀ t ∈ cells, ∀ c ∈ sel, ∀ p, g t c = some p → l ≠ ⟨arr, c, p.1⟩
  · rw [b1 l hl, b2 l hl]
  · push Not at hl
    obtain ⟨t, ht, c, hc, p, hp, rfl⟩ := hl
    rw [a1 t ht c hc p hp, a2 t ht c hc p hp]

/-! ## Conducting wall -/

theorem getD_set_self {t : List Int} {o : Nat} (h : o < t.length) (k : Int) :
    (t.set o k).getD o 0 = k := by
  simp [List.getD_eq_getElem?_getD, h]

theorem getD_set_other {t : List Int} {o d : Nat} (h : d ≠ o) (k : Int) :
    (t.set o k).getD d 0 = t.getD d 0 := by
  simp [List.getD_eq_getElem?_getD, List.getElem?_set_ne h.symm]

theorem set_getD {t : List Int} {o : Nat} (h : o < t.length) : t.set o (t.getD o 0) = t := by
  apply List.ext_getElem (by simp)
  intro k h1 h2
  by_cases hk : o = k
  · subst hk; simp [h]
  · simp [List.getElem_set_ne hk]

/-- The thread that writes component `c` at index `t`. -/
def wallOwner (o : Nat) (P : Bool) (e : Int) (c : Nat) (t : List Int) : Option (List Int) :=
  let k := if P = true then t.getD o 0 - e + (if halfAlong c o = true then 1 else 0)
    else e - t.getD o 0
  if halfAlong c o = true ∧ k = 0 then none else some (t.set o k)

theorem wall_owned {cells : List (List Int)} {o : Nat} {P : Bool} {e : Int}
    (hc : ∀ t ∈ cells, o < t.length ∧ 0 ≤ t.getD o 0) (sel : List Nat) :
    ∀ t ∈ cells, ∀ c ∈ sel, ∀ p, conductorAt (K := K) o P e t c = some p →
      wallOwner o P e c p.1 = some t ∧
      ∀ l ∈ p.2.loads, l.arr = 0 ∧ l.comp = c ∧
        ∀ u ∈ cells, wallOwner o P e c l.idx = some u → u = t := by
  intro t ht c _ p hp
  obtain ⟨hl, h0⟩ := hc t ht
  have key : ∀ (v : List Int) (k : Int), v ∈ cells → v = t.set o k → k < 0 → False := by
    intro v k hv hvk hk
    have := (hc v hv).2
    rw [hvk, getD_set_self hl] at this
    omega
  by_cases hh : halfAlong c o = true
  · by_cases hi : t.getD o 0 = 0
    · simp only [conductorAt, hh, hi, if_true] at hp; cases hp
    · cases P
      · simp only [conductorAt, hh, hi, if_true, if_false, Bool.false_eq_true, Option.some.injEq] at hp
        subst hp
        constructor
        · simp only [wallOwner, getD_set_self hl, hh, Bool.false_eq_true, if_false, List.set_set,
            true_and, sub_sub_cancel, hi]
          rw [set_getD hl]
        · intro l hlm
          simp only [Ex.loads, List.mem_singleton] at hlm
          subst hlm
          refine ⟨rfl, rfl, fun u hu hw => ?_⟩
          simp only [wallOwner, getD_set_self hl, hh, Bool.false_eq_true, if_false, List.set_set,
            true_and] at hw
          split at hw
          · cases hw
          · exact (key u _ hu (Option.some.inj hw).symm (by omega)).elim
      · simp only [conductorAt, hh, hi, if_true, if_false, Option.some.injEq] at hp
        subst hp
        constructor
        · simp only [wallOwner, getD_set_self hl, hh, if_true, List.set_set, true_and]
          rw [show e + t.getD o 0 - 1 - e + 1 = t.getD o 0 by ring, if_neg hi, set_getD hl]
        · intro l hlm
          simp only [Ex.loads, List.mem_singleton] at hlm
          subst hlm
          refine ⟨rfl, rfl, fun u hu hw => ?_⟩
          simp only [wallOwner, getD_set_self hl, hh, if_true, List.set_set, true_and] at hw
          split at hw
          · cases hw
          · exact (key u _ hu (Option.some.inj hw).symm (by omega)).elim
  · by_cases hi : t.getD o 0 = 0
    · simp only [conductorAt, hh, hi, if_true, if_false, Bool.false_eq_true, Option.some.injEq] at hp
      subst hp
      constructor
      · simp only [wallOwner, getD_set_self hl, hh, if_false, Bool.false_eq_true, List.set_set, false_and, sub_self,
          add_zero, ite_self]
        rw [← hi, set_getD hl]
      · intro l hlm; simp [Ex.loads] at hlm
    · cases P
      · simp only [conductorAt, hh, hi, if_false, Bool.false_eq_true, Option.some.injEq] at hp
        subst hp
        constructor
        · simp only [wallOwner, getD_set_self hl, hh, Bool.false_eq_true, if_false, List.set_set,
            false_and, sub_sub_cancel]
          rw [set_getD hl]
        · intro l hlm
          replace hlm : l ∈ [_] := hlm
          rw [List.mem_singleton] at hlm
          subst hlm
          refine ⟨rfl, rfl, fun u hu hw => ?_⟩
          simp only [wallOwner, getD_set_self hl, hh, Bool.false_eq_true, if_false, List.set_set,
            false_and] at hw
          exact (key u _ hu (Option.some.inj hw).symm (by omega)).elim
      · simp only [conductorAt, hh, hi, if_true, if_false, Bool.false_eq_true, Option.some.injEq] at hp
        subst hp
        constructor
        · simp only [wallOwner, getD_set_self hl, hh, if_true, if_false, Bool.false_eq_true,
            List.set_set, false_and, add_zero, add_sub_cancel_left]
          rw [set_getD hl]
        · intro l hlm
          replace hlm : l ∈ [_] := hlm
          rw [List.mem_singleton] at hlm
          subst hlm
          refine ⟨rfl, rfl, fun u hu hw => ?_⟩
          simp only [wallOwner, getD_set_self hl, hh, if_true, if_false, Bool.false_eq_true,
            List.set_set, false_and, add_zero] at hw
          exact (key u _ hu (Option.some.inj hw).symm (by omega)).elim

/-- Threads of the wall kernel. -/
theorem mem_wall {M : Mesh} {o : Nat} {P : Bool} (ho : o < M.n.length) {t : List Int} :
    t ∈ box (conductorRange M o P) ↔ t.length = M.n.length ∧
      (0 ≤ t.getD o 0 ∧ t.getD o 0 < (if P = true then (M.ng : Int) else M.ng + 1)) ∧
      ∀ d < M.n.length, d ≠ o → 0 ≤ t.getD d 0 ∧ t.getD d 0 < M.n.getD d 0 + 2 * M.ng := by
  have hl : (conductorRange M o P).length = M.n.length := by simp [conductorRange]
  have hg : ∀ d < M.n.length, (conductorRange M o P).getD d (0, 0) =
      if d = o then (0, if P = true then (M.ng : Int) else M.ng + 1)
      else (0, M.n.getD d 0 + 2 * M.ng) := by
    intro d hd
    simp [conductorRange, List.getD_eq_getElem?_getD, hd]
  rw [mem_box_iff, hl]
  constructor
  · rintro ⟨h1, h2⟩
    refine ⟨h1, ?_, fun d hd hdo => ?_⟩
    · have := h2 o ho; rw [hg o ho, if_pos rfl] at this; exact this
    · have := h2 d hd; rw [hg d hd, if_neg hdo] at this; exact this
  · rintro ⟨h1, h2, h3⟩
    refine ⟨h1, fun d hd => ?_⟩
    rw [hg d hd]
    by_cases hdo : d = o
    · subst hdo; rw [if_pos rfl]; exact h2
    · rw [if_neg hdo]; exact h3 d hd hdo

theorem conductor_effect {M : Mesh} {o : Nat} {P setE setB : Bool} (ho : o < M.n.length)
    {m m' : Mem K} (h : conductor M o P setE setB m m') :
    (∀ t ∈ box (conductorRange M o P), ∀ c ∈ tagged setE setB, ∀ p,
      conductorAt o P (if P = true then M.iMax o else M.iMin) t c = some p →
        m' ⟨0, c, p.1⟩ = p.2.eval m) ∧
    ∀ l, (∀ t ∈ box (conductorRange M o P), ∀ c ∈ tagged setE setB, ∀ p,
      conductorAt (K := K) o P (if P = true then M.iMax o else M.iMin) t c = some p →
        l ≠ ⟨0, c, p.1⟩) → m' l = m l :=
  launch_byComp (tagged_nodup _ _)
    (wall_owned (fun t ht => by
      obtain ⟨h1, h2, _⟩ := (mem_wall ho).mp ht
      exact ⟨by omega, h2.1⟩) _) h

/-! ## Kernels whose threads stay in their own cell -/

theorem launch_here {cells : List (List Int)} {arr : Nat} {sel : List Nat}
    {g : List Int → Nat → Option (List Int × Ex K)} (hs : sel.Nodup)
    (hg : ∀ t c p, g t c = some p → p.1 = t ∧ ∀ l ∈ p.2.loads, l = ⟨arr, c, t⟩)
    {m m' : Mem K} (h : Launch cells (fun t => byComp arr sel (g t)) m m') :
    (∀ t ∈ cells, ∀ c ∈ sel, ∀ p, g t c = some p → m' ⟨arr, c, t⟩ = p.2.eval m) ∧
    ∀ l, ¬ (l.arr = arr ∧ l.comp ∈ sel ∧ l.idx ∈ cells ∧ (g l.idx l.comp).isSome) →
      m' l = m l := by
  obtain ⟨h1, h2⟩ := launch_byComp (own := fun _ t => some t) hs (fun t _ c _ p hp => by
    obtain ⟨e1, e2⟩ := hg t c p hp
    refine ⟨by rw [e1], fun l hl => ?_⟩
    rw [e2 l hl]
    exact ⟨rfl, rfl, fun u _ hu => (Option.some.inj hu).symm⟩) h
  refine ⟨fun t ht c hc p hp => ?_, fun l hl => h2 l (fun t ht c hc p hp hlc => hl ?_)⟩
  · have := h1 t ht c hc p hp
    rwa [(hg t c p hp).1] at this
  · rw [(hg t c p hp).1] at hlc
    subst hlc
    exact ⟨rfl, hc, ht, by simp [hp]⟩

theorem matchAt_here {S : Setter} {p : Match} {ng : Nat} (t : List Int) (c : Nat)
    (q : List Int × Ex ℝ) (h : matchAt S p ng t c = some q) :
    q.1 = t ∧ ∀ l ∈ q.2.loads, l = ⟨0, c, t⟩ := by
  simp only [matchAt, Option.map_eq_some_iff] at h
  obtain ⟨v, -, rfl⟩ := h
  refine ⟨rfl, fun l hl => ?_⟩
  simp only at hl
  split at hl
  · have : l ∈ [⟨0, c, t⟩] := hl; simpa using this
  · have : l ∈ [⟨0, c, t⟩] := hl; simpa using this

theorem enforcedAt_here {S : Setter} {ng o : Nat} {P : Bool} {e : Int} (t : List Int) (c : Nat)
    (q : List Int × Ex ℝ) (h : enforcedAt S ng o P e t c = some q) :
    q.1 = t ∧ ∀ l ∈ q.2.loads, l = ⟨0, c, t⟩ := by
  unfold enforcedAt at h
  by_cases hq : halfAlong c o = true ∧ ¬ (if P = true then e ≤ t.getD o 0 else t.getD o 0 < e)
  · rw [if_pos hq] at h; cases h
  · rw [if_neg hq] at h
    simp only [Option.map_eq_some_iff] at h
    obtain ⟨v, -, rfl⟩ := h
    exact ⟨rfl, fun l hl => by cases hl⟩

theorem absorbAt_here {a ng : Nat} {conv1 : ℝ → ℝ} {edge ds : ℝ} (t : List Int) (c : Nat)
    (q : List Int × Ex ℝ) (h : absorbAt a ng conv1 edge ds t c = some q) :
    q.1 = t ∧ ∀ l ∈ q.2.loads, l = ⟨a, c, t⟩ := by
  unfold absorbAt at h
  obtain rfl := Option.some.inj h
  exact ⟨rfl, fun l hl => by
    have : l ∈ [⟨a, c, t⟩] := hl
    simpa using this⟩

end Entity.FieldBC
