import Verif.Lemmas.PrtlPack
import Mathlib.Tactic.IntervalCases
import Mathlib.Data.List.Nodup

/-! # Lemmas about what a rank computes before it receives -/

namespace Entity.Prtl

open Entity Entity.Dir Entity.Tags

instance {R : Type} [Inhabited R] : Inhabited (Prtl R) :=
  ⟨⟨0, 0, 0, 0, 0, 0, default, default, default, default, default, default, default, default,
    default, default, default, [], [], 0⟩⟩

theorem ntags_eq {D : Nat} (h1 : 1 ≤ D) (h3 : D ≤ 3) : ntags D = (allDirs D).length + 2 := by
  interval_cases D <;> rfl

theorem dir2tag_key : ∀ D ∈ [1, 2, 3], ∀ j : Fin (allDirs D).length,
    dir2tag D (allDirs D)[j.1] = .ok ((j.1 + 2 : Nat) : Int) := by decide +kernel

/-- The code of the j-th direction is `j + 2`. -/
theorem dir2tag_get {D : Nat} (h1 : 1 ≤ D) (h3 : D ≤ 3) (j : Nat) (hj : j < (allDirs D).length) :
    dir2tag D (allDirs D)[j] = .ok ((j + 2 : Nat) : Int) := by
  exact dir2tag_key D (by interval_cases D <;> simp) ⟨j, hj⟩

theorem dir2tag_mem {D : Nat} (h1 : 1 ≤ D) (h3 : D ≤ 3) {d : Direction} (hd : d ∈ allDirs D) :
    ∃ t : Nat, dir2tag D d = .ok (t : Int) ∧ 2 ≤ t ∧ t < ntags D ∧ (allDirs D)[t - 2]? = some d := by
  obtain ⟨j, hj, rfl⟩ := List.getElem_of_mem hd
  refine ⟨j + 2, dir2tag_get h1 h3 j hj, by omega, by rw [ntags_eq h1 h3]; omega, ?_⟩
  simp [hj]

/-- The particle sent from slot `p`. -/
def sentAt {R : Type} [Inhabited R] (D : Nat) (sh1 sh2 sh3 : List Int) (A : List (Prtl R))
    (p : Nat) : Prtl R := sent D sh1 sh2 sh3 (A[p]?.getD default)

theorem foldlM_congr_cons {α β : Type} {f : β → α → Outcome β} {b : β} {l : List α} {x : α}
    {b' : β} (h : l.foldlM f b = .ok b') : (l ++ [x]).foldlM f b = f b' x := by
  rw [List.foldlM_append, h, Outcome.bind_ok, List.foldlM_cons]
  show (f b' x >>= fun s => pure s) = _
  rw [bind_pure]

/-- Packing of a part of the directions. -/
theorem pack_fold {R : Type} [Inhabited R] (k : Kind) (h1 : 1 ≤ k.D) (h3 : k.D ≤ 3)
    (vec offs out : List Nat) (S : Scheds) (A : List (Prtl R)) (P : List Nat)
    (sh1 sh2 sh3 : List Int) (B : List (Prtl R))
    (hP : P.Nodup) (hPA : ∀ p ∈ P, ∃ q, A[p]? = some q ∧ PldOk k q)
    (hvec : ∀ t : Nat, t < ntags k.D → vec.getD t 0 = cnt A P t)
    (hoff : ∀ t : Nat, 2 ≤ t → t < ntags k.D →
      vec.getD 0 0 + (if (t : Int) > 2 then offs.getD ((t : Int) - 3).toNat 0 else 0) =
        base (fun t => cnt A P t) t)
    (hout : ∀ t : Nat, t < ntags k.D → t ≠ 1 → ∀ j, j < cnt A P t →
        out[base (fun t => cnt A P t) t + j]? = (P.filter fun p => decide (tagAt A p = t))[j]?)
    (hB : ∀ p ∈ P, B[p]? = some (sentAt k.D sh1 sh2 sh3 A p))
    (hS : ∀ d n, (S.pack d n).Perm (List.range n))
    (dirs : List Direction) (hnd : dirs.Nodup) (hdirs : ∀ d ∈ dirs, d ∈ allDirs k.D) :
    ∃ msgs arr, dirs.foldlM (packDir k vec offs out S) ([], B) = .ok (msgs, arr) ∧
      arr.length = B.length ∧
      (∀ p, (∀ d ∈ dirs, dir2tag k.D d ≠ .ok (tagAt A p)) ∨ p ∉ P → arr[p]? = B[p]?) ∧
      (∀ p ∈ P, (∃ d ∈ dirs, dir2tag k.D d = .ok (tagAt A p)) → ∃ q', arr[p]? = some q' ∧
        q'.tag = 0) ∧
      msgs.map (·.1) = dirs ∧
      (∀ d ∈ dirs, ∃ t : Nat, t < ntags k.D ∧ dir2tag k.D d = .ok (t : Int) ∧
        msgs.find? (fun m => m.1 = d) =
          some (d, flat (((P.filter fun p => decide (tagAt A p = t)).map
            (sentAt k.D sh1 sh2 sh3 A)).map (rowOf k)))) := by
  induction dirs using List.reverseRecOn with
  | nil => exact ⟨[], B, rfl, rfl, by simp, by simp, rfl, by simp⟩
  | append_singleton ds d ih =>
    rw [List.nodup_append] at hnd
    obtain ⟨hnd1, -, hnd2⟩ := hnd
    have hdds : d ∉ ds := fun h => hnd2 d h d (by simp) rfl
    obtain ⟨msgs, arr, e1, e2, e3, e4, e5, e6⟩ := ih hnd1 (fun x hx => hdirs x (by simp [hx]))
    obtain ⟨t, ht, ht2, htn, htd⟩ := dir2tag_mem h1 h3 (hdirs d (by simp))
    set F := P.filter fun p => decide (tagAt A p = t) with hF
    have hFl : F.length = cnt A P t := (cnt_eq_length A P t).symm
    have hFnd : F.Nodup := hP.filter _
    have hnotag : ∀ x ∈ ds, dir2tag k.D x ≠ .ok (t : Int) := by
      intro x hx he
      obtain ⟨u, hu, hu2, hun, hud⟩ := dir2tag_mem h1 h3 (hdirs x (by simp [hx]))
      rw [hu] at he
      have : u = t := by simpa using he
      subst this
      rw [hud] at htd
      cases htd; exact hdds hx
    obtain ⟨rows, hrl, hrok, hempty⟩ := empty_flat (R := R) k (cnt A P t)
    have hperm := hS d (cnt A P t)
    have hmem : ∀ p ∈ S.pack d (cnt A P t), p < cnt A P t := fun p hp => by
      simpa using (hperm.mem_iff (a := p)).1 hp
    have hFmem : ∀ p, p < cnt A P t → F[p]? = some (F.getD p 0) ∧ F.getD p 0 ∈ P ∧
        tagAt A (F.getD p 0) = t := by
      intro p hp
      have hlt : p < F.length := by omega
      have e : F.getD p 0 = F[p] := by simp [List.getD_eq_getElem?_getD, hlt]
      have hm := List.getElem_mem hlt
      rw [← e, hF, List.mem_filter] at hm
      exact ⟨by rw [e]; exact List.getElem?_eq_getElem hlt, hm.1, by simpa using hm.2⟩
    obtain ⟨rows', arr', f1, f2, f3, f4, f5, f6, f7, f8⟩ := populate_fold k h1 h3 out
      (base (fun t => cnt A P t) t) (fun p => F.getD p 0)
      (fun p => sentAt k.D sh1 sh2 sh3 A (F.getD p 0)) (S.pack d (cnt A P t)) rows arr
      (hperm.nodup_iff.2 List.nodup_range) (fun p hp => by rw [hrl]; exact hmem p hp)
      (fun p hp => by
        rw [hout t htn (by omega) p (hmem p hp)]; exact (hFmem p (hmem p hp)).1)
      (by
        intro p hp p' hp' he
        have a := hFmem p (hmem p hp)
        have b := hFmem p' (hmem p' hp')
        have hlt : p < F.length := by have := hmem p hp; omega
        have hlt' : p' < F.length := by have := hmem p' hp'; omega
        rw [List.getElem?_eq_getElem hlt] at a
        rw [List.getElem?_eq_getElem hlt'] at b
        have ha : F[p] = F[p'] := by
          have := a.1; have := b.1; simp_all
        exact (List.Nodup.getElem_inj_iff hFnd).1 ha)
      (by
        intro p hp
        obtain ⟨-, a, b⟩ := hFmem p (hmem p hp)
        rw [e3 _ (Or.inl (by rw [b]; exact hnotag)), hB _ a])
      (by
        intro p hp
        obtain ⟨-, a, b⟩ := hFmem p (hmem p hp)
        obtain ⟨q, hq, hpl⟩ := hPA _ a
        unfold sentAt; rw [hq]
        exact sent_pld k sh1 sh2 sh3 q hpl)
      hrok
    have hrows : rows' = (F.map (sentAt k.D sh1 sh2 sh3 A)).map (rowOf k) := by
      rw [List.map_map]
      apply getElem?_ext_map (by omega)
      intro p hp
      rw [f4 p (by rw [hperm.mem_iff]; simp; omega)]
      simp [List.getD_eq_getElem?_getD, hp]
    have hbody : packDir k vec offs out S (msgs, arr) d = .ok (msgs ++ [(d, flat rows')], arr') := by
      unfold packDir
      rw [ht, Outcome.bind_ok]
      simp only [Int.toNat_natCast]
      rw [hvec t htn, hoff t ht2 htn, hempty, f1]
      rfl
    refine ⟨msgs ++ [(d, flat rows')], arr', ?_, by omega, ?_, ?_, by simp [e5], ?_⟩
    · rw [foldlM_congr_cons e1, hbody]
    · intro p hp
      have hp' : ∀ x ∈ S.pack d (cnt A P t), F.getD x 0 ≠ p := by
        intro x hx he
        obtain ⟨-, a, b⟩ := hFmem x (hmem x hx)
        rw [he] at a b
        rcases hp with hp | hp
        · exact hp d (by simp) (by rw [b, ht])
        · exact hp a
      rw [f8 p hp']
      apply e3
      rcases hp with hp | hp
      · exact Or.inl fun x hx => hp x (by simp [hx])
      · exact Or.inr hp
    · rintro p hp ⟨x, hx, hxt⟩
      by_cases hpt : tagAt A p = t
      · have hpF : p ∈ F := by rw [hF, List.mem_filter]; exact ⟨hp, by simpa using hpt⟩
        obtain ⟨j, hj, hje⟩ := List.getElem_of_mem hpF
        have := f7 j (by rw [hperm.mem_iff]; simp; omega)
        simp only [List.getD_eq_getElem?_getD, List.getElem?_eq_getElem hj, hje,
          Option.getD_some] at this
        exact ⟨_, this, rfl⟩
      · have hp' : ∀ x ∈ S.pack d (cnt A P t), F.getD x 0 ≠ p := by
          intro x hx he
          obtain ⟨-, a, b⟩ := hFmem x (hmem x hx)
          rw [he] at b; exact hpt b
        rw [f8 p hp']
        apply e4 p hp
        rcases List.mem_append.1 hx with hx | hx
        · exact ⟨x, hx, hxt⟩
        · rw [List.mem_singleton] at hx; subst hx
          rw [ht] at hxt
          exact absurd (by simpa using hxt.symm) hpt
    · intro x hx
      rw [List.find?_append]
      rcases List.mem_append.1 hx with hx | hx
      · obtain ⟨u, hu, hu2, hu3⟩ := e6 x hx
        exact ⟨u, hu, hu2, by rw [hu3]; rfl⟩
      · rw [List.mem_singleton] at hx; subst hx
        refine ⟨t, htn, ht, ?_⟩
        have : msgs.find? (fun m => m.1 = x) = none := by
          rw [List.find?_eq_none]
          intro y hy
          have : y.1 ∈ ds := by rw [← e5]; exact List.mem_map_of_mem hy
          simp only [decide_eq_true_eq]
          rintro rfl; exact hdds this
        rw [this, hrows]
        simp [hF]

/-- What a rank has ready before it receives: the list of free slots, its array with everything that
was sent marked dead, and its messages. -/
structure OutboxOk {R : Type} (k : Kind) (s : Store R) (dirs : List Direction)
    (sh1 sh2 sh3 : List Int) (o : Outbox R) : Prop where
  len : o.arr.length = s.arr.length
  out_nodup : o.out.Nodup
  out_mem : ∀ p, p ∈ o.out ↔ p < s.npart ∧ tagAt s.arr p ≠ 1
  keep : ∀ p, s.npart ≤ p ∨ tagAt s.arr p = 1 → o.arr[p]? = s.arr[p]?
  freed : ∀ p, p < s.npart → tagAt s.arr p ≠ 1 →
    (tagAt s.arr p = 0 ∨ ∃ d ∈ dirs, dir2tag k.D d = .ok (tagAt s.arr p)) →
    ∃ q', o.arr[p]? = some q' ∧ q'.tag = 0
  message : ∀ d ∈ dirs, ∃ (t : Nat) (L : List (Prtl R)), dir2tag k.D d = .ok (t : Int) ∧
    o.message k d = .ok (L.length, flat (L.map (rowOf k))) ∧
    L.Perm (((s.arr.take s.npart).filter fun q => decide (q.tag = (t : Int))).map
      (sent k.D sh1 sh2 sh3)) ∧ ∀ q ∈ L, PldOk k q

theorem filterMap_tag {R : Type} (arr : List (Prtl R)) (t : Int) (l : List Nat)
    (h : ∀ p ∈ l, p < arr.length) :
    (l.filter (fun p => decide (tagAt arr p = t))).filterMap (fun p => arr[p]?) =
      (l.filterMap (fun p => arr[p]?)).filter (fun q => decide (q.tag = t)) := by
  induction l with
  | nil => rfl
  | cons p ps ih =>
    have hlt : p < arr.length := h p (by simp)
    have hp : arr[p]? = some arr[p] := List.getElem?_eq_getElem hlt
    have ih' := ih fun x hx => h x (List.mem_cons_of_mem _ hx)
    rw [List.filterMap_cons, hp]
    by_cases ht : arr[p].tag = t
    · rw [List.filter_cons_of_pos (by simp [tagAt_some hp, ht]), List.filterMap_cons, hp]
      simp only
      rw [List.filter_cons_of_pos (by simpa using ht), ih']
    · rw [List.filter_cons_of_neg (by simp [tagAt_some hp, ht])]
      simp only
      rw [List.filter_cons_of_neg (by simpa using ht), ih']

theorem map_sentAt {R : Type} [Inhabited R] (D : Nat) (sh1 sh2 sh3 : List Int) (A : List (Prtl R))
    (l : List Nat) (h : ∀ p ∈ l, p < A.length) :
    l.map (sentAt D sh1 sh2 sh3 A) = (l.filterMap (fun p => A[p]?)).map (sent D sh1 sh2 sh3) := by
  induction l with
  | nil => rfl
  | cons p ps ih =>
    have hlt := h p (by simp)
    have hp : A[p]? = some A[p] := List.getElem?_eq_getElem hlt
    rw [List.map_cons, List.filterMap_cons, hp, ih fun x hx => h x (by simp [hx])]
    simp [sentAt, hp]

theorem prepare_spec {R : Type} [Inhabited R] (k : Kind) (h1 : 1 ≤ k.D) (h3 : k.D ≤ 3)
    (s : Store R) (hn : s.npart ≤ s.arr.length) (dirs : List Direction) (hnd : dirs.Nodup)
    (hdirs : ∀ d ∈ dirs, d ∈ allDirs k.D) (sh1 sh2 sh3 : List Int) (S : Scheds)
    (hS1 : (S.count s.npart).Perm (List.range s.npart))
    (hS2 : (S.prep s.npart).Perm (List.range s.npart))
    (hS3 : ∀ d n, (S.pack d n).Perm (List.range n))
    (htag : ∀ q ∈ s.arr.take s.npart, 0 ≤ q.tag ∧ q.tag < ntags k.D)
    (hpld : ∀ q ∈ s.arr.take s.npart, PldOk k q) :
    ∃ o, prepareMessages k s dirs sh1 sh2 sh3 S = .ok o ∧ OutboxOk k s dirs sh1 sh2 sh3 o := by
  set P := S.prep s.npart with hPdef
  set A := s.arr with hAdef
  have hAl : A.length = s.arr.length := rfl
  obtain ⟨vec, v1, v2, v3⟩ := nparts_spec hn h1 hS1 htag
  have hvec : ∀ t : Nat, t < ntags k.D → vec.getD t 0 = cnt A P t := by
    intro t ht
    rw [v3 t ht, cnt_perm hS1, cnt_perm hS2]
  have hPm : ∀ p, p ∈ P ↔ p < s.npart := fun p => by simpa using hS2.mem_iff (a := p)
  have hPnd : P.Nodup := hS2.nodup_iff.2 List.nodup_range
  have hPA' : ∀ p ∈ P, ∃ q, A[p]? = some q ∧ (0 ≤ q.tag ∧ q.tag < (ntags k.D : Nat)) ∧
      PldOk k q := by
    intro p hp
    have hlt : p < A.length := by have := (hPm p).1 hp; omega
    have hm : A[p] ∈ A.take s.npart := by
      rw [List.mem_take_iff_getElem]
      exact ⟨p, by have := (hPm p).1 hp; omega, rfl⟩
    exact ⟨A[p], List.getElem?_eq_getElem hlt, htag _ hm, hpld _ hm⟩
  have hnt : ntags k.D = (ntags k.D - 2) + 2 := by rw [ntags_eq h1 h3]; omega
  have hbase : ∀ t : Nat, 2 ≤ t → t < ntags k.D →
      vec.getD 0 0 + (if (t : Int) > 2 then
        ((List.range (ntags k.D - 3)).map (tagOffset vec)).getD ((t : Int) - 3).toNat 0 else 0) =
        base (fun t => cnt A P t) t := by
    intro t ht htn
    obtain ⟨u, rfl⟩ : ∃ u, t = u + 2 := ⟨t - 2, by omega⟩
    rw [base_sum, hvec 0 (by omega)]
    rcases Nat.eq_zero_or_pos u with hu | hu
    · subst hu; simp
    · rw [if_pos (by omega)]
      have hi : (((u + 2 : Nat) : Int) - 3).toNat = u - 1 := by omega
      rw [hi, List.getD_eq_getElem?_getD, List.getElem?_map, List.getElem?_range (by omega)]
      simp only [Option.map_some, Option.getD_some]
      rw [tagOffset_eq, show u - 1 + 1 = u by omega]
      congr 2
      apply List.map_congr_left
      intro j hj
      rw [List.mem_range] at hj
      exact hvec _ (by omega)
  have hsum := cnt_sum A (ntags k.D) P (fun p hp => by
    obtain ⟨q, a, b, c⟩ := hPA' p hp
    rw [tagAt_some a]; exact b)
  have hPl : P.length = s.npart := by rw [hS2.length_eq, List.length_range]
  have hH : s.npart - vec.getD 1 0 = base (fun t => cnt A P t) (ntags k.D) := by
    rw [hnt, base_sum, hvec 1 (by omega)]
    rw [hnt, sum_split, hPl] at hsum
    omega
  obtain ⟨st, e1, e2, e3, e4, e5, e6, e7⟩ := prep_fold k.D sh1 sh2 sh3 A (ntags k.D) s.npart
    (fun t => cnt A P t) (vec.getD 1 0) (vec.getD 0 0)
    ((List.range (ntags k.D - 3)).map (tagOffset vec))
    (by
      intro t ht ht1
      rcases Nat.eq_zero_or_pos t with h | h
      · subst h; simp [base]
      · rw [← hbase t (by omega) ht, if_pos (by omega)])
    hH P hPnd (fun p hp => by
      obtain ⟨q, a, b, c⟩ := hPA' p hp
      exact ⟨q, a, b⟩) (fun t _ _ => Nat.le_refl _)
  have hB : ∀ p ∈ P, st.arr[p]? = some (sentAt k.D sh1 sh2 sh3 A p) := by
    intro p hp
    obtain ⟨q, a, b, c⟩ := hPA' p hp
    rw [e6 p q a, if_pos hp]
    simp [sentAt, a]
  obtain ⟨msgs, arr, f1, f2, f3, f4, f5, f6⟩ := pack_fold k h1 h3 vec _ st.out S A P sh1 sh2 sh3
    st.arr hPnd (fun p hp => by
      obtain ⟨q, a, b, c⟩ := hPA' p hp
      exact ⟨q, a, c⟩) hvec hbase e5 hB hS3 dirs hnd hdirs
  refine ⟨⟨vec, st.out, arr, msgs⟩, ?_, ?_⟩
  · unfold prepareMessages
    rw [v1, Outcome.bind_ok]
    simp only
    rw [← hPdef, ← hAdef, e1, Outcome.bind_ok, f1]
    rfl
  have hcover : ∀ j, j < st.out.length → ∃ t i p, t < ntags k.D ∧ t ≠ 1 ∧
      j = base (fun t => cnt A P t) t + i ∧ i < cnt A P t ∧ st.out[j]? = some p ∧
      (P.filter fun p => decide (tagAt A p = t))[i]? = some p := by
    intro j hj
    rw [e4, hH] at hj
    obtain ⟨t, i, a, b, c, d⟩ := base_cover _ hj
    have hlt : i < (P.filter fun p => decide (tagAt A p = t)).length := by
      rw [← cnt_eq_length A P t]; exact c
    refine ⟨t, i, _, a, b, d, c, ?_, List.getElem?_eq_getElem hlt⟩
    rw [d, e5 t a b i c, List.getElem?_eq_getElem hlt]
  constructor
  · rw [f2, e7]
  · -- no slot twice
    rw [List.nodup_iff_injective_get]
    rintro ⟨i, hi⟩ ⟨j, hj⟩ hij
    simp only [List.get_eq_getElem] at hij
    obtain ⟨t, a, p, t1, t2, t3, t4, t5, t6⟩ := hcover i hi
    obtain ⟨u, b, p', u1, u2, u3, u4, u5, u6⟩ := hcover j hj
    rw [List.getElem?_eq_getElem hi] at t5
    rw [List.getElem?_eq_getElem hj] at u5
    have hpp : p = p' := by simp only [Option.some.injEq] at t5 u5; rw [← t5, ← u5]; exact hij
    subst hpp
    have m1 := (List.mem_filter.1 (List.mem_of_getElem? t6)).2
    have m2 := (List.mem_filter.1 (List.mem_of_getElem? u6)).2
    simp only [decide_eq_true_eq] at m1 m2
    have htu : t = u := by rw [m1] at m2; exact_mod_cast m2
    subst htu
    have hnd' : (P.filter fun p => decide (tagAt A p = t)).Nodup := hPnd.filter _
    obtain ⟨hl1, g1⟩ := List.getElem?_eq_some_iff.1 t6
    obtain ⟨hl2, g2⟩ := List.getElem?_eq_some_iff.1 u6
    have hab : a = b := (List.Nodup.getElem_inj_iff hnd').1 (g1.trans g2.symm)
    subst hab
    simp only [Fin.mk.injEq]; omega
  · intro p
    simp only
    constructor
    · intro hp
      obtain ⟨j, hj, hje⟩ := List.getElem_of_mem hp
      obtain ⟨t, a, p', t1, t2, t3, t4, t5, t6⟩ := hcover j hj
      rw [List.getElem?_eq_getElem hj, hje] at t5
      cases t5
      have m1 := List.mem_filter.1 (List.mem_of_getElem? t6)
      refine ⟨(hPm p).1 m1.1, ?_⟩
      have := m1.2
      simp only [decide_eq_true_eq] at this
      rw [this]; omega
    · rintro ⟨hp, ht⟩
      obtain ⟨q, a, b, -⟩ := hPA' p ((hPm p).2 hp)
      rw [tagAt_some a] at ht
      obtain ⟨t, hqt⟩ : ∃ t : Nat, q.tag = t := ⟨q.tag.toNat, by omega⟩
      have hm : p ∈ P.filter fun p => decide (tagAt A p = t) := by
        rw [List.mem_filter]; exact ⟨(hPm p).2 hp, by simp [tagAt_some a, hqt]⟩
      obtain ⟨i, hi, hie⟩ := List.getElem_of_mem hm
      have := e5 t (by omega) (by omega) i (by rw [cnt_eq_length]; exact hi)
      rw [List.getElem?_eq_getElem hi, hie] at this
      exact List.mem_of_getElem? this
  · intro p hp
    simp only
    have hno : ∀ d ∈ dirs, dir2tag k.D d ≠ .ok 1 := by
      intro d hd he
      obtain ⟨t, x, y, _⟩ := dir2tag_mem h1 h3 (hdirs d hd)
      rw [x] at he
      have : (t : Int) = 1 := by simpa using he
      omega
    rcases hp with hp | hp
    · have hpP : p ∉ P := fun h => by have := (hPm p).1 h; omega
      rw [f3 p (Or.inr hpP)]
      by_cases hlt : p < A.length
      · rw [e6 p _ (List.getElem?_eq_getElem hlt), if_neg hpP, List.getElem?_eq_getElem hlt]
      · rw [List.getElem?_eq_none (by omega), List.getElem?_eq_none (by omega)]
    · rw [f3 p (Or.inl (by rw [show tagAt A p = 1 from hp]; exact hno))]
      by_cases hlt : p < A.length
      · have hq := List.getElem?_eq_getElem hlt
        rw [e6 p _ hq, hq]
        rw [tagAt_some hq] at hp
        simp [sent, hp]
      · rw [List.getElem?_eq_none (by omega), List.getElem?_eq_none (by omega)]
  · intro p hp ht hor
    simp only
    by_cases hd : ∃ d ∈ dirs, dir2tag k.D d = .ok (tagAt A p)
    · exact f4 p ((hPm p).2 hp) hd
    · rcases hor with h0 | h0
      · push Not at hd
        rw [f3 p (Or.inl hd)]
        obtain ⟨q, a, b, -⟩ := hPA' p ((hPm p).2 hp)
        refine ⟨_, hB p ((hPm p).2 hp), ?_⟩
        unfold sentAt
        rw [sent_tag, a, Option.getD_some, ← tagAt_some a, h0]
      · exact absurd h0 hd
  · intro d hd
    obtain ⟨t, g1, g2, g3⟩ := f6 d hd
    refine ⟨t, (P.filter fun p => decide (tagAt A p = t)).map (sentAt k.D sh1 sh2 sh3 A), g2, ?_,
      ?_, ?_⟩
    · unfold Outbox.message
      rw [g2, Outcome.bind_ok]
      simp only
      rw [g3]
      simp only [Int.toNat_natCast, Outcome.pure_eq]
      rw [hvec t g1, cnt_eq_length, List.length_map]
    · rw [map_sentAt _ _ _ _ _ _ (fun p hp => by
        have := (hPm p).1 (List.mem_of_mem_filter hp); omega)]
      apply List.Perm.map
      rw [take_eq_filterMap, ← filterMap_tag _ _ _ (fun p hp => by
        rw [List.mem_range] at hp; omega)]
      exact (hS2.filter _).filterMap _
    · intro q hq
      obtain ⟨p, hp, rfl⟩ := List.mem_map.1 hq
      obtain ⟨q, a, b, c⟩ := hPA' p (List.mem_of_mem_filter hp)
      unfold sentAt
      rw [a]; exact sent_pld k sh1 sh2 sh3 q c

end Entity.Prtl
