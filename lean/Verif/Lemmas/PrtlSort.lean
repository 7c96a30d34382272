import Verif.Lemmas.Prtl

/-! # Lemmas about the removal of dead particles -/

namespace Entity.Prtl

open Entity Entity.Dir Entity.Tags

theorem countAlive_fold {R : Type} (s : Store R) (σ : List Nat)
    (h : ∀ p ∈ σ, ∃ q, s.arr[p]? = some q ∧ (q.tag = alive ∨ q.tag = dead)) (acc : Nat × Nat) :
    σ.foldlM (countAliveBody s) acc =
      .ok (acc.1 + cnt s.arr σ alive, acc.2 + cnt s.arr σ dead) := by
  induction σ generalizing acc with
  | nil => simp [cnt]
  | cons p ps ih =>
    obtain ⟨q, hq, ht⟩ := h p (by simp)
    rw [List.foldlM_cons]
    have : countAliveBody s acc p = .ok (acc.1 + (if q.tag = alive then 1 else 0),
        acc.2 + (if q.tag = dead then 1 else 0)) := by
      simp only [countAliveBody, hq]
      rw [if_neg (by rintro ⟨h1, h2⟩; rcases ht with h | h <;> contradiction)]
    rw [this, Outcome.bind_ok, ih fun x hx => h x (List.mem_cons_of_mem _ hx)]
    simp only [cnt, List.countP_cons, tagAt_some hq, decide_eq_true_eq]
    congr 2 <;> omega

theorem aliveIndex_fold {R : Type} (s : Store R) (σ : List Nat)
    (h : ∀ p ∈ σ, ∃ q, s.arr[p]? = some q) (c : Nat) (ind : List Nat)
    (hc : c + cnt s.arr σ alive ≤ ind.length) :
    σ.foldlM (aliveIndexBody s) (c, ind) =
      .ok (c + cnt s.arr σ alive, ind.take c ++
        σ.filter (fun p => decide (tagAt s.arr p = alive)) ++
        ind.drop (c + cnt s.arr σ alive)) := by
  induction σ generalizing c ind with
  | nil => simp [cnt]
  | cons p ps ih =>
    obtain ⟨q, hq⟩ := h p (by simp)
    have hps := fun x hx => h x (List.mem_cons_of_mem _ hx)
    rw [List.foldlM_cons]
    by_cases ha : q.tag = alive
    · have hcnt : cnt s.arr (p :: ps) alive = cnt s.arr ps alive + 1 := by
        simp [cnt, List.countP_cons, tagAt_some hq, ha]
      have : aliveIndexBody s (c, ind) p = .ok (c + 1, ind.set c p) := by
        simp only [aliveIndexBody, hq, if_pos ha]
        rw [if_pos (by omega)]
      rw [this, Outcome.bind_ok, ih hps (c + 1) (ind.set c p) (by simp; omega), hcnt]
      rw [List.filter_cons_of_pos (by simp [tagAt_some hq, ha])]
      have e1 : (ind.set c p).take (c + 1) = ind.take c ++ [p] := by
        rw [List.take_succ, List.getElem?_set_self (by omega), List.take_set_of_le (Nat.le_refl _)]
        rfl
      rw [e1, List.drop_set_of_lt (by omega)]
      have e2 : c + 1 + cnt s.arr ps alive = c + (cnt s.arr ps alive + 1) := by omega
      rw [e2]
      simp
    · have hcnt : cnt s.arr (p :: ps) alive = cnt s.arr ps alive := by
        simp [cnt, List.countP_cons, tagAt_some hq, ha]
      have : aliveIndexBody s (c, ind) p = .ok (c, ind) := by
        simp only [aliveIndexBody, hq, if_neg ha]
      rw [this, Outcome.bind_ok, ih hps c ind (by omega), hcnt]
      rw [List.filter_cons_of_neg (by simp [tagAt_some hq, ha])]

/-- A kernel that writes `g p` to entry `p` (whatever the order). -/
theorem set_fold {β : Type} (g : Nat → β) (step : List β → Nat → Outcome (List β)) (σ : List Nat)
    (buf : List β) (hlt : ∀ p ∈ σ, p < buf.length)
    (hs : ∀ b : List β, ∀ p ∈ σ, p < b.length → step b p = .ok (b.set p (g p))) :
    ∃ b, σ.foldlM step buf = .ok b ∧ b.length = buf.length ∧
      ∀ j, b[j]? = if j ∈ σ then some (g j) else buf[j]? := by
  induction σ generalizing buf with
  | nil => exact ⟨buf, rfl, rfl, by simp⟩
  | cons p ps ih =>
    rw [List.foldlM_cons, hs buf p (by simp) (hlt p (by simp)), Outcome.bind_ok]
    obtain ⟨b, h1, h2, h3⟩ := ih (buf.set p (g p))
      (fun x hx => by simpa using hlt x (List.mem_cons_of_mem _ hx))
      (fun b x hx => hs b x (List.mem_cons_of_mem _ hx))
    refine ⟨b, h1, by simpa using h2, fun j => ?_⟩
    rw [h3]
    by_cases hj : j ∈ ps
    · simp [hj]
    · by_cases hjp : j = p
      · subst hjp
        simp [hj, hlt j (by simp)]
      · rw [if_neg hj, if_neg (by simp [hj, hjp]), List.getElem?_set_ne (by omega)]

theorem cnt_eq_length {R : Type} (arr : List (Prtl R)) (σ : List Nat) (t : Int) :
    cnt arr σ t = (σ.filter (fun p => decide (tagAt arr p = t))).length :=
  List.countP_eq_length_filter

/-- The result of `removeDead`, entry by entry. -/
theorem removeDead_eq {R : Type} (k : Kind) (s : Store R) (hn : s.npart ≤ s.arr.length)
    {σ₁ σ₂ σ₃ : Sched} (h1 : (σ₁ s.npart).Perm (List.range s.npart))
    (h2 : (σ₂ s.npart).Perm (List.range s.npart)) (h3 : ∀ n, (σ₃ n).Perm (List.range n))
    (ht : ∀ q ∈ s.arr.take s.npart, q.tag = alive ∨ q.tag = dead) :
    ∃ s', removeDead k s σ₁ σ₂ σ₃ = .ok s' ∧ s'.arr.length = s.arr.length ∧
      s'.npart = cnt s.arr (List.range s.npart) alive ∧
      cnt s.arr (List.range s.npart) alive + cnt s.arr (List.range s.npart) dead = s.npart ∧
      (∀ p, p < s'.npart → ∃ j src q,
        ((σ₂ s.npart).filter (fun p => decide (tagAt s.arr p = alive)))[p]? = some j ∧
        s.arr[j]? = some src ∧ s.arr[p]? = some q ∧
        s'.arr[p]? = some { copyAttrs k src q with tag := alive }) ∧
      (∀ p, s'.npart ≤ p → p < s.npart → s'.arr[p]? = s.arr[p]?.map
        (fun q => { q with tag := dead })) ∧
      (∀ p, s.npart ≤ p → s'.arr[p]? = s.arr[p]?) := by
  have hq : ∀ {σ : Sched}, (σ s.npart).Perm (List.range s.npart) → ∀ p ∈ σ s.npart,
      ∃ q, s.arr[p]? = some q ∧ (q.tag = alive ∨ q.tag = dead) := by
    intro σ hσ p hp
    have hp' : p < s.npart := by simpa using (hσ.mem_iff (a := p)).1 hp
    refine ⟨s.arr[p], List.getElem?_eq_getElem (by omega), ht _ ?_⟩
    rw [List.mem_take_iff_getElem]; exact ⟨p, by omega, rfl⟩
  set nA := cnt s.arr (List.range s.npart) alive with hnA
  set nD := cnt s.arr (List.range s.npart) dead with hnD
  have htot : nA + nD = s.npart := by
    have : ∀ l : List Nat, (∀ p ∈ l, ∃ q, s.arr[p]? = some q ∧ (q.tag = alive ∨ q.tag = dead)) →
        cnt s.arr l alive + cnt s.arr l dead = l.length := by
      intro l hl
      induction l with
      | nil => rfl
      | cons p ps ih =>
        obtain ⟨q, hq, ht⟩ := hl p (by simp)
        have ih' := ih fun x hx => hl x (List.mem_cons_of_mem _ hx)
        simp only [cnt] at ih'
        simp only [cnt, List.countP_cons, tagAt_some hq, List.length_cons]
        rcases ht with h | h <;> simp [h, alive, dead] <;> simp only [alive, dead] at ih' <;> omega
    have h := this (List.range s.npart) (hq (σ := fun n => List.range n) (List.Perm.refl _))
    simpa using h
  have hA1 : cnt s.arr (σ₁ s.npart) alive = nA := cnt_perm h1 _
  have hD1 : cnt s.arr (σ₁ s.npart) dead = nD := cnt_perm h1 _
  have hA2 : cnt s.arr (σ₂ s.npart) alive = nA := cnt_perm h2 _
  set F := (σ₂ s.npart).filter (fun p => decide (tagAt s.arr p = alive)) with hF
  have hFl : F.length = nA := by rw [← hA2, cnt_eq_length]
  have hfold2 := aliveIndex_fold s (σ₂ s.npart) (fun p hp => (hq h2 p hp).imp fun _ h => h.1) 0
    (List.replicate nA 0) (by simp [hA2])
  rw [hA2] at hfold2
  simp only [Nat.zero_add, List.take_zero, List.nil_append, ← hF] at hfold2
  rw [List.drop_of_length_le (by simp), List.append_nil] at hfold2
  have hFm : ∀ j ∈ F, j < s.arr.length := by
    intro j hj
    obtain ⟨q, hq, _⟩ := hq h2 j (List.mem_of_mem_filter hj)
    exact (List.getElem?_eq_some_iff.1 hq).1
  obtain ⟨buf, hb1, hb2, hb3⟩ := set_fold (fun p => F[p]?.bind fun j => s.arr[j]?)
    (gatherBody s F) (σ₃ nA) (List.replicate nA none)
    (fun p hp => by simpa using ((h3 nA).mem_iff (a := p)).1 hp)
    (fun b p hp hl => by
      have hp' : p < F.length := by rw [hFl]; simpa using ((h3 nA).mem_iff (a := p)).1 hp
      have hj := hFm _ (List.getElem_mem hp')
      simp [gatherBody, List.getElem?_eq_getElem hp', List.getElem?_eq_getElem hj, hl])
  have hfold1 := countAlive_fold s (σ₁ s.npart) (hq h1) (0, 0)
  simp only [hA1, hD1, Nat.zero_add] at hfold1
  refine ⟨⟨(s.arr.mapIdx fun p q => match buf[p]? with
      | some (some src) => copyAttrs k src q
      | _ => q).mapIdx fun p q => if p < nA then { q with tag := alive }
      else if p < nA + nD then { q with tag := dead } else q, nA⟩, ?_, ?_, ?_⟩
  · simp only [removeDead, hfold1, Outcome.bind_ok, hfold2, ne_eq, not_true, if_false, hb1, setNpart]
    rw [if_neg (by simp [Store.maxnpart]; omega)]
    rfl
  · simp
  · simp only [true_and]
    refine ⟨htot, ?_, ?_, ?_⟩
    · intro p hp
      have hp' : p < F.length := by omega
      have hj := hFm _ (List.getElem_mem hp')
      have hpl : p < s.arr.length := by omega
      refine ⟨F[p], s.arr[F[p]], s.arr[p], List.getElem?_eq_getElem hp',
        List.getElem?_eq_getElem hj, List.getElem?_eq_getElem hpl, ?_⟩
      have hm : p ∈ σ₃ nA := ((h3 nA).mem_iff (a := p)).2 (by simpa using hp)
      have hbp : buf[p]? = some (some s.arr[F[p]]) := by
        rw [hb3, if_pos hm, List.getElem?_eq_getElem hp']
        simp [List.getElem?_eq_getElem hj]
      simp [List.getElem?_mapIdx, List.getElem?_eq_getElem hpl, hbp, hp]
    · intro p hp hp'
      have hbp : buf[p]? = none := by
        rw [List.getElem?_eq_none_iff]; simp at hb2; omega
      simp only [List.getElem?_mapIdx, hbp, Option.map_map]
      congr 1
      funext q
      simp only [Function.comp]
      rw [if_neg (by omega), if_pos (by omega)]
    · intro p hp
      have hbp : buf[p]? = none := by
        rw [List.getElem?_eq_none_iff]; simp at hb2; omega
      simp only [List.getElem?_mapIdx, hbp, Option.map_map]
      rw [show ((fun q => if p < nA then { q with tag := alive }
        else if p < nA + nD then { q with tag := dead } else q) ∘ fun q : Prtl R => q) = id from by
          funext q; simp only [Function.comp]; rw [if_neg (by omega), if_neg (by omega)]; rfl]
      simp

end Entity.Prtl
