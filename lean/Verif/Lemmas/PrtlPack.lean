import Verif.Lemmas.PrtlPrep

/-! # Lemmas about packing, receiving and extracting particles -/

namespace Entity.Prtl

open Entity Entity.Dir Entity.Tags

/-- The packing kernel over a part of the schedule. -/
theorem populate_fold {R : Type} (k : Kind) (h1 : 1 ≤ k.D) (h3 : k.D ≤ 3) (out : List Nat) (o : Nat)
    (F : Nat → Nat) (Q : Nat → Prtl R) (σ : List Nat) (rows : List (Row R)) (arr : List (Prtl R))
    (hnd : σ.Nodup) (hp : ∀ p ∈ σ, p < rows.length) (ho : ∀ p ∈ σ, out[o + p]? = some (F p))
    (hinj : ∀ p ∈ σ, ∀ p' ∈ σ, F p = F p' → p = p') (ha : ∀ p ∈ σ, arr[F p]? = some (Q p))
    (hq : ∀ p ∈ σ, PldOk k (Q p)) (hr : ∀ r ∈ rows, RowOk k r) :
    ∃ rows' arr', σ.foldlM (populateBody k out o) (flat rows, arr) = .ok (flat rows', arr') ∧
      rows'.length = rows.length ∧ (∀ r ∈ rows', RowOk k r) ∧
      (∀ p ∈ σ, rows'[p]? = some (rowOf k (Q p))) ∧
      (∀ p, p ∉ σ → rows'[p]? = rows[p]?) ∧
      arr'.length = arr.length ∧
      (∀ p ∈ σ, arr'[F p]? = some { Q p with tag := dead }) ∧
      (∀ j, (∀ p ∈ σ, F p ≠ j) → arr'[j]? = arr[j]?) := by
  induction σ generalizing rows arr with
  | nil => exact ⟨rows, arr, rfl, rfl, hr, by simp, by simp, rfl, by simp, by simp⟩
  | cons p ps ih =>
    rw [List.nodup_cons] at hnd
    have hb := populate_row k h1 h3 hr (hp p (by simp)) (ho p (by simp)) (ha p (by simp))
      (hq p (by simp))
    have hne : ∀ x ∈ ps, F x ≠ F p := by
      intro x hx he
      have := hinj x (by simp [hx]) p (by simp) he
      subst this; exact hnd.1 hx
    obtain ⟨rows', arr', e1, e2, e3, e4, e5, e6, e7, e8⟩ :=
      ih (rows.set p (rowOf k (Q p))) (arr.set (F p) { Q p with tag := dead }) hnd.2
        (fun x hx => by simpa using hp x (by simp [hx])) (fun x hx => ho x (by simp [hx]))
        (fun x hx y hy => hinj x (by simp [hx]) y (by simp [hy]))
        (fun x hx => by
          rw [List.getElem?_set_ne (Ne.symm (hne x hx))]; exact ha x (by simp [hx]))
        (fun x hx => hq x (by simp [hx]))
        (by
          intro r hr'
          rcases List.mem_or_eq_of_mem_set hr' with h | h
          · exact hr r h
          · rw [h]; exact rowOf_ok k h1 h3 (hq p (by simp)))
    refine ⟨rows', arr', ?_, by simpa using e2, e3, ?_, ?_, by simpa using e6, ?_, ?_⟩
    · rw [List.foldlM_cons, hb]; exact e1
    · intro x hx
      rcases List.mem_cons.1 hx with rfl | hx
      · rw [e5 x hnd.1, List.getElem?_set_self (hp x (by simp))]
      · exact e4 x hx
    · intro x hx
      simp only [List.mem_cons, not_or] at hx
      rw [e5 x hx.2, List.getElem?_set_ne (Ne.symm hx.1)]
    · intro x hx
      rcases List.mem_cons.1 hx with rfl | hx
      · rw [e8 _ hne, List.getElem?_set_self (List.getElem?_eq_some_iff.1 (ha x (by simp))).1]
      · exact e7 x hx
    · intro j hj
      rw [e8 j fun x hx => hj x (by simp [hx]), List.getElem?_set_ne (hj p (by simp))]

/-- Freshly allocated buffers are rows of initial values. -/
theorem empty_flat {R : Type} [Inhabited R] (k : Kind) (n : Nat) :
    ∃ rows : List (Row R), rows.length = n ∧ (∀ r ∈ rows, RowOk k r) ∧
      (⟨List.replicate (n * k.nints) 0, List.replicate (n * k.nreals) default,
        List.replicate (n * k.nints) default, List.replicate (n * k.npldr) default,
        List.replicate (n * k.npldi) 0⟩ : Buffers R) = flat rows := by
  refine ⟨List.replicate n ⟨List.replicate k.nints 0, List.replicate k.nreals default,
    List.replicate k.nints default, List.replicate k.npldr default, List.replicate k.npldi 0⟩,
    by simp, ?_, ?_⟩
  · intro r hr
    rw [(List.mem_replicate.1 hr).2]
    exact ⟨by simp, by simp, by simp, by simp, by simp⟩
  · simp only [flat, List.map_replicate, replicate_blocks]

theorem getElem?_ext_map {α β : Type} {l : List α} {m : List β} {f : β → α}
    (hl : l.length = m.length) (h : ∀ p (hp : p < m.length), l[p]? = some (f m[p])) :
    l = m.map f := by
  apply List.ext_getElem?
  intro p
  by_cases hp : p < m.length
  · rw [h p hp]; simp [hp]
  · rw [List.getElem?_eq_none (by omega), List.getElem?_eq_none (by simpa using hp)]

/-- Receiving the messages one after the other concatenates their rows. -/
theorem receive_fold {R : Type} (k : Kind) (inc : List (Nat × Buffers R))
    (rws : List (List (Row R)))
    (hinc : inc = rws.map fun x => (x.length, flat x)) (hok : ∀ x ∈ rws, ∀ r ∈ x, RowOk k r)
    (pre rest : List (Row R)) (hpre : ∀ r ∈ pre, RowOk k r) (hrest : ∀ r ∈ rest, RowOk k r)
    (hl : rest.length = rws.flatten.length) :
    inc.foldlM (receive k) (pre.length, flat (pre ++ rest)) =
      .ok (pre.length + rws.flatten.length, flat (pre ++ rws.flatten)) := by
  subst hinc
  induction rws generalizing pre rest with
  | nil =>
    have : rest = [] := by simpa using hl
    subst this; rfl
  | cons x xs ih =>
    simp only [List.flatten_cons, List.length_append] at hl
    rw [List.map_cons, List.foldlM_cons]
    have hall : ∀ r ∈ pre ++ rest, RowOk k r := by
      intro r hr
      rcases List.mem_append.1 hr with h | h
      · exact hpre r h
      · exact hrest r h
    have hx : ∀ r ∈ x, RowOk k r := hok x (by simp)
    have hstep : receive k (pre.length, flat (pre ++ rest)) (x.length, flat x) =
        .ok ((pre ++ x).length, flat ((pre ++ x) ++ rest.drop x.length)) := by
      have w : ∀ {α : Type} {N : Nat} (f : Row R → List α), (∀ r, RowOk k r → (f r).length = N) →
          writeAt ((pre ++ rest).map f).flatten (pre.length * N) (x.map f).flatten =
            .ok (((pre ++ x) ++ rest.drop x.length).map f).flatten := by
        intro α N f hf
        rw [writeAt_blocks (blocks_map f fun r h => hf r (hall r h))
          (blocks_map f fun r h => hf r (hx r h)) (by simp; omega)]
        congr 2
        simp only [List.length_map, List.map_append, List.map_drop]
        rw [← List.length_map f (as := pre), ← List.drop_drop, List.drop_left, List.take_left]
      unfold receive
      simp only [flat]
      rw [w (·.ints) fun r h => h.ints, w (·.reals) fun r h => h.reals, w (·.dxs) fun r h => h.dxs,
        w (·.pldr) fun r h => h.pldr, w (·.pldi) fun r h => h.pldi]
      simp
    rw [hstep, Outcome.bind_ok]
    rw [ih (fun y hy => hok y (by simp [hy])) (pre ++ x) (rest.drop x.length)
      (by
        intro r hr
        rcases List.mem_append.1 hr with h | h
        · exact hpre r h
        · exact hx r h)
      (fun r hr => hrest r (List.mem_of_mem_drop hr)) (by rw [List.length_drop]; omega)]
    simp [Nat.add_assoc]

/-- The extracting kernel over a part of the schedule. -/
theorem extract_fold {R : Type} (k : Kind) (h1 : 1 ≤ k.D) (h3 : k.D ≤ 3) (out : List Nat)
    (npart : Nat) (rows : List (Row R)) (Q : Nat → Prtl R) (σ : List Nat) (arr : List (Prtl R))
    (G : Nat → Nat)
    (hG : G = fun p => if p ≥ out.length then npart + p - out.length else out.getD p 0)
    (hr : ∀ r ∈ rows, RowOk k r) (hnd : σ.Nodup)
    (hp : ∀ p ∈ σ, rows[p]? = some (rowOf k (Q p))) (hq : ∀ p ∈ σ, PldOk k (Q p))
    (hlt : ∀ p ∈ σ, G p < arr.length) (hinj : ∀ p ∈ σ, ∀ p' ∈ σ, G p = G p' → p = p') :
    ∃ arr', σ.foldlM (extractBody k (flat rows) npart out) arr = .ok arr' ∧
      arr'.length = arr.length ∧
      (∀ p ∈ σ, ∃ q, arr'[G p]? = some { copyAttrs k (Q p) q with tag := alive }) ∧
      (∀ j, (∀ p ∈ σ, G p ≠ j) → arr'[j]? = arr[j]?) := by
  induction σ generalizing arr with
  | nil => exact ⟨arr, rfl, rfl, by simp, by simp⟩
  | cons p ps ih =>
    rw [List.nodup_cons] at hnd
    have hne : ∀ x ∈ ps, G x ≠ G p := by
      intro x hx he
      have := hinj x (by simp [hx]) p (by simp) he
      subst this; exact hnd.1 hx
    obtain ⟨q, hge⟩ : ∃ q, arr[G p]? = some q := ⟨_, List.getElem?_eq_getElem (hlt p (by simp))⟩
    have hb := extract_row k h1 h3 (out := out) (npart := npart) hr (hp p (by simp)) (hq p (by simp))
      (by rw [← hge, hG])
    obtain ⟨arr', e1, e2, e3, e4⟩ := ih (arr.set (G p) { copyAttrs k (Q p) q with tag := alive })
      hnd.2 (fun x hx => hp x (by simp [hx])) (fun x hx => hq x (by simp [hx]))
      (fun x hx => by simpa using hlt x (by simp [hx]))
      (fun x hx y hy => hinj x (by simp [hx]) y (by simp [hy]))
    refine ⟨arr', ?_, by simpa using e2, ?_, ?_⟩
    · rw [List.foldlM_cons, hb, Outcome.bind_ok, ← e1, hG]
    · intro x hx
      rcases List.mem_cons.1 hx with rfl | hx
      · exact ⟨_, by rw [e4 _ hne, List.getElem?_set_self (hlt x (by simp))]⟩
      · exact e3 x hx
    · intro j hj
      rw [e4 j fun x hx => hj x (by simp [hx]), List.getElem?_set_ne (hj p (by simp))]

end Entity.Prtl
