import Verif.Lemmas.PrtlBuf

/-! # Lemmas about the list of outgoing particles -/

namespace Entity.Prtl

open Entity Entity.Dir Entity.Tags

/-- First slot of tag `t` in the list of outgoing particles, given the counts per tag. -/
def base (C : Nat → Nat) : Nat → Nat
  | 0 => 0
  | t + 1 => base C t + (if t = 1 then 0 else C t)

theorem base_mono (C : Nat → Nat) {t u : Nat} (h : t ≤ u) : base C t ≤ base C u := by
  induction u with
  | zero => have : t = 0 := by omega
            subst this; exact Nat.le_refl _
  | succ u ih =>
    rcases Nat.lt_or_ge t (u + 1) with h' | h'
    · exact Nat.le_trans (ih (by omega)) (by simp [base])
    · have : t = u + 1 := by omega
      subst this; exact Nat.le_refl _

theorem base_next (C : Nat → Nat) {t u : Nat} (ht : t ≠ 1) (h : t < u) :
    base C t + C t ≤ base C u := by
  have := base_mono C (show t + 1 ≤ u from h)
  simpa [base, ht] using this

/-- Every slot belongs to exactly one tag. -/
theorem base_cover (C : Nat → Nat) {n j : Nat} (h : j < base C n) :
    ∃ t i, t < n ∧ t ≠ 1 ∧ i < C t ∧ j = base C t + i := by
  induction n with
  | zero => simp [base] at h
  | succ n ih =>
    rcases Nat.lt_or_ge j (base C n) with h' | h'
    · obtain ⟨t, i, h1, h2⟩ := ih h'
      exact ⟨t, i, by omega, h2⟩
    · by_cases hn : n = 1
      · simp [base, hn] at h h'; omega
      · simp only [base, hn, if_false] at h
        exact ⟨n, j - base C n, by omega, hn, by omega, by omega⟩

theorem base_disjoint (C : Nat → Nat) {t u i j : Nat} (ht : t ≠ 1) (hu : u ≠ 1) (hi : i < C t)
    (hj : j < C u) (h : base C t + i = base C u + j) : t = u ∧ i = j := by
  rcases Nat.lt_trichotomy t u with h1 | h1 | h1
  · have := base_next C ht h1; omega
  · subst h1; exact ⟨rfl, by omega⟩
  · have := base_next C hu h1; omega

theorem base_sum (C : Nat → Nat) (n : Nat) :
    base C (n + 2) = C 0 + ((List.range n).map fun j => C (j + 2)).sum := by
  induction n with
  | zero => simp [base]
  | succ n ih =>
    rw [show n + 1 + 2 = (n + 2) + 1 from rfl, base, ih, List.range_succ, List.map_append,
      List.sum_append]
    simp; omega

/-- The shift applied to a particle that leaves. -/
def sent {R : Type} (D : Nat) (sh1 sh2 sh3 : List Int) (q : Prtl R) : Prtl R :=
  if q.tag ≠ 0 ∧ q.tag ≠ 1 then applyShift D sh1 sh2 sh3 (q.tag - 2).toNat q else q

theorem sent_tag {R : Type} (D : Nat) (sh1 sh2 sh3 : List Int) (q : Prtl R) :
    (sent D sh1 sh2 sh3 q).tag = q.tag := by
  unfold sent; split <;> rfl

theorem sent_pld {R : Type} (k : Kind) (sh1 sh2 sh3 : List Int) (q : Prtl R) (h : PldOk k q) :
    PldOk k (sent k.D sh1 sh2 sh3 q) := by
  unfold sent; split
  · exact h
  · exact h

theorem cnt_snoc {R : Type} (arr : List (Prtl R)) (σ : List Nat) (p : Nat) (t : Int) :
    cnt arr (σ ++ [p]) t = cnt arr σ t + (if tagAt arr p = t then 1 else 0) := by
  simp [cnt]

/-- The preparing kernel after a part of the schedule. -/
theorem prep_fold {R : Type} (D : Nat) (sh1 sh2 sh3 : List Int) (A : List (Prtl R)) (nt n : Nat)
    (C : Nat → Nat) (nAlive nDead : Nat) (offs : List Nat)
    (hidx : ∀ t : Nat, t < nt → t ≠ 1 → (if (t : Int) ≠ 0 then nDead else 0) +
      (if (t : Int) > 2 then offs.getD ((t : Int) - 3).toNat 0 else 0) = base C t)
    (hH : n - nAlive = base C nt) (σ : List Nat) (hnd : σ.Nodup)
    (hA : ∀ p ∈ σ, ∃ q, A[p]? = some q ∧ 0 ≤ q.tag ∧ q.tag < nt)
    (hC : ∀ t : Nat, t < nt → t ≠ 1 → cnt A σ t ≤ C t) :
    ∃ st, σ.foldlM (prepBody D sh1 sh2 sh3 n nAlive nDead offs)
        ⟨List.replicate nt 0, List.replicate (n - nAlive) 0, A⟩ = .ok st ∧
      st.cur.length = nt ∧ (∀ t : Nat, t < nt → t ≠ 1 → st.cur[t]? = some (cnt A σ t)) ∧
      st.out.length = n - nAlive ∧
      (∀ t : Nat, t < nt → t ≠ 1 → ∀ j, j < cnt A σ t →
        st.out[base C t + j]? = (σ.filter fun p => decide (tagAt A p = t))[j]?) ∧
      (∀ p q, A[p]? = some q → st.arr[p]? = some (if p ∈ σ then sent D sh1 sh2 sh3 q else q)) ∧
      st.arr.length = A.length := by
  induction σ using List.reverseRecOn with
  | nil =>
    refine ⟨_, rfl, by simp, ?_, by simp, ?_, by simp, rfl⟩
    · intro t ht _; simp [cnt, ht]
    · intro t _ _ j hj; simp [cnt] at hj
  | append_singleton σ p ih =>
    rw [List.nodup_append] at hnd
    obtain ⟨hnd1, -, hnd2⟩ := hnd
    have hpσ : p ∉ σ := fun h => hnd2 p h p (by simp) rfl
    obtain ⟨st, e1, e2, e3, e4, e5, e6, e7⟩ := ih hnd1 (fun x hx => hA x (by simp [hx]))
      (fun t h1 h2 => by have := hC t h1 h2; rw [cnt_snoc] at this; omega)
    obtain ⟨q, hq, h0, h1⟩ := hA p (by simp)
    have harr := e6 p q hq
    rw [if_neg hpσ] at harr
    rw [List.foldlM_append, e1, Outcome.bind_ok, List.foldlM_cons]
    have htag : tagAt A p = q.tag := tagAt_some hq
    by_cases ha : q.tag = alive
    · have hb : prepBody D sh1 sh2 sh3 n nAlive nDead offs st p = .ok st := by
        simp [prepBody, harr, ha]
      rw [hb]
      have hcn : ∀ t : Nat, t ≠ 1 → cnt A (σ ++ [p]) t = cnt A σ t := by
        intro t ht
        rw [cnt_snoc, htag, ha, if_neg (by simp only [alive]; omega)]; rfl
      refine ⟨st, rfl, e2, ?_, e4, ?_, ?_, e7⟩
      · intro t h2 h3; rw [hcn t h3]; exact e3 t h2 h3
      · intro t h2 h3 j hj
        rw [hcn t h3] at hj
        rw [e5 t h2 h3 j hj, List.filter_append]
        have : ([p].filter fun p => decide (tagAt A p = t)) = [] := by
          simp [htag, ha, alive]; omega
        rw [this, List.append_nil]
      · intro x y hx
        rw [e6 x y hx]
        by_cases hxp : x = p
        · subst hxp
          rw [hq] at hx; cases hx
          simp only [hpσ, if_false, List.mem_append, List.mem_singleton, or_true, if_true]
          simp only [alive] at ha
          simp [sent, ha]
        · simp [hxp]
    · obtain ⟨t, ht⟩ : ∃ t : Nat, q.tag = t := ⟨q.tag.toNat, by omega⟩
      have htn : t < nt := by omega
      have ht1 : t ≠ 1 := by simp only [alive] at ha; omega
      have hcur := e3 t htn ht1
      have hcnt : cnt A (σ ++ [p]) t = cnt A σ t + 1 := by rw [cnt_snoc, htag, ht, if_pos rfl]
      have hle := hC t htn ht1
      rw [hcnt] at hle
      have hbn := base_next C ht1 htn
      have hix := hidx t htn ht1
      have hb : prepBody D sh1 sh2 sh3 n nAlive nDead offs st p =
          .ok { cur := st.cur.set t (cnt A σ t + 1)
                out := st.out.set (base C t + cnt A σ t) p
                arr := st.arr.set p (sent D sh1 sh2 sh3 q) } := by
        have hidx' : cnt A σ t + (if q.tag ≠ dead then nDead else 0) +
            (if q.tag > 2 then offs.getD (q.tag - 3).toNat 0 else 0) =
            base C t + cnt A σ t := by
          rw [ht, ← hix]; by_cases h7 : (t : Int) = 0 <;> simp [h7, dead] <;> omega
        have hsarr : (if q.tag ≠ dead then st.arr.set p
            (applyShift D sh1 sh2 sh3 (q.tag - 2).toNat q) else st.arr) =
            st.arr.set p (sent D sh1 sh2 sh3 q) := by
          by_cases hd : q.tag = dead
          · rw [if_neg (by simpa using hd)]
            have : sent D sh1 sh2 sh3 q = q := by
              unfold sent; rw [if_neg]; simp only [dead] at hd; omega
            rw [this]
            apply List.ext_getElem?
            intro i
            by_cases hip : i = p
            · subst hip; rw [List.getElem?_set_self (List.getElem?_eq_some_iff.1 harr).1, harr]
            · rw [List.getElem?_set_ne (by omega)]
          · rw [if_pos hd]
            unfold sent; rw [if_pos]
            simp only [dead, alive] at hd ha; omega
        simp only [prepBody, harr]
        rw [if_pos ha]
        rw [show q.tag.toNat = t by omega]
        rw [hcur]
        simp only
        rw [hidx', if_neg (by omega), hsarr]
      rw [hb]
      have hplt : p < st.arr.length := (List.getElem?_eq_some_iff.1 harr).1
      refine ⟨_, rfl, by simp [e2], ?_, by simp [e4], ?_, ?_, by simp [e7]⟩
      · intro u hu hu1
        simp only
        by_cases hut : u = t
        · subst hut
          rw [List.getElem?_set_self (by omega), hcnt]
        · rw [List.getElem?_set_ne (by omega), e3 u hu hu1, cnt_snoc, htag, ht,
            if_neg (by omega)]; rfl
      · intro u hu hu1 j hj
        simp only
        rw [List.filter_append]
        by_cases hut : u = t
        · subst hut
          have hfp : ([p].filter fun p => decide (tagAt A p = u)) = [p] := by simp [htag, ht]
          rw [hfp]
          rw [hcnt] at hj
          have hlenf : (σ.filter fun p => decide (tagAt A p = u)).length = cnt A σ u :=
            (cnt_eq_length A σ u).symm
          by_cases hjl : j < cnt A σ u
          · rw [List.getElem?_set_ne (by omega), e5 u hu hu1 j hjl,
              List.getElem?_append_left (by omega)]
          · have : j = cnt A σ u := by omega
            subst this
            rw [List.getElem?_set_self (by omega), List.getElem?_append_right (by omega), hlenf]
            simp
        · have hfp : ([p].filter fun p => decide (tagAt A p = u)) = [] := by
            simp [htag, ht]; omega
          have hcu : cnt A (σ ++ [p]) u = cnt A σ u := by
            rw [cnt_snoc, htag, ht, if_neg (by omega)]; rfl
          rw [hcu] at hj
          have hCu := hC u hu hu1
          rw [hcu] at hCu
          rw [hfp, List.append_nil, ← e5 u hu hu1 j hj, List.getElem?_set_ne]
          intro h
          exact hut (base_disjoint C hu1 ht1 (by omega) (by omega) h.symm).1
      · intro x y hx
        simp only
        by_cases hxp : x = p
        · subst hxp
          rw [hq] at hx; cases hx
          rw [List.getElem?_set_self hplt]; simp
        · rw [List.getElem?_set_ne (by omega), e6 x y hx]; simp [hxp]

end Entity.Prtl
