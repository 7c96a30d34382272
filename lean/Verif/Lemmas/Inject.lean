import Verif.Model.Inject
import Verif.Lemmas.Prtl
import Mathlib.Data.List.Forall2

/-! # Lemmas about the injectors -/

namespace Entity.Inject

open Entity Entity.Prtl Entity.Push Entity.Decomp Entity.Tags

variable {K : Type}

/-- Specification: the stored record `q` is a live particle with the given position (along the axes of
the problem), velocity, weight and azimuth. -/
structure IsNew (k : Kind) (w : New K) (q : Prtl K) : Prop where
  tag : q.tag = 1
  weight : q.weight = w.weight
  u : q.ux1 = w.u.x ∧ q.ux2 = w.u.y ∧ q.ux3 = w.u.z
  x1 : 1 ≤ k.D → q.i1 = w.xi 0 ∧ q.dx1 = w.dxi 0
  x2 : 2 ≤ k.D → q.i2 = w.xi 1 ∧ q.dx2 = w.dxi 1
  x3 : 3 ≤ k.D → q.i3 = w.xi 2 ∧ q.dx3 = w.dxi 2
  phi : k.D = 2 → k.curv = true → q.phi = w.phi

/-- Specification: a tracked particle carries the number `ctr`, and with MPI the index `dom` of the
subdomain. -/
def Labelled (mpi track : Bool) (dom ctr : Nat) (q : Prtl K) : Prop :=
  track = true → q.pld_i[0]? = some ctr ∧ (mpi = true → q.pld_i[1]? = some dom)

/-- The payload arrays have the extent of the species. -/
def PldOk (a : Sp K) : Prop := ∀ q ∈ a.st.arr, q.pld_i.length = a.kind.npldi

/-- A tracked species has room for the identifier (species.h:112-124). -/
def Room (mpi : Bool) (a : Sp K) : Prop :=
  a.tracking = true → (if mpi then 2 else 1) ≤ a.kind.npldi

/-- What an injection of `n` particles does to a species. -/
structure Added (mpi : Bool) (dom : Nat) (a b : Sp K) (n : Nat) (w : Nat → New K) : Prop where
  kind : b.kind = a.kind
  tracking : b.tracking = a.tracking
  counter : b.counter = u32 (a.counter + n)
  npart : b.st.npart = a.st.npart + n
  fits : a.st.npart + n ≤ a.st.arr.length
  len : b.st.arr.length = a.st.arr.length
  old : ∀ p, p < a.st.npart ∨ a.st.npart + n ≤ p → b.st.arr[p]? = a.st.arr[p]?
  new : ∀ i, i < n → ∃ q, b.st.arr[a.st.npart + i]? = some q ∧ IsNew a.kind (w i) q ∧
    Labelled mpi a.tracking dom (u32 (a.counter + i)) q
  pld : PldOk b

theorem label_ok (mpi track : Bool) (dom ctr : Nat) (pld : List Nat)
    (h : track = true → (if mpi then 2 else 1) ≤ pld.length) :
    ∃ pld', label mpi track dom ctr pld = .ok pld' ∧ pld'.length = pld.length ∧
      (track = true → pld'[0]? = some ctr ∧ (mpi = true → pld'[1]? = some dom)) := by
  unfold label
  by_cases ht : track = true
  · have h := h ht
    rw [if_pos ht, if_neg (by omega)]
    refine ⟨_, rfl, ?_, fun _ => ?_⟩
    · split <;> simp
    · cases mpi
      · simp only [Bool.false_eq_true, if_false] at h ⊢
        exact ⟨by rw [List.getElem?_set_self (by omega)], by simp⟩
      · simp only [if_true] at h ⊢
        refine ⟨?_, fun _ => ?_⟩
        · rw [List.getElem?_set_ne (by omega), List.getElem?_set_self (by omega)]
        · rw [List.getElem?_set_self (by simp; omega)]
  · rw [if_neg ht]
    exact ⟨pld, rfl, rfl, fun h => absurd h ht⟩

theorem fill_isNew (k : Kind) (w : New K) (q : Prtl K) (pld : List Nat) (h1 : 1 ≤ k.D) (h3 : k.D ≤ 3) :
    IsNew k w { fill k w q with pld_i := pld } := by
  constructor <;> simp only [fill, alive, Kind.hasPhi]
  · exact ⟨trivial, trivial, trivial⟩
  · intro _; rw [if_pos (by omega), if_pos (by omega)]; exact ⟨rfl, rfl⟩
  · intro _; rw [if_pos (by omega), if_pos (by omega)]; exact ⟨rfl, rfl⟩
  · intro _; rw [if_pos (by omega), if_pos (by omega)]; exact ⟨rfl, rfl⟩
  · intro hd hc; simp [hd, hc]

/-- Writing to a list of entries of one species. -/
def writes (k : Kind) (mpi track : Bool) (dom off ctr : Nat) (es : List (Nat × New K)) (s : Store K) :
    Outcome (Store K) :=
  es.foldlM (fun s e => injectParticle k mpi track dom (u32 (ctr + e.1)) e.2 s (off + e.1)) s

theorem writes_spec (k : Kind) (h1 : 1 ≤ k.D) (h3 : k.D ≤ 3) (mpi track : Bool) (dom off ctr : Nat)
    (hr : track = true → (if mpi then 2 else 1) ≤ k.npldi) (es : List (Nat × New K)) (s : Store K)
    (hnd : (es.map Prod.fst).Nodup) (hb : ∀ e ∈ es, off + e.1 < s.arr.length)
    (hp : ∀ q ∈ s.arr, q.pld_i.length = k.npldi) :
    ∃ s', writes k mpi track dom off ctr es s = .ok s' ∧ s'.npart = s.npart ∧
      s'.arr.length = s.arr.length ∧ (∀ q ∈ s'.arr, q.pld_i.length = k.npldi) ∧
      (∀ p, (∀ e ∈ es, p ≠ off + e.1) → s'.arr[p]? = s.arr[p]?) ∧
      (∀ e ∈ es, ∃ q, s'.arr[off + e.1]? = some q ∧ IsNew k e.2 q ∧
        Labelled mpi track dom (u32 (ctr + e.1)) q) := by
  induction es generalizing s with
  | nil => exact ⟨s, rfl, rfl, rfl, hp, fun _ _ => rfl, by simp⟩
  | cons e es ih =>
    have hlt := hb e (by simp)
    have hq : s.arr[off + e.1]? = some s.arr[off + e.1] := List.getElem?_eq_getElem hlt
    set q := s.arr[off + e.1] with hqd
    have hql : q.pld_i.length = k.npldi := hp q (List.getElem_mem hlt)
    obtain ⟨pld, e1, e2, e3⟩ := label_ok mpi track dom (u32 (ctr + e.1)) q.pld_i
      (fun h => by rw [hql]; exact hr h)
    have hstep : injectParticle k mpi track dom (u32 (ctr + e.1)) e.2 s (off + e.1) =
        .ok { s with arr := s.arr.set (off + e.1) { fill k e.2 q with pld_i := pld } } := by
      simp [injectParticle, hq, e1]
    simp only [List.map_cons, List.nodup_cons] at hnd
    obtain ⟨s', f1, f2, f3, f4, f5, f6⟩ := ih
      { s with arr := s.arr.set (off + e.1) { fill k e.2 q with pld_i := pld } } hnd.2
      (fun x hx => by simpa using hb x (List.mem_cons_of_mem _ hx))
      (by
        intro x hx
        rcases List.mem_or_eq_of_mem_set hx with hx | rfl
        · exact hp x hx
        · exact e2.trans hql)
    refine ⟨s', ?_, f2, by simpa using f3, f4, ?_, ?_⟩
    · unfold writes at f1 ⊢
      rw [List.foldlM_cons, hstep]
      exact f1
    · intro p hpne
      rw [f5 p (fun x hx => hpne x (List.mem_cons_of_mem _ hx))]
      exact List.getElem?_set_ne (Ne.symm (hpne e (by simp)))
    · intro x hx
      rcases List.mem_cons.1 hx with rfl | hx
      · refine ⟨{ fill k x.2 q with pld_i := pld }, ?_, fill_isNew _ _ _ _ h1 h3, e3⟩
        rw [f5]
        · exact List.getElem?_set_self hlt
        · intro y hy hxy
          exact hnd.1 (List.mem_map.2 ⟨y, hy, by omega⟩)
      · exact f6 x hx

theorem modifySp_ok {sps : List (Sp K)} {s : Nat} (hs : s ≠ 0) {a a' : Sp K}
    (ha : sps[s - 1]? = some a) {f : Sp K → Outcome (Sp K)} (hf : f a = .ok a') :
    modifySp sps s f = .ok (sps.set (s - 1) a') := by
  simp [modifySp, hs, ha, hf]

theorem injectAt_ok (mpi : Bool) (dom : Nat) (c : Cap) (hs : c.sp ≠ 0) (i : Nat) (w : New K)
    {sps : List (Sp K)} {a : Sp K} {st : Store K} (ha : sps[c.sp - 1]? = some a)
    (h : injectParticle a.kind mpi a.tracking dom (u32 (c.ctr + i)) w a.st (c.off + i) = .ok st) :
    injectAt mpi dom c i w sps = .ok (sps.set (c.sp - 1) { a with st := st }) := by
  unfold injectAt
  exact modifySp_ok hs ha (by simp [h])

theorem grow_ok (n : Nat) {sps : List (Sp K)} {s : Nat} (hs : s ≠ 0) {a : Sp K}
    (ha : sps[s - 1]? = some a) (hn : a.st.npart + n ≤ a.st.arr.length) :
    grow n sps s = .ok (sps.set (s - 1)
      { a with st := { a.st with npart := a.st.npart + n }, counter := u32 (a.counter + n) }) := by
  unfold grow
  refine modifySp_ok hs ha ?_
  have : setNpart a.st (a.st.npart + n) = .ok { a.st with npart := a.st.npart + n } := by
    unfold setNpart
    rw [if_neg (by unfold Store.maxnpart; omega)]
  rw [this]; rfl

theorem capture_ok {sps : List (Sp K)} {s : Nat} (hs : s ≠ 0) {a : Sp K} (ha : sps[s - 1]? = some a) :
    capture sps s = .ok { sp := s, off := a.st.npart, ctr := a.counter } := by
  simp [capture, hs, ha]

theorem set_self {α : Type} {l : List α} {i : Nat} {a : α} (h : l[i]? = some a) : l.set i a = l := by
  apply List.ext_getElem?
  intro j
  by_cases hj : i = j
  · subst hj
    rw [List.getElem?_set_self (List.getElem?_eq_some_iff.1 h).1, h]
  · rw [List.getElem?_set_ne hj]

/-- Writing to one species of a list. -/
theorem single_fold (mpi : Bool) (dom : Nat) (c : Cap) (hs : c.sp ≠ 0) (es : List (Nat × New K))
    (sps : List (Sp K)) (a : Sp K) (st : Store K) (ha : sps[c.sp - 1]? = some a)
    (h : writes a.kind mpi a.tracking dom c.off c.ctr es a.st = .ok st) :
    es.foldlM (fun sps e => injectAt mpi dom c e.1 e.2 sps) sps =
      .ok (sps.set (c.sp - 1) { a with st := st }) := by
  induction es generalizing sps a with
  | nil =>
    simp only [writes, List.foldlM_nil, Outcome.pure_eq, Outcome.ok.injEq] at h
    subst h
    simp only [List.foldlM_nil, Outcome.pure_eq, Outcome.ok.injEq]
    exact (set_self ha).symm
  | cons e es ih =>
    unfold writes at h
    rw [List.foldlM_cons, Outcome.bind_eq_ok] at h
    obtain ⟨st1, h1, h2⟩ := h
    rw [List.foldlM_cons, injectAt_ok mpi dom c hs e.1 e.2 ha h1, Outcome.bind_ok]
    have hlt : c.sp - 1 < sps.length := (List.getElem?_eq_some_iff.1 ha).1
    rw [ih (sps.set (c.sp - 1) { a with st := st1 }) { a with st := st1 }
      (List.getElem?_set_self hlt) h2, List.set_set]

/-- Writing to two species of a list in turn. -/
theorem pair_fold (mpi : Bool) (dom : Nat) (c1 c2 : Cap) (hs1 : c1.sp ≠ 0) (hs2 : c2.sp ≠ 0)
    (hne : c1.sp ≠ c2.sp) (es : List (Nat × New K × New K)) (sps : List (Sp K)) (a1 a2 : Sp K)
    (st1 st2 : Store K) (ha1 : sps[c1.sp - 1]? = some a1) (ha2 : sps[c2.sp - 1]? = some a2)
    (h1 : writes a1.kind mpi a1.tracking dom c1.off c1.ctr (es.map fun e => (e.1, e.2.1)) a1.st = .ok st1)
    (h2 : writes a2.kind mpi a2.tracking dom c2.off c2.ctr (es.map fun e => (e.1, e.2.2)) a2.st = .ok st2) :
    es.foldlM (fun sps e => do
        let sps ← injectAt mpi dom c1 e.1 e.2.1 sps
        injectAt mpi dom c2 e.1 e.2.2 sps) sps =
      .ok ((sps.set (c1.sp - 1) { a1 with st := st1 }).set (c2.sp - 1) { a2 with st := st2 }) := by
  have hix : c1.sp - 1 ≠ c2.sp - 1 := by omega
  induction es generalizing sps a1 a2 with
  | nil =>
    simp only [writes, List.map_nil, List.foldlM_nil, Outcome.pure_eq, Outcome.ok.injEq] at h1 h2
    subst h1; subst h2
    simp only [List.foldlM_nil, Outcome.pure_eq, Outcome.ok.injEq]
    rw [set_self ha1, set_self ha2]
  | cons e es ih =>
    unfold writes at h1 h2
    rw [List.map_cons, List.foldlM_cons, Outcome.bind_eq_ok] at h1 h2
    obtain ⟨t1, g1, g1'⟩ := h1
    obtain ⟨t2, g2, g2'⟩ := h2
    have hl1 : c1.sp - 1 < sps.length := (List.getElem?_eq_some_iff.1 ha1).1
    have hl2 : c2.sp - 1 < sps.length := (List.getElem?_eq_some_iff.1 ha2).1
    rw [List.foldlM_cons, injectAt_ok mpi dom c1 hs1 e.1 e.2.1 ha1 g1, Outcome.bind_ok,
      injectAt_ok mpi dom c2 hs2 e.1 e.2.2 (a := a2)
        (by rw [List.getElem?_set_ne hix]; exact ha2) g2, Outcome.bind_ok]
    rw [ih _ { a1 with st := t1 } { a2 with st := t2 }
      (by rw [List.getElem?_set_ne (Ne.symm hix)]; exact List.getElem?_set_self hl1)
      (by exact List.getElem?_set_self (by simpa using hl2)) g1' g2']
    congr 1
    rw [List.set_comm _ _ (Ne.symm hix), List.set_set, List.set_set]

/-- A fold with an atomic counter is a fold over numbered turns. -/
theorem counter_fold {ε : Type} (f : Nat → ε → List (Sp K) → Outcome (List (Sp K))) (l : List ε) (i : Nat)
    (sps : List (Sp K)) :
    l.foldlM (fun (acc : Nat × List (Sp K)) e => do
        let sps ← f acc.1 e acc.2
        pure (acc.1 + 1, sps)) (i, sps) =
      (do
        let sps ← (l.zipIdx i).foldlM (fun sps x => f x.2 x.1 sps) sps
        pure (i + l.length, sps)) := by
  induction l generalizing i sps with
  | nil => rfl
  | cons e l ih =>
    rw [List.foldlM_cons, List.zipIdx_cons, List.foldlM_cons]
    cases h : f i e sps with
    | err => simp
    | ub => simp
    | ok s =>
      simp only [Outcome.bind_ok, Outcome.pure_eq]
      have := ih (i + 1) s
      simp only [Outcome.pure_eq] at this
      rw [this, List.length_cons, show i + 1 + l.length = i + (l.length + 1) by omega]

/-- The numbers of a full set of writes. -/
theorem added_of_writes (mpi : Bool) (dom : Nat) (a : Sp K) (h1 : 1 ≤ a.kind.D) (h3 : a.kind.D ≤ 3)
    (hroom : Room mpi a) (hpld : PldOk a) (n : Nat) (hfit : a.st.npart + n ≤ a.st.arr.length)
    (es : List (Nat × New K)) (hperm : (es.map Prod.fst).Perm (List.range n)) (w : Nat → New K)
    (hw : ∀ e ∈ es, e.2 = w e.1) :
    ∃ st, writes a.kind mpi a.tracking dom a.st.npart a.counter es a.st = .ok st ∧
      st.npart = a.st.npart ∧ st.arr.length = a.st.arr.length ∧
      Added mpi dom a { a with st := { st with npart := a.st.npart + n },
                               counter := u32 (a.counter + n) } n w := by
  obtain ⟨st, f1, f2, f3, f4, f5, f6⟩ := writes_spec a.kind h1 h3 mpi a.tracking dom a.st.npart a.counter
    hroom es a.st (hperm.nodup_iff.2 List.nodup_range)
    (by
      intro e he
      have : e.1 ∈ List.range n := hperm.mem_iff.1 (List.mem_map.2 ⟨e, he, rfl⟩)
      rw [List.mem_range] at this; omega) hpld
  refine ⟨st, f1, f2, f3, rfl, rfl, rfl, rfl, hfit, f3, ?_, ?_, f4⟩
  · intro p hp
    refine f5 p ?_
    intro e he
    have : e.1 ∈ List.range n := hperm.mem_iff.1 (List.mem_map.2 ⟨e, he, rfl⟩)
    rw [List.mem_range] at this; omega
  · intro i hi
    have : i ∈ es.map Prod.fst := hperm.mem_iff.2 (List.mem_range.2 hi)
    obtain ⟨e, he, rfl⟩ := List.mem_map.1 this
    rw [← hw e he]
    exact f6 e he

/-- Injection of pairs into two different species. -/
theorem pair_spec (mpi : Bool) (dom s1 s2 : Nat) (hs1 : s1 ≠ 0) (hs2 : s2 ≠ 0) (hne : s1 ≠ s2)
    (sps : List (Sp K)) (a1 a2 : Sp K) (ha1 : sps[s1 - 1]? = some a1) (ha2 : sps[s2 - 1]? = some a2)
    (hd1 : 1 ≤ a1.kind.D ∧ a1.kind.D ≤ 3) (hd2 : 1 ≤ a2.kind.D ∧ a2.kind.D ≤ 3)
    (hr1 : Room mpi a1) (hr2 : Room mpi a2) (hp1 : PldOk a1) (hp2 : PldOk a2) (n : Nat)
    (hf1 : a1.st.npart + n ≤ a1.st.arr.length) (hf2 : a2.st.npart + n ≤ a2.st.arr.length)
    (es : List (Nat × New K × New K)) (hperm : (es.map Prod.fst).Perm (List.range n))
    (w1 w2 : Nat → New K) (hw : ∀ e ∈ es, e.2.1 = w1 e.1 ∧ e.2.2 = w2 e.1) :
    ∃ b1 b2, (do
        let sps ← es.foldlM (fun sps (e : Nat × New K × New K) => do
          let sps ← injectAt mpi dom ⟨s1, a1.st.npart, a1.counter⟩ e.1 e.2.1 sps
          injectAt mpi dom ⟨s2, a2.st.npart, a2.counter⟩ e.1 e.2.2 sps) sps
        let sps ← grow n sps s1
        grow n sps s2) = .ok ((sps.set (s1 - 1) b1).set (s2 - 1) b2) ∧
      Added mpi dom a1 b1 n w1 ∧ Added mpi dom a2 b2 n w2 := by
  have hix : s1 - 1 ≠ s2 - 1 := by omega
  have hl1 : s1 - 1 < sps.length := (List.getElem?_eq_some_iff.1 ha1).1
  have hl2 : s2 - 1 < sps.length := (List.getElem?_eq_some_iff.1 ha2).1
  obtain ⟨t1, g1, g2, g3, g4⟩ := added_of_writes mpi dom a1 hd1.1 hd1.2 hr1 hp1 n hf1
    (es.map fun e => (e.1, e.2.1)) (by simpa [List.map_map, Function.comp_def] using hperm) w1
    (by
      intro e he
      obtain ⟨x, hx, rfl⟩ := List.mem_map.1 he
      exact (hw x hx).1)
  obtain ⟨t2, k1, k2, k3, k4⟩ := added_of_writes mpi dom a2 hd2.1 hd2.2 hr2 hp2 n hf2
    (es.map fun e => (e.1, e.2.2)) (by simpa [List.map_map, Function.comp_def] using hperm) w2
    (by
      intro e he
      obtain ⟨x, hx, rfl⟩ := List.mem_map.1 he
      exact (hw x hx).2)
  refine ⟨_, _, ?_, g4, k4⟩
  rw [pair_fold mpi dom ⟨s1, a1.st.npart, a1.counter⟩ ⟨s2, a2.st.npart, a2.counter⟩ hs1 hs2 hne es sps a1 a2
    t1 t2 ha1 ha2 g1 k1, Outcome.bind_ok]
  have e1 : ((sps.set (s1 - 1) { a1 with st := t1 }).set (s2 - 1) { a2 with st := t2 })[s1 - 1]? =
      some { a1 with st := t1 } := by
    rw [List.getElem?_set_ne (Ne.symm hix)]; exact List.getElem?_set_self hl1
  rw [grow_ok n hs1 e1 (by simp only; rw [g2, g3]; exact hf1), Outcome.bind_ok]
  have e2 : (((sps.set (s1 - 1) { a1 with st := t1 }).set (s2 - 1) { a2 with st := t2 }).set (s1 - 1)
      { a1 with st := { t1 with npart := t1.npart + n }, counter := u32 (a1.counter + n) })[s2 - 1]? =
      some { a2 with st := t2 } := by
    rw [List.getElem?_set_ne hix]; exact List.getElem?_set_self (by simpa using hl2)
  rw [grow_ok n hs2 e2 (by simp only; rw [k2, k3]; exact hf2)]
  congr 1
  rw [List.set_comm _ _ (Ne.symm hix), List.set_set, List.set_set, g2, k2]

theorem injectAt_len (mpi : Bool) (dom : Nat) (c : Cap) (hs : c.sp ≠ 0) (i : Nat) (w : New K)
    (sps t : List (Sp K)) (m : Nat) (hin : injectAt mpi dom c i w sps = .ok t)
    (hlen : ∃ a, sps[c.sp - 1]? = some a ∧ a.st.arr.length = m) :
    ∃ a, t[c.sp - 1]? = some a ∧ a.st.arr.length = m := by
  obtain ⟨b, hb, hbl⟩ := hlen
  unfold injectAt modifySp at hin
  rw [if_neg hs] at hin
  simp only [hb] at hin
  rw [Outcome.bind_eq_ok] at hin
  obtain ⟨b', h1, h2⟩ := hin
  rw [Outcome.bind_eq_ok] at h1
  obtain ⟨st, h3, h4⟩ := h1
  simp only [Outcome.pure_eq, Outcome.ok.injEq] at h2 h4
  have hlt : c.sp - 1 < sps.length := (List.getElem?_eq_some_iff.1 hb).1
  refine ⟨b', by rw [← h2, List.getElem?_set_self hlt], ?_⟩
  subst h4
  unfold injectParticle at h3
  cases hq : b.st.arr[c.off + i]? with
  | none => simp [hq] at h3
  | some q =>
    simp only [hq] at h3
    rw [Outcome.bind_eq_ok] at h3
    obtain ⟨pld, _, h5⟩ := h3
    simp only [Outcome.pure_eq, Outcome.ok.injEq] at h5
    subst h5
    simpa using hbl

/-- A fold with an atomic counter in which what is written is read off the state. -/
theorem reading_fold {ε : Type} (mpi : Bool) (dom : Nat) (c : Cap) (hs : c.sp ≠ 0)
    (rd : ε → List (Sp K) → Outcome (New K)) (P : ε → New K → Prop) (m : Nat) (l : List ε) (i : Nat)
    (sps : List (Sp K)) (hlen : ∃ a, sps[c.sp - 1]? = some a ∧ a.st.arr.length = m)
    (hrd : ∀ e ∈ l, ∀ sps : List (Sp K), (∃ a, sps[c.sp - 1]? = some a ∧ a.st.arr.length = m) →
      ∃ w, rd e sps = .ok w ∧ P e w) :
    ∃ ws, List.Forall₂ P l ws ∧
      l.foldlM (fun (acc : Nat × List (Sp K)) e => do
        let w ← rd e acc.2
        let sps ← injectAt mpi dom c acc.1 w acc.2
        pure (acc.1 + 1, sps)) (i, sps) =
      (do
        let sps ← (ws.zipIdx i).foldlM (fun sps x => injectAt mpi dom c x.2 x.1 sps) sps
        pure (i + l.length, sps)) := by
  induction l generalizing i sps with
  | nil => exact ⟨[], .nil, rfl⟩
  | cons e l ih =>
    obtain ⟨w, hw, hP⟩ := hrd e (by simp) sps hlen
    have hrd' := fun e' (he' : e' ∈ l) => hrd e' (List.mem_cons_of_mem _ he')
    cases hin : injectAt mpi dom c i w sps with
    | ok t =>
      obtain ⟨ws, h1, h2⟩ := ih (i + 1) t (injectAt_len mpi dom c hs i w sps t m hin hlen) hrd'
      refine ⟨w :: ws, .cons hP h1, ?_⟩
      rw [List.foldlM_cons, List.zipIdx_cons, List.foldlM_cons]
      simp only [hw, hin, Outcome.bind_ok, Outcome.pure_eq] at h2 ⊢
      rw [h2, List.length_cons, show i + 1 + l.length = i + (l.length + 1) by omega]
    | err =>
      obtain ⟨ws, h1, _⟩ := ih 0 sps hlen hrd'
      exact ⟨w :: ws, .cons hP h1, by
        rw [List.foldlM_cons, List.zipIdx_cons, List.foldlM_cons]; simp [hw, hin]⟩
    | ub =>
      obtain ⟨ws, h1, _⟩ := ih 0 sps hlen hrd'
      exact ⟨w :: ws, .cons hP h1, by
        rw [List.foldlM_cons, List.zipIdx_cons, List.foldlM_cons]; simp [hw, hin]⟩

/-- Injection into one species with an atomic counter. -/
theorem single_spec (mpi : Bool) (dom s : Nat) (hs : s ≠ 0) (sps : List (Sp K)) (a : Sp K)
    (ha : sps[s - 1]? = some a) (hd : 1 ≤ a.kind.D ∧ a.kind.D ≤ 3) (hr : Room mpi a) (hp : PldOk a)
    (ws : List (New K)) (hf : a.st.npart + ws.length ≤ a.st.arr.length) (w0 : New K) :
    ∃ t, ws.zipIdx.foldlM (fun sps x => injectAt mpi dom ⟨s, a.st.npart, a.counter⟩ x.2 x.1 sps) sps =
        .ok t ∧ t.length = sps.length ∧
      ∃ b, grow ws.length t s = .ok (sps.set (s - 1) b) ∧
        Added mpi dom a b ws.length (fun i => ws.getD i w0) := by
  have hl : s - 1 < sps.length := (List.getElem?_eq_some_iff.1 ha).1
  obtain ⟨st, g1, g2, g3, g4⟩ := added_of_writes mpi dom a hd.1 hd.2 hr hp ws.length hf
    (ws.zipIdx.map fun x => (x.2, x.1))
    (by
      have : (ws.zipIdx.map fun x => (x.2, x.1)).map Prod.fst = List.range ws.length := by
        rw [List.map_map]
        have : (Prod.fst ∘ fun (x : New K × Nat) => (x.2, x.1)) = Prod.snd := rfl
        rw [this, List.zipIdx_map_snd, List.range_eq_range']
      rw [this])
    (fun i => ws.getD i w0)
    (by
      intro e he
      obtain ⟨x, hx, rfl⟩ := List.mem_map.1 he
      rw [List.mem_zipIdx_iff_getElem?] at hx
      simp [List.getD_eq_getElem?_getD, hx])
  have := single_fold mpi dom ⟨s, a.st.npart, a.counter⟩ hs (ws.zipIdx.map fun x => (x.2, x.1)) sps a st ha
    g1
  rw [List.foldlM_map] at this
  refine ⟨_, this, by simp, _, ?_, g4⟩
  rw [grow_ok ws.length hs (List.getElem?_set_self hl) (by simp only; rw [g2, g3]; exact hf)]
  simp only
  rw [List.set_set, g2]

end Entity.Inject
