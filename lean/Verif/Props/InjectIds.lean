import Verif.Lemmas.InjectOk
import Verif.Props.PrtlComm
import Mathlib.Data.List.Perm.Subperm
import Mathlib.Data.List.Count

/-!
# C59 (identifiers of tracked particles), C21 (capacity, injections)
-/

namespace Entity.Inject

open Entity Entity.Prtl Entity.Push Entity.Decomp Entity.Tags Entity.MeshBox

variable {K : Type} [Field K] [LinearOrder K] [FloorRing K]

/-- One call that creates particles on subdomain `dom`, and succeeds: uniform injection, injection with a
spatial distribution, injection from a list, or the emission of photons during a push.  Pairs are
injected into two different species. -/
inductive Creates (mpi : Bool) (dom : Nat) (sps t : List (Sp K)) : Prop
  | uniform (l : Loc K) (conv : Nat → K → K) (ppc0 density : K) (prm useWeights : Bool)
      (box : List (Bnd K × Bnd K)) (s1 s2 : Nat) (dr : UDraw K) (σ : Sched) (hl : l.dom = dom)
      (hne : s1 ≠ s2) (hσ : σ.Fair)
      (h : injectUniform mpi l conv ppc0 density prm useWeights box s1 s2 dr σ sps = .ok t)
  | nonUniform (l : Loc K) (prm useWeights : Bool) (range : List Cell) (s1 s2 : Nat) (dr : NDraw K)
      (σ : List (Cell × Nat) → List (Cell × Nat)) (hl : l.dom = dom) (hne : s1 ≠ s2)
      (h : injectNonUniform mpi l prm useWeights range s1 s2 dr σ sps = .ok t)
  | globally (k : Kind) (g : Geo K) (s : Subdomain) (sp : Nat) (data : Col → Option (List K))
      (useWeights : Bool) (σ : Sched) (hs : s.index = dom)
      (h : injectGlobally mpi k g s sp data useWeights σ sps = .ok t)
  | emission (sp : Nat) (ws : List (New K)) (h : emission mpi dom sp ws sps = .ok t)

theorem Creates.grown {mpi : Bool} {dom : Nat} {sps t : List (Sp K)} (hv : ∀ a ∈ sps, Valid mpi a)
    (h : Creates mpi dom sps t) : Grown mpi dom sps t := by
  cases h with
  | uniform l conv ppc0 density prm useWeights box s1 s2 dr σ hl hne hσ h =>
    subst hl; exact injectUniform_grown hne hσ hv h
  | nonUniform l prm useWeights range s1 s2 dr σ hl hne h =>
    subst hl; exact injectNonUniform_grown hne hv h
  | globally k g s sp data useWeights σ hs h => subst hs; exact injectGlobally_grown hv h
  | emission sp ws h =>
    haveI : Inhabited K := ⟨0⟩
    exact emission_grown hv h

theorem Added.valid {mpi : Bool} {dom : Nat} {a b : Sp K} {n : Nat} {w : Nat → New K}
    (h : Added mpi dom a b n w) (hv : Valid mpi a) : Valid mpi b := by
  refine ⟨by rw [h.kind]; exact hv.dim, ?_, h.pld, h.extends.fits, ?_⟩
  · intro ht
    rw [h.kind]
    exact hv.room (by rw [← h.tracking]; exact ht)
  · rw [h.counter]; exact Nat.mod_lt _ (by decide)

theorem Grown.valid {mpi : Bool} {dom : Nat} {sps t : List (Sp K)} (h : Grown mpi dom sps t)
    (hv : ∀ a ∈ sps, Valid mpi a) : ∀ b ∈ t, Valid mpi b := by
  intro b hb
  obtain ⟨s, hs⟩ := List.getElem?_of_mem hb
  have hlt : s < sps.length := by rw [← h.1]; exact (List.getElem?_eq_some_iff.1 hs).1
  obtain ⟨b', n, w, e1, e2⟩ := h.2 s _ (List.getElem?_eq_getElem hlt)
  rw [hs] at e1
  cases e1
  exact e2.valid (hv _ (List.getElem_mem hlt))

/-! ## C21, injections -/

/-- **C21** for the calls that create particles: after any of them that succeeds, no species has more
particles than its arrays hold, and the arrays have not changed size.  What is missing: a call that does
not fit should report an error before it writes outside the arrays; it does not (next theorem). -/
theorem C21_injection_partial (mpi : Bool) (dom : Nat) (sps t : List (Sp K))
    (hv : ∀ a ∈ sps, Valid mpi a) (h : Creates mpi dom sps t) (s : Nat) (a b : Sp K)
    (ha : sps[s]? = some a) (hb : t[s]? = some b) :
    b.st.npart ≤ b.st.arr.length ∧ b.st.arr.length = a.st.arr.length := by
  obtain ⟨b', n, w, e1, e2⟩ := (h.grown hv).2 s a ha
  rw [hb] at e1
  cases e1
  exact ⟨e2.extends.fits, e2.extends.capacity⟩

/-- **C21**, violated by injections: if the particles do not fit, the kernel writes outside the arrays; the
check (`set_npart`) comes afterwards. -/
theorem C21_injection_counterexample :
    injectUniform true exLoc (fun _ x => 2 * (x + 1)) 2 1 false false [(.min, .max)] 1 2 exU List.range
      [exSp 4, exSp 3] matches .ub := by
  decide +kernel

/-! ## C59 -/

/-- The species of all subdomains. -/
abbrev World (K : Type) := Nat → List (Sp K)

/-- The identifier of a tracked particle: with MPI the subdomain where it was created, and its number. -/
def ident (mpi : Bool) (q : Prtl K) : Nat × Nat :=
  (if mpi then q.pld_i.getD 1 0 else 0, q.pld_i.getD 0 0)

/-- Identifiers of the particles of a species on one subdomain that are not dead (those about to be
sent to another subdomain count). -/
def idsOf (mpi : Bool) (a : Sp K) : List (Nat × Nat) :=
  (a.st.used.filter fun q => decide (q.tag ≠ 0)).map (ident mpi)

/-- Identifiers of all particles of species `s` in the simulation. -/
def present (mpi : Bool) (R s : Nat) (w : World K) : List (Nat × Nat) :=
  (List.range R).flatMap fun r => ((w r)[s]?.map (idsOf mpi)).getD []

/-- Anything that creates no particles: pushes, exchanges, removal of the dead, output, restart from a
checkpoint.  Species keep their parameters and counters; particles may move between subdomains and may
vanish, but none appears. -/
structure Keeps (mpi : Bool) (R s : Nat) (w w' : World K) : Prop where
  valid : ∀ r < R, ∀ b ∈ w' r, Valid mpi b
  same : ∀ r < R, (w' r)[s]?.map (fun b => (b.tracking, b.counter)) =
    (w r)[s]?.map (fun a => (a.tracking, a.counter))
  subperm : (present mpi R s w').Subperm (present mpi R s w)

/-- Identifiers given to the particles of species `s` by a call that turned `sps` into `t`. -/
def given (mpi : Bool) (s : Nat) (sps t : List (Sp K)) : List (Nat × Nat) :=
  match sps[s]?, t[s]? with
  | some a, some b => (news a b).map (ident mpi)
  | _, _ => []

/-- Histories of a simulation on `R` subdomains that begins in `w`; the list is that of the identifiers
of all particles of species `s` created so far. -/
inductive Hist (mpi : Bool) (R s : Nat) (w : World K) : World K → List (Nat × Nat) → Prop
  | start : Hist mpi R s w w []
  | create (w' : World K) (cr : List (Nat × Nat)) (r : Nat) (t : List (Sp K)) (h : Hist mpi R s w w' cr)
      (hr : r < R) (hc : Creates mpi r (w' r) t) :
      Hist mpi R s w (Function.update w' r t) (cr ++ given mpi s (w' r) t)
  | keep (w' w'' : World K) (cr : List (Nat × Nat)) (h : Hist mpi R s w w' cr)
      (hk : Keeps mpi R s w' w'') : Hist mpi R s w w'' cr

/-- The beginning of a simulation: species `s` is tracked and has no particles and a counter of zero. -/
structure Fresh (mpi : Bool) (R s : Nat) (w : World K) : Prop where
  valid : ∀ r < R, ∀ a ∈ w r, Valid mpi a
  tracked : ∀ r < R, ∃ a, (w r)[s]? = some a ∧ a.tracking = true ∧ a.counter = 0 ∧ a.st.npart = 0

/-- The invariant: what was created on subdomain `r` are the numbers below a bound of which the counter
is the residue. -/
structure Inv (mpi : Bool) (R s : Nat) (w : World K) (cr : List (Nat × Nat)) : Prop where
  valid : ∀ r < R, ∀ a ∈ w r, Valid mpi a
  ranks : ∀ x ∈ cr, x.1 < R
  tracked : ∀ r < R, ∃ a c, (w r)[s]? = some a ∧ a.tracking = true ∧ a.counter = u32 c ∧
    cr.filter (fun x => decide (x.1 = r)) = (List.range c).map fun i => (r, u32 i)
  sub : (present mpi R s w).Subperm cr

theorem ident_of_labelled {mpi : Bool} {dom c : Nat} {q : Prtl K} (hserial : mpi = false → dom = 0)
    (h : Labelled mpi true dom c q) : ident mpi q = (dom, c) := by
  obtain ⟨h1, h2⟩ := h rfl
  cases mpi with
  | false => simp [ident, List.getD_eq_getElem?_getD, h1, hserial rfl]
  | true => simp [ident, List.getD_eq_getElem?_getD, h1, h2 rfl]

theorem news_ident {mpi : Bool} {dom : Nat} {a b : Sp K} {n : Nat} {w : Nat → New K}
    (h : Added mpi dom a b n w) (ht : a.tracking = true) (hserial : mpi = false → dom = 0) :
    (news a b).map (ident mpi) = (List.range n).map fun i => (dom, u32 (a.counter + i)) := by
  have hc := h.extends.count
  apply List.ext_getElem
  · simp [hc]
  · intro i h1 h2
    simp only [List.length_map, List.length_range] at h1 h2
    obtain ⟨q, q1, _, q3⟩ := h.news_at i h2
    rw [List.getElem?_eq_getElem h1, Option.some.injEq] at q1
    simp only [List.getElem_map, List.getElem_range, q1]
    rw [ht] at q3
    exact ident_of_labelled hserial q3

theorem idsOf_added {mpi : Bool} {dom : Nat} {a b : Sp K} {n : Nat} {w : Nat → New K}
    (h : Added mpi dom a b n w) :
    idsOf mpi b = idsOf mpi a ++ (news a b).map (ident mpi) := by
  have e : b.st.used = a.st.used ++ news a b := by
    rw [← h.extends.kept, news, List.take_append_drop]
  rw [idsOf, e, List.filter_append, List.map_append, idsOf]
  congr 1
  rw [List.filter_eq_self.2]
  intro q hq
  have := h.extends.live q hq
  simp [this, alive]

theorem flatMap_update {β : Type} (R r : Nat) (hr : r < R) (f g : Nat → List β) (x : List β)
    (hg : g r = f r ++ x) (ho : ∀ j, j ≠ r → g j = f j) :
    ((List.range R).flatMap g).Perm ((List.range R).flatMap f ++ x) := by
  induction R with
  | zero => omega
  | succ R ih =>
    rw [List.range_succ, List.flatMap_append, List.flatMap_append]
    simp only [List.flatMap_cons, List.flatMap_nil, List.append_nil]
    by_cases h : r = R
    · subst h
      rw [hg]
      have : (List.range r).flatMap g = (List.range r).flatMap f := by
        apply List.flatMap_congr
        intro j hj
        exact ho j (by have := List.mem_range.1 hj; omega)
      rw [this]
      simp
    · rw [ho R (by omega)]
      have := ih (by omega)
      refine (this.append_right _).trans ?_
      rw [List.append_assoc, List.append_assoc]
      exact (List.perm_append_comm).append_left _

theorem inv_of_hist {mpi : Bool} {R s : Nat} (hserial : mpi = false → R ≤ 1) {w w' : World K}
    {cr : List (Nat × Nat)} (hw : Fresh mpi R s w) (h : Hist mpi R s w w' cr) : Inv mpi R s w' cr := by
  induction h with
  | start =>
    refine ⟨hw.valid, by simp, fun r hr => ?_, ?_⟩
    · obtain ⟨a, h1, h2, h3, _⟩ := hw.tracked r hr
      exact ⟨a, 0, h1, h2, by rw [h3]; rfl, rfl⟩
    · have : present mpi R s w = [] := by
        rw [present, List.flatMap_eq_nil_iff]
        intro r hr
        obtain ⟨a, h1, _, _, h4⟩ := hw.tracked r (List.mem_range.1 hr)
        simp [h1, idsOf, Store.used, h4]
      rw [this]
  | create w' cr r t h hr hc ih =>
    have hg := hc.grown (ih.valid r hr)
    obtain ⟨a, c, h1, h2, h3, h4⟩ := ih.tracked r hr
    obtain ⟨b, n, wn, g1, g2⟩ := hg.2 s a h1
    have hr0 : mpi = false → r = 0 := fun hm => by have := hserial hm; omega
    have hgiv : given mpi s (w' r) t = (List.range n).map fun i => (r, u32 (a.counter + i)) := by
      rw [given, h1, g1]
      exact news_ident g2 h2 hr0
    refine ⟨?_, ?_, ?_, ?_⟩
    · intro j hj
      by_cases hjr : j = r
      · subst hjr; rw [Function.update_self]; exact hg.valid (ih.valid j hj)
      · rw [Function.update_of_ne hjr]; exact ih.valid j hj
    · intro x hx
      rcases List.mem_append.1 hx with hx | hx
      · exact ih.ranks x hx
      · rw [hgiv] at hx
        obtain ⟨i, _, rfl⟩ := List.mem_map.1 hx
        exact hr
    · intro j hj
      by_cases hjr : j = r
      · subst hjr
        refine ⟨b, c + n, by rw [Function.update_self]; exact g1, by rw [g2.tracking]; exact h2, ?_, ?_⟩
        · rw [g2.counter, h3]; simp [u32]
        · rw [List.filter_append, h4, hgiv, List.range_add, List.map_append, List.map_map]
          congr 1
          rw [List.filter_eq_self.2]
          · apply List.map_congr_left
            intro i _
            simp [h3, u32]
          · intro x hx
            obtain ⟨i, _, rfl⟩ := List.mem_map.1 hx
            simp
      · obtain ⟨a', c', k1, k2, k3, k4⟩ := ih.tracked j hj
        refine ⟨a', c', by rw [Function.update_of_ne hjr]; exact k1, k2, k3, ?_⟩
        rw [List.filter_append, k4, hgiv, List.filter_eq_nil_iff.2, List.append_nil]
        intro x hx
        obtain ⟨i, _, rfl⟩ := List.mem_map.1 hx
        simp only [decide_eq_true_eq]; omega
    · have hp : (present mpi R s (Function.update w' r t)).Perm
          (present mpi R s w' ++ given mpi s (w' r) t) := by
        refine flatMap_update R r hr _ _ _ ?_ ?_
        · simp only [Function.update_self, g1, h1, Option.map_some, Option.getD_some, given]
          exact idsOf_added g2
        · intro j hj
          simp only [Function.update_of_ne hj]
      exact hp.subperm.trans (ih.sub.append (List.Subperm.refl _))
  | keep w' w'' cr h hk ih =>
    refine ⟨hk.valid, ih.ranks, fun r hr => ?_, hk.subperm.trans ih.sub⟩
    obtain ⟨a, c, h1, h2, h3, h4⟩ := ih.tracked r hr
    have := hk.same r hr
    rw [h1, Option.map_some] at this
    obtain ⟨b, hb, hbe⟩ := Option.map_eq_some_iff.1 this
    simp only [Prod.mk.injEq] at hbe
    exact ⟨b, c, hb, by rw [hbe.1]; exact h2, by rw [hbe.2]; exact h3, h4⟩

/-- **C59.** For every history of injections, emissions, pushes, exchanges and removals on any number of
subdomains (one without MPI), every order in which parallel kernels claim places: all particles of a
tracked species ever created carry different identifiers, and so do all particles present at any time,
as long as no subdomain has created more than `2^32` of them.  Missing: beyond that number the
identifiers repeat (next theorem). -/
theorem C59_unique_partial (mpi : Bool) (R s : Nat) (hserial : mpi = false → R ≤ 1) (w w' : World K)
    (cr : List (Nat × Nat)) (hw : Fresh mpi R s w) (h : Hist mpi R s w w' cr)
    (hfew : ∀ r, (cr.filter fun x => decide (x.1 = r)).length ≤ 2 ^ 32) :
    cr.Nodup ∧ (present mpi R s w').Nodup := by
  have hi := inv_of_hist hserial hw h
  have hn : cr.Nodup := by
    rw [List.nodup_iff_count_le_one]
    intro x
    by_cases hx : x ∈ cr
    · obtain ⟨a, c, _, _, _, h4⟩ := hi.tracked x.1 (hi.ranks x hx)
      have hc : c ≤ 2 ^ 32 := by
        have := hfew x.1
        rw [h4] at this
        simpa using this
      have e : cr.count x = (cr.filter fun y => decide (y.1 = x.1)).count x := by
        rw [List.count_filter]; simp
      rw [e, h4]
      apply List.nodup_iff_count_le_one.1
      rw [List.nodup_map_iff_inj_on List.nodup_range]
      intro i hi j hj hij
      have hi := List.mem_range.1 hi
      have hj := List.mem_range.1 hj
      simp only [Prod.mk.injEq, true_and, u32] at hij
      rw [Nat.mod_eq_of_lt (by omega), Nat.mod_eq_of_lt (by omega)] at hij
      exact hij
    · rw [List.count_eq_zero_of_not_mem hx]; omega
  obtain ⟨l, l1, l2⟩ := hi.sub
  exact ⟨hn, l1.nodup_iff.1 (hn.sublist l2)⟩

/-! ### Removal and exchange create nothing -/

/-- The identifier can be read off what the exchange carries. -/
theorem ident_view {mpi : Bool} {k : Kind} (hroom : (if mpi then 2 else 1) ≤ k.npldi) (q : Prtl K) :
    ident mpi q = (if mpi then (k.view q).cargo.pldi.getD 1 0 else 0, (k.view q).cargo.pldi.getD 0 0) := by
  cases mpi with
  | false =>
    simp only [Bool.false_eq_true, if_false] at hroom
    simp only [ident, Kind.view, View.cargo, List.getD_eq_getElem?_getD, Bool.false_eq_true, if_false]
    rw [List.getElem?_take_of_lt (by omega)]
  | true =>
    simp only [if_true] at hroom
    simp only [ident, Kind.view, View.cargo, List.getD_eq_getElem?_getD, if_true]
    rw [List.getElem?_take_of_lt (by omega), List.getElem?_take_of_lt (by omega)]

/-- **C59**: removing the dead particles of a species, on any subdomain, keeps all identifiers present. -/
theorem C59_remove_dead (mpi : Bool) (a : Sp K) (hv : Valid mpi a) (ht : a.tracking = true)
    (σ₁ σ₂ σ₃ : Sched) (hσ₁ : σ₁.Fair) (hσ₂ : σ₂.Fair) (hσ₃ : σ₃.Fair)
    (htags : ∀ q ∈ a.st.used, q.tag = 1 ∨ q.tag = 0) :
    ∃ st, removeDead a.kind a.st σ₁ σ₂ σ₃ = .ok st ∧
      (idsOf mpi { a with st := st }).Perm (idsOf mpi a) := by
  obtain ⟨st, e1, _, _, e4, e5, _⟩ := C18_remove_dead a.kind hv.dim.1 hv.dim.2 a.st hv.fits hσ₁ hσ₂ hσ₃ htags
  refine ⟨st, e1, ?_⟩
  have f1 : (st.used.filter fun q => decide (q.tag ≠ 0)) = st.used := by
    rw [List.filter_eq_self]
    intro q hq
    simp [e5 q hq]
  have f2 : (a.st.used.filter fun q => decide (q.tag ≠ 0)) = a.st.live := by
    unfold Store.live
    apply List.filter_congr
    intro q hq
    rcases htags q hq with h | h <;> simp [h]
  have e := e4.map fun v : View K => (if mpi then v.cargo.pldi.getD 1 0 else 0, v.cargo.pldi.getD 0 0)
  rw [List.map_map, List.map_map] at e
  have hfun : ((fun v : View K => (if mpi then v.cargo.pldi.getD 1 0 else 0, v.cargo.pldi.getD 0 0)) ∘
      a.kind.view) = ident mpi := by
    funext q
    exact (ident_view (hv.room ht) q).symm
  rw [hfun] at e
  unfold idsOf
  rw [f1, f2]
  exact e

/-- Subperm from a pointwise sublist. -/
theorem flatMap_sublist {β : Type} (l : List Nat) (f g : Nat → List β) (h : ∀ r ∈ l, (f r).Sublist (g r)) :
    (l.flatMap f).Sublist (l.flatMap g) := by
  induction l with
  | nil => simp
  | cons a l ih =>
    rw [List.flatMap_cons, List.flatMap_cons]
    exact (h a (by simp)).append (ih fun r hr => h r (List.mem_cons_of_mem _ hr))

/-- **C59**: an exchange between all subdomains lets no identifier appear. -/
theorem C59_exchange (mpi : Bool) [Inhabited K] (m : Topology.Meta) (dN : List (List Nat))
    (h : Topology.Built m dN) (hb : Topology.GoodBCs m) (k : Kind) (hD : k.D = dN.length) (h1 : 1 ≤ k.D)
    (h3 : k.D ≤ 3) (hroom : (if mpi then 2 else 1) ≤ k.npldi) (st st' : List (Store K))
    (hst : Ready m k fun r => st.getD r ⟨[], 0⟩) (S : Nat → Scheds)
    (hS : ∀ r < m.doms.length, (S r).Fair)
    (hcap : ∀ r < m.doms.length, (st.getD r ⟨[], 0⟩).npart +
      (arrivals m k (fun r => st.getD r ⟨[], 0⟩) r).length < (st.getD r ⟨[], 0⟩).maxnpart)
    (hrun : communicateParticles m k st S = .ok st') :
    ((List.range m.doms.length).flatMap fun r =>
        ((st'.getD r ⟨[], 0⟩).used.filter fun q => decide (q.tag ≠ 0)).map (ident mpi)).Subperm
      ((List.range m.doms.length).flatMap fun r =>
        ((st.getD r ⟨[], 0⟩).used.filter fun q => decide (q.tag ≠ 0)).map (ident mpi)) := by
  have e := C16_no_loss_no_duplication m dN h hb k hD h1 h3 st st' hst S hS hcap hrun
  obtain ⟨st'', x1, x2, x3⟩ := C16_exchange m dN h hb k hD h1 h3 st hst S hS hcap
  rw [hrun] at x1
  cases x1
  have e := e.map fun v : View K => (if mpi then v.pldi.getD 1 0 else 0, v.pldi.getD 0 0)
  rw [List.map_flatMap, List.map_flatMap] at e
  simp only [List.map_map] at e
  have hfun : ((fun v : View K => (if mpi then v.pldi.getD 1 0 else 0, v.pldi.getD 0 0)) ∘
      fun q => (k.view q).cargo) = ident mpi := by
    funext q
    exact (ident_view hroom q).symm
  rw [hfun] at e
  have f1 : ((List.range m.doms.length).flatMap fun r =>
        ((st'.getD r ⟨[], 0⟩).used.filter fun q => decide (q.tag ≠ 0)).map (ident mpi)) =
      ((List.range m.doms.length).flatMap fun r => (st'.getD r ⟨[], 0⟩).live.map (ident mpi)) := by
    apply List.flatMap_congr
    intro r hr
    obtain ⟨s', y1, _, _, _, y5, _⟩ := x3 r (List.mem_range.1 hr)
    have y : st'.getD r ⟨[], 0⟩ = s' := by simp [List.getD_eq_getElem?_getD, y1]
    rw [y]
    congr 1
    unfold Store.live
    apply List.filter_congr
    intro q hq
    rcases y5 q hq with h | h <;> simp [h]
  rw [f1]
  refine e.subperm.trans (List.Sublist.subperm ?_)
  apply flatMap_sublist
  intro r _
  apply List.Sublist.map
  have hW : (fun q : Prtl K => decide (Wanted m k r q)) =
      fun q => decide (Wanted m k r q) && decide (q.tag ≠ 0) := by
    funext q
    by_cases hq : Wanted m k r q
    · have : q.tag ≠ 0 := by
        rcases hq with hq | ⟨d, hd, hq, _⟩
        · rw [hq]; decide
        · obtain ⟨t, ht, ht2, _⟩ := dir2tag_mem h1 h3 hd
          rw [hq] at ht
          simp only [Outcome.ok.injEq] at ht
          rw [ht]; omega
      simp [hq, this]
    · simp [hq]
  rw [hW, ← List.filter_filter]
  exact List.filter_sublist

/-! ### Beyond `2^32` particles -/

/-- A photon. -/
def exW : New ℚ := ⟨fun _ => 0, fun _ => 0, ⟨1, 0, 0⟩, 1, 0⟩

/-- One tracked species with room for one particle, on one subdomain. -/
def exWorld (c : Nat) : World ℚ := fun _ => [{ exSp 1 with counter := c }]

theorem exWorld_valid (c : Nat) (hc : c < 2 ^ 32) : ∀ a ∈ exWorld c 0, Valid true a := by
  intro a ha
  simp only [exWorld, List.mem_singleton] at ha
  subst ha
  refine ⟨⟨Nat.le_refl 1, (by decide : (1 : Nat) ≤ 3)⟩, fun _ => (by decide : (2 : Nat) ≤ 2), ?_,
    (by decide : (0 : Nat) ≤ 1), hc⟩
  intro q hq
  simp only [exSp, List.mem_replicate] at hq
  rw [hq.2]
  rfl

theorem exHist (n : Nat) : Hist true 1 0 (exWorld 0) (exWorld (u32 n)) ((List.range n).map fun i => (0, u32 i)) := by
  induction n with
  | zero => exact .start
  | succ n ih =>
    rw [List.range_succ, List.map_append]
    have hem : ∃ t, emission true 0 1 [exW] (exWorld (u32 n) 0) = .ok t ∧
        given true 0 (exWorld (u32 n) 0) t = [(0, u32 (u32 n + 0))] ∧
        t.map (fun b => (b.tracking, b.counter)) = [(true, u32 (u32 n + 1))] := ⟨_, rfl, rfl, rfl⟩
    obtain ⟨t, h1, h2, h3⟩ := hem
    have hc := Hist.create (exWorld (u32 n)) _ 0 t ih (by omega) (.emission 1 [exW] h1)
    rw [h2] at hc
    have e1 : u32 (u32 n + 0) = u32 n := by simp [u32]
    have e2 : u32 (u32 n + 1) = u32 (n + 1) := by simp [u32]
    rw [e1] at hc
    refine .keep _ _ _ hc ⟨?_, ?_, ?_⟩
    · intro r hr
      have : r = 0 := by omega
      subst this
      exact exWorld_valid _ (Nat.mod_lt _ (by decide))
    · intro r hr
      have : r = 0 := by omega
      subst this
      rw [Function.update_self, ← List.getElem?_map, ← List.getElem?_map, h3, e2]
      rfl
    · have : present true 1 0 (exWorld (u32 (n + 1))) = [] := rfl
      rw [this]
      exact List.nil_subperm

/-- **C59**, violated after `2^32` particles of a species on one subdomain: the counter has 32 bits, and
the next particle gets the number of the first. -/
theorem C59_wraparound_counterexample :
    ∃ (w w' : World ℚ) (cr : List (Nat × Nat)), Fresh true 1 0 w ∧ Hist true 1 0 w w' cr ∧ ¬ cr.Nodup := by
  refine ⟨_, _, _, ?_, exHist (2 ^ 32 + 1), ?_⟩
  · refine ⟨?_, ?_⟩
    · intro r hr
      have : r = 0 := by omega
      subst this
      exact exWorld_valid 0 (by decide)
    · intro r _
      exact ⟨_, rfl, rfl, rfl, rfl⟩
  · rw [List.nodup_map_iff_inj_on List.nodup_range]
    intro h
    have := h 0 (List.mem_range.2 (by decide)) (2 ^ 32) (List.mem_range.2 (by decide)) (by simp [u32])
    omega

/-- A history with few particles, as in `C59_unique_partial`. -/
example : Fresh true 1 0 (exWorld 0) ∧
    Hist true 1 0 (exWorld 0) (exWorld (u32 3)) [(0, 0), (0, 1), (0, 2)] := by
  refine ⟨⟨?_, ?_⟩, exHist 3⟩
  · intro r hr
    have : r = 0 := by omega
    subst this
    exact exWorld_valid 0 (by decide)
  · intro r _
    exact ⟨_, rfl, rfl, rfl, rfl⟩

end Entity.Inject
