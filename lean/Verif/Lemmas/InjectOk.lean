import Verif.Props.InjectPairs

/-! # What an injection that succeeded did to every species -/

namespace Entity.Inject

open Entity Entity.Prtl Entity.Push Entity.Decomp Entity.Tags Entity.MeshBox

variable {K : Type}

/-- Particle counts and capacities of all species. -/
def sig (sps : List (Sp K)) : List (Nat × Nat) := sps.map fun a => (a.st.npart, a.st.arr.length)

theorem foldlM_inv {α β γ : Type} (f : α → β → Outcome α) (g : α → γ)
    (hf : ∀ x e y, f x e = .ok y → g y = g x) (l : List β) (x y : α) (h : l.foldlM f x = .ok y) :
    g y = g x := by
  induction l generalizing x with
  | nil => simp only [List.foldlM_nil, Outcome.pure_eq, Outcome.ok.injEq] at h; rw [h]
  | cons e l ih =>
    rw [List.foldlM_cons, Outcome.bind_eq_ok] at h
    obtain ⟨z, h1, h2⟩ := h
    rw [ih z h2, hf x e z h1]

theorem modifySp_eq_ok {sps t : List (Sp K)} {s : Nat} {f : Sp K → Outcome (Sp K)}
    (h : modifySp sps s f = .ok t) :
    s ≠ 0 ∧ ∃ a a', sps[s - 1]? = some a ∧ f a = .ok a' ∧ t = sps.set (s - 1) a' := by
  unfold modifySp at h
  by_cases hs : s = 0
  · rw [if_pos hs] at h; exact absurd h (by simp)
  · rw [if_neg hs] at h
    refine ⟨hs, ?_⟩
    split at h
    · exact absurd h (by simp)
    · rename_i a ha
      rw [Outcome.bind_eq_ok] at h
      obtain ⟨a', h1, h2⟩ := h
      simp only [Outcome.pure_eq, Outcome.ok.injEq] at h2
      exact ⟨a, a', ha, h1, h2.symm⟩

theorem sig_set {sps : List (Sp K)} {i : Nat} {a b : Sp K} (ha : sps[i]? = some a)
    (hn : b.st.npart = a.st.npart) (hl : b.st.arr.length = a.st.arr.length) :
    sig (sps.set i b) = sig sps := by
  unfold sig
  rw [List.map_set]
  apply set_self
  rw [List.getElem?_map, ha, Option.map_some, hn, hl]

theorem injectParticle_sig {k : Kind} {mpi track : Bool} {dom ctr : Nat} {w : New K} {s s' : Store K}
    {p : Nat} (h : injectParticle k mpi track dom ctr w s p = .ok s') :
    s'.npart = s.npart ∧ s'.arr.length = s.arr.length := by
  unfold injectParticle at h
  split at h
  · exact absurd h (by simp)
  · rw [Outcome.bind_eq_ok] at h
    obtain ⟨pld, _, h⟩ := h
    simp only [Outcome.pure_eq, Outcome.ok.injEq] at h
    rw [← h]
    simp

theorem injectAt_sig {mpi : Bool} {dom : Nat} {c : Cap} {i : Nat} {w : New K} {sps t : List (Sp K)}
    (h : injectAt mpi dom c i w sps = .ok t) : sig t = sig sps := by
  obtain ⟨_, a, a', ha, hf, rfl⟩ := modifySp_eq_ok h
  rw [Outcome.bind_eq_ok] at hf
  obtain ⟨st, h1, h2⟩ := hf
  simp only [Outcome.pure_eq, Outcome.ok.injEq] at h2
  subst h2
  exact sig_set ha (injectParticle_sig h1).1 (injectParticle_sig h1).2

theorem grow_fits {n : Nat} {sps t : List (Sp K)} {s : Nat} (h : grow n sps s = .ok t) :
    s ≠ 0 ∧ (∃ x ∈ (sig sps)[s - 1]?, x.1 + n ≤ x.2) ∧ ∀ j, j ≠ s - 1 → (sig t)[j]? = (sig sps)[j]? := by
  obtain ⟨hs, a, a', ha, hf, rfl⟩ := modifySp_eq_ok h
  rw [Outcome.bind_eq_ok] at hf
  obtain ⟨st, h1, h2⟩ := hf
  refine ⟨hs, ⟨(a.st.npart, a.st.arr.length), ?_, ?_⟩, ?_⟩
  · simp [sig, ha]
  · unfold setNpart at h1
    split at h1
    · exact absurd h1 (by simp)
    · simp only [Store.maxnpart] at *; omega
  · intro j hj
    simp only [sig, List.getElem?_map, List.getElem?_set]
    rw [if_neg (by omega)]

theorem capture_eq_ok {sps : List (Sp K)} {s : Nat} {c : Cap} (h : capture sps s = .ok c) :
    s ≠ 0 ∧ ∃ a, sps[s - 1]? = some a ∧ c = ⟨s, a.st.npart, a.counter⟩ := by
  unfold capture at h
  by_cases hs : s = 0
  · rw [if_pos hs] at h; exact absurd h (by simp)
  · rw [if_neg hs] at h
    refine ⟨hs, ?_⟩
    split at h
    · exact absurd h (by simp)
    · rename_i a ha
      simp only [Outcome.ok.injEq] at h
      exact ⟨a, ha, h.symm⟩

theorem added_zero {mpi : Bool} (dom : Nat) {a : Sp K} (hv : Valid mpi a) (w : Nat → New K) :
    Added mpi dom a a 0 w :=
  ⟨rfl, rfl, by rw [u32, Nat.add_zero, Nat.mod_eq_of_lt hv.ctr], rfl, hv.fits, rfl, fun _ _ => rfl,
    fun _ h => absurd h (Nat.not_lt_zero _), hv.pld⟩

/-- Every species is as before with some (possibly no) live particles added, numbered on from the
counter. -/
def Grown (mpi : Bool) (dom : Nat) (sps t : List (Sp K)) : Prop :=
  t.length = sps.length ∧ ∀ (s : Nat) (a : Sp K), sps[s]? = some a →
    ∃ b n w, t[s]? = some b ∧ Added mpi dom a b n w

theorem Grown.refl {mpi : Bool} (dom : Nat) {sps : List (Sp K)} (hv : ∀ a ∈ sps, Valid mpi a)
    (w : Nat → New K) : Grown mpi dom sps sps :=
  ⟨rfl, fun _ a ha => ⟨a, 0, w, ha, added_zero dom (hv a (List.mem_of_getElem? ha)) w⟩⟩

theorem Grown.one {mpi : Bool} {dom : Nat} {sps : List (Sp K)} (hv : ∀ a ∈ sps, Valid mpi a) {i : Nat}
    {a b : Sp K} (ha : sps[i]? = some a) {n : Nat} {w : Nat → New K} (h : Added mpi dom a b n w) :
    Grown mpi dom sps (sps.set i b) := by
  refine ⟨by simp, fun s a' ha' => ?_⟩
  have hs := (List.getElem?_eq_some_iff.1 ha').1
  by_cases hsi : s = i
  · subst hsi
    rw [ha] at ha'
    cases ha'
    exact ⟨b, n, w, by rw [List.getElem?_set_self hs], h⟩
  · exact ⟨a', 0, w, by rw [List.getElem?_set_ne (by omega)]; exact ha',
      added_zero dom (hv a' (List.mem_of_getElem? ha')) w⟩

theorem Grown.two {mpi : Bool} {dom : Nat} {sps : List (Sp K)} (hv : ∀ a ∈ sps, Valid mpi a) {i j : Nat}
    (hij : i ≠ j) {a1 b1 a2 b2 : Sp K} (ha1 : sps[i]? = some a1) (ha2 : sps[j]? = some a2) {n1 n2 : Nat}
    {w1 w2 : Nat → New K} (h1 : Added mpi dom a1 b1 n1 w1) (h2 : Added mpi dom a2 b2 n2 w2) :
    Grown mpi dom sps ((sps.set i b1).set j b2) := by
  refine ⟨by simp, fun s a' ha' => ?_⟩
  have hs := (List.getElem?_eq_some_iff.1 ha').1
  by_cases hsj : s = j
  · subst hsj
    rw [ha2] at ha'
    cases ha'
    exact ⟨b2, n2, w2, by rw [List.getElem?_set_self (by simpa using hs)], h2⟩
  · rw [List.getElem?_set_ne (by omega)]
    exact (Grown.one hv ha1 h1).2 s a' ha'

/-- A pair kernel that succeeded. -/
theorem grown_pair {mpi : Bool} {dom s1 s2 : Nat} (hne : s1 ≠ s2) {sps t : List (Sp K)}
    (hv : ∀ a ∈ sps, Valid mpi a) {a1 a2 : Sp K} (hs1 : s1 ≠ 0) (hs2 : s2 ≠ 0)
    (ha1 : sps[s1 - 1]? = some a1) (ha2 : sps[s2 - 1]? = some a2) (n : Nat)
    (es : List (Nat × New K × New K)) (hperm : (es.map Prod.fst).Perm (List.range n))
    (w1 w2 : Nat → New K) (hw : ∀ e ∈ es, e.2.1 = w1 e.1 ∧ e.2.2 = w2 e.1)
    (h : (do
        let sps ← es.foldlM (fun sps (e : Nat × New K × New K) => do
          let sps ← injectAt mpi dom ⟨s1, a1.st.npart, a1.counter⟩ e.1 e.2.1 sps
          injectAt mpi dom ⟨s2, a2.st.npart, a2.counter⟩ e.1 e.2.2 sps) sps
        let sps ← grow n sps s1
        grow n sps s2) = .ok t) : Grown mpi dom sps t := by
  have h' := h
  rw [Outcome.bind_eq_ok] at h
  obtain ⟨t1, e1, h⟩ := h
  rw [Outcome.bind_eq_ok] at h
  obtain ⟨t2, e2, e3⟩ := h
  have hs : sig t1 = sig sps := foldlM_inv _ sig (by
    intro x e y hy
    rw [Outcome.bind_eq_ok] at hy
    obtain ⟨z, z1, z2⟩ := hy
    rw [injectAt_sig z2, injectAt_sig z1]) es sps t1 e1
  obtain ⟨_, ⟨x1, y1, z1⟩, g1⟩ := grow_fits e2
  obtain ⟨_, ⟨x2, y2, z2⟩, _⟩ := grow_fits e3
  rw [g1 _ (by omega), hs] at y2
  rw [hs] at y1
  simp only [sig, List.getElem?_map, ha1, ha2, Option.map_some, Option.mem_def, Option.some.injEq] at y1 y2
  subst y1 y2
  have v1 := hv a1 (List.mem_of_getElem? ha1)
  have v2 := hv a2 (List.mem_of_getElem? ha2)
  obtain ⟨b1, b2, e, r1, r2⟩ := pair_spec mpi dom s1 s2 hs1 hs2 hne sps a1 a2 ha1 ha2 v1.dim v2.dim
    v1.room v2.room v1.pld v2.pld n z1 z2 es hperm w1 w2 hw
  rw [h'] at e
  cases e
  exact Grown.two hv (by omega) ha1 ha2 r1 r2

/-- A single-species kernel with an atomic counter that succeeded. -/
theorem counted_ok {ε : Type} {mpi : Bool} {dom : Nat} {c : Cap}
    {f : Nat × List (Sp K) → ε → Outcome (Nat × List (Sp K))}
    (hf : ∀ acc e r, f acc e = .ok r → r = acc ∨ ∃ w, r.1 = acc.1 + 1 ∧
      injectAt mpi dom c acc.1 w acc.2 = .ok r.2) (l : List ε) (acc r : Nat × List (Sp K))
    (h : l.foldlM f acc = .ok r) :
    ∃ ws : List (New K), r.1 = acc.1 + ws.length ∧
      (ws.zipIdx acc.1).foldlM (fun sps x => injectAt mpi dom c x.2 x.1 sps) acc.2 = .ok r.2 := by
  induction l generalizing acc with
  | nil =>
    simp only [List.foldlM_nil, Outcome.pure_eq, Outcome.ok.injEq] at h
    subst h
    exact ⟨[], rfl, rfl⟩
  | cons e l ih =>
    rw [List.foldlM_cons, Outcome.bind_eq_ok] at h
    obtain ⟨z, h1, h2⟩ := h
    obtain ⟨ws, i1, i2⟩ := ih z h2
    rcases hf acc e z h1 with rfl | ⟨w, j1, j2⟩
    · exact ⟨ws, i1, i2⟩
    · refine ⟨w :: ws, by rw [i1, j1, List.length_cons]; omega, ?_⟩
      rw [List.zipIdx_cons, List.foldlM_cons, j2, Outcome.bind_ok, ← j1]
      exact i2

theorem grown_single {mpi : Bool} {dom s : Nat} {sps t1 t : List (Sp K)}
    (hv : ∀ a ∈ sps, Valid mpi a) {a : Sp K} (hs : s ≠ 0) (ha : sps[s - 1]? = some a)
    (ws : List (New K)) (w0 : New K)
    (h1 : ws.zipIdx.foldlM (fun sps x => injectAt mpi dom ⟨s, a.st.npart, a.counter⟩ x.2 x.1 sps) sps =
      .ok t1) (h2 : grow ws.length t1 s = .ok t) : Grown mpi dom sps t := by
  have hsig : sig t1 = sig sps := foldlM_inv _ sig (fun _ _ _ h => injectAt_sig h) _ _ _ h1
  obtain ⟨_, ⟨x, y, z⟩, _⟩ := grow_fits h2
  rw [hsig] at y
  simp only [sig, List.getElem?_map, ha, Option.map_some, Option.mem_def, Option.some.injEq] at y
  subst y
  have v := hv a (List.mem_of_getElem? ha)
  obtain ⟨t', e1, _, b, e2, e3⟩ := single_spec mpi dom s hs sps a ha v.dim v.room v.pld ws z w0
  rw [h1] at e1
  cases e1
  rw [h2] at e2
  cases e2
  exact Grown.one hv ha e3

section Field

variable [Field K] [LinearOrder K] [IsStrictOrderedRing K] [FloorRing K]

omit [IsStrictOrderedRing K] in
theorem injectUniform_grown {mpi : Bool} {l : Loc K} {conv : Nat → K → K} {ppc0 density : K}
    {prm useWeights : Bool} {box : List (Bnd K × Bnd K)} {s1 s2 : Nat} (hne : s1 ≠ s2) {dr : UDraw K}
    {σ : Sched} (hσ : σ.Fair) {sps t : List (Sp K)} (hv : ∀ a ∈ sps, Valid mpi a)
    (h : injectUniform mpi l conv ppc0 density prm useWeights box s1 s2 dr σ sps = .ok t) :
    Grown mpi l.dom sps t := by
  unfold injectUniform at h
  simp only [Outcome.bind_eq_ok] at h
  obtain ⟨_, _, _, _, _, _, reg, _, h⟩ := h
  match reg, h with
  | none, h =>
    simp only [Outcome.pure_eq, Outcome.ok.injEq] at h
    subst h
    exact Grown.refl _ hv fun _ => ⟨fun _ => 0, fun _ => 0, ⟨0, 0, 0⟩, 0, 0⟩
  | some reg, h =>
    simp only [Outcome.bind_eq_ok] at h
    obtain ⟨n, _, c1, hc1, c2, hc2, _, _, _, _, t1, e1, t2, e2, e3⟩ := h
    obtain ⟨hs1, a1, ha1, rfl⟩ := capture_eq_ok hc1
    obtain ⟨hs2, a2, ha2, rfl⟩ := capture_eq_ok hc2
    refine grown_pair hne hv hs1 hs2 ha1 ha2 n
      ((σ n).map fun p => (p, uNew l.curv dr reg dr.v1 p, uNew l.curv dr reg dr.v2 p))
      (by simpa [Function.comp_def] using hσ n)
      (uNew l.curv dr reg dr.v1) (uNew l.curv dr reg dr.v2)
      (by intro e he
          obtain ⟨p, _, rfl⟩ := List.mem_map.1 he
          exact ⟨rfl, rfl⟩) ?_
    rw [List.foldlM_map]
    change ((σ n).foldlM (uniformBody mpi l.dom l.curv dr reg ⟨s1, a1.st.npart, a1.counter⟩
      ⟨s2, a2.st.npart, a2.counter⟩) sps >>= _) = _
    rw [e1, Outcome.bind_ok, e2, Outcome.bind_ok, e3]

omit [IsStrictOrderedRing K] in
theorem injectNonUniform_grown {mpi : Bool} {l : Loc K} {prm useWeights : Bool} {range : List Cell}
    {s1 s2 : Nat} (hne : s1 ≠ s2) {dr : NDraw K} {σ : List (Cell × Nat) → List (Cell × Nat)}
    {sps t : List (Sp K)} (hv : ∀ a ∈ sps, Valid mpi a)
    (h : injectNonUniform mpi l prm useWeights range s1 s2 dr σ sps = .ok t) :
    Grown mpi l.dom sps t := by
  unfold injectNonUniform at h
  simp only [Outcome.bind_eq_ok] at h
  obtain ⟨_, _, _, _, _, _, c1, hc1, c2, hc2, evs, _, ⟨n, t1⟩, e1, t2, e2, e3⟩ := h
  obtain ⟨hs1, a1, ha1, rfl⟩ := capture_eq_ok hc1
  obtain ⟨hs2, a2, ha2, rfl⟩ := capture_eq_ok hc2
  set es := σ evs.flatten with hes
  have hbody : nonUniformBody mpi l.dom dr ⟨s1, a1.st.npart, a1.counter⟩ ⟨s2, a2.st.npart, a2.counter⟩ =
      (fun (acc : Nat × List (Sp K)) (e : Cell × Nat) => do
        let sps ← (do
          let sps ← injectAt mpi l.dom ⟨s1, a1.st.npart, a1.counter⟩ acc.1 (nNew dr dr.v1 e) acc.2
          injectAt mpi l.dom ⟨s2, a2.st.npart, a2.counter⟩ acc.1 (nNew dr dr.v2 e) sps)
        pure (acc.1 + 1, sps)) := by
    funext acc e
    simp only [nonUniformBody, bind_assoc]
  rw [hbody, counter_fold (fun i e sps => do
      let sps ← injectAt mpi l.dom ⟨s1, a1.st.npart, a1.counter⟩ i (nNew dr dr.v1 e) sps
      injectAt mpi l.dom ⟨s2, a2.st.npart, a2.counter⟩ i (nNew dr dr.v2 e) sps), Outcome.bind_eq_ok] at e1
  obtain ⟨t1', f1, f2⟩ := e1
  simp only [Outcome.pure_eq, Outcome.ok.injEq, Prod.mk.injEq, Nat.zero_add] at f2
  obtain ⟨rfl, rfl⟩ := f2
  refine grown_pair hne hv hs1 hs2 ha1 ha2 es.length
    (es.zipIdx.map fun x => (x.2, nNew dr dr.v1 x.1, nNew dr dr.v2 x.1))
    (by rw [List.map_map]
        have : es.zipIdx.map (Prod.fst ∘ fun x : (Cell × Nat) × Nat =>
            (x.2, nNew dr dr.v1 x.1, nNew dr dr.v2 x.1)) = es.zipIdx.map Prod.snd := rfl
        rw [this, List.zipIdx_map_snd, List.range_eq_range'])
    (fun i => nNew dr dr.v1 (es.getD i ([], 0))) (fun i => nNew dr dr.v2 (es.getD i ([], 0)))
    (by intro e he
        obtain ⟨x, hx, rfl⟩ := List.mem_map.1 he
        have := List.mem_zipIdx_iff_getElem?.1 hx
        simp [List.getD_eq_getElem?_getD, this]) ?_
  rw [List.foldlM_map]
  change (es.zipIdx.foldlM (fun sps x => do
      let sps ← injectAt mpi l.dom ⟨s1, a1.st.npart, a1.counter⟩ x.2 (nNew dr dr.v1 x.1) sps
      injectAt mpi l.dom ⟨s2, a2.st.npart, a2.counter⟩ x.2 (nNew dr dr.v2 x.1) sps) sps >>= _) = _
  rw [f1, Outcome.bind_ok, e2, Outcome.bind_ok, e3]

omit [IsStrictOrderedRing K] in
theorem injectGlobally_grown {mpi : Bool} {k : Kind} {g : Geo K} {s : Subdomain} {sp : Nat}
    {data : Col → Option (List K)} {useWeights : Bool} {σ : Sched} {sps t : List (Sp K)}
    (hv : ∀ a ∈ sps, Valid mpi a)
    (h : injectGlobally mpi k g s sp data useWeights σ sps = .ok t) : Grown mpi s.index sps t := by
  unfold injectGlobally at h
  simp only [Outcome.bind_eq_ok] at h
  obtain ⟨ux1, _, c, hc, dt, _, ⟨n, t1⟩, e1, e2⟩ := h
  obtain ⟨hs, a, ha, rfl⟩ := capture_eq_ok hc
  obtain ⟨ws, w1, w2⟩ := counted_ok (mpi := mpi) (dom := s.index) (c := ⟨sp, a.st.npart, a.counter⟩) (by
    intro acc p r hr
    unfold globalBody at hr
    split at hr
    · simp only [Outcome.bind_eq_ok, Outcome.pure_eq, Outcome.ok.injEq] at hr
      obtain ⟨w, _, t', h1, h2⟩ := hr
      right
      exact ⟨_, by rw [← h2], by rw [← h2]; exact h1⟩
    · simp only [Outcome.pure_eq, Outcome.ok.injEq] at hr
      left; exact hr.symm) _ _ _ e1
  simp only [Nat.zero_add] at w1 w2
  subst w1
  exact grown_single hv hs ha ws ⟨fun _ => 0, fun _ => 0, ⟨0, 0, 0⟩, 0, 0⟩ w2 e2

end Field

theorem emission_grown [Inhabited K] {mpi : Bool} {dom sp : Nat} {ws : List (New K)} {sps t : List (Sp K)}
    (hv : ∀ a ∈ sps, Valid mpi a) (h : emission mpi dom sp ws sps = .ok t) : Grown mpi dom sps t := by
  unfold emission at h
  simp only [Outcome.bind_eq_ok] at h
  obtain ⟨c, hc, ⟨n, t1⟩, e1, _, _, e2⟩ := h
  obtain ⟨hs, a, ha, rfl⟩ := capture_eq_ok hc
  obtain ⟨ws', w1, w2⟩ := counted_ok (mpi := mpi) (dom := dom) (c := ⟨sp, a.st.npart, a.counter⟩) (by
    intro acc p r hr
    unfold emitBody at hr
    simp only [Outcome.bind_eq_ok, Outcome.pure_eq, Outcome.ok.injEq] at hr
    obtain ⟨t', h1, h2⟩ := hr
    right
    exact ⟨_, by rw [← h2], by rw [← h2]; exact h1⟩) _ _ _ e1
  simp only [Nat.zero_add] at w1 w2
  subst w1
  exact grown_single hv hs ha ws' ⟨fun _ => 0, fun _ => default, ⟨default, default, default⟩, default,
    default⟩ w2 e2

end Entity.Inject
