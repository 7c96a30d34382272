import Verif.Model.Resume
import Verif.Lemmas.FullMain
import Verif.Props.Output
import Verif.Props.PrtlIO

/-! # Lemmas for C137 -/

namespace Entity.Resume

open Entity Entity.Topology Entity.Push Entity.Prtl Entity.Ranks Entity.Full Entity.Outcome
open Entity.Decomp Entity.PrtlIO Entity.FieldSolver
open Entity.Kernel hiding State

section
variable {K : Type} [Zero K]

theorem range_getD {α : Type} (d : α) (l : List α) {n : Nat} (h : l.length = n) :
    (List.range n).map (fun (q : Nat) => l.getD q d) = l := by
  subst h
  apply List.ext_getElem
  · simp
  · intro i h1 h2
    simp [List.getD_eq_getElem?_getD, List.getElem?_eq_getElem h2]

/-- A particle read back looks as before. -/
theorem record_view {k : Kind} (h1 : 1 ≤ k.D) (h3 : k.D ≤ 3) {ctr : Nat} {s : Store K} {b : Pop (Val K)}
    (hb : Restored (cfgOf k) (popOf ctr s) b) {p : Nat} (hp : p < s.npart) {q : Prtl K}
    (hq : s.arr[p]? = some q) (hl : PldOk k q) :
    k.view (recordOf k b p) = k.view q ∧ (recordOf k b p).tag = q.tag ∧ PldOk k (recordOf k b p) := by
  obtain ⟨-, -, hg⟩ := hb
  have g : ∀ x, Used (cfgOf k) x → ∀ j, j < width (cfgOf k) x → b.arr x p j = entry x j q := by
    intro x hx j hj
    rw [hg x hx p hp j hj]
    simp only [popOf, hq]
  have gi : ∀ d, 1 ≤ d → d ≤ k.D → b.arr (.i d) p 0 = entry (.i d) 0 q :=
    fun d a c => g (.i d) ⟨a, c⟩ 0 (by simp [width])
  have gip : ∀ d, 1 ≤ d → d ≤ k.D → b.arr (.iPrev d) p 0 = entry (.iPrev d) 0 q :=
    fun d a c => g (.iPrev d) ⟨a, c⟩ 0 (by simp [width])
  have gd : ∀ d, 1 ≤ d → d ≤ k.D → b.arr (.dx d) p 0 = entry (.dx d) 0 q :=
    fun d a c => g (.dx d) ⟨a, c⟩ 0 (by simp [width])
  have gdp : ∀ d, 1 ≤ d → d ≤ k.D → b.arr (.dxPrev d) p 0 = entry (.dxPrev d) 0 q :=
    fun d a c => g (.dxPrev d) ⟨a, c⟩ 0 (by simp [width])
  have u1 := g (.ux 1) ⟨by omega, by omega⟩ 0 (by simp [width])
  have u2 := g (.ux 2) ⟨by omega, by omega⟩ 0 (by simp [width])
  have u3 := g (.ux 3) ⟨by omega, by omega⟩ 0 (by simp [width])
  have ht := g .tag trivial 0 (by simp [width])
  have hw := g .weight trivial 0 (by simp [width])
  have hr : (List.range k.npldr).map (fun (j : Nat) => (b.arr .pldR p j).toNum) = q.pld_r := by
    rw [← range_getD 0 q.pld_r hl.1]
    apply List.map_congr_left
    intro j hj
    rw [g .pldR trivial j (by simpa [width, cfgOf] using hj)]
    rfl
  have hi : (List.range k.npldi).map (fun (j : Nat) => (b.arr .pldI p j).toInt.toNat) = q.pld_i := by
    rw [← range_getD 0 q.pld_i hl.2]
    apply List.map_congr_left
    intro j hj
    rw [g .pldI trivial j (by simpa [width, cfgOf] using hj)]
    simp [entry, Val.toInt]
  refine ⟨?_, by simp only [recordOf, ht]; rfl, by simp only [PldOk, recordOf, hr, hi]; exact hl⟩
  have hphi : (if k.D = 2 ∧ k.curv = true then some (b.arr .phi p 0).toNum else none) =
      if k.D = 2 ∧ k.curv = true then some q.phi else none := by
    split
    · next h =>
      rw [g .phi ⟨h.1, by simp [cfgOf, h.2]⟩ 0 (by simp [width])]
      rfl
    · rfl
  have hD : k.D = 1 ∨ k.D = 2 ∨ k.D = 3 := by omega
  unfold Kind.view
  simp only [recordOf, hr, hi, u1, u2, u3, hw, hphi]
  rcases hD with hD | hD | hD
  · simp [hD, gi 1 (by omega) (by omega), gip 1 (by omega) (by omega), gd 1 (by omega) (by omega),
      gdp 1 (by omega) (by omega), entry, Val.toInt, Val.toNum]
  · simp [hD, gi 1 (by omega) (by omega), gip 1 (by omega) (by omega), gd 1 (by omega) (by omega),
      gdp 1 (by omega) (by omega), gi 2 (by omega) (by omega), gip 2 (by omega) (by omega),
      gd 2 (by omega) (by omega), gdp 2 (by omega) (by omega), entry, Val.toInt, Val.toNum]
  · simp [hD, gi 1 (by omega) (by omega), gip 1 (by omega) (by omega), gd 1 (by omega) (by omega),
      gdp 1 (by omega) (by omega), gi 2 (by omega) (by omega), gip 2 (by omega) (by omega),
      gd 2 (by omega) (by omega), gdp 2 (by omega) (by omega), gi 3 (by omega) (by omega),
      gip 3 (by omega) (by omega), gd 3 (by omega) (by omega), gdp 3 (by omega) (by omega), entry,
      Val.toInt, Val.toNum]

theorem used_storeOf (k : Kind) {b : Pop (Val K)} (h : b.npart ≤ b.maxnpart) :
    (storeOf k b).used = (List.range b.npart).map (recordOf k b) := by
  unfold Store.used storeOf
  rw [← List.map_take, List.take_range, Nat.min_eq_left h]

theorem used_range {s : Store K} (h : s.npart ≤ s.maxnpart) (k : Kind) (b : Pop (Val K))
    (H : ∀ p q, p < s.npart → s.arr[p]? = some q →
      k.view (recordOf k b p) = k.view q ∧ (recordOf k b p).tag = q.tag) :
    ((List.range s.npart).map (recordOf k b)).map (fun q => (k.view q, q.tag)) =
      s.used.map (fun q => (k.view q, q.tag)) := by
  have hm : s.npart ≤ s.arr.length := h
  apply List.ext_getElem
  · simp [Store.used]; omega
  · intro i h1 h2
    have hi : i < s.npart := by simpa using h1
    have e : s.arr[i]? = some s.arr[i] := List.getElem?_eq_getElem (by omega)
    obtain ⟨a, c⟩ := H i _ hi e
    simp [Store.used, a, c]

theorem live_map {k : Kind} {l l' : List (Prtl K)}
    (h : l.map (fun q => (k.view q, q.tag)) = l'.map (fun q => (k.view q, q.tag))) :
    (l.filter (fun q => decide (q.tag = 1))).map k.view =
      (l'.filter (fun q => decide (q.tag = 1))).map k.view := by
  have e : ∀ l : List (Prtl K), (l.filter (fun q => decide (q.tag = 1))).map k.view =
      ((l.map (fun q => (k.view q, q.tag))).filter (fun x => decide (x.2 = 1))).map (·.1) := by
    intro l
    rw [List.filter_map, List.map_map]
    rfl
  rw [e, e, h]

/-- A species read back: the same particles, in the same order, and consistent arrays. -/
theorem store_back {m : Meta} {k : Kind} (h1 : 1 ≤ k.D) (h3 : k.D ≤ 3) {r ctr : Nat} {s : Store K}
    (ht : Tame m k r s) {b : Pop (Val K)} (hb : Restored (cfgOf k) (popOf ctr s) b)
    (hc : b.npart ≤ b.maxnpart) :
    (storeOf k b).live.map k.view = s.live.map k.view ∧ Tame m k r (storeOf k b) ∧
    (storeOf k b).npart = s.npart ∧ (storeOf k b).maxnpart = b.maxnpart := by
  have hn : b.npart = s.npart := hb.1
  have hm : s.npart ≤ s.arr.length := ht.npart
  have H : ∀ p q, p < s.npart → s.arr[p]? = some q →
      k.view (recordOf k b p) = k.view q ∧ (recordOf k b p).tag = q.tag := fun p q hp hq =>
    let x := record_view h1 h3 hb hp hq (ht.payload q (List.mem_of_getElem? hq))
    ⟨x.1, x.2.1⟩
  have hu := used_storeOf k hc
  have hM := used_range ht.npart k b H
  rw [hn] at hu
  rw [← hu] at hM
  have hlive : (storeOf k b).live.map k.view = s.live.map k.view := live_map hM
  refine ⟨hlive, ⟨by simpa [storeOf, Store.maxnpart] using hc, ?_, ?_, ?_⟩, hn,
    by simp [storeOf, Store.maxnpart]⟩
  · intro q hq
    have : (k.view q, q.tag) ∈ s.used.map (fun q => (k.view q, q.tag)) := by
      rw [← hM]
      exact List.mem_map_of_mem hq
    obtain ⟨q', hq', e⟩ := List.mem_map.1 this
    have := ht.tags q' hq'
    simp only [Prod.mk.injEq] at e
    rwa [e.2] at this
  · intro q hq a ha
    have : k.view q ∈ s.live.map k.view := by
      rw [← hlive]
      exact List.mem_map_of_mem hq
    obtain ⟨q', hq', e⟩ := List.mem_map.1 this
    rw [← e]
    exact ht.inside q' hq' a ha
  · intro q hq
    simp only [storeOf, List.mem_map, List.mem_range] at hq
    obtain ⟨p, -, rfl⟩ := hq
    simp [PldOk, recordOf]
end

theorem index_eq {m : Meta} {dN : List (List Nat)} (h : Built m dN) {r : Nat} {s : Subdomain}
    (hs : m.doms[r]? = some s) : s.index = r := by
  obtain ⟨p, ⟨t, ht, e, -⟩, -⟩ := h.at_of_lt (List.getElem?_eq_some_iff.1 hs).1
  rw [hs] at ht
  cases ht
  exact e

/-- `checkpointRead` succeeds only into an empty species with enough room. -/
theorem read_room {V : Type} {l : Layout} {c : Cfg} {sp nr r : Nat} {f : PrtlIO.File V} {fresh b : Pop V}
    (h : checkpointRead l c sp nr f r fresh = .ok b) :
    fresh.npart = 0 ∧ b.npart ≤ fresh.maxnpart ∧ b.maxnpart = fresh.maxnpart := by
  unfold checkpointRead at h
  split at h
  · cases h
  next h0 =>
    obtain ⟨n, -, h⟩ := bind_eq_ok.1 h
    simp only at h
    split at h
    · cases h
    next h1 =>
      obtain ⟨_, _, h⟩ := bind_eq_ok.1 h
      obtain ⟨_, _, h⟩ := bind_eq_ok.1 h
      obtain ⟨_, _, h⟩ := bind_eq_ok.1 h
      cases h
      exact ⟨by omega, by simp; omega, rfl⟩

section
variable {K : Type} [Field K] [LinearOrder K] [IsStrictOrderedRing K] [FloorRing K]
variable {m : Meta} {dN : List (List Nat)}

theorem dimOk {sps : List (SpPrm K)} {D : Nat} (hD : D ∈ [1, 2, 3]) (hk : ∀ s ∈ sps, s.kind.D = D) :
    DimOk (sps.map fun sp => cfgOf sp.kind) := by
  intro c hc
  obtain ⟨sp, hs, rfl⟩ := List.mem_map.1 hc
  have := hk sp hs
  simp only [List.mem_cons, List.not_mem_nil, or_false] at hD
  simp only [cfgOf]
  omega

/-- What was read is what was written. -/
theorem read_written (h : Built m dN) (hD : dN.length ∈ [1, 2, 3]) {ng : Nat} {sps : List (SpPrm K)}
    (hk : ∀ s ∈ sps, s.kind.D = dN.length) {l : Layout} {A R : State K}
    {em : Output.File (Fin 6 → K)} {pf : PrtlIO.File (Val K)} (ht : AllTame m sps A.prtl)
    (hw : Written m ng sps l A em pf) (hr : Read m ng sps l em pf R) :
    (∀ r i, InArray m ng r i → ∀ c < 6, R.M r ⟨0, c, i⟩ = A.M r ⟨0, c, i⟩) ∧
    (∀ s sp, sps[s]? = some sp → ∀ r, r < m.doms.length →
      (R.prtl s r).live.map sp.kind.view = (A.prtl s r).live.map sp.kind.view ∧
      Tame m sp.kind r (R.prtl s r) ∧ (R.prtl s r).npart = (A.prtl s r).npart) := by
  obtain ⟨⟨order, ho, rfl⟩, ⟨order', ctr, ho', hpf⟩⟩ := hw
  refine ⟨?_, ?_⟩
  · rintro r i ⟨s, hs, hi⟩ c hc
    have hs' := List.mem_of_getElem? hs
    have hidx := index_eq h hs
    obtain ⟨j, rfl, hj⟩ : ∃ j : List Nat, i = j.map Int.ofNat ∧
        List.Forall₂ (fun x n => x < n + 2 * ng) j s.ncells := by
      clear hs hs' hidx
      generalize s.ncells = ns at hi ⊢
      induction hi with
      | nil => exact ⟨[], rfl, .nil⟩
      | @cons n x ns xs h1 _ ih =>
        obtain ⟨j, e, hj⟩ := ih
        exact ⟨x.toNat :: j, by simp [e, h1.1], .cons (by omega) hj⟩
    have g1 := hr.fields s hs' j hj
    have hj' : InGrid j (s.ncells.map (· + 2 * ng)) := by
      unfold InGrid
      rw [List.forall₂_map_right_iff]
      exact hj
    rw [Output.C41_round_trip dN h.ne ng h.doms (emOf A.M) order ho hs' j hj'] at g1
    have := congrFun (Option.some.inj g1) ⟨c, hc⟩
    simp only [emOf, hidx] at this
    exact this.symm
  · intro s sp e r hr'
    have hD1 : 1 ≤ sp.kind.D ∧ sp.kind.D ≤ 3 := by
      have := hk sp (List.mem_of_getElem? e)
      simp only [List.mem_cons, List.not_mem_nil, or_false] at hD
      omega
    obtain ⟨fresh, b, hb, hR⟩ := hr.prtl s sp e r hr'
    obtain ⟨r0, r1, r2⟩ := read_room hb
    obtain ⟨f, hf, hall⟩ := C43_round_trip_partial l (sps.map fun sp => cfgOf sp.kind) (dimOk hD hk)
      m.doms.length (fun r k => popOf (ctr k r) (A.prtl k r)) order' ho'
    rw [hpf] at hf
    cases hf
    have hcap : (A.prtl s r).npart ≤ fresh.maxnpart := by
      obtain ⟨b', hb', hres'⟩ := hall r s (cfgOf sp.kind) hr' (by simp [e])
        { fresh with maxnpart := fresh.maxnpart + (A.prtl s r).npart } r0
        (Nat.le_add_left _ _)
      by_contra hlt
      -- the number read does not depend on the room
      unfold checkpointRead at hb hb'
      rw [if_neg (by omega)] at hb
      rw [if_neg (by simp; omega)] at hb'
      obtain ⟨n, hn, hb⟩ := bind_eq_ok.1 hb
      rw [hn] at hb'
      simp only [bind_ok] at hb hb'
      split at hb
      · cases hb
      next hn1 =>
        split at hb'
        · cases hb'
        next hn2 =>
          obtain ⟨_, _, hb'⟩ := bind_eq_ok.1 hb'
          obtain ⟨_, _, hb'⟩ := bind_eq_ok.1 hb'
          obtain ⟨_, _, hb'⟩ := bind_eq_ok.1 hb'
          cases hb'
          have : n = (A.prtl s r).npart := hres'.1
          omega
    obtain ⟨b', hb', hres⟩ := hall r s (cfgOf sp.kind) hr' (by simp [e]) fresh r0 hcap
    rw [hb] at hb'
    cases hb'
    obtain ⟨a1, a2, a3, -⟩ := store_back hD1.1 hD1.2 (ht s sp e r hr') hres (by omega)
    rw [hR]
    exact ⟨a1, a2, a3⟩

theorem held_of_live {k : Kind} {f g : Nat → Store K}
    (h : ∀ r, r < m.doms.length → (f r).live.map k.view = (g r).live.map k.view) :
    held m dN k f = held m dN k g := by
  unfold held
  apply flatMap_congr'
  intro r hr
  have e : ∀ s : Store K, s.live.map (gview m dN r k) = (s.live.map k.view).map (fun v =>
      { v with cell := globalCells m dN r v.cell, cellPrev := globalCells m dN r v.cellPrev }) := by
    intro s
    rw [List.map_map]
    rfl
  rw [e, e, h r (List.mem_range.1 hr)]

variable [Inhabited K]

/-- A session holds the same box as an uninterrupted run. -/
theorem session_holds (h : Built m dN) (hp : AllPeriodic m) (hD : dN.length ∈ [1, 2, 3])
    {P : StepPrm K} (hng : 2 ≤ P.ng) (hw : Wide dN P.ng) {sps : List (SpPrm K)}
    (hk : ∀ s ∈ sps, s.kind.D = dN.length) {x0 : List K} {n : Nat} {A A' : State K} {B : Box K}
    (h1 : ShowsActive m (dN.map List.sum) P.ng selEB A.M B.g)
    (h2 : ∀ s sp, sps[s]? = some sp → (held m dN sp.kind (A.prtl s)).Perm (B.prtl s))
    (h3 : AllTame m sps A.prtl) {cap : Nat → Nat → Nat} (hr : Session m dN.length P sps x0 cap n A A') :
    Holds m dN P sps A' (boxRun P sps x0 (dN.map List.sum) n B) := by
  have l1 : 1 ≤ dN.length := by simp at hD; omega
  have l3 : dN.length ≤ 3 := by simp at hD; omega
  induction hr with
  | start hc => exact ⟨shows_of_comm h hp l1 l3 hw hc (fun _ _ h => h) h1, h2, h3⟩
  | step _ hs ih => exact full_step h hp hD hng hw hk (ih h1 h2 h3) hs
  | resume _ _ hW hR _ ih =>
    have hB := ih h1 h2 h3
    obtain ⟨hf, hq⟩ := read_written h hD hk hB.tame hW hR
    refine ⟨?_, ?_, fun s sp e r hr => (hq s sp e r hr).2.1⟩
    · intro a c hs r i p hi hip
      have : a = 0 ∧ c < 6 := by
        simp only [selEB, selE, selB, Bool.or_eq_true, Bool.and_eq_true, beq_iff_eq,
          decide_eq_true_eq] at hs
        omega
      obtain ⟨rfl, hc⟩ := this
      rw [hf r i hi c hc]
      exact hB.fields 0 c hs r i p hi hip
    · intro s sp e
      rw [held_of_live (fun r hr => (hq s sp e r hr).1)]
      exact hB.prtl s sp e

/-- A checkpoint can always be written, and read into any arrays with enough room. -/
theorem exists_resume (h : Built m dN) (hD : dN.length ∈ [1, 2, 3]) (ng : Nat) {sps : List (SpPrm K)}
    (hk : ∀ s ∈ sps, s.kind.D = dN.length) (l : Layout) {A : State K} (cap : Nat → Nat → Nat)
    (hcap : ∀ s sp, sps[s]? = some sp → ∀ r, r < m.doms.length → (A.prtl s r).npart ≤ cap s r) :
    ∃ em pf R, Written m ng sps l A em pf ∧ Read m ng sps l em pf R ∧
      ∀ s sp, sps[s]? = some sp → ∀ r, r < m.doms.length → (R.prtl s r).maxnpart = cap s r := by
  obtain ⟨pf, hpf, hall⟩ := C43_round_trip_partial l (sps.map fun sp => cfgOf sp.kind) (dimOk hD hk)
    m.doms.length (fun r k => popOf 0 (A.prtl k r)) (List.range m.doms.length) (by simp)
  have key : ∀ k r, ∃ st : Store K, ∀ sp, sps[k]? = some sp → r < m.doms.length → ∃ fresh b,
      checkpointRead l (cfgOf sp.kind) (k + 1) m.doms.length pf r fresh = .ok b ∧
      st = storeOf sp.kind b ∧ b.maxnpart = cap k r := by
    intro k r
    by_cases hr : r < m.doms.length
    · cases e : sps[k]? with
      | none => exact ⟨⟨[], 0⟩, fun sp e' => by cases e'⟩
      | some sp =>
        obtain ⟨b, hb, -⟩ := hall r k (cfgOf sp.kind) hr (by simp [e])
          ⟨0, 0, cap k r, fun _ _ _ => .int 0⟩ rfl (hcap k sp e r hr)
        refine ⟨storeOf sp.kind b, fun sp' e' _ => ?_⟩
        cases e'
        exact ⟨_, b, hb, rfl, (read_room hb).2.2⟩
    · exact ⟨⟨[], 0⟩, fun sp _ hr' => absurd hr' hr⟩
  choose st hst using key
  refine ⟨Output.writeAll ng (emOf A.M) m.doms, pf, ⟨A.M, st⟩,
    ⟨⟨m.doms, fun _ => Iff.rfl, rfl⟩, ⟨List.range m.doms.length, fun _ _ => 0, by simp, hpf⟩⟩,
    ⟨fun s hs i hi => ?_, fun k sp e r hr => ?_⟩, fun k sp e r hr => ?_⟩
  · refine Output.C41_round_trip dN h.ne ng h.doms (emOf A.M) m.doms (fun _ => Iff.rfl) hs i ?_
    unfold InGrid
    rw [List.forall₂_map_right_iff]
    exact hi
  · obtain ⟨fresh, b, h1, h2, -⟩ := hst k r sp e hr
    exact ⟨fresh, b, h1, h2⟩
  · obtain ⟨fresh, b, -, h2, h3⟩ := hst k r sp e hr
    simp only [h2]
    simpa [storeOf, Store.maxnpart] using h3
end

end Entity.Resume
