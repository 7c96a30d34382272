import Verif.Lemmas.FullTidy
import Verif.Props.Kernels

/-!
# Every step of the ranks is a step of the box
-/

namespace Entity.Full

open Entity Entity.Topology Entity.Kernel Entity.FieldSolver Entity.Push Entity.Prtl Entity.Ranks
open Entity.Deposit Entity.Interp Entity.Tags Entity.Decomp Entity.Gauss Entity.Dir Entity.Filter

variable {m : Meta} {dN : List (List Nat)}
variable {K : Type} [Field K] [LinearOrder K] [IsStrictOrderedRing K] [FloorRing K] [Inhabited K]

theorem prtl_step (h : Built m dN) (hp : AllPeriodic m) (hD : dN.length ∈ [1, 2, 3])
    {P : StepPrm K} (hw : Wide dN P.ng) {s : SpPrm K} (hk : s.kind.D = dN.length) {x0 : List K}
    {t : Nat} {M : MMem K} {g : GMem K} (hg : Shows m (dN.map List.sum) P.ng selEB M g)
    {f f1 f2 f3 : Nat → Store K} (ht : ∀ r, r < m.doms.length → Tame m s.kind r (f r))
    (h1 : ∀ r, r < m.doms.length → ∃ σ : List Nat, σ.Perm (List.range (f r).npart) ∧
      pushStore P s t (lowCorner m P.dx x0 r) (sidesOf m r) (sizes m r) (M r) σ (f r) = .ok (f1 r))
    {S : Nat → Scheds} {l : List (Store K)} (hS : ∀ r, r < m.doms.length → AnyOrder (S r))
    (hrun : communicateParticles m s.kind ((List.range m.doms.length).map f1) S = .ok l)
    (hl : ∀ r, r < m.doms.length → l[r]? = some (f2 r))
    (h3 : ∀ r, r < m.doms.length → Tidy s.kind (sizes m r) (f2 r) (f3 r)) :
    (∀ r, r < m.doms.length → Tame m s.kind r (f3 r)) ∧
    (held m dN s.kind f3).Perm
      ((held m dN s.kind f).map (boxPush P s x0 t (dN.map List.sum) g)) := by
  have k1 : 1 ≤ s.kind.D := by rw [hk]; simp at hD; omega
  have k3 : s.kind.D ≤ 3 := by rw [hk]; simp at hD; omega
  have hpush : ∀ r, r < m.doms.length → Pushed m s.kind r (f1 r) ∧
      (moving (f1 r)).map (gview m dN r s.kind) =
        ((f r).live.map (gview m dN r s.kind)).map (boxPush P s x0 t (dN.map List.sum) g) := by
    intro r hr
    obtain ⟨σ, hσ, e⟩ := h1 r hr
    obtain ⟨a, b, -⟩ := push_rank h hp hD hk hr hg hσ (ht r hr) e
    exact ⟨a, b⟩
  obtain ⟨e1, e2, -⟩ := exch_species h hp hD (fun l hl x hx => (hw l hl x hx).1) hk
    (fun r hr => (hpush r hr).1) hS hrun hl
  obtain ⟨e3, e4⟩ := tidy_held (dN := dN) k1 k3 e1 h3
  refine ⟨e3, e4.trans (e2.trans (.of_eq ?_))⟩
  unfold held
  rw [List.map_flatMap]
  apply flatMap_congr'
  intro r hr
  exact (hpush r (List.mem_range.1 hr)).2

theorem full_step (h : Built m dN) (hp : AllPeriodic m) (hD : dN.length ∈ [1, 2, 3])
    {P : StepPrm K} (hng : 2 ≤ P.ng) (hw : Wide dN P.ng) {sps : List (SpPrm K)}
    (hk : ∀ s ∈ sps, s.kind.D = dN.length) {x0 : List K} {t : Nat} {A A' : State K} {B : Box K}
    (hB : Holds m dN P sps A B) (hs : FullStep m dN.length P sps x0 t A A') :
    Holds m dN P sps A' (boxStep P sps x0 t (dN.map List.sum) B) := by
  obtain ⟨M1, M2, M3, st1, st2, s1, s2, s3, s4, s5, s6, s7⟩ := hs
  obtain ⟨M1', hl1, hc1⟩ := s1
  have g1 := kernel_comm_shows h hp hD hw (faraday_own hD _ _ _) (faraday_reach hD hng _ _ _)
    (faraday_sel hD _ _ _) hB.fields hl1 hc1
  have g2 := phase_box h hp hD (by omega) hw hk g1 hB.tame s2 s3 hB.prtl
  have g3 := does_shows h hp hD hng hw g2 s5
  have g4 := does_shows h hp hD hng hw g3 s6
  have hl : (dN.map List.sum).length = dN.length := by simp
  have key : ∀ s sp, sps[s]? = some sp → (∀ r, r < m.doms.length → Tame m sp.kind r (A'.prtl s r)) ∧
      (held m dN sp.kind (A'.prtl s)).Perm ((held m dN sp.kind (A.prtl s)).map
        (boxPush P sp x0 t (dN.map List.sum) (opG dN.length (dN.map List.sum)
          (.faraday (1 / 2 * P.correction * P.dt) P.dx P.c) B.g))) := by
    intro s sp hsp
    obtain ⟨S, l, c1, c2, c3⟩ := s4 s sp hsp
    exact prtl_step h hp hD hw (hk sp (List.mem_of_getElem? hsp)) g1 (hB.tame s sp hsp)
      (s2 s sp hsp) c1 c2 c3 (s7 s sp hsp)
  refine ⟨?_, fun s sp hsp => ?_, fun s sp hsp => (key s sp hsp).1⟩
  · unfold boxStep
    simp only [hl]
    exact shows_mono g4 fun a c hs => by simp only [selEB] at hs; simp [selAll, hs]
  · unfold boxStep
    simp only [hl, hsp]
    exact (key s sp hsp).2.trans ((hB.prtl s sp hsp).map _)

theorem full_run (h : Built m dN) (hp : AllPeriodic m) (hD : dN.length ∈ [1, 2, 3])
    {P : StepPrm K} (hng : 2 ≤ P.ng) (hw : Wide dN P.ng) {sps : List (SpPrm K)}
    (hk : ∀ s ∈ sps, s.kind.D = dN.length) {x0 : List K} {n : Nat} {A A' : State K} {B : Box K}
    (h1 : ShowsActive m (dN.map List.sum) P.ng selEB A.M B.g)
    (h2 : ∀ s sp, sps[s]? = some sp → (held m dN sp.kind (A.prtl s)).Perm (B.prtl s))
    (h3 : AllTame m sps A.prtl) (hr : Run m dN.length P sps x0 n A A') :
    Holds m dN P sps A' (boxRun P sps x0 (dN.map List.sum) n B) := by
  have l1 : 1 ≤ dN.length := by simp at hD; omega
  have l3 : dN.length ≤ 3 := by simp at hD; omega
  induction hr with
  | start hc => exact ⟨shows_of_comm h hp l1 l3 hw hc (fun _ _ h => h) h1, h2, h3⟩
  | step _ hs ih => exact full_step h hp hD hng hw hk (ih h1 h2 h3) hs

end Entity.Full
