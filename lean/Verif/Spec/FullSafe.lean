import Verif.Spec.FullStep

/-!
# What it means that a step cannot fail
-/

namespace Entity.Full

open Entity Entity.Topology Entity.Kernel Entity.FieldSolver Entity.Push Entity.Prtl Entity.Ranks
open Entity.Deposit Entity.Interp Entity.Tags Entity.Filter

variable {K : Type} [Field K] [LinearOrder K] [IsStrictOrderedRing K] [FloorRing K]

/-- No particle moves by a cell or more in a step, whatever its momentum (the Courant condition:
`dtE u` is the time step divided by the Lorentz factor, so this is `v dt < dx`). -/
def Slow (P : StepPrm K) (s : SpPrm K) : Prop :=
  ∀ u : V3 K, |u.x / P.dx * s.dtE u| < 1 ∧ |u.y / P.dx * s.dtE u| < 1 ∧ |u.z / P.dx * s.dtE u| < 1

/-- The offset of a particle in its cell. -/
def OffsetOk (v : View K) : Prop := ∀ x ∈ v.dx, 0 ≤ x ∧ x < 1

/-- The arrays of a species on all ranks have room: at most `C` slots are in use, at most `T` particles
are alive in the box, and `C + T` is less than the capacity. -/
structure Room (m : Meta) (dN : List (List Nat)) (k : Kind) (C T : Nat) (f : Nat → Store K) : Prop where
  total : (held m dN k f).length ≤ T
  le : T ≤ C
  used : ∀ r, r < m.doms.length → (f r).npart ≤ C
  cap : ∀ r, r < m.doms.length → C + T < (f r).maxnpart

/-- What must hold of the particles before a step: offsets in `[0, 1)` and room in the arrays. -/
structure Fits (m : Meta) (dN : List (List Nat)) (sps : List (SpPrm K)) (C T : Nat → Nat)
    (A : State K) : Prop where
  offsets : ∀ s sp, sps[s]? = some sp → ∀ v ∈ held m dN sp.kind (A.prtl s), OffsetOk v
  room : ∀ s sp, sps[s]? = some sp → Room m dN sp.kind (C s) (T s) (A.prtl s)

/-- No part of a step that touches particles can fail, under any schedule: the pusher, the deposit, the
exchange, the removal of dead particles and the sorting end normally — no error is raised, no array
is accessed out of bounds. -/
def StepSafe [Inhabited K] (m : Meta) (D : Nat) (P : StepPrm K) (sps : List (SpPrm K)) (x0 : List K)
    (t : Nat) (A : State K) : Prop :=
  ∀ M1, Does m D P.ng (.faraday (1 / 2 * P.correction * P.dt) P.dx P.c) A.M M1 →
    (∀ s sp, sps[s]? = some sp → ∀ r, r < m.doms.length → ∀ σ : List Nat,
      σ.Perm (List.range (A.prtl s r).npart) →
      ∃ s', pushStore P sp t (lowCorner m P.dx x0 r) (sidesOf m r) (sizes m r) (M1 r) σ
        (A.prtl s r) = .ok s') ∧
    ∀ st1, PushAll m P sps x0 t M1 A.prtl st1 →
      (∀ r, r < m.doms.length → ∃ uss,
        ((depositors P sps st1 r).filter deposits).mapM
          (fun s => depositAll P.O P.ng s.charge P.dt s.ps) = .ok uss ∧
        ∀ vs, vs.Perm uss.flatten →
          ∃ J, applyAll ((sizes m r).map (· + 2 * P.ng)) vs (fun _ _ => 0) = .ok J) ∧
      (∀ s sp, sps[s]? = some sp → ∀ S : Nat → Scheds, (∀ r, r < m.doms.length → AnyOrder (S r)) →
        ∃ l, communicateParticles m sp.kind ((List.range m.doms.length).map (st1 s)) S = .ok l) ∧
      ∀ st2, ExchangeAll m sps st1 st2 → ∀ s sp, sps[s]? = some sp → ∀ r, r < m.doms.length →
        ∀ b, Tidy sp.kind (sizes m r) (st2 s r) b →
          (∀ σ₁ σ₂ σ₃ : Sched, (∀ n, (σ₁ n).Perm (List.range n)) → (∀ n, (σ₂ n).Perm (List.range n)) →
            (∀ n, (σ₃ n).Perm (List.range n)) → ∃ c, removeDead sp.kind b σ₁ σ₂ σ₃ = .ok c) ∧
          ∀ perm, BinSortSpec ((b.arr.take b.npart).map (tileIndex sp.kind.D (sizes m r) 1)) perm →
            ∃ c, sortSpatially sp.kind.D (sizes m r) b perm = .ok c

end Entity.Full
