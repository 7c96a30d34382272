import Verif.Spec.PrtlPhys
import Verif.Props.PrtlIO
import Verif.Props.Metric
import Verif.Props.MetricAlgebra
import Verif.Lemmas.MetricDeriv

/-!
# Lemmas for C144
-/

namespace Entity.PrtlPhys

open Entity Entity.Outcome Entity.Metric Entity.PrtlIO
open Entity.Push (V3)
open Real

/-! ## Metrics of subdomains -/

theorem Grid.stretch {k : Kind} {q : MetPrm} {e : Fin 3 → Ext} (h : Grid k q e)
    (hk : k = .qsph ∨ k = .qks) : Stretch q.ε q.h := by
  rcases (h.stretched hk).1 with h1 | ⟨h1, h2⟩
  · exact .inl h1
  · by_cases hh : |q.h| ≤ q.ε
    · exact .inl hh
    · exact .inr ⟨h1, h2, by linarith⟩

theorem dtheta_ne {ε h : ℝ} (hs : Stretch ε h) (η : ℝ) : dthetaDeta ε h η ≠ 0 := by
  unfold dthetaDeta
  rcases hs with hs | ⟨h0, h1, h2⟩
  · rw [if_pos hs]; norm_num
  · rw [if_neg (not_le.2 h2)]
    have : 0 < 1 + 2 * h + 12 * h * (η * (1 / π)) * (η * (1 / π) - 1) := by
      nlinarith [mul_nonneg h0.le (sq_nonneg (2 * (η * (1 / π)) - 1))]
    exact this.ne'

theorem qsph_fields {ε r0 h : ℝ} {e1 e2 : Ext} {m : QSph} (hm : QSph.make ε r0 h e1 e2 = some m) :
    m.ε = ε ∧ m.h = h ∧ m.r0 = r0 := by
  unfold QSph.make at hm
  simp only [Option.bind_eq_bind, Option.bind_eq_some_iff, Option.some.injEq] at hm
  obtain ⟨_, -, _, -, _, -, _, -, rfl⟩ := hm
  exact ⟨rfl, rfl, rfl⟩

theorem qsph_local {k : Kind} {q : MetPrm} {e : Fin 3 → Ext} (h : Grid k q e) (hk : k = .qsph ∨ k = .qks)
    {G l : QSph} (hG : QSph.make q.ε q.r0 q.h (e 0) (e 1) = some G) {off nc : Fin 3 → Nat}
    (hc : ∀ d, 0 < nc d)
    (hl : QSph.make q.ε q.r0 q.h (localExt G.toPh1 (off 0) (nc 0)) (localExt G.toPh2 (off 1) (nc 1)) =
      some l) :
    (∀ x, l.toPh1 x = G.toPh1 (off 0 + x)) ∧ (∀ x, l.toPh2 x = G.toPh2 (off 1 + x)) ∧
    l.dchi ≠ 0 ∧ l.deta ≠ 0 ∧ ∀ η, dthetaDeta l.ε l.h η ≠ 0 := by
  have hs := h.stretch hk
  obtain ⟨g', l', h1, h2, h3, h4, h5, h6, -, h7, h8⟩ := C62_qspherical_partial q.ε q.r0 q.h hs (e 0) (e 1)
    (h.cells 0) (h.cells 1) (h.stretched hk).2 (h.size 0) (h.size 1) (off 0) (nc 0) (off 1) (nc 1) (hc 0) (hc 1)
  rw [hG] at h1
  obtain rfl := Option.some.inj h1
  rw [hl] at h2
  obtain rfl := Option.some.inj h2
  refine ⟨h7.ph_eq, h8.ph_eq, ?_, ?_, fun η => ?_⟩
  · rw [h5]
    intro h0
    have := (h3.cd_ph 1).2
    simp only [QSph.toCd1, Option.map_eq_some_iff, h0] at this
    obtain ⟨_, _, h⟩ := this
    norm_num at h
  · rw [h6]
    intro h0
    have := (h4.cd_ph 1).2
    simp only [QSph.toCd2, Option.map_eq_some_iff, h0] at this
    obtain ⟨_, _, h⟩ := this
    norm_num at h
  · obtain ⟨he, hh, -⟩ := qsph_fields hl
    rw [he, hh]
    exact dtheta_ne hs η

/-- The metric of a subdomain: conversions are shifted, and velocities meet the specification with the
metric of the subdomain itself. -/
structure LocalOf (G l : Met) (off : Fin 3 → Nat) : Prop where
  dim : l.dim = G.dim
  cart : l.cartesian = G.cartesian
  shift : ∀ d : Fin 3, (d.val < 2 ∨ G.cartesian = true) → ∀ x, l.toPh d x = G.toPh d (off d + x)
  kind : ∀ (a : Arrays) (p : Nat), ∃ u, bufferU l a p = .ok u ∧ Velocity G off a p u

theorem deriv_shift {f g : ℝ → ℝ} {c J x : ℝ} (h : ∀ x, g x = f (c + x)) (hg : HasDerivAt g J x) :
    HasDerivAt f J (c + x) := by
  have e : f = fun y => g (y - c) := by funext y; rw [h]; congr 1; ring
  rw [e]
  have h1 : HasDerivAt (fun y : ℝ => y - c) 1 (c + x) := (hasDerivAt_id _).sub_const c
  have := HasDerivAt.comp (c + x) (h₂ := g) (h := fun y : ℝ => y - c) (by simpa using hg) h1
  simpa [Function.comp_def] using this

theorem qtoPh1_d (m : QSph) (x : ℝ) : HasDerivAt m.toPh1 (exp (x * m.dchi + m.chiMin) * m.dchi) x := by
  unfold QSph.toPh1
  exact ((lin_deriv m.dchi m.chiMin x).exp).const_add m.r0

theorem qtoPh2_d (m : QSph) (x : ℝ) :
    HasDerivAt m.toPh2 (dthetaDeta m.ε m.h (x * m.deta + m.etaMin) * m.deta) x :=
  HasDerivAt.comp x (h₂ := eta2theta m.ε m.h) (h := fun x => x * m.deta + m.etaMin)
    (eta2theta_d m.ε m.h _) (lin_deriv m.deta m.etaMin x)

theorem tetrad_basis (t p : ℝ) (v : V3 ℝ) :
    let u := xyzToTetrad t p v
    u.x * (eR t p).x + u.y * (eT t p).x + u.z * (eP t p).x = v.x ∧
    u.x * (eR t p).y + u.y * (eT t p).y + u.z * (eP t p).y = v.y ∧
    u.x * (eR t p).z + u.y * (eT t p).z + u.z * (eP t p).z = v.z := by
  have ht := cos_sq_eq t
  have hp := cos_sq_eq p
  refine ⟨?_, ?_, ?_⟩ <;> simp only [xyzToTetrad, eR, eT, eP] <;> ring_nf <;> simp only [ht, hp] <;> ring

theorem cancel (u : ℝ) {J J' : ℝ} (h : J' = J) (hJ : J ≠ 0) : u * (1 / J') * J = u := by
  rw [h]; field_simp

theorem ofOption_ok {α : Type} {o : Option α} {x : α} (h : ofOption o = .ok x) : o = some x := by
  cases o with
  | none => cases h
  | some y => cases h; rfl

theorem qks_qsph {ε a r0 h : ℝ} {e1 e2 : Ext} {m : QKS} (hm : QKS.make ε a r0 h e1 e2 = some m) :
    QSph.make ε r0 h e1 e2 = some m.toQSph := by
  unfold QKS.make at hm
  obtain ⟨x, hx, rfl⟩ := Option.map_eq_some_iff.1 hm
  exact hx

theorem localOf {k : Kind} {q : MetPrm} {e : Fin 3 → Ext} (h : Grid k q e) {G l : Met}
    (hG : Met.make k q e = .ok G) {off nc : Fin 3 → Nat} (hc : ∀ d, 0 < nc d)
    (hl : Met.make k q (fun d => localExt (G.toPh d) (off d) (nc d)) = .ok l) : LocalOf G l off := by
  cases k with
  | mink D =>
    simp only [Met.make, Outcome.bind_eq_ok] at hG
    obtain ⟨g, hg, hG⟩ := hG
    cases hG
    simp only [Met.make, Outcome.bind_eq_ok, Met.toPh] at hl
    obtain ⟨l', hl', hl⟩ := hl
    cases hl
    obtain ⟨l2, h2, -, h3⟩ := C62_minkowski_local D q.ε h.tol e g hg (h.cells 0) (h.size 0) off nc hc
    have h2 := hl'.symm.trans h2
    cases h2
    refine ⟨rfl, rfl, fun d _ x => (h3 d).ph_eq x, fun a p => ⟨⟨a.ux 0 p, a.ux 1 p, a.ux 2 p⟩, ?_, rfl⟩⟩
    simp [bufferU, Mink.transform]
  | sph =>
    simp only [Met.make] at hG hl
    cases hG
    cases hl
    obtain ⟨-, -, -, -, -, h1, h2⟩ := C62_spherical (e 0) (e 1) (h.cells 0) (h.cells 1) (h.size 0) (h.size 1)
      (off 0) (nc 0) (off 1) (nc 1) (hc 0) (hc 1)
    refine ⟨rfl, rfl, ?_, fun a p => ⟨_, congrArg (fun t => Outcome.ok (xyzToTetrad t (a.phi p)
      ⟨a.ux 0 p, a.ux 1 p, a.ux 2 p⟩)) (h2.ph_eq (a.code 1 p)), ?_⟩⟩
    · intro d hd x
      fin_cases d
      · exact h1.ph_eq x
      · exact h2.ph_eq x
      · simp [Met.cartesian] at hd
    · have := tetrad_basis (Sph.toPh2 (Sph.make (e 0) (e 1)) (off 1 + (a.i 1 p + a.dx 1 p))) (a.phi p)
        ⟨a.ux 0 p, a.ux 1 p, a.ux 2 p⟩
      simp only [Velocity, position, Met.cartesian, and_true, Fin.isValue, if_true,
        show ((1 : Fin 3) = 2) = False by simp, if_false]
      exact this
  | qsph =>
    simp only [Met.make, Outcome.bind_eq_ok] at hG
    obtain ⟨g, hg, hG⟩ := hG
    cases hG
    simp only [Met.make, Outcome.bind_eq_ok, Met.toPh] at hl
    obtain ⟨l', hl', hl⟩ := hl
    cases hl
    have hg' : QSph.make q.ε q.r0 q.h (e 0) (e 1) = some g := ofOption_ok hg
    have hl'' : QSph.make q.ε q.r0 q.h (localExt g.toPh1 (off 0) (nc 0)) (localExt g.toPh2 (off 1) (nc 1)) =
        some l' := ofOption_ok hl'
    obtain ⟨h1, h2, -⟩ := qsph_local h (.inl rfl) hg' hc hl''
    refine ⟨rfl, rfl, ?_, fun a p => ⟨_, congrArg (fun t => Outcome.ok (xyzToTetrad t (a.phi p)
      ⟨a.ux 0 p, a.ux 1 p, a.ux 2 p⟩)) (h2 (a.code 1 p)), ?_⟩⟩
    · intro d hd x
      fin_cases d
      · exact h1 x
      · exact h2 x
      · simp [Met.cartesian] at hd
    · have := tetrad_basis (g.toPh2 (off 1 + (a.i 1 p + a.dx 1 p))) (a.phi p)
        ⟨a.ux 0 p, a.ux 1 p, a.ux 2 p⟩
      simp only [Velocity, position, Met.cartesian, and_true, Fin.isValue, if_true,
        show ((1 : Fin 3) = 2) = False by simp, if_false]
      exact this
  | ks =>
    simp only [Met.make] at hG hl
    cases hG
    cases hl
    obtain ⟨-, -, d1, d2, -, h1, h2⟩ := C62_kerr_schild q.ε q.a (e 0) (e 1) (h.cells 0) (h.cells 1)
      (h.size 0) (h.size 1) (off 0) (nc 0) (off 1) (nc 1) (hc 0) (hc 1)
    have n1 : (KS.make q.ε q.a (e 0) (e 1)).dr ≠ 0 := lin_pos (h.cells 0) (h.size 0)
    have n2 : (KS.make q.ε q.a (e 0) (e 1)).dt ≠ 0 := lin_pos (h.cells 1) (h.size 1)
    refine ⟨rfl, rfl, ?_, fun a p => ⟨_, rfl, ?_⟩⟩
    · intro d hd x
      fin_cases d
      · exact h1.ph_eq x
      · exact h2.ph_eq x
      · simp [Met.cartesian] at hd
    · refine ⟨⟨_, lin_deriv _ _ _, n1, ?_⟩, ⟨_, lin_deriv _ _ _, n2, ?_⟩, ?_⟩
      · exact cancel (a.ux 0 p) d1 n1
      · exact cancel (a.ux 1 p) d2 n2
      · exact mul_one _
  | ks0 =>
    simp only [Met.make] at hG hl
    cases hG
    cases hl
    obtain ⟨-, -, d1, d2, h1, h2⟩ := C62_kerr_schild_0 (e 0) (e 1) (h.cells 0) (h.cells 1)
      (h.size 0) (h.size 1) (off 0) (nc 0) (off 1) (nc 1) (hc 0) (hc 1)
    have n1 : (KS0.make (e 0) (e 1)).dr ≠ 0 := lin_pos (h.cells 0) (h.size 0)
    have n2 : (KS0.make (e 0) (e 1)).dt ≠ 0 := lin_pos (h.cells 1) (h.size 1)
    refine ⟨rfl, rfl, ?_, fun a p => ⟨_, rfl, ?_⟩⟩
    · intro d hd x
      fin_cases d
      · exact h1.ph_eq x
      · exact h2.ph_eq x
      · simp [Met.cartesian] at hd
    · refine ⟨⟨_, lin_deriv _ _ _, n1, ?_⟩, ⟨_, lin_deriv _ _ _, n2, ?_⟩, ?_⟩
      · exact cancel (a.ux 0 p) d1 n1
      · exact cancel (a.ux 1 p) d2 n2
      · exact mul_one _
  | qks =>
    simp only [Met.make, Outcome.bind_eq_ok] at hG
    obtain ⟨g, hg, hG⟩ := hG
    cases hG
    simp only [Met.make, Outcome.bind_eq_ok, Met.toPh] at hl
    obtain ⟨l', hl', hl⟩ := hl
    cases hl
    have hg' : QSph.make q.ε q.r0 q.h (e 0) (e 1) = some g.toQSph := qks_qsph (ofOption_ok hg)
    have hl'' : QSph.make q.ε q.r0 q.h (localExt g.toPh1 (off 0) (nc 0)) (localExt g.toPh2 (off 1) (nc 1)) =
        some l'.toQSph := qks_qsph (ofOption_ok hl')
    obtain ⟨h1, h2, n1, n2, n3⟩ := qsph_local h (.inr rfl) hg' hc hl''
    refine ⟨rfl, rfl, ?_, fun a p => ⟨_, rfl, ?_⟩⟩
    · intro d hd x
      fin_cases d
      · exact h1 x
      · exact h2 x
      · simp [Met.cartesian] at hd
    · refine ⟨⟨_, deriv_shift h1 (qtoPh1_d l'.toQSph _), ?_, ?_⟩,
        ⟨_, deriv_shift h2 (qtoPh2_d l'.toQSph _), ?_, ?_⟩, ?_⟩
      · exact mul_ne_zero (exp_ne_zero _) n1
      · change a.ux 0 p * (1 / _ / _) * _ = _
        have := exp_ne_zero (a.code 0 p * l'.dchi + l'.chiMin)
        change a.ux 0 p * (1 / l'.dchi / exp (a.code 0 p * l'.dchi + l'.chiMin)) *
          (exp (a.code 0 p * l'.dchi + l'.chiMin) * l'.dchi) = _
        field_simp
      · exact mul_ne_zero (n3 _) n2
      · change a.ux 1 p * (1 / l'.deta / dthetaDeta l'.ε l'.h (a.code 1 p * l'.deta + l'.etaMin)) *
          (dthetaDeta l'.ε l'.h (a.code 1 p * l'.deta + l'.etaMin) * l'.deta) = _
        have := n3 (a.code 1 p * l'.deta + l'.etaMin)
        generalize dthetaDeta l'.ε l'.h (a.code 1 p * l'.deta + l'.etaMin) = T at this ⊢
        field_simp
      · exact mul_one _

/-! ## Names -/

theorem decimal_inj {a b : Nat} (h : Checkpoint.decimal a = Checkpoint.decimal b) : a = b := by
  have := congrArg Schedule.digitsVal h
  rwa [Checkpoint.digitsVal_decimal, Checkpoint.digitsVal_decimal] at this

theorem base_inj {v w : Var} (h : v.base = w.base) : v = w := by
  cases v <;> cases w <;> simp [Var.base] at h ⊢ <;> exact decimal_inj h

theorem base_underscore (v : Var) : '_' ∉ v.base := by
  cases v <;> simp [Var.base, underscore_notin]

theorem name_inj {v w : Var} {a b : Nat} (h : v.name a = w.name b) : v = w ∧ a = b := by
  obtain ⟨h1, h2⟩ := split_unique (base_underscore v) (base_underscore w) h
  exact ⟨base_inj h1, decimal_inj h2⟩

/-! ## Variables -/

theorem mem_blocks (c : OutCfg) (v : Var) : v ∈ declareVars c ↔
    (∃ d, d < (c.dim + if c.dim = 2 ∧ c.cartesian = false then 1 else 0) ∧ Var.X (d + 1) = v) ∨
    (∃ d, d < 3 ∧ Var.U (d + 1) = v) ∨ v = .W ∨ (∃ j, j < c.npldR ∧ Var.R j = v) ∨
    (c.tracking = true ∧ v = .IDX) ∨ (c.tracking = true ∧ c.mpi = true ∧ v = .RNK) ∨
    (∃ j, j + c.ntrack < c.npldI ∧ Var.I j = v) := by
  have hR : v ∈ (if 0 < c.npldR then (List.range c.npldR).map Var.R else []) ↔
      ∃ j, j < c.npldR ∧ Var.R j = v := by
    split_ifs with h
    · simp
    · simp only [List.not_mem_nil, false_iff, not_exists, not_and]; omega
  have hT : v ∈ (if c.tracking then [Var.IDX] ++ (if c.mpi then [Var.RNK] else []) else []) ↔
      (c.tracking = true ∧ v = .IDX) ∨ (c.tracking = true ∧ c.mpi = true ∧ v = .RNK) := by
    cases c.tracking <;> cases c.mpi <;> simp
  have hI : v ∈ (if c.ntrack < c.npldI then
      (List.range' c.ntrack (c.npldI - c.ntrack)).map (fun pr => Var.I (pr - c.ntrack)) else []) ↔
      ∃ j, j + c.ntrack < c.npldI ∧ Var.I j = v := by
    clear hR hT
    split_ifs with h
    · simp only [List.mem_map, List.mem_range'_1]
      constructor
      · rintro ⟨pr, h1, rfl⟩
        exact ⟨pr - c.ntrack, by omega, rfl⟩
      · rintro ⟨j, h1, rfl⟩
        exact ⟨j + c.ntrack, by omega, by simp⟩
    · simp only [List.not_mem_nil, false_iff, not_exists, not_and]; omega
  unfold declareVars
  simp only [List.mem_append, hR, hT, hI, List.mem_map, List.mem_range, List.mem_singleton, or_assoc]

theorem mem_declare {c : OutCfg} (hd : c.dim = 1 ∨ c.dim = 2 ∨ c.dim = 3) {v : Var} :
    v ∈ declareVars c ↔ HasVar c v := by
  rw [mem_blocks]
  have hn : c.ntrack = if c.tracking then (if c.mpi then 2 else 1) else 0 := rfl
  cases v with
  | X d =>
    simp only [Var.X.injEq, reduceCtorEq, and_false, exists_false, or_false, HasVar]
    constructor
    · rintro ⟨x, h, rfl⟩
      split_ifs at h ⊢ <;> omega
    · rintro ⟨h1, h2⟩
      refine ⟨d - 1, ?_, by omega⟩
      split_ifs at h2 ⊢ <;> omega
  | U d =>
    simp only [Var.U.injEq, reduceCtorEq, and_false, exists_false, or_false, false_or, HasVar]
    constructor
    · rintro ⟨x, h, rfl⟩; omega
    · rintro ⟨h1, h2⟩; exact ⟨d - 1, by omega, by omega⟩
  | I j => simp [HasVar, hn]
  | _ => simp [HasVar]

theorem nodup_declare (c : OutCfg) : (declareVars c).Nodup := by
  have hX : ∀ n, ((List.range n).map fun d => Var.X (d + 1)).Nodup := fun n =>
    List.nodup_range.map fun a b h => by simpa using h
  have hU : ((List.range 3).map fun d => Var.U (d + 1)).Nodup :=
    List.nodup_range.map fun a b h => by simpa using h
  have hR : (if 0 < c.npldR then (List.range c.npldR).map Var.R else []).Nodup := by
    split_ifs
    · exact List.nodup_range.map fun a b h => by simpa using h
    · exact List.nodup_nil
  have hI : (if c.ntrack < c.npldI then
      (List.range' c.ntrack (c.npldI - c.ntrack)).map (fun pr => Var.I (pr - c.ntrack)) else []).Nodup := by
    split_ifs
    · rw [List.nodup_map_iff_inj_on (List.nodup_range' ..)]
      intro a ha b hb h
      simp only [List.mem_range'_1, Var.I.injEq] at ha hb h
      omega
    · exact List.nodup_nil
  have hT : (if c.tracking then [Var.IDX] ++ (if c.mpi then [Var.RNK] else []) else []).Nodup := by
    cases c.tracking <;> cases c.mpi <;> simp
  unfold declareVars
  refine List.Nodup.append (List.Nodup.append (List.Nodup.append (List.Nodup.append (List.Nodup.append (hX _)
    hU ?_) (List.nodup_singleton _) ?_) hR ?_) hT ?_) hI ?_
  all_goals
    rw [List.disjoint_left]
    intro v h1 h2
    revert h1 h2
    cases v <;> simp [apply_ite (f := fun l : List Var => _ ∈ l)] <;> (try split_ifs) <;> simp

/-- The column written as a variable. -/
def colOf (c : OutCfg) (b : Rec) : Var → Outcome Val
  | .X d => colR b.x (d - 1)
  | .U d => .ok (.r (if d = 1 then b.u.x else if d = 2 then b.u.y else b.u.z))
  | .W => .ok (.r b.w)
  | .R j => colR b.pldR j
  | .IDX => colI b.pldI 0
  | .RNK => colI b.pldI 1
  | .I j => colI b.pldI (j + c.ntrack)

theorem writeVars_eq (c : OutCfg) : ∀ w ∈ writeVars c, w.2 = fun b => colOf c b w.1 := by
  intro w hw
  unfold writeVars at hw
  simp only [List.mem_append, List.mem_cons, List.not_mem_nil, or_false] at hw
  rcases hw with (((((hw | hw) | hw) | hw) | hw) | hw) | hw
  · rcases hw with rfl | rfl | rfl | rfl <;> rfl
  · split_ifs at hw
    · rw [List.mem_singleton.1 hw]; rfl
    · simp at hw
  · split_ifs at hw
    · rw [List.mem_singleton.1 hw]; rfl
    · simp at hw
  · split_ifs at hw
    · rw [List.mem_singleton.1 hw]; rfl
    · simp at hw
  · split_ifs at hw
    · obtain ⟨j, -, rfl⟩ := List.mem_map.1 hw
      rfl
    · simp at hw
  · revert hw
    cases c.tracking <;> cases c.mpi <;> simp <;> intro hw
    · rw [hw]; rfl
    · rcases hw with rfl | rfl <;> rfl
  · split_ifs at hw
    · obtain ⟨j, hj, rfl⟩ := List.mem_map.1 hw
      simp only [List.mem_range'_1] at hj
      simp only [colOf]
      funext b
      congr 1
      omega
    · simp at hw

theorem writeVars_mem {c : OutCfg} (hd : c.dim = 1 ∨ c.dim = 2 ∨ c.dim = 3) (v : Var) :
    v ∈ (writeVars c).map Prod.fst ↔ HasVar c v := by
  have hR : ((if 0 < c.npldR then (List.range c.npldR).map (fun pr => (Var.R pr, fun b : Rec => colR b.pldR pr))
      else []).map Prod.fst) = if 0 < c.npldR then (List.range c.npldR).map Var.R else [] := by
    split_ifs <;> simp [Function.comp_def]
  have hI : ((if c.ntrack < c.npldI then (List.range' c.ntrack (c.npldI - c.ntrack)).map
      (fun pr => (Var.I (pr - c.ntrack), fun b : Rec => colI b.pldI pr)) else []).map Prod.fst) =
      if c.ntrack < c.npldI then
      (List.range' c.ntrack (c.npldI - c.ntrack)).map (fun pr => Var.I (pr - c.ntrack)) else [] := by
    split_ifs <;> simp [Function.comp_def]
  rw [← mem_declare hd]
  unfold writeVars declareVars
  rw [List.map_append, List.map_append, List.map_append, hR, hI]
  simp only [List.mem_append]
  have : v ∈ List.map Prod.fst (if c.tracking then [(Var.IDX, fun b : Rec => colI b.pldI 0)] ++
      (if c.mpi then [(Var.RNK, fun b : Rec => colI b.pldI 1)] else []) else []) ↔
      v ∈ (if c.tracking then [Var.IDX] ++ (if c.mpi then [Var.RNK] else []) else []) := by
    cases c.tracking <;> cases c.mpi <;> simp
  rw [this]
  refine or_congr_left (or_congr_left (or_congr_left ?_))
  rcases hd with h | h | h <;> rw [h] <;> cases c.cartesian <;> simp [List.range_succ] <;> tauto

end Entity.PrtlPhys
