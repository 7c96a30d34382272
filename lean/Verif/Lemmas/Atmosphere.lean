import Verif.Model.Atmosphere
import Verif.Lemmas.Moments
import Verif.Props.InjectPairs

/-! # Lemmas about the atmosphere -/

namespace Entity.Atmosphere

open Entity Entity.Inject Entity.Push Entity.Tags Entity.Deposit

variable {K : Type} [Field K] [LinearOrder K] [IsStrictOrderedRing K]

/-! ## Density -/

/-- Without smoothing a live particle adds one number, to its own cell. -/
def ownUpd (cfg : Moments.Cfg K) (env : Moments.Env K) (m : K) (p : Moments.Prtl K) : Upd K :=
  ⟨0, p.pos.map fun a => a.1 + (cfg.NG : Int),
    m * (cfg.invN0 / env.sqrtDetH (p.pos.map fun a => (a.1 : K) + 1 / 2)) *
      (if cfg.cartesian = true then 1 else p.weight)⟩

/-- Position in the active cells of the subdomain. -/
def InCells (nAct : List Nat) (pos : List (Int × K)) : Prop :=
  List.Forall₂ (fun (a : Int × K) (n : Nat) => 0 ≤ a.1 ∧ a.1 < n) pos nAct

theorem momentOne_own {cfg : Moments.Cfg K} {env : Moments.Env K} {m q : K} {p : Moments.Prtl K}
    {nAct : List Nat} (h1 : 1 ≤ nAct.length) (h3 : nAct.length ≤ 3)
    (hni : ∀ n, nAct[1]? = some n → n = cfg.ni2) (hp : p.tag ≠ dead) (hin : InCells nAct p.pos) :
    Moments.momentOne (request cfg) env m q p = .ok [ownUpd cfg env m p] := by
  have hw : (request cfg).window = 0 := by simp [request, Moments.Cfg.window, Moments.Cfg.ord]
  have ho : (request cfg).ord = 0 := by simp [request, Moments.Cfg.ord]
  have hoff : Moments.offsets 0 = [0] := by simp [Moments.offsets]
  have hrow : ∀ n : Nat, nAct[1]? = some n → ∀ j : Int, 0 ≤ j → j < n →
      Moments.row (request cfg) j = j + cfg.NG := by
    intro n hn j h0 hj
    have := hni n hn
    unfold Moments.row
    rw [if_neg (by rintro ⟨_, h⟩; omega), if_neg]
    · rfl
    · rintro ⟨_, h⟩
      have : (request cfg).ni2 = cfg.ni2 := rfl
      omega
  unfold Moments.momentOne
  rw [if_neg hp]
  have hc : Moments.coeff (request cfg) env m q p =
      .ok (m * (cfg.invN0 / env.sqrtDetH (p.pos.map fun a => (a.1 : K) + 1 / 2)) *
        (if cfg.cartesian = true then 1 else p.weight)) := by
    unfold Moments.coeff
    simp only [request, Moments.contrib, Outcome.bind_ok, reduceCtorEq, if_false]
    rcases Bool.eq_false_or_eq_true cfg.cartesian with hcc | hcc <;> simp [hcc, Outcome.pure_eq]
  rw [hc]
  have hS : Moments.shapeFunction (request cfg) = .ok (fun _ => (1 : K)) := by
    unfold Moments.shapeFunction
    rw [ho]
    simp [request]
  rw [hS]
  simp only [Outcome.bind_ok]
  have hNG : (request cfg).NG = cfg.NG := rfl
  have hb : (request cfg).buffIdx = 0 := rfl
  unfold InCells at hin
  rcases hpos : p.pos with _ | ⟨a1, _ | ⟨a2, _ | ⟨a3, _ | ⟨a4, t⟩⟩⟩⟩
  · rw [hpos] at hin; cases hin; simp at h1
  · simp [Moments.deposit1, hw, hoff, hNG, hb, ownUpd, hpos, Outcome.pure_eq]
  · rw [hpos] at hin
    rcases hin with _ | ⟨x1, _ | ⟨x2, x⟩⟩
    cases x
    rename_i n1 n2
    simp [Moments.deposit2, hw, hoff, hNG, hb, ownUpd, hpos, Outcome.pure_eq,
      hrow n2 (by simp) a2.1 x2.1 x2.2]
  · rw [hpos] at hin
    rcases hin with _ | ⟨x1, _ | ⟨x2, _ | ⟨x3, x⟩⟩⟩
    cases x
    rename_i n1 n2 n3
    simp [Moments.deposit3, hw, hoff, hNG, hb, ownUpd, hpos, Outcome.pure_eq,
      hrow n2 (by simp) a2.1 x2.1 x2.2]
  · rw [hpos] at hin
    have := hin.length_eq
    simp at this; omega

theorem inArray_own {NG : Nat} {nAct : List Nat} {pos : List (Int × K)} (hin : InCells nAct pos) :
    inArray (nAct.map (· + 2 * NG)) (pos.map fun a => a.1 + (NG : Int)) = true := by
  unfold InCells at hin
  induction hin with
  | nil => rfl
  | cons h _ ih =>
    simp only [List.map_cons, inArray, ih, Bool.and_true, Bool.and_eq_true, decide_eq_true_eq]
    push_cast
    omega

/-- What a particle adds to element `n` of component `c`. -/
def addedAt (cfg : Moments.Cfg K) (env : Moments.Env K) (m : K) (c : Nat) (n : List Int)
    (p : Moments.Prtl K) : K :=
  if p.tag = dead then 0
  else if c = 0 ∧ (p.pos.map fun a => a.1 + (cfg.NG : Int)) = n then (ownUpd cfg env m p).val else 0

theorem launch_own {cfg : Moments.Cfg K} {env : Moments.Env K} {m q : K} {nAct : List Nat}
    (h1 : 1 ≤ nAct.length) (h3 : nAct.length ≤ 3) (hni : ∀ n, nAct[1]? = some n → n = cfg.ni2)
    (ps : List (Moments.Prtl K)) (hps : ∀ p ∈ ps, p.tag = dead ∨ InCells nAct p.pos) (J : Cur K) :
    ∃ J', Moments.launch (request cfg) env (nAct.map (· + 2 * cfg.NG)) m q ps J = .ok J' ∧
      ∀ c n, J' c n = J c n + (ps.map (addedAt cfg env m c n)).sum := by
  have e := Moments.launch_eq (request cfg) env (nAct.map (· + 2 * cfg.NG)) m q
    (fun p => if p.tag = dead then [] else [ownUpd cfg env m p]) ps (by
      intro p hp
      by_cases hd : p.tag = dead
      · simp [Moments.momentOne, hd]
      · simp only [hd, if_false]
        exact momentOne_own h1 h3 hni hd ((hps p hp).resolve_left hd)) J
  obtain ⟨J', hJ⟩ := applyAll_defined (nAll := nAct.map (· + 2 * cfg.NG)) (J := J)
    (us := ps.flatMap fun p => if p.tag = dead then [] else [ownUpd cfg env m p]) (by
      intro u hu
      obtain ⟨p, hp, hu⟩ := List.mem_flatMap.1 hu
      by_cases hd : p.tag = dead
      · simp [hd] at hu
      · simp only [hd, if_false, List.mem_singleton] at hu
        subst hu
        exact inArray_own ((hps p hp).resolve_left hd))
  refine ⟨J', by rw [e]; exact hJ, fun c n => ?_⟩
  rw [applyAll_ok hJ]
  congr 1
  unfold total
  clear e hJ J' hps
  induction ps with
  | nil => rfl
  | cons p ps ih =>
    rw [List.flatMap_cons, List.map_append, List.sum_append, ih, List.map_cons, List.sum_cons]
    congr 1
    unfold addedAt
    by_cases hd : p.tag = dead
    · simp [hd]
    · have hc0 : (ownUpd cfg env m p).comp = 0 := rfl
      have hi : (ownUpd cfg env m p).idx = p.pos.map fun a => a.1 + (cfg.NG : Int) := rfl
      simp only [hd, if_false, List.map_cons, List.map_nil, List.sum_cons, List.sum_nil, add_zero, hc0, hi]
      by_cases hc : c = 0
      · subst hc; simp
      · rw [if_neg (fun h => hc h.1.symm), if_neg (fun h => hc h.1)]

theorem addSpecies_own {cfg : Moments.Cfg K} {env : Moments.Env K} {nAct : List Nat}
    (hdim : nAct.length = cfg.dim) (h1 : 1 ≤ nAct.length) (h3 : nAct.length ≤ 3)
    (hni : ∀ n, nAct[1]? = some n → n = cfg.ni2)
    (hbc : cfg.cartesian = false → 2 ≤ cfg.dim → 2 ≤ cfg.bcs.length)
    {sched : List (Moments.Prtl K) → List (Moments.Prtl K)} (hs : ∀ l, (sched l).Perm l)
    {mq : List (K × K)} {sps : List (Sp K)} {s : Nat} (hs0 : s ≠ 0) {a : Sp K}
    (ha : sps[s - 1]? = some a) {q : K × K} (hq : mq[s - 1]? = some q) (hm : q.1 ≠ 0)
    (hin : ∀ p ∈ a.st.used, p.tag = dead ∨ InCells nAct (forMoments cfg.dim p).pos) (J : Cur K) :
    ∃ J', addSpecies (request cfg) env (nAct.map (· + 2 * cfg.NG)) sched mq sps J s = .ok J' ∧
      ∀ c n, J' c n = J c n +
        ((a.st.used.map (forMoments cfg.dim)).map (addedAt cfg env q.1 c n)).sum := by
  unfold addSpecies
  rw [if_neg hs0, ha, hq]
  dsimp only
  by_cases hn : a.st.npart = 0
  · rw [if_pos hn]
    refine ⟨J, rfl, fun c n => ?_⟩
    have : a.st.used = [] := by simp [Prtl.Store.used, hn]
    simp [this]
  · rw [if_neg hn]
    have hchk : Moments.checks (request cfg) q.1 = .ok () := by
      unfold Moments.checks
      have hw : (request cfg).window = 0 := by simp [request, Moments.Cfg.window, Moments.Cfg.ord]
      have h4 : ¬ ((request cfg).cartesian = false ∧ 2 ≤ (request cfg).dim ∧ (request cfg).bcs.length < 2) := by
        rintro ⟨x, y, z⟩
        have := hbc x y
        have : (request cfg).bcs = cfg.bcs := rfl
        rw [this] at z
        omega
      have h5 : ¬ ((request cfg).nBuf ≤ (request cfg).buffIdx) := by simp [request]
      simp only [Outcome.errorIf, hw, if_neg h5, if_neg h4, hm, and_false, if_false, Nat.not_lt_zero,
        Outcome.bind_ok]
    have hdim' : (request cfg).dim = cfg.dim := rfl
    obtain ⟨J', e, r⟩ := launch_own (env := env) (m := q.1) (q := q.2) h1 h3 hni
      (sched (a.st.used.map (forMoments cfg.dim))) (by
        intro p hp
        obtain ⟨p', hp', rfl⟩ := List.mem_map.1 ((hs _).mem_iff.1 hp)
        exact hin p' hp') J
    refine ⟨J', ?_, fun c n => ?_⟩
    · rw [hchk, Outcome.bind_ok, hdim']; exact e
    · rw [r, (((hs _).map _).sum_eq)]

/-! ## New particles -/

theorem forMoments_pos {D : Nat} (h3 : D ≤ 3) (q : Prtl.Prtl K) :
    (forMoments D q).pos.map Prod.fst = cells D q := by
  have : D = 0 ∨ D = 1 ∨ D = 2 ∨ D = 3 := by omega
  rcases this with rfl | rfl | rfl | rfl <;> simp [forMoments, cells, cellOf, List.range_succ]

section Floor

variable [FloorRing K]

theorem cellCount_close {dr : NDraw K} {c : Cell} (hc : 0 ≤ dr.ppc c) (hr : 0 ≤ dr.rnd c) :
    |(cellCount dr c : K) - dr.ppc c| < 1 := by
  have h2 : ((⌊dr.ppc c⌋.toNat : Nat) : K) = ⌊dr.ppc c⌋ := by
    have : ((⌊dr.ppc c⌋.toNat : Int) : K) = (⌊dr.ppc c⌋ : K) := by
      rw [Int.toNat_of_nonneg (Int.floor_nonneg.2 hc)]
    rw [← this]; norm_cast
  have h3 := Int.floor_add_fract (dr.ppc c)
  have h4 := Int.fract_nonneg (dr.ppc c)
  have h5 := Int.fract_lt_one (dr.ppc c)
  unfold cellCount
  split_ifs with h
  · push_cast; rw [h2, abs_lt]; constructor <;> linarith
  · rw [h2, abs_lt]; constructor <;> linarith

theorem cellCount_zero {dr : NDraw K} {c : Cell} (hc : dr.ppc c = 0) (hr : 0 ≤ dr.rnd c) :
    cellCount dr c = 0 := by
  unfold cellCount
  rw [hc]
  simp [not_lt.2 hr]

theorem cellCount_le {dr : NDraw K} {c : Cell} {M : K} (hc : 0 ≤ dr.ppc c) (hr : 0 ≤ dr.rnd c)
    (hM : dr.ppc c ≤ M) : cellCount dr c ≤ ⌈M⌉₊ := by
  have h1 := (abs_lt.1 (cellCount_close hc hr)).2
  have h2 : (cellCount dr c : K) < ((⌈M⌉₊ : Nat) : K) + 1 := by
    have := Nat.le_ceil M
    linarith
  exact_mod_cast Nat.lt_succ_iff.1 (by exact_mod_cast h2)

/-- Cells and weights of the new particles. -/
theorem news_eq {mpi : Bool} {dom : Nat} {a b : Sp K} {n D : Nat} {dr : NDraw K} {v : Cell → Nat → V3 K}
    {evs : List (Cell × Nat)} (hl : evs.length = n) (hD : a.kind.D = D) (h3 : D ≤ 3)
    (hlen : ∀ e ∈ evs, e.1.length = D)
    (hA : Added mpi dom a b n (fun i => nNew dr v (evs.getD i ([], 0)))) :
    (news a b).map (fun q => (cells D q, q.weight)) = evs.map fun e => (e.1, dr.wei e.1) := by
  have hc := hA.extends.count
  apply List.ext_getElem
  · simp [hc, hl]
  · intro i h1 h2
    simp only [List.length_map] at h1 h2
    simp only [List.getElem_map]
    obtain ⟨q, q1, q2, _⟩ := hA.news_at i (by omega)
    rw [List.getElem?_eq_getElem h1, Option.some.injEq] at q1
    have hg : evs.getD i ([], 0) = evs[i] := by
      simp [List.getD_eq_getElem?_getD, List.getElem?_eq_getElem h2]
    rw [hg] at q2
    have hlenc : evs[i].1.length = D := hlen _ (List.getElem_mem h2)
    rw [q1]
    refine Prod.ext ?_ ?_
    · apply List.ext_getElem
      · simp [cells, hlenc]
      · intro d h1 h2
        simp only [cells, List.getElem_map, List.getElem_range]
        have hdD : d < D := hlenc ▸ h2
        rw [(q2.at (by omega) d (by omega)).1]
        simp [nNew, List.getD_eq_getElem?_getD, List.getElem?_eq_getElem h2]
    · rw [q2.weight]; rfl

theorem events_count {range : List Cell} (hnd : range.Nodup) {dr : NDraw K} {evs : List (Cell × Nat)}
    (hp : evs.Perm (range.flatMap fun c => (List.range (cellCount dr c)).map fun j => (c, j)))
    {c : Cell} (hc : c ∈ range) : (evs.map Prod.fst).count c = cellCount dr c := by
  rw [(hp.map Prod.fst).count_eq, List.map_flatMap]
  have : ∀ l : List Cell, (l.flatMap fun a => ((List.range (cellCount dr a)).map fun j => (a, j)).map
      Prod.fst).count c = l.count c * cellCount dr c := by
    intro l
    induction l with
    | nil => simp
    | cons a l ih =>
      rw [List.flatMap_cons, List.count_append, ih, List.count_cons, List.map_map]
      have : (List.range (cellCount dr a)).map (Prod.fst ∘ fun j => (a, j)) =
          List.replicate (cellCount dr a) a := by
        simp [Function.comp_def, List.map_const']
      rw [this, List.count_replicate]
      by_cases h : a = c
      · subst h; simp; ring
      · simp [h]
  rw [this, List.count_eq_one_of_mem hnd hc, one_mul]

end Floor

end Entity.Atmosphere
