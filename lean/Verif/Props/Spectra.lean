import Verif.Model.Spectra
import Verif.Lemmas.Prtl
import Mathlib.Tactic.Ring
import Mathlib.Tactic.FieldSimp
import Mathlib.Tactic.Linarith
import Mathlib.Tactic.Positivity
import Mathlib.Algebra.BigOperators.Group.List.Basic
import Mathlib.Data.Rat.Floor
import Mathlib.Algebra.Order.Floor.Semiring
import Mathlib.Analysis.SpecialFunctions.Log.Base

/-!
# C116: energy spectra
-/

namespace Entity.Spectra

open Entity Entity.Push Entity.Tags

variable {K : Type} [Field K] [LinearOrder K] [IsStrictOrderedRing K] [FloorRing K]

/-! ## Specification -/

/-- An energy belongs to bin `k` if it lies between the edges written to the file; what is below the
first edge is counted in the first bin. -/
def InBin (es : List K) (k : Nat) (en : K) : Prop :=
  (k = 0 ∨ es.getD k 0 ≤ en) ∧ en < es.getD (k + 1) 0

instance (es : List K) (k : Nat) (en : K) : Decidable (InBin es k en) := by
  unfold InBin; infer_instance

/-- The total weight of the live particles with energies in bin `k`. -/
def weightIn (lib : Lib K) (gr : Bool) (mass : K) (es : List K) (k : Nat) (ps : List (Prtl K)) : K :=
  (ps.map fun p => if p.tag = alive ∧ InBin es k (energy lib gr mass p) then p.weight else 0).sum

/-- Logarithm and power are inverse to one another and increasing, the logarithm of zero is below
everything. -/
structure LogLaw (lib : Lib K) : Prop where
  lt : ∀ (en x : K), 0 ≤ en → (lib.log10 en < (x : WithBot K) ↔ en < lib.pow10 x)
  inv : ∀ en : K, 0 < en → ∃ x : K, lib.log10 en = (x : WithBot K) ∧ lib.pow10 x = en

/-- Limits that make sense: at least one bin, increasing and, for logarithmic bins, positive. -/
structure Sensible (lib : Lib K) (cfg : Cfg K) : Prop where
  bins : 0 < cfg.nBins
  order : cfg.eMin < cfg.eMax
  log : cfg.logBins = true → LogLaw lib ∧ 0 < cfg.eMin

/-! ## Lemmas -/

/-- Edges before the power is taken. -/
def lin (a b : K) (n k : Nat) : K := a + (b - a) * (k : K) / (n : K)

theorem bin_iff {a b : K} {n : Nat} (hab : a < b) (hn : 0 < n) {x : WithBot K}
    (hx : x < (b : WithBot K)) (k : Nat) :
    binIndex a b n x < n ∧ (binIndex a b n x = k ↔
      (k = 0 ∨ ((lin a b n k : K) : WithBot K) ≤ x) ∧ x < ((lin a b n (k + 1) : K) : WithBot K)) := by
  have hn' : (0 : K) < n := by exact_mod_cast hn
  have hd : 0 < b - a := by linarith
  have hlin : ∀ j : Nat, 0 < j → a < lin a b n j := by
    intro j hj
    have : (0 : K) < j := by exact_mod_cast hj
    unfold lin
    have : 0 < (b - a) * (j : K) / n := by positivity
    linarith
  cases x with
  | bot =>
    refine ⟨hn, ?_⟩
    simp only [binIndex]
    constructor
    · rintro rfl; exact ⟨Or.inl rfl, WithBot.bot_lt_coe _⟩
    · rintro ⟨h | h, -⟩
      · exact h.symm
      · exact absurd h (by simp)
  | coe x =>
    have hx : x < b := by exact_mod_cast hx
    simp only [binIndex, WithBot.coe_le_coe, WithBot.coe_lt_coe]
    by_cases h1 : x ≤ a
    · rw [if_pos h1]
      refine ⟨hn, ?_⟩
      constructor
      · rintro rfl; exact ⟨Or.inl rfl, lt_of_le_of_lt h1 (hlin 1 (by omega))⟩
      · rintro ⟨h | h, -⟩
        · exact h.symm
        · rcases Nat.eq_zero_or_pos k with hk | hk
          · exact hk.symm
          · exact absurd (lt_of_lt_of_le (hlin k hk) h) (not_lt.mpr h1)
    · rw [if_neg h1, if_neg (not_le.mpr hx)]
      have h1 : a < x := not_le.mp h1
      have hy0 : 0 < (n : K) * (x - a) / (b - a) := by
        have : 0 < x - a := by linarith
        positivity
      have hyn : (n : K) * (x - a) / (b - a) < n := by
        rw [div_lt_iff₀ hd]
        exact mul_lt_mul_of_pos_left (by linarith) hn'
      have hf0 : 0 ≤ ⌊(n : K) * (x - a) / (b - a)⌋ := Int.floor_nonneg.mpr hy0.le
      have hfn : ⌊(n : K) * (x - a) / (b - a)⌋ < (n : Int) := by
        rw [Int.floor_lt]; exact_mod_cast hyn
      refine ⟨by omega, ?_⟩
      have e1 : ∀ j : Nat, lin a b n j ≤ x ↔ (j : K) ≤ (n : K) * (x - a) / (b - a) := by
        intro j
        unfold lin
        rw [le_div_iff₀ hd, ← le_sub_iff_add_le', div_le_iff₀ hn']
        constructor <;> intro h <;> nlinarith
      have e2 : ⌊(n : K) * (x - a) / (b - a)⌋.toNat = k ↔ ⌊(n : K) * (x - a) / (b - a)⌋ = (k : Int) := by
        omega
      rw [e2, Int.floor_eq_iff, ← not_le, ← not_le (a := lin a b n (k + 1)), e1 (k + 1)]
      push_cast
      constructor
      · rintro ⟨h2, h3⟩
        exact ⟨Or.inr ((e1 k).mpr h2), h3⟩
      · rintro ⟨h2 | h2, h3⟩
        · subst h2
          exact ⟨by simpa using hy0.le, h3⟩
        · exact ⟨(e1 k).mp h2, h3⟩

theorem addAt_spec {dn : List K} {j : Nat} (hj : j < dn.length) (w : K) :
    ∃ dn', addAt dn j w = .ok dn' ∧ dn'.length = dn.length ∧
      ∀ k, k < dn.length → dn'.getD k 0 = dn.getD k 0 + if j = k then w else 0 := by
  refine ⟨dn.modify j (· + w), by unfold addAt; rw [if_pos hj], by simp, ?_⟩
  intro k hk
  simp only [List.getD_eq_getElem?_getD, List.getElem?_modify, List.getElem?_eq_getElem hk,
    Option.map_eq_map, Option.map_some, Option.getD_some]
  split_ifs <;> simp

/-- The limits of the bins and the edges. -/
theorem limits_spec {lib : Lib K} {cfg : Cfg K} (hs : Sensible lib cfg) :
    ∃ a b : K, limits lib cfg = .ok (a, b) ∧ a < b ∧ edge lib cfg a b 0 = cfg.eMin ∧
      edge lib cfg a b cfg.nBins = cfg.eMax ∧
      ∀ en : K, 0 ≤ en → ∀ k,
        ((if cfg.logBins then lib.log10 en else (en : WithBot K)) < ((lin a b cfg.nBins k : K) :
          WithBot K) ↔ en < edge lib cfg a b k) := by
  have hn : (cfg.nBins : K) ≠ 0 := by exact_mod_cast hs.bins.ne'
  have hl0 : ∀ a b : K, lin a b cfg.nBins 0 = a := fun a b => by unfold lin; simp
  have hln : ∀ a b : K, lin a b cfg.nBins cfg.nBins = b := fun a b => by
    unfold lin; rw [mul_div_assoc, div_self hn]; ring
  cases hlog : cfg.logBins with
  | false =>
    refine ⟨cfg.eMin, cfg.eMax, by unfold limits; simp [hlog], hs.order, ?_, ?_, ?_⟩
    · simp only [edge, hlog]; exact hl0 _ _
    · simp only [edge, hlog]; exact hln _ _
    · intro en _ k
      simp only [edge, hlog, Bool.false_eq_true, if_false, WithBot.coe_lt_coe]
      rfl
  | true =>
    obtain ⟨law, hpos⟩ := hs.log hlog
    obtain ⟨a, ha, ha'⟩ := law.inv _ hpos
    obtain ⟨b, hb, hb'⟩ := law.inv _ (hpos.trans hs.order)
    refine ⟨a, b, by unfold limits; simp [hlog, ha, hb], ?_, ?_, ?_, ?_⟩
    · have := (law.lt cfg.eMin b hpos.le).mpr (by rw [hb']; exact hs.order)
      rw [ha] at this
      exact_mod_cast this
    · simp only [edge, hlog, if_true]; rw [← ha']; congr 1; exact hl0 a b
    · simp only [edge, hlog, if_true]; rw [← hb']; congr 1; exact hln a b
    · intro en hen k
      simp only [edge, hlog, if_true]
      exact law.lt en _ hen

theorem one_spec {lib : Lib K} {cfg : Cfg K} (hs : Sensible lib cfg) {a b : K} (hab : a < b)
    (hn : edge lib cfg a b cfg.nBins = cfg.eMax)
    (he : ∀ en : K, 0 ≤ en → ∀ k,
        ((if cfg.logBins then lib.log10 en else (en : WithBot K)) < ((lin a b cfg.nBins k : K) :
          WithBot K) ↔ en < edge lib cfg a b k))
    {mass : K} {p : Prtl K}
    (hp : p.tag = alive → 0 ≤ energy lib cfg.gr mass p ∧ energy lib cfg.gr mass p < cfg.eMax)
    {dn : List K} (hdn : dn.length = cfg.nBins) :
    ∃ dn', one lib cfg a b mass dn p = .ok dn' ∧ dn'.length = cfg.nBins ∧
      ∀ k, k < cfg.nBins → dn'.getD k 0 = dn.getD k 0 +
        if p.tag = alive ∧ ((k = 0 ∨ edge lib cfg a b k ≤ energy lib cfg.gr mass p) ∧
          energy lib cfg.gr mass p < edge lib cfg a b (k + 1)) then p.weight else 0 := by
  unfold one
  by_cases ht : p.tag = alive
  · rw [if_neg (by simpa using ht)]
    obtain ⟨h0, h1⟩ := hp ht
    have hb : lin a b cfg.nBins cfg.nBins = b := by
      have : (cfg.nBins : K) ≠ 0 := by exact_mod_cast hs.bins.ne'
      unfold lin; rw [mul_div_assoc, div_self this]; ring
    have hx := (he _ h0 cfg.nBins).mpr (by rw [hn]; exact h1)
    rw [hb] at hx
    have key := fun k => bin_iff hab hs.bins hx k
    dsimp only
    obtain ⟨dn', e1, e2, e3⟩ := addAt_spec (dn := dn) (by rw [hdn]; exact (key 0).1) p.weight
    refine ⟨dn', e1, by rw [e2, hdn], ?_⟩
    intro k hk
    rw [e3 k (by omega)]
    congr 1
    refine if_congr ?_ rfl rfl
    rw [(key k).2, he _ h0 (k + 1), ← not_lt, he _ h0 k, not_lt]
    simp [ht]
  · rw [if_pos ht]
    refine ⟨dn, rfl, hdn, ?_⟩
    intro k _
    simp [ht]

theorem getD_edges (lib : Lib K) (cfg : Cfg K) (a b : K) {k : Nat} (hk : k ≤ cfg.nBins) :
    ((List.range (cfg.nBins + 1)).map (fun (e : Nat) => edge lib cfg a b e)).getD k 0 =
      edge lib cfg a b k := by
  simp [List.getD_eq_getElem?_getD, List.getElem?_range (show k < cfg.nBins + 1 by omega)]

/-- One rank. -/
theorem spectrum_spec {lib : Lib K} {cfg : Cfg K} (hs : Sensible lib cfg) (mass : K) :
    ∃ es, edges lib cfg = .ok es ∧ es.length = cfg.nBins + 1 ∧ es.getD 0 0 = cfg.eMin ∧
      es.getD cfg.nBins 0 = cfg.eMax ∧
      ∀ ps : List (Prtl K),
        (∀ p ∈ ps, p.tag = alive →
          0 ≤ energy lib cfg.gr mass p ∧ energy lib cfg.gr mass p < cfg.eMax) →
        ∃ dn, spectrum lib cfg mass ps = .ok dn ∧ dn.length = cfg.nBins ∧
          ∀ k, k < cfg.nBins → dn.getD k 0 = weightIn lib cfg.gr mass es k ps := by
  obtain ⟨a, b, hl, hab, h0, hn, he⟩ := limits_spec hs
  refine ⟨(List.range (cfg.nBins + 1)).map (fun (e : Nat) => edge lib cfg a b e), ?_, by simp, ?_, ?_, ?_⟩
  · unfold edges; rw [hl]; rfl
  · rw [getD_edges lib cfg a b (Nat.zero_le _), h0]
  · rw [getD_edges lib cfg a b le_rfl, hn]
  intro ps hps
  have key : ∀ (ps : List (Prtl K)) (dn : List K), (∀ p ∈ ps, p.tag = alive →
          0 ≤ energy lib cfg.gr mass p ∧ energy lib cfg.gr mass p < cfg.eMax) →
      dn.length = cfg.nBins → ∃ dn', ps.foldlM (one lib cfg a b mass) dn = .ok dn' ∧
        dn'.length = cfg.nBins ∧ ∀ k, k < cfg.nBins → dn'.getD k 0 = dn.getD k 0 +
          weightIn lib cfg.gr mass ((List.range (cfg.nBins + 1)).map
            (fun (e : Nat) => edge lib cfg a b e)) k ps := by
    intro ps
    induction ps with
    | nil =>
      intro dn _ hdn
      exact ⟨dn, rfl, hdn, fun k _ => by simp [weightIn]⟩
    | cons p ps ih =>
      intro dn hp hdn
      obtain ⟨d1, e1, l1, v1⟩ := one_spec hs hab hn he (hp p (by simp)) hdn
      obtain ⟨d2, e2, l2, v2⟩ := ih d1 (fun q hq => hp q (by simp [hq])) l1
      refine ⟨d2, ?_, l2, ?_⟩
      · rw [List.foldlM_cons, e1, Outcome.bind_ok, e2]
      · intro k hk
        rw [v2 k hk, v1 k hk, weightIn, weightIn, List.map_cons, List.sum_cons, add_assoc]
        congr 2
        refine if_congr ?_ rfl rfl
        unfold InBin
        rw [getD_edges lib cfg a b hk.le, getD_edges lib cfg a b (k := k + 1) hk]
  obtain ⟨dn, e, l, v⟩ := key ps (List.replicate cfg.nBins 0) hps (by simp)
  refine ⟨dn, ?_, l, ?_⟩
  · unfold spectrum; rw [hl, Outcome.bind_ok]; exact e
  · intro k hk
    rw [v k hk]
    simp [List.getElem?_replicate, hk]

/-! ## C116 -/

/-- If the energies of all live particles lie below `e_max`, then on any number of ranks, and in
whatever order the particles are treated, every bin of the written spectrum holds the total weight of
the live particles whose energies lie between the two edges written with it (below the first edge: in
the first bin); the first and the last edge are `e_min` and `e_max`.  Missing: particles at or above
`e_max`, see `C116_overflow`. -/
theorem C116_spectrum_partial (lib : Lib K) (cfg : Cfg K) (hs : Sensible lib cfg) (mass : K)
    (ranks : List (List (Prtl K)))
    (hp : ∀ ps ∈ ranks, ∀ p ∈ ps, p.tag = alive →
      0 ≤ energy lib cfg.gr mass p ∧ energy lib cfg.gr mass p < cfg.eMax) :
    ∃ es dn, edges lib cfg = .ok es ∧ es.length = cfg.nBins + 1 ∧ es.getD 0 0 = cfg.eMin ∧
      es.getD cfg.nBins 0 = cfg.eMax ∧ written lib cfg mass ranks = .ok dn ∧ dn.length = cfg.nBins ∧
      ∀ k, k < cfg.nBins → dn.getD k 0 = weightIn lib cfg.gr mass es k ranks.flatten := by
  obtain ⟨es, he, hl, h0, hn, hsp⟩ := spectrum_spec hs mass
  have key : ∀ ranks : List (List (Prtl K)), (∀ ps ∈ ranks, ∀ p ∈ ps, p.tag = alive →
      0 ≤ energy lib cfg.gr mass p ∧ energy lib cfg.gr mass p < cfg.eMax) →
      ∃ dns, ranks.mapM (spectrum lib cfg mass) = .ok dns ∧ ∀ k, k < cfg.nBins →
        (dns.map fun dn => dn.getD k 0).sum = weightIn lib cfg.gr mass es k ranks.flatten := by
    intro ranks
    induction ranks with
    | nil => intro _; exact ⟨[], rfl, fun k _ => by simp [weightIn]⟩
    | cons ps ranks ih =>
      intro h
      obtain ⟨dn, e1, l1, v1⟩ := hsp ps (h ps (by simp))
      obtain ⟨dns, e2, v2⟩ := ih (fun q hq => h q (by simp [hq]))
      refine ⟨dn :: dns, ?_, ?_⟩
      · rw [List.mapM_cons, e1, Outcome.bind_ok, e2, Outcome.bind_ok]; rfl
      · intro k hk
        rw [List.map_cons, List.sum_cons, v1 k hk, v2 k hk, List.flatten_cons, weightIn, weightIn,
          weightIn, List.map_append, List.sum_append]
  obtain ⟨dns, e, v⟩ := key ranks hp
  refine ⟨es, reduce cfg.nBins dns, he, hl, h0, hn, ?_, by simp [reduce], ?_⟩
  · unfold written; rw [e, Outcome.bind_ok]; rfl
  · intro k hk
    rw [← v k hk]
    simp [reduce, List.getD_eq_getElem?_getD, List.getElem?_range hk]

/-- Energies below `e_max` belong to exactly one bin. -/
theorem C116_one_bin (lib : Lib K) (cfg : Cfg K) (hs : Sensible lib cfg) (es : List K)
    (hes : edges lib cfg = .ok es) (en : K) (h0 : 0 ≤ en) (h1 : en < cfg.eMax) :
    ∃! k, k < cfg.nBins ∧ InBin es k en := by
  obtain ⟨a, b, hl, hab, -, hn, he⟩ := limits_spec hs
  have : es = (List.range (cfg.nBins + 1)).map (fun (e : Nat) => edge lib cfg a b e) := by
    unfold edges at hes; rw [hl] at hes; cases hes; rfl
  subst this
  have hb : lin a b cfg.nBins cfg.nBins = b := by
    have : (cfg.nBins : K) ≠ 0 := by exact_mod_cast hs.bins.ne'
    unfold lin; rw [mul_div_assoc, div_self this]; ring
  have hx := (he _ h0 cfg.nBins).mpr (by rw [hn]; exact h1)
  rw [hb] at hx
  have key := fun k => bin_iff hab hs.bins hx k
  have hiff : ∀ k, k < cfg.nBins → (binIndex a b cfg.nBins
      (if cfg.logBins then lib.log10 en else (en : WithBot K)) = k ↔ InBin
        ((List.range (cfg.nBins + 1)).map (fun (e : Nat) => edge lib cfg a b e)) k en) := by
    intro k hk
    unfold InBin
    rw [(key k).2, he _ h0 (k + 1), ← not_lt, he _ h0 k, not_lt, getD_edges lib cfg a b hk.le,
      getD_edges lib cfg a b (k := k + 1) hk]
  refine ⟨_, ⟨(key 0).1, (hiff _ (key 0).1).mp rfl⟩, ?_⟩
  rintro k ⟨hk, hin⟩
  exact ((hiff k hk).mpr hin).symm

/-- Whatever the number of bins, a live particle whose energy is not below `e_max` is counted at element
`n_bins` of an array of `n_bins` elements: the result is undefined. -/
theorem C116_overflow_counterexample (lib : Lib K) (cfg : Cfg K) (hs : Sensible lib cfg) (mass : K)
    (ps rest : List (Prtl K)) (p : Prtl K) (ht : p.tag = alive)
    (hps : ∀ q ∈ ps, q.tag = alive → 0 ≤ energy lib cfg.gr mass q ∧ energy lib cfg.gr mass q < cfg.eMax)
    (he : cfg.eMax ≤ energy lib cfg.gr mass p) (h0 : 0 ≤ cfg.eMin) :
    spectrum lib cfg mass (ps ++ p :: rest) = .ub := by
  obtain ⟨es, -, -, -, -, hsp⟩ := spectrum_spec hs mass
  obtain ⟨dn, e, l, -⟩ := hsp ps hps
  obtain ⟨a, b, hl, hab, -, hn, hedge⟩ := limits_spec hs
  unfold spectrum at e ⊢
  rw [hl, Outcome.bind_ok] at e ⊢
  rw [List.foldlM_append, e, Outcome.bind_ok, List.foldlM_cons]
  have hen : 0 ≤ energy lib cfg.gr mass p := h0.trans (hs.order.le.trans he)
  have hb : lin a b cfg.nBins cfg.nBins = b := by
    have : (cfg.nBins : K) ≠ 0 := by exact_mod_cast hs.bins.ne'
    unfold lin; rw [mul_div_assoc, div_self this]; ring
  have hx := (hedge _ hen cfg.nBins).not.mpr (by rw [hn]; exact not_lt.mpr he)
  rw [hb, not_lt] at hx
  have hbin : ∀ x : WithBot K, (b : WithBot K) ≤ x → binIndex a b cfg.nBins x = cfg.nBins := by
    intro x hbx
    cases x with
    | bot => simp at hbx
    | coe x =>
      have hbx : b ≤ x := by exact_mod_cast hbx
      simp only [binIndex]
      rw [if_neg (by exact not_le.mpr (lt_of_lt_of_le hab hbx)), if_pos hbx]
  unfold one
  rw [if_neg (by simpa using ht)]
  dsimp only
  rw [hbin _ hx]
  unfold addAt
  rw [if_neg (by omega)]
  rfl

/-- The binned energy, in special relativity: `γ - 1` for massive particles, with `γ² = 1 + |u|²`, and the
momentum of massless ones. -/
theorem C116_energy (lib : Lib K) (hq : ∀ x, 0 ≤ x → 0 ≤ lib.sqrt x ∧ lib.sqrt x * lib.sqrt x = x)
    (mass : K) (p : Prtl K) :
    let en := energy lib false mass p
    0 ≤ en ∧
    (mass ≠ 0 → (en + 1) * (en + 1) = 1 + (p.u.x * p.u.x + p.u.y * p.u.y + p.u.z * p.u.z)) ∧
    (mass = 0 → en * en = p.u.x * p.u.x + p.u.y * p.u.y + p.u.z * p.u.z) := by
  intro en
  have hn : p.u.normSq = p.u.x * p.u.x + p.u.y * p.u.y + p.u.z * p.u.z := by
    simp only [V3.normSq]; ring
  have h0 : 0 ≤ p.u.normSq := by rw [hn]; nlinarith [sq_nonneg p.u.x, sq_nonneg p.u.y, sq_nonneg p.u.z]
  by_cases hm : mass = 0
  · have he : en = lib.sqrt p.u.normSq := by simp [en, energy, hm]
    obtain ⟨h1, h2⟩ := hq _ h0
    rw [he]
    exact ⟨h1, fun h => absurd hm h, fun _ => by rw [h2, hn]⟩
  · have he : en = lib.sqrt (1 + p.u.normSq) - 1 := by simp [en, energy, hm]
    obtain ⟨h1, h2⟩ := hq (1 + p.u.normSq) (by linarith)
    rw [he]
    refine ⟨?_, fun _ => by rw [sub_add_cancel, h2, hn], fun h => absurd h hm⟩
    by_contra h
    nlinarith

/-- The laws are those of the real logarithm and power. -/
example (sqrt : ℝ → ℝ) : LogLaw (⟨sqrt, fun x => if 0 < x then (Real.logb 10 x : ℝ) else ⊥,
    fun x => (10 : ℝ) ^ x⟩ : Lib ℝ) where
  lt en x h := by
    dsimp only
    by_cases h0 : 0 < en
    · rw [if_pos h0, WithBot.coe_lt_coe, Real.logb_lt_iff_lt_rpow (by norm_num) h0]
    · rw [if_neg h0]
      have : en = 0 := le_antisymm (not_lt.mp h0) h
      subst this
      exact ⟨fun _ => by positivity, fun _ => WithBot.bot_lt_coe _⟩
  inv en h := ⟨Real.logb 10 en, by simp [h], Real.rpow_logb (by norm_num) (by norm_num) h⟩

/-- Two ranks, three bins between 0 and 3, massless particles with energies 1/2 (twice), 2 and a dead
one; then the same with a particle at the upper limit. -/
example :
    let lib : Lib ℚ := ⟨fun x => if x = 1/4 then 1/2 else if x = 4 then 2 else 3, fun x => (x : WithBot ℚ), id⟩
    let cfg : Cfg ℚ := ⟨false, 3, 0, 3, false⟩
    let p (u w : ℚ) : Prtl ℚ := ⟨1, ⟨u, 0, 0⟩, w, 0⟩
    written lib cfg 0 [[p (1/2) 10, p 2 1, ⟨0, ⟨2, 0, 0⟩, 7, 0⟩], [p (1/2) 5]] = .ok [15, 0, 1] ∧
    edges lib cfg = .ok [0, 1, 2, 3] ∧ Sensible lib cfg ∧
    written lib cfg 0 [[p (1/2) 10, p 3 1]] = .ub := by
  refine ⟨by decide +kernel, by decide +kernel, ⟨by decide, by decide +kernel, ?_⟩, by decide +kernel⟩
  intro h
  exact absurd h Bool.false_ne_true

end Entity.Spectra
