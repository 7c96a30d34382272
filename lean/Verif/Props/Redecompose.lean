import Verif.Model.PrtlIO
import Verif.Props.Tiling
import Verif.Lemmas.Prtl

/-!
# Property C51: the decomposition stored in a checkpoint
-/

namespace Entity.PrtlIO

open Entity Entity.Outcome Entity.Decomp

theorem ncellsAtPos_aux (dd : List Nat) : ∀ (ps : List (Nat × Nat)) (v : List Nat),
    v.length = dd.length → (∀ c ∈ ps, dd[c.1]? = some c.2) →
    ∃ v', ps.foldlM (fun v (c : Nat × Nat) =>
        if c.1 < v.length then Outcome.ok (v.set c.1 c.2) else .ub) v = .ok v' ∧ v'.length = dd.length ∧
      ∀ k, ((∃ c ∈ ps, c.1 = k) ∨ v[k]? = dd[k]?) → v'[k]? = dd[k]?
  | [], v, hv, _ => ⟨v, rfl, hv, fun k h => by simpa using h⟩
  | c :: ps, v, hv, h => by
    have hc := h c (by simp)
    have hlt : c.1 < v.length := by
      rw [hv]; exact (List.getElem?_eq_some_iff.1 hc).1
    obtain ⟨v', e, hl, g⟩ := ncellsAtPos_aux dd ps (v.set c.1 c.2) (by simpa using hv)
      (fun c hc => h c (by simp [hc]))
    refine ⟨v', ?_, hl, ?_⟩
    · rw [List.foldlM_cons, if_pos hlt, bind_ok, e]
    · intro k hk
      by_cases hex : ∃ c ∈ ps, c.1 = k
      · exact g k (.inl hex)
      · refine g k (.inr ?_)
        by_cases hck : c.1 = k
        · subst hck
          rw [List.getElem?_set_self hlt, hc]
        · rw [List.getElem?_set_ne hck]
          rcases hk with ⟨c', hc', e'⟩ | hk
          · rcases List.mem_cons.1 hc' with rfl | hc'
            · exact absurd e' hck
            · exact absurd ⟨c', hc', e'⟩ hex
          · exact hk

theorem ncellsAtPos_eq (dd : List Nat) (pos ns : List Nat)
    (h : ∀ c ∈ pos.zip ns, dd[c.1]? = some c.2) (hcov : ∀ k < dd.length, ∃ c ∈ pos.zip ns, c.1 = k) :
    ncellsAtPos dd.length pos ns = .ok dd := by
  obtain ⟨v', e, hl, g⟩ := ncellsAtPos_aux dd (pos.zip ns) (List.replicate dd.length 0) (by simp) h
  have : v' = dd := by
    apply List.ext_getElem?
    intro k
    by_cases hk : k < dd.length
    · exact g k (.inl (hcov k hk))
    · rw [List.getElem?_eq_none (by omega), List.getElem?_eq_none (by omega)]
  rw [ncellsAtPos, e, this]

theorem offsetAtPos_aux : ∀ (v : List Nat) (a : Nat) (acc : List Nat),
    (v.foldl (fun (t : Nat × List Nat) n => (t.1 + n, t.2 ++ [t.1])) (a, acc)).2 =
      acc ++ (List.range v.length).map (fun k : Nat => a + (v.take k).sum)
  | [], a, acc => by simp
  | n :: v, a, acc => by
    rw [List.foldl_cons, offsetAtPos_aux v]
    rw [List.length_cons, List.range_succ_eq_map]
    simp [Function.comp_def, Nat.add_assoc]

theorem offsetAtPos_getD (v : List Nat) {k : Nat} (hk : k < v.length) :
    (offsetAtPos v).getD k 0 = (v.take k).sum := by
  unfold offsetAtPos
  rw [offsetAtPos_aux]
  simp [List.getElem?_range hk]

theorem axisRecs_spec : ∀ {d : List Nat} {o k : Nat} {r : AxisRec}, r ∈ axisRecs o k d →
    k ≤ r.dom ∧ d[r.dom - k]? = some r.n ∧ r.off = o + (d.take (r.dom - k)).sum
  | [], _, _, _, h => by simp [axisRecs] at h
  | x :: xs, o, k, r, h => by
    simp only [axisRecs, List.mem_cons] at h
    rcases h with rfl | h
    · simp
    · obtain ⟨h1, h2, h3⟩ := axisRecs_spec h
      have e : r.dom - k = (r.dom - (k + 1)) + 1 := by omega
      refine ⟨by omega, ?_, ?_⟩
      · rw [e, List.getElem?_cons_succ, h2]
      · rw [e, List.take_succ_cons, List.sum_cons, h3]; omega

/-- The position of each domain in the grid of domains depends only on the numbers of domains. -/
theorem doms_eq (dN dM : List (List Nat)) (h : counts dN = counts dM) :
    (recTable dN).map (List.map (·.dom)) = (recTable dM).map (List.map (·.dom)) := by
  unfold recTable
  rw [← tp_map, ← tp_map, List.map_map, List.map_map]
  congr 1
  have hax : ∀ (d e : List Nat) (o o' k : Nat), d.length = e.length →
      (axisRecs o k d).map (·.dom) = (axisRecs o' k e).map (·.dom) := by
    intro d
    induction d with
    | nil => intro e o o' k h; cases e with
      | nil => rfl
      | cons => simp at h
    | cons x d ih => intro e o o' k h; cases e with
      | nil => simp at h
      | cons y e => simp only [axisRecs, List.map_cons]; rw [ih e _ (o' + y) (k + 1) (by simpa using h)]
  unfold counts at h
  induction dN generalizing dM with
  | nil => cases dM with
    | nil => rfl
    | cons => simp at h
  | cons d dN ih => cases dM with
    | nil => simp at h
    | cons e dM =>
      simp only [List.map_cons, List.cons.injEq, Function.comp_apply] at h ⊢
      exact ⟨hax d e 0 0 0 h.1, ih dM h.2⟩

/-- Along an axis. -/
theorem redecomposeAxis_eq (dN : List (List Nat)) (hne : ∀ d ∈ dN, d ≠ []) (g d : Nat)
    (hd : d < dN.length) :
    redecomposeAxis dN[d].length g ((recTable dN).map (fun r => (r.map (·.dom)).getD d 0))
      ((recTable dN).map (fun r => (r.map (·.n)).getD d 0)) =
    if dN[d].sum = g then .ok ((recTable dN).map (fun r => (r.map (·.off)).getD d 0)) else .err := by
  have hrec : ∀ r ∈ recTable dN, ∃ a, r[d]? = some a ∧ a ∈ axisRecs 0 0 dN[d] := by
    intro r hr
    have := (mem_tp _ _).1 hr
    have hl : r.length = dN.length := by simpa using this.length_eq
    refine ⟨r[d]'(by omega), List.getElem?_eq_getElem (by omega), ?_⟩
    have := List.Forall₂.get this (i := d) (by omega) (by simpa using hd)
    simpa using this
  have h1 : ncellsAtPos dN[d].length ((recTable dN).map (fun r => (r.map (·.dom)).getD d 0))
      ((recTable dN).map (fun r => (r.map (·.n)).getD d 0)) = .ok dN[d] := by
    apply ncellsAtPos_eq
    · intro c hc
      rw [List.zip_map', List.mem_map] at hc
      obtain ⟨r, hr, rfl⟩ := hc
      obtain ⟨a, ha, hm⟩ := hrec r hr
      have := (axisRecs_spec hm).2.1
      simpa [ha] using this
    · intro k hk
      obtain ⟨a, ha, hdom⟩ := axisRecs_dom_ex (o := 0) (k := 0) (d := dN[d]) (p := k) (by omega) (by omega)
      -- a row of the table with `a` at place `d`
      have : ∃ r, List.Forall₂ (· ∈ ·) r (dN.map (axisRecs 0 0)) ∧ r[d]? = some a := by
        clear hrec hdom hk
        induction dN generalizing d with
        | nil => simp at hd
        | cons e dN ih =>
          have hrest : ∃ r, List.Forall₂ (· ∈ ·) r (dN.map (axisRecs 0 0)) := by
            clear ih ha hd
            induction dN with
            | nil => exact ⟨[], .nil⟩
            | cons f dN ih2 =>
              obtain ⟨r, hr⟩ := ih2 (fun x hx => hne x (by
                simp only [List.mem_cons] at hx ⊢; tauto))
              have hf := hne f (by simp)
              cases f with
              | nil => exact absurd rfl hf
              | cons x f => exact ⟨⟨x, 0, 0⟩ :: r, .cons (by simp [axisRecs]) hr⟩
          cases d with
          | zero =>
            obtain ⟨r, hr⟩ := hrest
            exact ⟨a :: r, .cons (by simpa using ha) hr, by simp⟩
          | succ d =>
            obtain ⟨r, hr, hrd⟩ := ih (fun x hx => hne x (by simp [hx])) d (by simpa using hd)
              (by simpa using ha)
            have hf := hne e (by simp)
            cases e with
            | nil => exact absurd rfl hf
            | cons x f => exact ⟨⟨x, 0, 0⟩ :: r, .cons (by simp [axisRecs]) hr, by simpa using hrd⟩
      obtain ⟨r, hr, hrd⟩ := this
      refine ⟨((r.map (·.dom)).getD d 0, (r.map (·.n)).getD d 0), ?_, ?_⟩
      · rw [List.zip_map', List.mem_map]
        exact ⟨r, (mem_tp _ _).2 hr, rfl⟩
      · simp [hrd, hdom]
  unfold redecomposeAxis
  rw [h1, bind_ok]
  by_cases hg : dN[d].sum = g
  · simp only [hg, ne_eq, not_true_eq_false, if_false, if_true, List.map_map, Function.comp_def]
    show Outcome.ok _ = Outcome.ok _
    congr 1
    refine List.map_congr_left (fun r hr => ?_)
    obtain ⟨a, ha, hm⟩ := hrec r hr
    obtain ⟨_, e2, e3⟩ := axisRecs_spec hm
    have hlt : a.dom < dN[d].length := by
      have := (List.getElem?_eq_some_iff.1 e2).1; omega
    have e1 : (r.map (·.dom)).getD d 0 = a.dom := by simp [ha]
    rw [e1, offsetAtPos_getD _ hlt]
    simp [ha, e3]
  · simp only [hg, ne_eq, not_false_eq_true, if_true, if_false]

/-- **C51, for sizes that come from a decomposition.** Let the stored sizes be those of the subdomains of
a decomposition `dN` with the same numbers of domains per axis as the current one `dM`.  If along each
axis they add up to the number of cells of the grid, the new subdomains are exactly those of `dN`: the
stored sizes, with offsets that are the sums of the sizes before; otherwise the checkpoint is rejected.
Full claim: for every list of stored sizes.  Missing: if domains at the same position of the grid of
domains have different stored sizes, only the last of them is looked at
(`C51_inconsistent_counterexample`). -/
theorem C51_redecompose_partial (dN dM : List (List Nat)) (hne : ∀ d ∈ dN, d ≠ [])
    (hcnt : counts dN = counts dM) (g : List Nat) (hg : g.length = dN.length) :
    ∃ cur new, createDomains (counts dM).prod dM = some cur ∧ createDomains (counts dN).prod dN = some new ∧
      redecompose (counts dN) g cur (new.map (·.ncells)) =
        if dN.map List.sum = g then .ok new else .err := by
  have hneM : ∀ d ∈ dM, d ≠ [] := by
    intro d hd he
    have : (0 : Nat) ∈ counts dM := List.mem_map.2 ⟨d, hd, by simp [he]⟩
    rw [← hcnt] at this
    obtain ⟨e, hem, he0⟩ := List.mem_map.1 this
    exact hne e hem (List.length_eq_zero_iff.1 he0)
  refine ⟨_, _, createDomains_eq dM hneM, createDomains_eq dN hne, ?_⟩
  have hdom := doms_eq dN dM hcnt
  have hcur : ∀ d : Nat, (((recTable dM).mapIdx mkSub).map (fun s => s.offsetNdomains.getD d 0)) =
      (recTable dN).map (fun r => (r.map (·.dom)).getD d 0) := by
    intro d
    have e : (recTable dN).map (fun r => (r.map (·.dom)).getD d 0) =
        ((recTable dN).map (List.map (·.dom))).map (fun r => r.getD d 0) := by
      simp [Function.comp_def]
    rw [e, hdom]
    apply List.ext_getElem <;> simp [mkSub]
  have hnew : ∀ d : Nat, ((((recTable dN).mapIdx mkSub).map (·.ncells)).map (fun n => n.getD d 0)) =
      (recTable dN).map (fun r => (r.map (·.n)).getD d 0) := by
    intro d
    apply List.ext_getElem <;> simp [mkSub]
  have hstep : ∀ d ∈ List.range (counts dN).length,
      redecomposeAxis ((counts dN).getD d 0) (g.getD d 0)
        (((recTable dM).mapIdx mkSub).map (fun s => s.offsetNdomains.getD d 0))
        ((((recTable dN).mapIdx mkSub).map (·.ncells)).map (fun n => n.getD d 0)) =
      if (dN.map List.sum).getD d 0 = g.getD d 0 then
        .ok ((recTable dN).map (fun r => (r.map (·.off)).getD d 0)) else .err := by
    intro d hd
    have hd' : d < dN.length := by simpa [counts] using hd
    have := redecomposeAxis_eq dN hne (g.getD d 0) d hd'
    rw [hcur, hnew]
    have e1 : (counts dN).getD d 0 = dN[d].length := by simp [counts, List.getElem?_eq_getElem hd']
    have e2 : (dN.map List.sum).getD d 0 = dN[d].sum := by simp [List.getElem?_eq_getElem hd']
    rw [e1, e2]; exact this
  have hmap : ∀ ds : List Nat, (∀ d ∈ ds, d ∈ List.range (counts dN).length) →
      ds.mapM (fun d => redecomposeAxis ((counts dN).getD d 0) (g.getD d 0)
        (((recTable dM).mapIdx mkSub).map (fun s => s.offsetNdomains.getD d 0))
        ((((recTable dN).mapIdx mkSub).map (·.ncells)).map (fun n => n.getD d 0))) =
      if ∀ d ∈ ds, (dN.map List.sum).getD d 0 = g.getD d 0 then
        Outcome.ok (ds.map (fun d => (recTable dN).map (fun r => (r.map (·.off)).getD d 0))) else .err := by
    intro ds
    induction ds with
    | nil => intro _; simp
    | cons d ds ih =>
      intro h
      rw [List.mapM_cons, hstep d (h d (by simp)), ih (fun d hd => h d (by simp [hd]))]
      by_cases h1 : (dN.map List.sum).getD d 0 = g.getD d 0
      · rw [if_pos h1, bind_ok]
        by_cases h2 : ∀ d ∈ ds, (dN.map List.sum).getD d 0 = g.getD d 0
        · rw [if_pos h2, if_pos (by
            intro e he
            rcases List.mem_cons.1 he with rfl | he
            · exact h1
            · exact h2 e he), bind_ok]
          rfl
        · rw [if_neg h2, if_neg (fun h3 => h2 (fun e he => h3 e (by simp [he])))]
          rfl
      · have h4 : ¬ ∀ e ∈ d :: ds, (dN.map List.sum).getD e 0 = g.getD e 0 :=
          fun h3 => h1 (h3 d (List.mem_cons_self))
        rw [if_neg h1, if_neg h4]
        rfl
  have hiff : (∀ d ∈ List.range (counts dN).length, (dN.map List.sum).getD d 0 = g.getD d 0) ↔
      dN.map List.sum = g := by
    constructor
    · intro h
      apply List.ext_getElem
      · simp [hg]
      · intro d h1 h2
        have := h d (by simpa [counts] using h1)
        rw [List.getD_eq_getElem?_getD, List.getD_eq_getElem?_getD, List.getElem?_eq_getElem h1,
          List.getElem?_eq_getElem h2] at this
        simpa using this
    · rintro rfl d _; rfl
  unfold redecompose
  rw [hmap _ (fun d hd => hd)]
  by_cases hs : dN.map List.sum = g
  · rw [if_pos (hiff.2 hs), if_pos hs, bind_ok]
    show Outcome.ok _ = Outcome.ok _
    congr 1
    have hlen : (recTable dM).length = (recTable dN).length := by
      have := congrArg List.length hdom
      simpa using this.symm
    apply List.ext_getElem
    · simp [hlen]
    · intro i h1 h2
      have hiN : i < (recTable dN).length := by simpa using h2
      have hiM : i < (recTable dM).length := by omega
      have hdi : (recTable dM)[i].map (·.dom) = (recTable dN)[i].map (·.dom) := by
        have := congrArg (fun l => l[i]?) hdom
        simp only [List.getElem?_map, List.getElem?_eq_getElem hiN, List.getElem?_eq_getElem hiM,
          Option.map_some, Option.some.injEq] at this
        exact this.symm
      have hl : (recTable dN)[i].length = dN.length := by
        have := ((mem_tp _ _).1 (List.getElem_mem hiN)).length_eq
        simpa using this
      simp only [List.getElem_map, List.getElem_range, List.getElem_mapIdx, mkSub,
        Subdomain.mk.injEq, true_and]
      refine ⟨?_, ?_, ?_⟩
      · rw [List.getElem?_mapIdx, List.getElem?_eq_getElem hiM]
        simpa [mkSub] using hdi
      · apply List.ext_getElem
        · simp [hl, counts]
        · intro d h3 h4
          have h5 : d < (recTable dN)[i].length := by simpa using h4
          simp [List.getElem?_eq_getElem hiN, List.getElem?_eq_getElem h5]
      · simp [List.getElem?_eq_getElem hiN, mkSub]
  · rw [if_neg (fun h => hs (hiff.1 h)), if_neg hs]
    rfl

/-- Stored sizes that do not fit together are accepted: in a 2 × 1 grid of domains the sizes along x2 are
5 and 7; only the 7 of the last domain is compared with the grid, and the first domain gets 5 of the 7 cells. -/
theorem C51_inconsistent_counterexample :
    redecompose [2, 1] [6, 7] [⟨0, [0, 0], [0, 0], [3, 7]⟩, ⟨1, [1, 0], [3, 0], [3, 7]⟩] [[2, 5], [4, 7]] =
      .ok [⟨0, [0, 0], [0, 0], [2, 5]⟩, ⟨1, [1, 0], [2, 0], [4, 7]⟩] := by decide +kernel

/-- Non-trivial instance of the theorem: 2 × 2 domains, new sizes. -/
example : (createDomains 4 [[3, 3], [4, 3]]).map (fun cur =>
    redecompose [2, 2] [6, 7] cur [[2, 5], [4, 5], [2, 2], [4, 2]]) =
    (createDomains 4 [[2, 4], [5, 2]]).map Outcome.ok := by decide +kernel

end Entity.PrtlIO
