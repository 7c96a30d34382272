import Verif.Spec.FullStep

/-!
# Subdomains of a periodic box: offsets, sides, partners
-/

namespace Entity.Full

open Entity Entity.Topology Entity.Kernel Entity.FieldSolver Entity.Push Entity.Prtl Entity.Ranks
open Entity.Deposit Entity.Interp Entity.Tags Entity.Decomp Entity.Gauss Entity.Dir

variable {m : Meta} {dN : List (List Nat)}

/-- Offsets of a subdomain as integers. -/
def offI (m : Meta) (r : Nat) : List Int := (offs m r).map (fun (o : Nat) => (o : Int))

theorem offsets_eq (m : Meta) (r : Nat) : offsets m r = offs m r := by
  unfold offsets offs
  cases m.doms[r]? <;> rfl

theorem offI_length (h : Built m dN) {r : Nat} (hr : r < m.doms.length) :
    (offI m r).length = dN.length := by simp [offI, offs_length h hr]

theorem origin_eq (m : Meta) (ng r : Nat) : origin m ng r = (offI m r).map (· - (ng : Int)) := by
  simp [origin, offI, Function.comp_def]

theorem sizes_length (h : Built m dN) {r : Nat} (hr : r < m.doms.length) :
    (sizes m r).length = dN.length := by
  obtain ⟨R, hR⟩ := h.getRec_lt hr
  rw [hR.sizes, List.length_map, hR.len]

/-- The subdomain lies in the box. -/
theorem off_add_size (h : Built m dN) {r : Nat} (hr : r < m.doms.length) {a : Nat}
    (ha : a < dN.length) : 0 ≤ (offI m r).getD a 0 ∧
      (offI m r).getD a 0 + ((sizes m r).getD a 0 : Int) ≤ ((dN.map List.sum).getD a 0 : Int) := by
  obtain ⟨R, hR⟩ := h.getRec_lt hr
  have haR : a < R.length := by rw [hR.len]; exact ha
  have hm := axisRecs_bounds (hR.mem a ha haR)
  have e1 : (offI m r).getD a 0 = (R[a].off : Int) := by
    simp [offI, offs, hR.dom, mkSub, haR]
  have e2 : (sizes m r).getD a 0 = R[a].n := by
    rw [hR.sizes]; simp [haR]
  have e3 : (dN.map List.sum).getD a 0 = dN[a].sum := by simp [ha]
  rw [e1, e2, e3]
  omega

/-- With one subdomain along an axis, it extends over the whole axis. -/
theorem size_of_one (h : Built m dN) {r : Nat} (hr : r < m.doms.length) {a : Nat}
    (ha : a < dN.length) (h1 : m.counts.getD a 0 = 1) :
    ((sizes m r).getD a 0 : Int) = ((dN.map List.sum).getD a 0 : Int) := by
  obtain ⟨R, hR⟩ := h.getRec_lt hr
  have haR : a < R.length := by rw [hR.len]; exact ha
  have e2 : (sizes m r).getD a 0 = R[a].n := by
    rw [hR.sizes]; simp [haR]
  have e3 : (dN.map List.sum).getD a 0 = dN[a].sum := by simp [ha]
  rw [h.counts] at h1
  have h1' : dN[a].length = 1 := by
    simpa [Decomp.counts, ha] using h1
  obtain ⟨x, hx⟩ := List.length_eq_one_iff.1 h1'
  have hm := hR.mem a ha haR
  rw [hx] at hm
  simp only [axisRecs, List.mem_singleton] at hm
  rw [e2, e3, hx, hm]
  simp

theorem globalCells_eq (h : Built m dN) {r : Nat} (hr : r < m.doms.length) {l : List Int}
    (hl : l.length = dN.length) :
    globalCells m dN r l = wrap (dN.map List.sum) (List.zipWith (· + ·) l (offI m r)) := by
  obtain ⟨R, hR⟩ := h.getRec_lt hr
  have hlR := hR.len
  apply List.ext_getElem
  · simp [globalCells, wrap, hl, offI_length h hr]
  · intro a h1 h2
    have ha : a < dN.length := by simpa [globalCells] using h1
    have hla : a < l.length := by omega
    have haR : a < R.length := by omega
    simp only [globalCells, wrap, globalCell, hR.dom, offI, offs, mkSub, List.getElem_map,
      List.getElem_range, List.getElem_zipWith, Option.map_some, Option.getD_some,
      List.getD_eq_getElem?_getD, List.getElem?_eq_getElem hla, List.getElem?_eq_getElem ha,
      List.getElem?_map, List.getElem?_eq_getElem haR]
    rw [add_comm]

/-- A cell of a subdomain, counted from the corner of the box. -/
theorem globalCells_inside (h : Built m dN) {r : Nat} (hr : r < m.doms.length) {l : List Int}
    (hl : l.length = dN.length)
    (hin : ∀ a < dN.length, 0 ≤ l.getD a 0 ∧ l.getD a 0 < (sizes m r).getD a 0) :
    globalCells m dN r l = List.zipWith (· + ·) l (offI m r) := by
  rw [globalCells_eq h hr hl]
  apply List.ext_getElem
  · simp [wrap, hl, offI_length h hr]
  · intro a h1 h2
    have ha : a < dN.length := by
      simp only [wrap, List.length_zipWith, List.length_map] at h1; omega
    obtain ⟨b1, b2⟩ := hin a ha
    obtain ⟨c1, c2⟩ := off_add_size h hr ha
    have hla : a < l.length := by omega
    have hoa : a < (offI m r).length := by rw [offI_length h hr]; exact ha
    simp only [List.getD_eq_getElem?_getD, List.getElem?_eq_getElem hla,
      List.getElem?_eq_getElem hoa, Option.getD_some] at b1 b2 c1 c2
    have e3 : (dN.map List.sum)[a]?.getD 0 = dN[a].sum := by simp [ha]
    rw [e3] at c2
    simp only [wrap, List.getElem_zipWith, List.getElem_map]
    exact Int.emod_eq_of_lt (by omega) (by omega)

/-! ## Sides -/

theorem corner_zero (c p : List Nat) (b : List (BC × BC)) (n : Nat) (acc : BC) :
    corner c p b (List.replicate n 0) acc = acc := by
  induction n generalizing c p b with
  | zero => unfold corner; split <;> simp_all
  | succ n ih =>
    rw [List.replicate_succ]
    cases c <;> cases p <;> cases b <;> simp [corner, ih]

theorem corner_unit {c p : List Nat} {b : List (BC × BC)} (hg : InGrid p c)
    (hb : ∀ e ∈ b, e = (.PERIODIC, .PERIODIC)) (hbl : b.length = c.length) {v : Int}
    (hv : v = -1 ∨ v = 1) {a : Nat} (ha : a < c.length) (acc : BC) :
    corner c p b ((List.replicate c.length 0).set a v) acc =
      if c.getD a 0 = 1 then .PERIODIC else .SYNC := by
  induction hg generalizing b a acc with
  | nil => simp at ha
  | @cons p n ps ns hx hg ih =>
    cases b with
    | nil => simp at hbl
    | cons b bs =>
      have hbb := hb b (by simp)
      subst hbb
      cases a with
      | zero =>
        have hv0 : v ≠ 0 := by omega
        simp only [List.length_cons, List.replicate_succ, List.set_cons_zero, corner, ne_eq, hv0,
          not_false_eq_true, if_true, List.getD_cons_zero]
        by_cases hn : n = 1
        · have hp0 : p = 0 := by omega
          subst hn hp0
          have : axisBC 1 0 (.PERIODIC, .PERIODIC) v = .PERIODIC := by
            unfold axisBC; rcases hv with rfl | rfl <;> simp
          rw [this]
          simp [corner_zero]
        · have : axisBC n p (.PERIODIC, .PERIODIC) v = .SYNC := by
            unfold axisBC
            simp only [hn, not_false_eq_true, true_and, ne_eq]
            split_ifs <;> simp_all
          rw [this]
          simp [hn]
      | succ a =>
        simp only [List.length_cons, List.replicate_succ, List.set_cons_succ, corner, ne_eq,
          not_true_eq_false, if_false, List.getD_cons_succ]
        exact ih (fun e he => hb e (by simp [he])) (by simpa using hbl) (by simpa using ha) acc

theorem counts_length (h : Built m dN) : m.counts.length = dN.length := by
  rw [h.counts]; simp [Decomp.counts]

theorem sidesOf_get (h : Built m dN) (hp : AllPeriodic m) {r : Nat} (hr : r < m.doms.length) {a : Nat}
    (ha : a < dN.length) :
    (sidesOf m r)[a]? = some (if m.counts.getD a 0 = 1 then .periodic else .sync,
      if m.counts.getD a 0 = 1 then .periodic else .sync, ((sizes m r).getD a 0 : Int)) := by
  have hc := counts_length h
  obtain ⟨p, hat, hg⟩ := h.at_of_lt hr
  have hbi : ∀ e ∈ m.bcs, e.1 ≠ .INVALID ∧ e.2 ≠ .INVALID := by
    intro e he; rw [hp.2 e he]; decide
  have key : ∀ v : Int, v = -1 ∨ v = 1 →
      prtlBC (dirBC m r (unitDir m.counts.length a v)) =
        if m.counts.getD a 0 = 1 then .periodic else .sync := by
    intro v hv
    have hs : Signs (unitDir m.counts.length a v) := by
      intro x hx
      rcases List.mem_or_eq_of_mem_set hx with hx | hx
      · right; left; exact List.eq_of_mem_replicate hx
      · omega
    have hnz : ∃ x ∈ unitDir m.counts.length a v, x ≠ 0 := by
      refine ⟨v, ?_, by omega⟩
      unfold unitDir
      exact List.mem_set (l := List.replicate m.counts.length (0 : Int))
        (by rw [List.length_replicate, hc]; exact ha) v
    rw [h.dirBC hat hs (by simp [unitDir]) hp.1 hbi hnz]
    unfold unitDir
    rw [corner_unit hg hp.2 hp.1 hv (by rw [hc]; exact ha)]
    split_ifs <;> rfl
  unfold sidesOf
  rw [List.getElem?_map, List.getElem?_range (show a < m.counts.length by rw [hc]; exact ha)]
  simp only [Option.map_some]
  rw [key _ (.inl rfl), key _ (.inr rfl)]

theorem sidesOf_length (h : Built m dN) (r : Nat) : (sidesOf m r).length = dN.length := by
  simp [sidesOf, counts_length h]

/-! ## Partners -/

theorem sendTo_some (h : Built m dN) (hp : AllPeriodic m) {D : Nat} (hD : D = dN.length) (h1 : 1 ≤ D)
    (h3 : D ≤ 3) {d : Direction} (hd : d ∈ allDirs D) {r : Nat} (hr : r < m.doms.length) :
    sendTo m r d ≠ none := by
  obtain ⟨hl, hs, hnz⟩ := ((C07_direction_tables D h1 h3).1 d).1 hd
  obtain ⟨p, hat, hg⟩ := h.at_of_lt hr
  obtain ⟨jp, jm, -, -, -, -, e⟩ := sendRecv_eq m dN h hp.good d hs (by omega) hnz r p hat
  have hbi : ∀ e ∈ m.bcs, e.1 ≠ .INVALID ∧ e.2 ≠ .INVALID := by
    intro e he; rw [hp.2 e he]; decide
  have hni := corner_ne_invalid (acc := .INVALID) (d := d) (p := p) hbi
    hg.length_eq hp.1 (by rw [counts_length h]; omega) (.inr hnz)
  unfold sendTo
  rw [e]
  simp only
  rw [if_neg]
  · simp
  · rcases corner_periodic (c := m.counts) (p := p) (d := d) (acc := .INVALID) hp.2 with h3 | h3 | h3
    · exact absurd h3 hni
    · rw [h3]; decide
    · rw [h3]; decide

theorem tag_dir {D : Nat} (h1 : 1 ≤ D) (h3 : D ≤ 3) {t : Int} {d : Direction}
    (h : tag2dir D t = .ok d) : d ∈ allDirs D ∧ dir2tag D d = .ok t := by
  unfold tag2dir at h
  split_ifs at h with hc
  push Not at hc
  split at h
  · rename_i e hx
    cases h
    obtain ⟨hj, he⟩ := List.getElem?_eq_some_iff.1 hx
    refine ⟨he ▸ List.getElem_mem hj, ?_⟩
    have := dir2tag_get h1 h3 _ hj
    rw [he] at this
    rw [this]
    congr 1
    omega
  · cases h

end Entity.Full
