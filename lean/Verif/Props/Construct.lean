import Verif.Lemmas.Construct
import Verif.Props.Tiling

/-!
# C165: the division into subdomains is set up, or refused, as it should be
-/

namespace Entity.Construct

open Entity Entity.Decomp Entity.Dir Entity.Topology

/-- Specification: what the constructor demands of its arguments in `D` dimensions: one entry per dimension
everywhere; as many subdomains as processes with MPI, a single one without (any number in a debug build); and a
condition for fields and particles at every end of every axis. -/
structure Admissible (D : Nat) (b : Build) (a : Args) : Prop where
  dec : a.decomposition.length = D
  ncells : a.ncells.length = D
  extent : a.nExtent = D
  fbc : a.fbc.length = D
  pbc : a.pbc.length = D
  number : match b with
    | .mpi size _ => a.ndomains = size
    | .serial debug => debug = true ∨ a.ndomains = 1
  flds : ∀ e ∈ a.fbc, e.1 ≠ .INVALID ∧ e.2 ≠ .INVALID
  prtl : ∀ e ∈ a.pbc, e.1 ≠ .INVALID ∧ e.2 ≠ .INVALID

theorem initialCheck_ok (D : Nat) (b : Build) (a : Args) :
    initialCheck D b a = .ok () ↔
      a.decomposition.length = D ∧ a.ncells.length = D ∧ a.nExtent = D ∧ a.fbc.length = D ∧ a.pbc.length = D ∧
      (match b with
        | .mpi size _ => a.ndomains = size
        | .serial debug => debug = true ∨ a.ndomains = 1) := by
  unfold initialCheck
  cases b with
  | mpi size rank =>
    by_cases h : a.ndomains = size
    · simp [h]
      split_ifs <;> simp_all
    · simp [h]
  | serial debug =>
    simp only [Bool.false_eq_true, if_false]
    split_ifs <;> simp_all
    cases debug <;> simp_all

theorem made {D nd : Nat} (h1 : 1 ≤ D) (h3 : D ≤ 3) {dN : List (List Nat)} (hD : dN.length = D)
    (hne : ∀ l ∈ dN, l ≠ []) {doms : List Subdomain} (hc : createDomains nd dN = some doms)
    (hp : (dN.map List.length).prod = nd) (bcs : List (BC × BC)) (hb : bcs.length = D) :
    Made D ⟨dN.map List.length, doms, bcs⟩ dN :=
  ⟨⟨hne, rfl, by rw [show (Decomp.counts dN).prod = nd from hp]; exact hc⟩, hD, h1, h3, hb⟩

theorem ncells_ne {dN : List (List Nat)} {D : Nat} (h1 : 1 ≤ D) (hD : dN.length = D)
    (hne : ∀ l ∈ dN, l ≠ []) {doms : List Subdomain}
    (hc : createDomains (dN.map List.length).prod dN = some doms) : ∀ s ∈ doms, s.ncells ≠ [] := by
  rw [createDomains_eq dN hne] at hc
  obtain rfl := Option.some.inj hc
  intro s hs
  rw [List.mem_mapIdx] at hs
  obtain ⟨i, hi, rfl⟩ := hs
  have := (mem_tp _ _).1 (List.getElem_mem hi : (recTable dN)[i] ∈ recTable dN)
  have hl := List.Forall₂.length_eq this
  intro h0
  have h00 := congrArg List.length h0
  simp only [mkSub, List.length_map, List.length_nil] at h00
  simp at hl
  omega

/-- **C165.** In one, two or three dimensions, for every number of subdomains that fits into 32 bits, every
grid, decomposition request and rounding of the roots: the constructor returns exactly if its arguments are
admissible and the decomposition `dN` it finds multiplies to the number of subdomains; it then has one subdomain
per process, in the order of their indices, each cell of the grid belongs to exactly one of them, and the local
ones are that of the process itself (with MPI) or all (without).  In particular the consistency checks at the
end never refuse an admissible set-up. -/
theorem C165_constructs (ng nspec maxnpart D : Nat) (h1 : 1 ≤ D) (h3 : D ≤ 3) (guess : Nat → Nat)
    (guess3 : Nat) (b : Build) (a : Args) (hnd : 0 < a.ndomains) (h32 : a.ndomains < 2 ^ 32)
    (doms : List Subdomain) (loc : List Nat) :
    construct ng nspec maxnpart D guess guess3 b a = .ok (doms, loc) ↔
      Admissible D b a ∧ ∃ dN, decompose guess guess3 a.ndomains a.ncells a.decomposition = .ok dN ∧
        (dN.map List.length).prod = a.ndomains ∧ createDomains a.ndomains dN = some doms ∧
        loc = (match b with
          | .mpi _ rank => if rank < a.ndomains then [rank] else []
          | .serial _ => List.range a.ndomains) := by
  have hlocal : ∀ n, localIndices b n = (match b with
          | .mpi _ rank => if rank < n then [rank] else []
          | .serial _ => List.range n) := by
    intro n
    cases b with
    | serial d => rfl
    | mpi size rank =>
      simp only [localIndices]
      induction n with
      | zero => simp
      | succ n ih =>
        rw [List.range_succ, List.filter_append, ih]
        by_cases hr : rank < n
        · rw [if_pos hr, if_pos (by omega)]
          simp; omega
        · rw [if_neg hr]
          by_cases he : n = rank
          · subst he; simp
          · rw [if_neg (by omega)]
            simp [he]
  have hdl : ∀ dN, decompose guess guess3 a.ndomains a.ncells a.decomposition = .ok dN →
      dN.length = a.ncells.length := by
    intro dN h
    unfold decompose at h
    split at h
    · simp at h
    split at h
    · rename_i e _
      rw [e]
      simp only [Outcome.bind_eq_ok, Outcome.pure_eq, Outcome.ok.injEq] at h
      obtain ⟨_, _, rfl⟩ := h
      rfl
    · rename_i e _
      rw [e]
      simp only [Outcome.bind_eq_ok, Outcome.pure_eq, Outcome.ok.injEq] at h
      obtain ⟨_, _, _, _, _, _, rfl⟩ := h
      rfl
    · rename_i e _
      rw [e]
      simp only [Outcome.bind_eq_ok, Outcome.pure_eq, Outcome.ok.injEq] at h
      obtain ⟨_, _, _, _, _, _, _, _, rfl⟩ := h
      rfl
    · simp at h
  unfold construct
  rw [andThen_ok]
  constructor
  · rintro ⟨⟨u, hu⟩, h⟩
    obtain ⟨q1, q2, q3, q4, q5, q6⟩ := (initialCheck_ok D b a).1 hu
    cases hdec : decompose guess guess3 a.ndomains a.ncells a.decomposition with
    | err => simp [hdec] at h
    | ub => simp [hdec] at h
    | ok dN =>
      have hlen : dN.length = D := by rw [hdl dN hdec, q2]
      simp only [hdec, hlen, ne_eq, not_true_eq_false, if_false] at h
      cases hc : createDomains a.ndomains dN with
      | none => simp [hc] at h
      | some ds =>
        simp only [hc] at h
        obtain ⟨⟨⟨⟩, hcon⟩, h⟩ := andThen_ok.1 h
        simp only [Outcome.ok.injEq, Prod.mk.injEq] at h
        obtain ⟨rfl, rfl⟩ := h
        have hle : (dN.map List.length).prod < 2 ^ 32 := by
          by_cases h0 : (dN.map List.length).prod = 0
          · rw [h0]; decide
          · have hne : ∀ l ∈ dN, l ≠ [] := by
              rintro l hl rfl
              exact h0 (List.prod_eq_zero (by simpa using hl))
            have hf : neighborsFound ⟨dN.map List.length, ds, a.fbc⟩ (allDirs D) = .ok () := by
              obtain ⟨⟨⟨⟩, h⟩, _⟩ := andThen_ok.1 hcon
              exact h
            have := found_prod h1 h3 hnd hlen hne a.fbc hc hf
            omega
        have hprod := (C02_decompose_partial guess guess3 a.ndomains hnd a.ncells a.decomposition dN hdec hle).1
        have hprod' : (dN.map List.length).prod = a.ndomains := hprod
        have hne : ∀ l ∈ dN, l ≠ [] := by
          rintro l hl rfl
          have : (dN.map List.length).prod = 0 := List.prod_eq_zero (by simpa using hl)
          omega
        have hdl : ds.length = a.ndomains := (mapM_get _ _ _ hc).1
        have hm := made h1 h3 hlen hne hc hprod' a.fbc q4
        have hmp := made h1 h3 hlen hne hc hprod' a.pbc q5
        have := (connect_ok hm hmp rfl (ncells_ne h1 hlen hne (by rw [hprod']; exact hc)) ng nspec maxnpart b).1 hcon
        exact ⟨⟨q1, q2, q3, q4, q5, q6, this.1, this.2⟩, dN, rfl, hprod', hc, by rw [hdl, hlocal]⟩
  · rintro ⟨ha, dN, hdec, hprod, hc, hl⟩
    have hlen : dN.length = D := by rw [hdl dN hdec, ha.ncells]
    have hne : ∀ l ∈ dN, l ≠ [] := by
      rintro l hl rfl
      have : (dN.map List.length).prod = 0 := List.prod_eq_zero (by simpa using hl)
      omega
    refine ⟨⟨(), (initialCheck_ok D b a).2 ⟨ha.dec, ha.ncells, ha.extent, ha.fbc, ha.pbc, ha.number⟩⟩, ?_⟩
    have hdl : doms.length = a.ndomains := (mapM_get _ _ _ hc).1
    simp only [hdec, hlen, ne_eq, not_true_eq_false, if_false, hc]
    rw [andThen_ok]
    have hm := made h1 h3 hlen hne hc hprod a.fbc ha.fbc
    have hmp := made h1 h3 hlen hne hc hprod a.pbc ha.pbc
    refine ⟨⟨(), (connect_ok hm hmp rfl (ncells_ne h1 hlen hne (by rw [hprod]; exact hc)) ng nspec maxnpart b).2
      ⟨ha.flds, ha.prtl⟩⟩, ?_⟩
    rw [hdl, hlocal, hl]

/-- **C165 (the subdomains).** What is constructed divides the grid: as many subdomains as asked for, numbered
in order, each cell in exactly one. -/
theorem C165_divides (ng nspec maxnpart D : Nat) (h1 : 1 ≤ D) (h3 : D ≤ 3) (guess : Nat → Nat)
    (guess3 : Nat) (b : Build) (a : Args) (hnd : 0 < a.ndomains) (h32 : a.ndomains < 2 ^ 32)
    (doms : List Subdomain) (loc : List Nat)
    (h : construct ng nspec maxnpart D guess guess3 b a = .ok (doms, loc)) :
    doms.length = a.ndomains ∧ (∀ (i : Nat) (s : Subdomain), doms[i]? = some s → s.index = i) ∧
    ∀ c, InGrid c a.ncells → ∃! s, s ∈ doms ∧ Owns s c := by
  obtain ⟨_, dN, hdec, hprod, hc, _⟩ := (C165_constructs ng nspec maxnpart D h1 h3 guess guess3 b a hnd h32 doms loc).1 h
  have hne : ∀ l ∈ dN, l ≠ [] := by
    rintro l hl rfl
    have : (dN.map List.length).prod = 0 := List.prod_eq_zero (by simpa using hl)
    omega
  have hs := (C02_decompose_partial guess guess3 a.ndomains hnd a.ncells a.decomposition dN hdec
    (by rw [show (Decomp.counts dN).prod = _ from hprod]; exact h32)).2
  obtain ⟨ds, e1, e2, e3, e4, _⟩ := C03_tiling dN hne
  rw [show (Decomp.counts dN).prod = a.ndomains from hprod] at e1 e2
  rw [hc] at e1
  obtain rfl := Option.some.inj e1
  exact ⟨e2, e3, by rw [← hs]; exact e4⟩

/-- Six processes on 40 × 60 cells, periodic in `x1`, walls in `x2`; the third process. -/
def exArgs : Args :=
  ⟨6, [-1, -1], [40, 60], 2, [(.PERIODIC, .PERIODIC), (.CONDUCTOR, .MATCH)],
    [(.PERIODIC, .PERIODIC), (.CUSTOM, .CUSTOM)]⟩

example : Admissible 2 (.mpi 6 2) exArgs :=
  ⟨rfl, rfl, rfl, rfl, rfl, rfl, by decide, by decide⟩

example : (match construct 2 2 100 2 (fun _ => 2) 0 (.mpi 6 2) exArgs with
    | .ok r => some (r.1.map (·.offsetNcells), r.2)
    | _ => none) = some ([[0, 0], [20, 0], [0, 20], [20, 20], [0, 40], [20, 40]], [2]) := by decide +kernel

/-- The request that defeats the 32-bit product (see C02) is refused by the search for neighbours. -/
theorem C165_wraparound (ng nspec maxnpart : Nat) (guess : Nat → Nat) (guess3 : Nat) (b : Build) (a : Args)
    (h1 : a.ndomains = 1) (hd : a.decomposition = [641, 6700417]) (doms : List Subdomain) (loc : List Nat) :
    construct ng nspec maxnpart 2 guess guess3 b a ≠ .ok (doms, loc) := by
  intro h
  obtain ⟨ha, dN, hdec, hprod, _⟩ := (C165_constructs ng nspec maxnpart 2 (by decide) (by decide) guess guess3 b a
    (by omega) (by rw [h1]; decide) doms loc).1 h
  have hl := ha.ncells
  obtain ⟨c1, c2, hc⟩ : ∃ c1 c2, a.ncells = [c1, c2] := List.length_eq_two.1 hl
  rw [hd, hc, h1] at hdec
  simp only [decompose, List.length_cons, List.length_nil, ne_eq, not_true_eq_false, if_false,
    Outcome.bind_eq_ok, Outcome.pure_eq, Outcome.ok.injEq] at hdec
  obtain ⟨⟨n1, n2⟩, hch, x, hx, y, hy, rfl⟩ := hdec
  have hr := choose2D_request hch
  have e1 := hr.1 (by decide)
  have e2 := hr.2 (by decide)
  have lx := (decompose1D_ok_len hx).1
  have ly := (decompose1D_ok_len hy).1
  simp only [List.map_cons, List.map_nil, List.prod_cons, List.prod_nil, lx, ly, e1, e2, h1] at hprod
  revert hprod
  decide +kernel

end Entity.Construct
