import Verif.Props.MovingWindow

/-!
# C56: fields, particles and extents moved together
-/

namespace Entity.Window

open Entity Entity.Dir Entity.Tags Entity.Topology Entity.Prtl

variable {m : Meta} {dN : List (List Nat)}

/-- **C56, one call.**  Under the hypotheses of `C56_fields_partial` and `C56_particles_partial`, with a
positive shift, the call succeeds; every active cell whose new position is not beyond a wall holds what the
global field had `s` cells ahead; the particles that stay keep their place relative to the plasma, in cells
counted from the shifted box; all extents move by `s` cells.  Missing: what those theorems miss. -/
theorem C56_whole_partial {α R K : Type} [Inhabited R] [Field K] (h : Built m dN) (hb : GoodBCs m)
    (hpos : ∀ l ∈ dN, ∀ x ∈ l, 0 < x) (k : Kind) (hD : k.D = dN.length) (h1 : 1 ≤ k.D)
    (h3 : k.D ≤ 3) {ng : Nat} (hwide : Wide dN ng) {o : Nat} (ho : o < k.D) {s : Int} (hs0 : 0 < s)
    (hs : s ≤ ng) (hw : ∀ r < m.doms.length, s ≤ (sizes m r).getD o 0) (dx : K) (st : State α R K)
    (hF : Synced m dN ng st.field) (hst : Settled m k fun r => st.prtls.getD r ⟨[], 0⟩)
    (S : Nat → Scheds) (hS : ∀ r < m.doms.length, (S r).Fair)
    (hcomm : ∀ r < m.doms.length, behind k o s (st.prtls.getD r ⟨[], 0⟩) ≠ [] →
      sendTo m r (lowDir k.D o) ≠ none ∨ recvFrom m r (lowDir k.D o) ≠ none)
    (hcap : ∀ r < m.doms.length, (st.prtls.getD r ⟨[], 0⟩).npart + entering m k o s st.prtls r <
      (st.prtls.getD r ⟨[], 0⟩).maxnpart) :
    ∃ st', moveWindow true m ng k dx o s S st = .ok st' ∧
      (∀ r i q j, Active m ng r i → ¬ IsWall m r (sideOf m ng r (ahead o s i)) → Active m ng q j →
        globalPos m (dN.map List.sum) ng r (ahead o s i) = globalPos m (dN.map List.sum) ng q j →
        st'.field r i = st.field q j) ∧
      Synced m dN ng st'.field ∧
      ((List.range m.doms.length).flatMap fun r =>
        (st'.prtls.getD r ⟨[], 0⟩).live.map fun q => (globalCells m dN r (k.view q).cell,
          (k.view q).cargo)).Perm
      ((List.range m.doms.length).flatMap fun r =>
        ((st.prtls.getD r ⟨[], 0⟩).live.filter fun q => decide (Stays m k o s r q)).map
          fun q => (globalCells m dN r (ahead o (-s) (k.view q).cell), (k.view q).cargo)) ∧
      st'.exts.2.length = st.exts.2.length ∧
      ∀ e e', (e, e') ∈ (st.exts.1 :: st.exts.2).zip (st'.exts.1 :: st'.exts.2) →
        ∀ (a : Nat) (x y x' y' : K), e[a]? = some (x, y) → e'[a]? = some (x', y') →
          (a ≠ o → x' = x ∧ y' = y) ∧
          (a = o → y' - x' = y - x ∧
            ∀ (i : Int) (f : K), x' + (((i - s : Int) : K) + f) * dx = x + ((i : K) + f) * dx) := by
  obtain ⟨G, g1, g2, _, g4⟩ := C56_fields_partial h hb (hD ▸ h1) (hD ▸ h3) hwide (hD ▸ ho) hs0.le hs
    st.field hF
  obtain ⟨P, p1, p2, _⟩ := C56_particles_partial h hb hpos k hD h1 h3 ho hs0.le hw st.prtls hst S hS
    hcomm hcap
  obtain ⟨B, subs, b1, b2, b3⟩ := (C56_extents dx o s st.exts.1 st.exts.2).2 hs0.ne'
  refine ⟨⟨G, P, (B, subs)⟩, ?_, g2, g4, ?_, b2, fun e e' he => (b3 e e' he).2⟩
  · unfold moveWindow
    rw [g1, Outcome.bind_ok, p1, Outcome.bind_ok, show st.exts = (st.exts.1, st.exts.2) from rfl, b1]
    rfl
  · have := p2.map fun (z : List Int × List Int × _) => (z.1, z.2.2)
    simpa only [List.map_flatMap, List.map_map, Function.comp_def] using this

/-- Non-vacuity: two subdomains of a periodic box, with particles on both sides, moved by two cells. -/
example : ∃ st', moveWindow true perMeta 2 exK (1 / 2 : ℚ) 0 2 (fun _ => exSch)
    ⟨fun r i => globalPos perMeta [11, 7] 2 r i, winSt,
      ([(0, 11 / 2), (0, 7 / 2)], [[(0, 5 / 2), (0, 7 / 2)], [(5 / 2, 11 / 2), (0, 7 / 2)]])⟩ = .ok st' := by
  obtain ⟨st', h, _⟩ := C56_whole_partial (dN := [[5, 6], [7]]) (ng := 2) (o := 0) (s := 2) perMeta_built
    (AllPeriodic.good ⟨rfl, by decide⟩) (by decide) exK rfl (by decide) (by decide)
    (by unfold Wide; decide) (by decide) (by decide) (by decide) (by decide +kernel) (1 / 2 : ℚ)
    ⟨fun r i => globalPos perMeta [11, 7] 2 r i, winSt,
      ([(0, 11 / 2), (0, 7 / 2)], [[(0, 5 / 2), (0, 7 / 2)], [(5 / 2, 11 / 2), (0, 7 / 2)]])⟩
    (fun _ _ _ _ _ _ _ h => h)
    ⟨by decide +kernel, by decide +kernel, by decide +kernel, by unfold PldOk; decide +kernel⟩
    (fun _ => exSch) (fun _ _ => exSch_fair)
    (fun r hr _ => Or.inl ((by decide +kernel : ∀ r < perMeta.doms.length,
      sendTo perMeta r (lowDir exK.D 0) ≠ none) r hr))
    (by decide +kernel)
  exact ⟨st', h⟩

end Entity.Window
