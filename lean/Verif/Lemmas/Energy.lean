import Verif.Lemmas.Lattice
import Verif.Lemmas.GaussStep
import Verif.Props.Maxwell
import Verif.Spec.Energy
import Verif.Model.Step

/-!
# The periodic box as a finite set with commuting shifts
-/

namespace Entity.FieldSolver

open Entity Entity.Topology Entity.Kernel Entity.Ranks Entity.Filter Entity.Lattice Entity.Gauss

variable {K : Type} [Field K] {m : Meta} {dN : List (List Nat)}

/-- The shifts of the active cells of the box. -/
theorem exists_shifts (h : Built m dN) {ng : Nat} (hw : Wide dN ng)
    {A : Finset (Nat × List Int)} (hA : ∀ q j, (q, j) ∈ A ↔ Active m ng q j) :
    ∃ S : List Int → Equiv.Perm A,
      (∀ o o' x, o.length = dN.length → o'.length = dN.length → S o (S o' x) = S o' (S o x)) ∧
      (∀ o x, o.length = dN.length → S (o.map (- ·)) x = (S o).symm x) ∧
      (∀ x, S (off dN.length []) x = x) ∧
      (∀ o x p, o.length = dN.length → globalPos m (dN.map List.sum) ng x.1.1 x.1.2 = some p →
        globalPos m (dN.map List.sum) ng (S o x).1.1 (S o x).1.2 =
          some (wrap (dN.map List.sum) (List.zipWith (· + ·) p o))) ∧
      (∀ (sel : Nat → Nat → Bool) (M : MMem K) (g : GMem K), Shows m (dN.map List.sum) ng sel M g →
        ∀ a c, sel a c = true → ∀ o : List Int, o.length = dN.length → (∀ y ∈ o, -(ng : Int) ≤ y ∧ y ≤ ng) →
        ∀ x : A, M x.1.1 ⟨a, c, List.zipWith (· + ·) x.1.2 o⟩ = M (S o x).1.1 ⟨a, c, (S o x).1.2⟩) := by
  classical
  set N := dN.map List.sum with hN
  have hpos : ∀ x : A, ∃ p, globalPos m N ng x.1.1 x.1.2 = some p ∧ p.length = dN.length ∧ wrap N p = p := by
    intro x
    have ha := (hA x.1.1 x.1.2).1 x.2
    obtain ⟨p, hp⟩ := globalPos_isSome N (active_inArray ha)
    exact ⟨p, hp, globalPos_wrapped h (active_lt ha) (active_length h (active_inArray ha)) hp⟩
  choose pos hp hpl hpw using hpos
  have hinj : ∀ x y : A, pos x = pos y → x = y := by
    intro x y e
    obtain ⟨e1, e2⟩ := active_image_unique h ((hA _ _).1 x.2) ((hA _ _).1 y.2) (by rw [← hN, hp, hp, e])
    exact Subtype.ext (Prod.ext e1 e2)
  have key : ∀ (o : List Int) (x : A), ∃ y : A, o.length = dN.length →
      pos y = wrap N (List.zipWith (· + ·) (pos x) o) := by
    intro o x
    by_cases ho : o.length = dN.length
    · obtain ⟨r, i, hi, hip⟩ := cover h hw (p := wrap N (List.zipWith (· + ·) (pos x) o))
        (by simp [wrap, hN, hpl, ho]) (wrap_wrap _ _)
      refine ⟨⟨(r, i), (hA r i).2 hi⟩, fun _ => ?_⟩
      have := hp ⟨(r, i), (hA r i).2 hi⟩
      rw [hip] at this
      exact (Option.some.inj this).symm
    · exact ⟨x, fun h => absurd h ho⟩
  choose φ hφ using key
  have hneg : ∀ (o : List Int) (x : A), o.length = dN.length → φ (o.map (- ·)) (φ o x) = x := by
    intro o x ho
    refine hinj _ _ ?_
    rw [hφ _ _ (by simpa using ho), hφ _ _ ho, wrap_add, add_neg_pos (hpl x) ho, hpw]
  have hnn : ∀ o : List Int, (o.map (- ·)).map (- ·) = o := by intro o; simp
  let S : List Int → Equiv.Perm A := fun o =>
    if ho : o.length = dN.length then
      ⟨φ o, φ (o.map (- ·)), fun x => hneg o x ho, fun x => by
        have := hneg (o.map (- ·)) x (by simpa using ho)
        rwa [hnn] at this⟩
    else Equiv.refl _
  have hS : ∀ o x, o.length = dN.length → S o x = φ o x := by
    intro o x ho; simp only [S, dif_pos ho]; rfl
  refine ⟨S, ?_, ?_, ?_, ?_, ?_⟩
  · intro o o' x ho ho'
    rw [hS _ _ ho, hS _ _ ho', hS _ _ ho, hS _ _ ho']
    refine hinj _ _ ?_
    rw [hφ _ _ ho, hφ _ _ ho', hφ _ _ ho', hφ _ _ ho, wrap_add, wrap_add]
    congr 1
    apply List.ext_getElem
    · simp [hpl, ho, ho']
    · intro i h1 h2; simp; ring
  · intro o x ho
    rw [hS _ _ (by simpa using ho)]
    simp only [S, dif_pos ho]; rfl
  · intro x
    rw [hS _ _ (by simp [off])]
    refine hinj _ _ ?_
    rw [hφ _ _ (by simp [off]), off_nil (hpl x), hpw]
  · intro o x p ho hx
    rw [hp x] at hx
    cases hx
    rw [hS _ _ ho, hp, hφ _ _ ho]
  · intro sel M g hs a c hsel o ho hb x
    have hx := (hA x.1.1 x.1.2).1 x.2
    rw [Shows.around h hs hx (hp x) ho hb hsel, hS _ _ ho]
    rw [hs a c hsel _ _ _ (active_inArray ((hA _ _).1 (φ o x).2)) (hp (φ o x)), hφ _ _ ho]
    rfl

/-- The shifts along the axes. -/
def axes (D : Nat) {A : Finset (Nat × List Int)} (S : List Int → Equiv.Perm A) (a : Nat) : Equiv.Perm A :=
  if a < D then S (off D [(a, 1)]) else 1

theorem off_len (D : Nat) (l : List (Nat × Int)) : (off D l).length = D := by
  unfold off
  have : ∀ o : List Int, (l.foldl (fun o x => o.set x.1 x.2) o).length = o.length := by
    induction l with
    | nil => simp
    | cons x l ih => intro o; simp [ih]
  simp [this]

theorem off_bound (D a : Nat) (s : Int) {ng : Nat} (hs : -(ng : Int) ≤ s ∧ s ≤ ng) :
    ∀ y ∈ off D [(a, s)], -(ng : Int) ≤ y ∧ y ≤ ng := by
  intro y hy
  simp only [off, List.foldl_cons, List.foldl_nil] at hy
  rcases List.mem_or_eq_of_mem_set hy with h | h
  · have := List.eq_of_mem_replicate h; subst this; omega
  · subst h; exact hs

theorem off_neg (D a : Nat) : (off D [(a, 1)]).map (- ·) = off D [(a, -1)] := by
  simp [off, List.map_set]

theorem extDiff_yee (D a : Nat) (f : List Int → K) :
    extDiff D .yee a f = f (off D [(a, 1)]) - f (off D []) := by
  have hb : ∀ b, (Coeffs.yee : Coeffs K).beta a b = 0 := by
    intro b; unfold Coeffs.beta; split <;> rfl
  have hd : (Coeffs.yee : Coeffs K).delta a = 0 := by unfold Coeffs.delta; split <;> rfl
  have h1 : ∀ l : List Nat, (l.map ((Coeffs.yee : Coeffs K).beta a)).sum = 0 := by
    intro l; induction l with
    | nil => rfl
    | cons x l ih => simp [hb]; exact ih
  simp [extDiff, hb, hd, h1]

/-- The curls of the specification are the curls on the box. -/
theorem curls_eq {A : Finset (Nat × List Int)} {S : List Int → Equiv.Perm A} {ng : Nat} (hng : 1 ≤ ng)
    {M : MMem K} {k : Nat} {dx : K}
    (hneg : ∀ o x, o.length = dN.length → S (o.map (- ·)) x = (S o).symm x)
    (h0 : ∀ x, S (off dN.length []) x = x)
    (hM : ∀ c, c < 3 → ∀ o : List Int, o.length = dN.length → (∀ y ∈ o, -(ng : Int) ≤ y ∧ y ≤ ng) →
        ∀ x : A, M x.1.1 ⟨0, k + c, List.zipWith (· + ·) x.1.2 o⟩ = M (S o x).1.1 ⟨0, k + c, (S o x).1.2⟩)
    (F : Nat → A → K) (hF : ∀ c x, F c x = phys dN.length dx
      (fun c o => M x.1.1 ⟨0, k + c, List.zipWith (· + ·) x.1.2 o⟩) c (off dN.length [])) (a : Nat) (x : A) :
    curlUp dN.length .yee (phys dN.length dx
      (fun c o => M x.1.1 ⟨0, k + c, List.zipWith (· + ·) x.1.2 o⟩)) a = curlF (axes dN.length S) F a x ∧
    curlDown dN.length (phys dN.length dx
      (fun c o => M x.1.1 ⟨0, k + c, List.zipWith (· + ·) x.1.2 o⟩)) a = curlB (axes dN.length S) F a x := by
  have hb0 : ∀ y ∈ off dN.length [], -(ng : Int) ≤ y ∧ y ≤ ng := by
    intro y hy; simp only [off, List.foldl_nil] at hy
    have := List.eq_of_mem_replicate hy; subst this; omega
  have val : ∀ c, c < 3 → ∀ o : List Int, o.length = dN.length → (∀ y ∈ o, -(ng : Int) ≤ y ∧ y ≤ ng) → ∀ x : A,
      phys dN.length dx (fun c o => M x.1.1 ⟨0, k + c, List.zipWith (· + ·) x.1.2 o⟩) c o = F c (S o x) := by
    intro c hc o ho hb x
    rw [hF]
    simp only [phys]
    rw [hM c hc o ho hb x, hM c hc _ (off_len _ _) hb0 (S o x), h0]
  have up : ∀ b c, c < 3 → dUp dN.length .yee b (phys dN.length dx
      (fun c o => M x.1.1 ⟨0, k + c, List.zipWith (· + ·) x.1.2 o⟩) c) = fwd (axes dN.length S) b (F c) x := by
    intro b c hc
    unfold dUp fwd axes
    by_cases hb : b < dN.length
    · simp only [if_pos hb]
      rw [extDiff_yee, val c hc _ (off_len _ _) (off_bound _ _ _ (by omega)), val c hc _ (off_len _ _) hb0, h0]
    · simp only [if_neg hb]
      exact (sub_self _).symm
  have down : ∀ b c, c < 3 → dDown dN.length b (phys dN.length dx
      (fun c o => M x.1.1 ⟨0, k + c, List.zipWith (· + ·) x.1.2 o⟩) c) = bwd (axes dN.length S) b (F c) x := by
    intro b c hc
    unfold dDown bwd axes
    by_cases hb : b < dN.length
    · simp only [if_pos hb]
      rw [val c hc _ (off_len _ _) (off_bound _ _ _ (by omega)), val c hc _ (off_len _ _) hb0, h0,
        ← off_neg, hneg _ _ (off_len _ _)]
    · simp only [if_neg hb]
      exact (sub_self _).symm
  unfold curlUp curlDown curlF curlB
  rw [up _ _ (Nat.mod_lt _ (by omega)), up _ _ (Nat.mod_lt _ (by omega)), down _ _ (Nat.mod_lt _ (by omega)),
    down _ _ (Nat.mod_lt _ (by omega))]
  exact ⟨rfl, rfl⟩

/-! ## What the parts of a step leave alone -/

theorem faraday_frame (h : Built m dN) (hD : dN.length ∈ [1, 2, 3]) {ng : Nat} {dT dx : K} {k : Coeffs K}
    {M M' : MMem K} (hd : Does m dN.length ng (.faraday dT dx k) M M') {r : Nat} (hr : r < m.doms.length)
    {a c : Nat} (hs : selB a c = false) (i : List Int) : M' r ⟨a, c, i⟩ = M r ⟨a, c, i⟩ := by
  obtain ⟨M1, hl, hc⟩ := hd
  rw [(hc a c).2 hs, launchAll_other (f := fun _ _ => faraday dN.length dT dx k) h
    (fun _ _ _ => faraday_own hD _ _ _) hl hr hs i]

theorem electric_frame (h : Built m dN) (hD : dN.length ∈ [1, 2, 3]) {ng : Nat} {dT dx : K}
    {dep : Option (K × K)} {M M' : MMem K} (hd : Does m dN.length ng (.electric dT dx dep) M M') {r : Nat}
    (hr : r < m.doms.length) {c : Nat} (hs : selB 0 c = true) (i : List Int) :
    M' r ⟨0, c, i⟩ = M r ⟨0, c, i⟩ := by
  have h3 : 3 ≤ c := by simp [selB] at hs; omega
  have hE : selE 0 c = false := by simp [selE]; omega
  have hEJ : selEJ 0 c = false := by simp [selEJ, hE, selJ]
  obtain ⟨M1, M2, hl, hm, hc⟩ := hd
  rw [(hc 0 c).2 (by simp [hE, selJ])]
  match dep, hm with
  | none, hm =>
    have hm : M2 = M1 := hm
    subst hm
    exact launchAll_other (f := fun _ _ => ampere dN.length dT dx) h (fun _ _ _ => ampere_own hD _ _) hl hr hE i
  | some (coeff, ppc0), hm =>
    have hm : LaunchAll m ng (fun _ t => atCell (currentsAmpere dN.length coeff ppc0) t) M1 M2 := hm
    rw [launchAll_other (f := fun _ _ => currentsAmpere dN.length coeff ppc0) h
      (fun _ _ _ => currentsAmpere_own hD _ _) hm hr hEJ i]
    exact launchAll_other (f := fun _ _ => ampere dN.length dT dx) h (fun _ _ _ => ampere_own hD _ _) hl hr hE i

theorem passes_frame (h : Built m dN) (hp : AllPeriodic m) (hD : dN.length ∈ [1, 2, 3]) {ng n : Nat}
    {M M' : MMem K} (hd : FilterPasses m ng n M M') {r : Nat} (hr : r < m.doms.length) (c : Nat) (i : List Int) :
    M' r ⟨0, c, i⟩ = M r ⟨0, c, i⟩ := by
  induction hd with
  | zero M => rfl
  | succ _ h2 ih =>
    rename_i n A B C _
    obtain ⟨M1, hl, hc⟩ := h2
    have hl' : LaunchAll m ng (fun _ t => atCell (plainFilter dN.length) t)
        (fun r => copyToBuffer (B r)) M1 := by
      intro r hr
      refine launch_congr (fun t ht => ?_) (hl r hr)
      have htl := active_length h (active_inArray ((mem_activeCells hr).1 ht))
      show atCell (filterCart (filterCfg m ng r) t) t = atCell (plainFilter dN.length) t
      rw [filterCart_plain (filterCfg_cond h hp ng hr) (by rw [htl]; exact hD), htl]
    rw [(hc 0 c).2 rfl, launchAll_other (f := fun _ _ => plainFilter dN.length) h
      (fun _ _ _ => plainFilter_own hD) hl' hr (by simp [selJ]) i, ← ih]
    simp [copyToBuffer]

section
variable [LinearOrder K] [IsStrictOrderedRing K]

theorem phase_frame (h : Built m dN) (hp : AllPeriodic m) (hD : dN.length ∈ [1, 2, 3]) {P : StepPrm K}
    {sps : Nat → List (Sp K)} {M M' : MMem K} (hd : DepositPhase m P sps M M') {r : Nat}
    (hr : r < m.doms.length) (c : Nat) (i : List Int) : M' r ⟨0, c, i⟩ = M r ⟨0, c, i⟩ := by
  obtain ⟨M1, M2, M3, h1, h2, h3, h4⟩ := hd
  rw [passes_frame h hp hD h4 hr, (h3 0 c).2 rfl, (h2 0 c).2 rfl]
  obtain ⟨uss, vs, J, _, _, _, e⟩ := h1 r hr
  rw [e]; simp

/-- A step on the box. -/
theorem step_scheme (h : Built m dN) (hp : AllPeriodic m) (hD : dN.length ∈ [1, 2, 3]) {P : StepPrm K}
    (hng : 2 ≤ P.ng) (hw : Wide dN P.ng) (hfs : P.fieldsolver = true) (hyee : P.c = .yee) (hdx : P.dx ≠ 0)
    (hppc : P.deposit = true → P.ppc0 ≠ 0)
    {A : Finset (Nat × List Int)} (hA : ∀ q j, (q, j) ∈ A ↔ Active m P.ng q j)
    {S : List Int → Equiv.Perm A}
    (hneg : ∀ o x, o.length = dN.length → S (o.map (- ·)) x = (S o).symm x)
    (h0 : ∀ x, S (off dN.length []) x = x)
    (hS : ∀ (sel : Nat → Nat → Bool) (M : MMem K) (g : GMem K), Shows m (dN.map List.sum) P.ng sel M g →
        ∀ a c, sel a c = true → ∀ o : List Int, o.length = dN.length → (∀ y ∈ o, -(P.ng : Int) ≤ y ∧ y ≤ P.ng) →
        ∀ x : A, M x.1.1 ⟨a, c, List.zipWith (· + ·) x.1.2 o⟩ = M (S o x).1.1 ⟨a, c, (S o x).1.2⟩)
    {sps : Nat → List (Sp K)} {M M' : MMem K} (hg : ∃ g, Shows m (dN.map List.sum) P.ng selEB M g)
    (hst : Step m dN.length P sps M M') :
    (∃ g, Shows m (dN.map List.sum) P.ng selEB M' g) ∧
    (∀ c, c < 3 → ∀ x : A, magn dN.length P.dx M' x c = magn dN.length P.dx M x c -
      P.correction * P.dt / P.dx * curlF (axes dN.length S) (fun c (x : A) => elec dN.length P.dx M x c) c x) ∧
    (∀ c, c < 3 → ∀ x : A, elec dN.length P.dx M' x c = elec dN.length P.dx M x c +
      P.correction * P.dt / P.dx * curlB (axes dN.length S) (fun c (x : A) => magn dN.length P.dx M' x c) c x +
      (if P.deposit then P.coeff * P.ppc0 * curr dN.length P.dx M' x c else 0)) := by
  obtain ⟨g, hg⟩ := hg
  obtain ⟨M1, M2, s1, s2, s3⟩ := hst
  rw [if_pos hfs] at s1 s3
  obtain ⟨M3, s3, s4⟩ := s3
  have l1 : 1 ≤ dN.length := by simp at hD; omega
  have l3 : dN.length ≤ 3 := by simp at hD; omega
  have hEM : ∀ c, c < 3 → selEB 0 c = true := by intro c hc; simp [selEB, selE, hc]
  have hBM : ∀ c, c < 3 → selB 0 (3 + c) = true := by intro c hc; simp [selB]; omega
  -- the fields before and after the deposit
  have f2 : ∀ r, r < m.doms.length → ∀ c i, M2 r ⟨0, c, i⟩ = M1 r ⟨0, c, i⟩ := by
    intro r hr c i
    by_cases hd : P.deposit = true
    · rw [if_pos hd] at s2; exact phase_frame h hp hD s2 hr c i
    · rw [if_neg hd] at s2; rw [s2]
  have fE : ∀ r, r < m.doms.length → ∀ c, c < 3 → ∀ i, M2 r ⟨0, c, i⟩ = M r ⟨0, c, i⟩ := by
    intro r hr c hc i
    rw [f2 r hr, faraday_frame h hD s1 hr (by simp [selB]; omega)]
  have elec_congr : ∀ {X Y : MMem K} {x : A}, (∀ c, c < 3 → ∀ i, X x.1.1 ⟨0, c, i⟩ = Y x.1.1 ⟨0, c, i⟩) →
      ∀ c, c < 3 → curlUp dN.length .yee (phys dN.length P.dx (electric (X x.1.1) x.1.2)) c =
        curlUp dN.length .yee (phys dN.length P.dx (electric (Y x.1.1) x.1.2)) c := by
    intro X Y x e c hc
    have : ∀ b d, d < 3 → dUp dN.length .yee b (phys dN.length P.dx (electric (X x.1.1) x.1.2) d) =
        dUp dN.length .yee b (phys dN.length P.dx (electric (Y x.1.1) x.1.2) d) := by
      intro b d hd
      congr 1
      funext o
      simp only [phys, electric, e d hd]
    unfold curlUp
    rw [this _ _ (Nat.mod_lt _ (by omega)), this _ _ (Nat.mod_lt _ (by omega))]
  have cup := fun c x => (curls_eq (k := 0) (dx := P.dx) (by omega : 1 ≤ P.ng) hneg h0
    (fun c hc o ho hb x => hS selEB M g hg 0 (0 + c) (by rw [zero_add]; exact hEM c hc) o ho hb x)
    (fun c (x : A) => elec dN.length P.dx M x c) (fun c x => by simp only [elec, electric, zero_add]; rfl) c x).1
  have hhere : here dN.length = off dN.length [] := rfl
  have hB : ∀ c, c < 3 → ∀ x : A, magn dN.length P.dx M3 x c = magn dN.length P.dx M x c -
      P.correction * P.dt / P.dx * curlF (axes dN.length S) (fun c (x : A) => elec dN.length P.dx M x c) c x := by
    intro c hc x
    have hx := (hA x.1.1 x.1.2).1 x.2
    have hr := active_lt hx
    have e1 := (C83_faraday h hp hD hng hw hdx s1 hx hc).1
    have e3 := (C83_faraday h hp hD hng hw hdx s3 hx hc).1
    rw [hyee, hhere] at e1 e3
    rw [elec_congr (X := M2) (Y := M) (x := x) (fun c hc i => fE _ hr c hc i) c hc] at e3
    have e2 : phys dN.length P.dx (magnetic (M2 x.1.1) x.1.2) c (off dN.length []) =
        phys dN.length P.dx (magnetic (M1 x.1.1) x.1.2) c (off dN.length []) := by
      simp only [phys, magnetic, f2 _ hr]
    rw [e2, e1] at e3
    have cx := cup c x
    simp only [zero_add] at cx
    show phys dN.length P.dx (magnetic (M3 x.1.1) x.1.2) c (off dN.length []) = _
    rw [e3, ← cx]
    show _ = phys dN.length P.dx (magnetic (M x.1.1) x.1.2) c (off dN.length []) - _ * curlUp dN.length .yee
      (phys dN.length P.dx (electric (M x.1.1) x.1.2)) c
    field_simp
    ring
  have hB' : ∀ (c : Nat) (x : A), c < 3 → magn dN.length P.dx M' x c = magn dN.length P.dx M3 x c := by
    intro c x hc
    have hx := (hA x.1.1 x.1.2).1 x.2
    simp only [magn, phys, magnetic, electric_frame h hD s4 (active_lt hx) (hBM c hc)]
  -- the global fields after the step
  have : Inhabited K := ⟨0⟩
  obtain ⟨gB, hgB⟩ : ∃ gB, Shows m (dN.map List.sum) P.ng selB M3 gB := by
    obtain ⟨_, _, hc⟩ := s3
    exact exists_shown h hp hD hw hc
  have hgB' : Shows m (dN.map List.sum) P.ng selB M' gB := by
    intro a c hs r i p hi hip
    have ha : a = 0 := by simp [selB] at hs; omega
    subst ha
    rw [electric_frame h hD s4 (inArray_lt hi) hs]
    exact hgB 0 c hs r i p hi hip
  obtain ⟨gE, hgE⟩ : ∃ gE, Shows m (dN.map List.sum) P.ng (fun a c => selE a c || selJ a c) M' gE := by
    obtain ⟨_, _, _, _, hc⟩ := s4
    exact exists_shown h hp hD hw hc
  have hgE' := shows_mono hgE (sel' := selE) (fun a c hs => by simp [hs])
  refine ⟨⟨_, shows_join hgE' hgB'⟩, fun c hc x => by rw [hB' c x hc, hB c hc x], fun c hc x => ?_⟩
  have hx := (hA x.1.1 x.1.2).1 x.2
  have hr := active_lt hx
  have cdn := (curls_eq (k := 3) (dx := P.dx) (by omega : 1 ≤ P.ng) hneg h0
    (fun c hc o ho hb x => hS selB M3 gB hgB 0 (3 + c) (hBM c hc) o ho hb x)
    (fun c (x : A) => magn dN.length P.dx M3 x c) (fun c x => rfl) c x).2
  have cc : curlB (axes dN.length S) (fun c (x : A) => magn dN.length P.dx M' x c) c x =
      curlB (axes dN.length S) (fun c (x : A) => magn dN.length P.dx M3 x c) c x := by
    unfold curlB bwd
    beta_reduce
    rw [hB' _ _ (Nat.mod_lt _ (by omega)), hB' _ _ (Nat.mod_lt _ (by omega)), hB' _ _ (Nat.mod_lt _ (by omega)),
      hB' _ _ (Nat.mod_lt _ (by omega))]
  have e0 : elec dN.length P.dx M3 x c = elec dN.length P.dx M x c := by
    simp only [elec, phys, electric]
    rw [faraday_frame h hD s3 hr (by simp [selB]; omega), fE _ hr c hc]
  rw [cc, ← cdn]
  by_cases hd : P.deposit = true
  · rw [if_pos hd] at s4 ⊢
    obtain ⟨k1, _, k3⟩ := C83_ampere h hp hD hng hw hdx s4 hx hc
    rw [hhere] at k1
    have hj : P.ppc0 * curr dN.length P.dx M' x c = curr dN.length P.dx M3 x c := by
      have := hppc hd
      simp only [curr, phys, current, off_nil (active_length h (active_inArray hx)), k3]
      split <;> field_simp
    rw [mul_assoc, hj, ← e0]
    show phys dN.length P.dx (electric (M' x.1.1) x.1.2) c (off dN.length []) = _
    rw [k1]
    simp only [elec, curr, magnetic, one_mul]
    rfl
  · rw [if_neg hd] at s4 ⊢
    obtain ⟨k1, _, _⟩ := C83_ampere_vacuum h hp hD hng hw hdx s4 hx hc
    rw [hhere] at k1
    rw [← e0]
    show phys dN.length P.dx (electric (M' x.1.1) x.1.2) c (off dN.length []) = _
    rw [k1]
    simp only [elec, magnetic, one_mul, add_zero]
    rfl

end

end Entity.FieldSolver
