import Verif.Lemmas.Energy
import Verif.Props.Gauss
import Verif.Props.Push

/-!
# C129: energy balance and stability of the field solver
-/

namespace Entity.FieldSolver

open Entity Entity.Topology Entity.Kernel Entity.Ranks Entity.Filter Entity.Lattice Entity.Gauss

variable {K : Type} [Field K] [LinearOrder K] [IsStrictOrderedRing K] {m : Meta} {dN : List (List Nat)}

/-! ## Lemmas -/

section
variable {A : Finset (Nat × List Int)}

omit [LinearOrder K] [IsStrictOrderedRing K] in
theorem sum_cells (f : Nat × List Int → Nat → K) :
    ∑ x ∈ A, ∑ c ∈ Finset.range 3, f x c = ∑ x : A, (f x 0 + f x 1 + f x 2) := by
  rw [← Finset.sum_coe_sort]
  refine Finset.sum_congr rfl fun x _ => ?_
  simp [Finset.sum_range_succ]

omit [LinearOrder K] [IsStrictOrderedRing K] in
theorem fieldEnergy_ip (D : Nat) (dx : K) (M : MMem K) :
    fieldEnergy A D dx M = ip3 (fun c (x : A) => elec D dx M x c) (fun c (x : A) => elec D dx M x c) +
      ip3 (fun c (x : A) => magn D dx M x c) (fun c (x : A) => magn D dx M x c) := by
  unfold fieldEnergy ip3 ip
  rw [sum_cells]
  simp only [← Finset.sum_add_distrib]
  exact Finset.sum_congr rfl fun x _ => by ring

omit [LinearOrder K] [IsStrictOrderedRing K] in
theorem work_ip (D : Nat) (dx k : K) (M M' : MMem K) :
    k * work A D dx (curr D dx M') M M' =
      ip3 (fun c (x : A) => k * curr D dx M' x c) (fun c (x : A) => elec D dx M x c) +
      ip3 (fun c (x : A) => k * curr D dx M' x c) (fun c (x : A) => elec D dx M' x c) := by
  unfold work ip3 ip
  rw [sum_cells]
  simp only [← Finset.sum_add_distrib, Finset.mul_sum]
  exact Finset.sum_congr rfl fun x _ => by ring
end

/-- The box of the active cells with its shifts. -/
structure Box (m : Meta) (dN : List (List Nat)) (ng : Nat) (K : Type) (A : Finset (Nat × List Int)) where
  S : List Int → Equiv.Perm A
  comm : ∀ o o' x, o.length = dN.length → o'.length = dN.length → S o (S o' x) = S o' (S o x)
  neg : ∀ o x, o.length = dN.length → S (o.map (- ·)) x = (S o).symm x
  zero : ∀ x, S (off dN.length []) x = x
  pos : ∀ o x p, o.length = dN.length → globalPos m (dN.map List.sum) ng x.1.1 x.1.2 = some p →
    globalPos m (dN.map List.sum) ng (S o x).1.1 (S o x).1.2 =
      some (wrap (dN.map List.sum) (List.zipWith (· + ·) p o))
  shows : ∀ (sel : Nat → Nat → Bool) (M : MMem K) (g : GMem K), Shows m (dN.map List.sum) ng sel M g →
    ∀ a c, sel a c = true → ∀ o : List Int, o.length = dN.length → (∀ y ∈ o, -(ng : Int) ≤ y ∧ y ≤ ng) →
    ∀ x : A, M x.1.1 ⟨a, c, List.zipWith (· + ·) x.1.2 o⟩ = M (S o x).1.1 ⟨a, c, (S o x).1.2⟩

omit [LinearOrder K] [IsStrictOrderedRing K] in
theorem exists_box (h : Built m dN) {ng : Nat} (hw : Wide dN ng)
    {A : Finset (Nat × List Int)} (hA : ∀ q j, (q, j) ∈ A ↔ Active m ng q j) : Nonempty (Box m dN ng K A) := by
  obtain ⟨S, a, b, c, d, e⟩ := exists_shifts (K := K) h hw hA
  exact ⟨⟨S, a, b, c, d, e⟩⟩

omit [Field K] [LinearOrder K] [IsStrictOrderedRing K] in
theorem Box.axes_comm {ng : Nat} {A : Finset (Nat × List Int)} (b : Box m dN ng K A) (i j : Nat) (x : A) :
    axes dN.length b.S i (axes dN.length b.S j x) = axes dN.length b.S j (axes dN.length b.S i x) := by
  unfold axes
  by_cases hi : i < dN.length <;> by_cases hj : j < dN.length <;> simp only [hi, hj, if_true, if_false]
  · exact b.comm _ _ _ (off_len _ _) (off_len _ _)
  all_goals rfl

omit [LinearOrder K] [IsStrictOrderedRing K] in
theorem leapEnergy_ip {ng : Nat} (hng : 1 ≤ ng) {A : Finset (Nat × List Int)} (b : Box m dN ng K A) (dx l : K)
    {M : MMem K} (hg : ∃ g, Shows m (dN.map List.sum) ng selEB M g) :
    leapEnergy A dN.length dx l M =
      ip3 (fun c (x : A) => elec dN.length dx M x c) (fun c (x : A) => elec dN.length dx M x c) +
      ip3 (fun c (x : A) => magn dN.length dx M x c) (fun c (x : A) => magn dN.length dx M x c) -
      l * ip3 (fun c (x : A) => magn dN.length dx M x c)
        (curlF (axes dN.length b.S) (fun c (x : A) => elec dN.length dx M x c)) := by
  obtain ⟨g, hg⟩ := hg
  have cup := fun c x => (curls_eq (k := 0) (dx := dx) hng b.neg b.zero
    (fun c hc o ho hb x => b.shows selEB M g hg 0 (0 + c) (by simp [selEB, selE, hc]) o ho hb x)
    (fun c (x : A) => elec dN.length dx M x c) (fun c x => by simp only [elec, electric, zero_add]; rfl) c x).1
  simp only [zero_add] at cup
  unfold leapEnergy ip3 ip
  rw [sum_cells]
  simp only [← Finset.sum_add_distrib, Finset.mul_sum, ← Finset.sum_sub_distrib]
  refine Finset.sum_congr rfl fun x _ => ?_
  simp only [← cup]
  show _ + (_ * (_ - l * curlUp dN.length .yee (phys dN.length dx (electric (M x.1.1) x.1.2)) 0)) +
    (_ + (_ * (_ - l * curlUp dN.length .yee (phys dN.length dx (electric (M x.1.1) x.1.2)) 1))) +
    (_ + (_ * (_ - l * curlUp dN.length .yee (phys dN.length dx (electric (M x.1.1) x.1.2)) 2))) = 
    _ + (_ * _ + _ * _ + _ * _) - l * (_ * curlUp dN.length .yee (phys dN.length dx (electric (M x.1.1) x.1.2)) 0 +
    _ * curlUp dN.length .yee (phys dN.length dx (electric (M x.1.1) x.1.2)) 1 +
    _ * curlUp dN.length .yee (phys dN.length dx (electric (M x.1.1) x.1.2)) 2)
  ring

/-- In a simulation the arrays agree with global fields. -/
theorem sim_eb (h : Built m dN) (hp : AllPeriodic m) (hD : dN.length ∈ [1, 2, 3]) {P : StepPrm K}
    (hng : 2 ≤ P.ng) (hw : Wide dN P.ng) (hfs : P.fieldsolver = true) (hyee : P.c = .yee) (hdx : P.dx ≠ 0)
    (hppc : P.deposit = true → P.ppc0 ≠ 0)
    {hist : List (Nat → List (Sp K))} {M0 M : MMem K} (hs : Sim m dN.length P hist M0 M) :
    ∃ g, Shows m (dN.map List.sum) P.ng selEB M g := by
  obtain ⟨A, hA⟩ := exists_activeCells h P.ng
  obtain ⟨b⟩ := exists_box (K := K) h hw hA
  induction hs with
  | start hc => exact exists_shown h hp hD hw hc
  | step _ h2 ih => exact (step_scheme h hp hD hng hw hfs hyee hdx hppc hA b.neg b.zero b.shows ih h2).1

/-! ## C129 -/

/-- **C129 (energy balance).** In 1, 2 and 3 dimensions, on every decomposition of a periodic box, with
the standard stencil, after any number of steps with any particles: one further step changes the
energy Σ (E² + B·B⁺) by the work of the current of that step in the mean of the electric fields
before and after it, times the coefficient of the current in Ampere's law. -/
theorem C129_poynting (h : Built m dN) (hp : AllPeriodic m) (hD : dN.length ∈ [1, 2, 3]) {P : StepPrm K}
    (hng : 2 ≤ P.ng) (hw : Wide dN P.ng) (hfs : P.fieldsolver = true) (hdep : P.deposit = true)
    (hyee : P.c = .yee) (hdx : P.dx ≠ 0) (hppc : P.ppc0 ≠ 0)
    {A : Finset (Nat × List Int)} (hA : ∀ q j, (q, j) ∈ A ↔ Active m P.ng q j)
    {hist : List (Nat → List (Sp K))} {sps : Nat → List (Sp K)} {M0 M M' : MMem K}
    (hs : Sim m dN.length P hist M0 M) (hst : Step m dN.length P sps M M') :
    leapEnergy A dN.length P.dx (P.correction * P.dt / P.dx) M' =
      leapEnergy A dN.length P.dx (P.correction * P.dt / P.dx) M -
        P.dt * P.q0 / (P.B0 * P.V0) * P.ppc0 * work A dN.length P.dx (curr dN.length P.dx M') M M' := by
  obtain ⟨b⟩ := exists_box (K := K) h hw hA
  have hg := sim_eb h hp hD hng hw hfs hyee hdx (fun _ => hppc) hs
  obtain ⟨hg', hB, hE⟩ := step_scheme h hp hD hng hw hfs hyee hdx (fun _ => hppc) hA b.neg b.zero b.shows hg hst
  rw [leapEnergy_ip (by omega) b _ _ hg, leapEnergy_ip (by omega) b _ _ hg']
  have key := balance (axes dN.length b.S) (P.correction * P.dt / P.dx)
    (fun c (x : A) => elec dN.length P.dx M x c) (fun c (x : A) => magn dN.length P.dx M x c)
    (fun c (x : A) => P.coeff * P.ppc0 * curr dN.length P.dx M' x c)
    (fun c (x : A) => elec dN.length P.dx M' x c) (fun c (x : A) => magn dN.length P.dx M' x c) hB
    (fun c hc x => by rw [hE c hc x, if_pos hdep])
  rw [key, add_assoc _ (ip3 _ _) (ip3 _ _), ← work_ip]
  unfold StepPrm.coeff
  ring

/-- **C129 (vacuum).** Without a current the energy Σ (E² + B·B⁺) keeps its initial value, after any
number of steps. -/
theorem C129_vacuum (h : Built m dN) (hp : AllPeriodic m) (hD : dN.length ∈ [1, 2, 3]) {P : StepPrm K}
    (hng : 2 ≤ P.ng) (hw : Wide dN P.ng) (hfs : P.fieldsolver = true) (hdep : P.deposit = false)
    (hyee : P.c = .yee) (hdx : P.dx ≠ 0)
    {A : Finset (Nat × List Int)} (hA : ∀ q j, (q, j) ∈ A ↔ Active m P.ng q j)
    {hist : List (Nat → List (Sp K))} {M0 M : MMem K} (hs : Sim m dN.length P hist M0 M) :
    leapEnergy A dN.length P.dx (P.correction * P.dt / P.dx) M =
      leapEnergy A dN.length P.dx (P.correction * P.dt / P.dx) M0 := by
  obtain ⟨b⟩ := exists_box (K := K) h hw hA
  have hppc : P.deposit = true → P.ppc0 ≠ 0 := fun h => by rw [hdep] at h; cases h
  induction hs with
  | start hc => rfl
  | step hs hst ih =>
    rename_i hist sps M0 M M'
    have hg := sim_eb h hp hD hng hw hfs hyee hdx hppc hs
    obtain ⟨hg', hB, hE⟩ := step_scheme h hp hD hng hw hfs hyee hdx hppc hA b.neg b.zero b.shows hg hst
    rw [← ih, leapEnergy_ip (by omega) b _ _ hg, leapEnergy_ip (by omega) b _ _ hg']
    have key := balance (axes dN.length b.S) (P.correction * P.dt / P.dx)
      (fun c (x : A) => elec dN.length P.dx M x c) (fun c (x : A) => magn dN.length P.dx M x c)
      (fun c (x : A) => 0)
      (fun c (x : A) => elec dN.length P.dx M' x c) (fun c (x : A) => magn dN.length P.dx M' x c) hB
      (fun c hc x => by rw [hE c hc x, hdep]; simp)
    rw [key]
    simp [ip3, ip]

/-- The start of a simulation satisfies what a simulation does. -/
theorem sim_start {D : Nat} {P : StepPrm K} {hist : List (Nat → List (Sp K))} {M0 M : MMem K}
    (hs : Sim m D P hist M0 M) : Sim m D P [] M0 M0 := by
  induction hs with
  | start hc => exact .start hc
  | step _ _ ih => exact ih

/-- **C129 (stability).** If a step is at most `s < 1` of the stability limit, `D (dt/dx)² ≤ s²` (with the
correction factor), Σ (E² + B²) never exceeds (1 + s) / (1 - s) times its initial value, after any
number of steps. -/
theorem C129_stable (h : Built m dN) (hp : AllPeriodic m) (hD : dN.length ∈ [1, 2, 3]) {P : StepPrm K}
    (hng : 2 ≤ P.ng) (hw : Wide dN P.ng) (hfs : P.fieldsolver = true) (hdep : P.deposit = false)
    (hyee : P.c = .yee) (hdx : P.dx ≠ 0) {s : K} (hs0 : 0 < s) (hs1 : s < 1)
    (hl : (dN.length : K) * (P.correction * P.dt / P.dx) ^ 2 ≤ s ^ 2)
    {A : Finset (Nat × List Int)} (hA : ∀ q j, (q, j) ∈ A ↔ Active m P.ng q j)
    {hist : List (Nat → List (Sp K))} {M0 M : MMem K} (hs : Sim m dN.length P hist M0 M) :
    fieldEnergy A dN.length P.dx M ≤ (1 + s) / (1 - s) * fieldEnergy A dN.length P.dx M0 := by
  obtain ⟨b⟩ := exists_box (K := K) h hw hA
  have hppc : P.deposit = true → P.ppc0 ≠ 0 := fun h => by rw [hdep] at h; cases h
  have v := C129_vacuum h hp hD hng hw hfs hdep hyee hdx hA hs
  have hg := sim_eb h hp hD hng hw hfs hyee hdx hppc hs
  have hg0 := sim_eb h hp hD hng hw hfs hyee hdx hppc (sim_start hs)
  rw [leapEnergy_ip (by omega) b _ _ hg, leapEnergy_ip (by omega) b _ _ hg0, ← fieldEnergy_ip,
    ← fieldEnergy_ip] at v
  have hax : ∀ a, dN.length ≤ a → axes dN.length b.S a = 1 := fun a ha => by simp [axes]; omega
  have c1 := energy_close (axes dN.length b.S) b.axes_comm hD hax hs0 hl
    (fun c (x : A) => elec dN.length P.dx M x c) (fun c (x : A) => magn dN.length P.dx M x c)
  have c0 := energy_close (axes dN.length b.S) b.axes_comm hD hax hs0 hl
    (fun c (x : A) => elec dN.length P.dx M0 x c) (fun c (x : A) => magn dN.length P.dx M0 x c)
  rw [← fieldEnergy_ip] at c0 c1
  rw [div_mul_eq_mul_div, le_div_iff₀ (by linarith)]
  have d1 := (abs_le.1 c1).2
  have d0 := (abs_le.1 c0).1
  linarith

/-- **C129 (Courant number).** With the time step the code computes from a Courant number
`0 < cfl < 1` (and no correction), the energy of the fields in vacuum is at most
(1 + cfl) / (1 - cfl) times the initial one at all times. -/
theorem C129_courant {m : Meta} {dN : List (List Nat)} (h : Built m dN) (hp : AllPeriodic m)
    (hD : dN.length ∈ [1, 2, 3]) {P : StepPrm ℝ}
    (hng : 2 ≤ P.ng) (hw : Wide dN P.ng) (hfs : P.fieldsolver = true) (hdep : P.deposit = false)
    (hyee : P.c = .yee) (hdx : 0 < P.dx) {cfl : ℝ} (hc0 : 0 < cfl) (hc1 : cfl < 1)
    (hdt : P.dt = Push.timeStep cfl P.dx dN.length) (hcor : P.correction = 1)
    {A : Finset (Nat × List Int)} (hA : ∀ q j, (q, j) ∈ A ↔ Active m P.ng q j)
    {hist : List (Nat → List (Sp ℝ))} {M0 M : MMem ℝ} (hs : Sim m dN.length P hist M0 M) :
    fieldEnergy A dN.length P.dx M ≤ (1 + cfl) / (1 - cfl) * fieldEnergy A dN.length P.dx M0 := by
  have l1 : 1 ≤ dN.length := by simp at hD; omega
  have hd : (0 : ℝ) < (dN.length : ℝ) := by exact_mod_cast l1
  refine C129_stable h hp hD hng hw hfs hdep hyee hdx.ne' hc0 hc1 (le_of_eq ?_) hA hs
  rw [hdt, hcor, Push.timeStep]
  have hsq : √(dN.length : ℝ) ^ 2 = dN.length := Real.sq_sqrt hd.le
  have hsn : √(dN.length : ℝ) ≠ 0 := (Real.sqrt_pos.2 hd).ne'
  have hx := hdx.ne'
  rw [show 1 * (cfl * (P.dx / √(dN.length : ℝ))) / P.dx = cfl / √(dN.length : ℝ) by field_simp,
    div_pow, hsq]
  field_simp

/-! ## Beyond the limit -/

/-- Alternating sign of a cell. -/
def altern (p : Int) : K := if p % 2 = 0 then 1 else -1

omit [LinearOrder K] [IsStrictOrderedRing K] in
theorem altern_next {n : Nat} (hn : n % 2 = 0) (p : Int) : (altern ((p + 1) % (n : Int)) : K) = -altern p := by
  have : (p + 1) % (n : Int) % 2 = (p + 1) % 2 := Int.emod_emod_of_dvd _ (by omega)
  unfold altern
  rw [this]
  rcases Int.emod_two_eq_zero_or_one p with h | h
  · rw [if_neg (by omega), if_pos h]
  · rw [if_pos (by omega), if_neg (by omega), neg_neg]

/-- The fields of the fastest wave of a one-dimensional grid: E3 = e (-1)^p, B2 = b (-1)^p, nothing else. -/
def Zigzag (m : Meta) (dN : List (List Nat)) (ng : Nat) (dx : K) (M : MMem K) (e b : K) : Prop :=
  ∀ r i p, Active m ng r i → globalPos m (dN.map List.sum) ng r i = some [p] → ∀ c, c < 3 →
    elec dN.length dx M (r, i) c = (if c = 2 then e * altern p else 0) ∧
    magn dN.length dx M (r, i) c = (if c = 1 then b * altern p else 0)

/-- **C129 (the limit is sharp).** The code accepts any Courant number.  On a one-dimensional periodic
box with an even number of cells, with `dt/dx = (ρ + 1/ρ)/2`, which is more than 1 for every positive
`ρ ≠ 1`, there are fields whose energy is multiplied by ρ⁴ in every step. -/
theorem C129_limit_counterexample (h : Built m dN) (hp : AllPeriodic m) (hD : dN.length = 1)
    {P : StepPrm K} (hng : 2 ≤ P.ng) (hw : Wide dN P.ng) (hfs : P.fieldsolver = true)
    (hdep : P.deposit = false) (hyee : P.c = .yee) (hdx : P.dx ≠ 0) {ρ : K} (hρ : ρ ≠ 0)
    (hl : P.correction * P.dt / P.dx = (ρ + 1 / ρ) / 2) (heven : ∀ l ∈ dN, l.sum % 2 = 0)
    {A : Finset (Nat × List Int)} (hA : ∀ q j, (q, j) ∈ A ↔ Active m P.ng q j)
    {hist : List (Nat → List (Sp K))} {M0 M : MMem K} (hs : Sim m dN.length P hist M0 M)
    (h0 : Zigzag m dN P.ng P.dx M0 ρ 1) :
    fieldEnergy A dN.length P.dx M = ρ ^ (4 * hist.length) * fieldEnergy A dN.length P.dx M0 := by
  have hD3 : dN.length ∈ [1, 2, 3] := by simp [hD]
  obtain ⟨bx⟩ := exists_box (K := K) h hw hA
  have hppc : P.deposit = true → P.ppc0 ≠ 0 := fun h => by rw [hdep] at h; cases h
  have hpos : ∀ x : A, ∃ p, globalPos m (dN.map List.sum) P.ng x.1.1 x.1.2 = some [p] := by
    intro x
    have hx := (hA x.1.1 x.1.2).1 x.2
    obtain ⟨p, hpp⟩ := globalPos_isSome (dN.map List.sum) (active_inArray hx)
    have := (globalPos_wrapped h (active_lt hx) (active_length h (active_inArray hx)) hpp).1
    rw [hD] at this
    obtain ⟨q, rfl⟩ := List.length_eq_one_iff.1 this
    exact ⟨q, hpp⟩
  choose pos hpos using hpos
  obtain ⟨l0, hl0⟩ := List.length_eq_one_iff.1 hD
  have hnext : ∀ x : A, (altern (pos (axes dN.length bx.S 0 x)) : K) = -altern (pos x) := by
    intro x
    have e := bx.pos (off dN.length [(0, 1)]) x _ (off_len _ _) (hpos x)
    have e2 : axes dN.length bx.S 0 x = bx.S (off dN.length [(0, 1)]) x := by simp [axes, hD]
    rw [← e2, hpos] at e
    rw [show dN.map List.sum = [l0.sum] by rw [hl0]; rfl, show off dN.length [(0, 1)] = [1] by rw [hD]; rfl] at e
    simp only [wrap, List.zipWith_cons_cons, List.zipWith_nil_left, Option.some.injEq, List.cons.injEq, and_true] at e
    rw [e]
    exact altern_next (heven l0 (by simp [hl0])) _
  have hprev : ∀ x : A, (altern (pos ((axes dN.length bx.S 0).symm x)) : K) = -altern (pos x) := by
    intro x
    have := hnext ((axes dN.length bx.S 0).symm x)
    rw [Equiv.apply_symm_apply] at this
    rw [this, neg_neg]
  have hone : ∀ a, 1 ≤ a → axes dN.length bx.S a = 1 := fun a ha => by simp [axes]; omega
  -- the fields after any number of steps
  have main : Zigzag m dN P.ng P.dx M (ρ * (-ρ ^ 2) ^ hist.length) ((-ρ ^ 2) ^ hist.length) := by
    induction hs with
    | start hc => simpa using h0
    | step hs hst ih =>
      rename_i hist sps M0 M M'
      have ih := ih h0
      have hg := sim_eb h hp hD3 hng hw hfs hyee hdx hppc hs
      obtain ⟨_, hB, hE⟩ := step_scheme h hp hD3 hng hw hfs hyee hdx hppc hA bx.neg bx.zero bx.shows hg hst
      set k := (-ρ ^ 2) ^ hist.length with hk
      have vE : ∀ (c : Nat) (x : A), c < 3 → elec dN.length P.dx M x c =
          if c = 2 then ρ * k * altern (pos x) else 0 := fun c x hc =>
        (ih x.1.1 x.1.2 _ ((hA _ _).1 x.2) (hpos x) c hc).1
      have vB : ∀ (c : Nat) (x : A), c < 3 → magn dN.length P.dx M x c =
          if c = 1 then k * altern (pos x) else 0 := fun c x hc =>
        (ih x.1.1 x.1.2 _ ((hA _ _).1 x.2) (hpos x) c hc).2
      rw [hl] at hB hE
      have cF : ∀ c, c < 3 → ∀ x : A, curlF (axes dN.length bx.S)
          (fun c (x : A) => elec dN.length P.dx M x c) c x = if c = 1 then 2 * ρ * k * altern (pos x) else 0 := by
        intro c hc x
        obtain rfl | rfl | rfl : c = 0 ∨ c = 1 ∨ c = 2 := by omega
        · simp [curlF, fwd, hone]
        · simp only [curlF, fwd]
          norm_num
          rw [hone 2 (by omega), vE 2 x (by omega), vE 2 _ (by omega), vE 0 x (by omega), hnext]
          simp [vE]
          ring
        · simp only [curlF, fwd]
          norm_num
          rw [hone 1 (by omega), vE 1 x (by omega), vE 1 _ (by omega)]
          simp
      have vB' : ∀ (c : Nat) (x : A), c < 3 → magn dN.length P.dx M' x c =
          if c = 1 then -ρ ^ 2 * k * altern (pos x) else 0 := by
        intro c x hc
        rw [hB c hc x, vB c x hc, cF c hc x]
        split
        · field_simp; ring
        · simp
      have cB : ∀ c, c < 3 → ∀ x : A, curlB (axes dN.length bx.S)
          (fun c (x : A) => magn dN.length P.dx M' x c) c x =
            if c = 2 then 2 * (-ρ ^ 2 * k) * altern (pos x) else 0 := by
        intro c hc x
        obtain rfl | rfl | rfl : c = 0 ∨ c = 1 ∨ c = 2 := by omega
        · simp only [curlB, bwd]
          norm_num
          rw [hone 1 (by omega), hone 2 (by omega)]
          have z : ∀ f : A → K, f x - f ((Equiv.symm (1 : Equiv.Perm A)) x) = 0 := fun f => sub_self _
          have z1 := z (fun x => magn dN.length P.dx M' x 1)
          have z2 := z (fun x => magn dN.length P.dx M' x 2)
          rw [z1, z2, sub_zero]
        · simp only [curlB, bwd]
          norm_num
          rw [hone 2 (by omega), vB' 2 x (by omega), vB' 2 _ (by omega), vB' 0 x (by omega), vB' 0 _ (by omega)]
          simp
        · simp only [curlB, bwd]
          norm_num
          rw [hone 1 (by omega), vB' 1 x (by omega), vB' 1 _ (by omega), vB' 0 x (by omega), hprev]
          simp [vB']
          ring
      intro r i p hi hip c hc
      have hx : (r, i) ∈ A := (hA r i).2 hi
      have hpx := hpos ⟨(r, i), hx⟩
      rw [hip] at hpx
      have hpp : p = pos ⟨(r, i), hx⟩ := by simpa using hpx
      rw [List.length_append, List.length_singleton, pow_succ, ← hk, hpp]
      refine ⟨?_, ?_⟩
      · rw [hE c hc ⟨(r, i), hx⟩, vE c ⟨(r, i), hx⟩ hc, cB c hc, hdep]
        split
        · field_simp; simp; ring
        · simp
      · rw [vB' c ⟨(r, i), hx⟩ hc]
        split
        · ring
        · rfl
  have en : ∀ {X : MMem K} {e b : K}, Zigzag m dN P.ng P.dx X e b →
      fieldEnergy A dN.length P.dx X = (e ^ 2 + b ^ 2) * ∑ x : A, (altern (pos x) : K) ^ 2 := by
    intro X e b hz
    unfold fieldEnergy
    rw [sum_cells, Finset.mul_sum]
    refine Finset.sum_congr rfl fun x _ => ?_
    have z := fun c hc => hz x.1.1 x.1.2 _ ((hA _ _).1 x.2) (hpos x) c hc
    have z0 := z 0 (by omega); have z1 := z 1 (by omega); have z2 := z 2 (by omega)
    rw [show ((x.1.1, x.1.2) : Nat × List Int) = x.1 from rfl] at z0 z1 z2
    rw [z0.1, z0.2, z1.1, z1.2, z2.1, z2.2]
    norm_num
    ring
  have e1 : ((-ρ ^ 2) ^ hist.length) ^ 2 = ρ ^ (4 * hist.length) := by
    rw [← pow_mul, mul_comm, pow_mul, neg_sq, ← pow_mul, ← pow_mul]
    congr 1
    omega
  rw [en main, en h0, mul_pow, e1]
  ring

/-- `dt/dx` exceeds the limit. -/
example (ρ : ℚ) (h : 0 < ρ) (h1 : ρ ≠ 1) : 1 < (ρ + 1 / ρ) / 2 := by
  have : 0 < (ρ - 1) ^ 2 := by positivity
  rw [lt_div_iff₀ (by norm_num), show ρ + 1 / ρ = (ρ ^ 2 + 1) / ρ by field_simp, lt_div_iff₀ h]
  nlinarith

/-! ## The hypotheses can be met -/

/-- A step follows a step on the two ranks of a periodic box with a particle crossing its edge (C35). -/
example (M00 : MMem ℚ) : ∃ M0 M M' : MMem ℚ, Sim perMeta 2 exPrm [ex1] M0 M ∧ Step perMeta 2 exPrm ex2 M M' ∧
    exPrm.c = .yee ∧ CommAll perMeta 2 (fun a c => selE a c || selB a c) M00 M0 := by
  have hp : AllPeriodic perMeta := ⟨rfl, by decide⟩
  have hw : Wide [[5, 6], [7]] 2 := by unfold Wide; decide
  have hdoms : perMeta.doms.length = 2 := by decide +kernel
  obtain ⟨M0, h0⟩ := exists_comm perMeta_built hp (by decide) hw (fun a c => selE a c || selB a c) M00
  obtain ⟨M1, h1⟩ := exists_step (P := exPrm) (sps := ex1) perMeta_built hp (by decide) hw rfl rfl
    (fun r hr v => by
      have : r = 0 ∨ r = 1 := by omega
      rcases this with rfl | rfl <;> exact deposits_of (by decide +kernel) v) M0
  obtain ⟨M2, h2⟩ := exists_step (P := exPrm) (sps := ex2) perMeta_built hp (by decide) hw rfl rfl
    (fun r hr v => by
      have : r = 0 ∨ r = 1 := by omega
      rcases this with rfl | rfl <;> exact deposits_of (by decide +kernel) v) M1
  exact ⟨M0, M1, M2, .step (hist := []) (.start h0) h1, h2, rfl, h0⟩

/-- In vacuum any number of steps can be taken, from any fields. -/
theorem exists_vacuum (h : Built m dN) (hp : AllPeriodic m) (hD : dN.length ∈ [1, 2, 3]) {P : StepPrm K}
    (hw : Wide dN P.ng) (hfs : P.fieldsolver = true) (hdep : P.deposit = false) {M00 M0 : MMem K}
    (h0 : CommAll m P.ng (fun a c => selE a c || selB a c) M00 M0) (n : Nat) :
    ∃ M, Sim m dN.length P (List.replicate n (fun _ => [])) M0 M := by
  induction n with
  | zero => exact ⟨M0, .start h0⟩
  | succ n ih =>
    obtain ⟨M, hM⟩ := ih
    obtain ⟨M1, h1⟩ := exists_does h hp hD hw (.faraday (1 / 2 * P.correction * P.dt) P.dx P.c) M
    obtain ⟨M3, h3⟩ := exists_does h hp hD hw (.faraday (1 / 2 * P.correction * P.dt) P.dx P.c) M1
    obtain ⟨M', h4⟩ := exists_does h hp hD hw (.electric (1 * P.correction * P.dt) P.dx
      (if P.deposit then some (P.coeff, P.ppc0) else none)) M3
    refine ⟨M', ?_⟩
    rw [List.replicate_succ']
    refine .step hM ⟨M1, M1, ?_, ?_, ?_⟩
    · rw [if_pos hfs]; exact h1
    · rw [if_neg (by simp [hdep])]
    · rw [if_pos hfs]; exact ⟨M3, h3, h4⟩

/-- A periodic line of 10 cells on two ranks. -/
def lineMeta : Meta where
  counts := [2]
  doms := (Decomp.createDomains 2 [[4, 6]]).getD []
  bcs := [(.PERIODIC, .PERIODIC)]

theorem lineMeta_built : Built lineMeta [[4, 6]] := ⟨by decide, rfl, by decide +kernel⟩

/-- `dt/dx = 5/4`, `ρ = 2`. -/
def linePrm : StepPrm ℚ := { exPrm with dt := 1/8, deposit := false }

/-- The fields of C129_limit_counterexample exist, and any number of steps can be taken from them: the
energy grows sixteenfold in each. -/
example (n : Nat) : ∃ M0 M : MMem ℚ, Sim lineMeta 1 linePrm (List.replicate n (fun _ => [])) M0 M ∧
    Zigzag lineMeta [[4, 6]] 2 (1/10) M0 2 1 ∧ linePrm.correction * linePrm.dt / linePrm.dx = (2 + 1 / 2) / 2 := by
  have hp : AllPeriodic lineMeta := ⟨rfl, by decide⟩
  have hw : Wide [[4, 6]] 2 := by unfold Wide; decide
  obtain ⟨M0, h0⟩ := exists_comm (K := ℚ) lineMeta_built hp (by decide) hw (fun a c => selE a c || selB a c)
    (fun r l => match globalPos lineMeta [10] 2 r l.idx with
      | some [p] => if l.comp = 2 then 2 * altern p else if l.comp = 4 then altern p else 0
      | _ => 0)
  obtain ⟨M, hM⟩ := exists_vacuum (P := linePrm) lineMeta_built hp (by decide) hw rfl rfl h0 n
  refine ⟨M0, M, hM, ?_, by norm_num [linePrm, exPrm]⟩
  intro r i p hi hip c hc
  have hl := active_length lineMeta_built (active_inArray hi)
  have e := fun a c => comm_active lineMeta_built hp (by decide) hw h0 hi a c
  have hip' : globalPos lineMeta [10] 2 r i = some [p] := hip
  obtain rfl | rfl | rfl : c = 0 ∨ c = 1 ∨ c = 2 := by omega
  all_goals
    simp only [elec, magn, phys, electric, magnetic, off_nil hl, e, hip']
    norm_num

end Entity.FieldSolver
