import Verif.Spec.Stats
import Verif.Lemmas.Prtl
import Mathlib.Data.List.Forall2
import Mathlib.Algebra.Order.Field.Rat
import Mathlib.Algebra.BigOperators.Group.List.Lemmas
import Mathlib.Tactic.Ring
import Mathlib.Tactic.NormNum

/-!
# C52: rows of the statistics file match their header; C84: particle statistics
-/

namespace Entity.Props.Stats

open Entity Entity.Stats Entity.Spec.Stats

variable {V : Type} [AddMonoid V]

theorem mapM_map {α β : Type} (f : α → Outcome β) (l : List α) (r : List β)
    (h : l.mapM f = .ok r) : List.Forall₂ (fun a b => f a = .ok b) l r := by
  induction l generalizing r with
  | nil => simp at h; subst h; exact .nil
  | cons a l ih =>
    rw [List.mapM_cons] at h
    obtain ⟨b, hb, h⟩ := Outcome.bind_eq_ok.1 h
    obtain ⟨bs, hbs, h⟩ := Outcome.bind_eq_ok.1 h
    simp only [Outcome.pure_eq, Outcome.ok.injEq] at h
    subst h
    exact .cons hb (ih _ hbs)

theorem rowOf_eq (e : Env V) (s : Stat) (r : List (Tok V)) (h : rowOf e s = .ok r) :
    r = (columns s).map fun c => .num (e.value c.1 c.2).sum := by
  have one : ∀ c : Stat × List Nat, columns s = [c] → c = (s, []) →
      Outcome.ok [reduced (e.value s [])] = .ok r →
      r = (columns s).map fun c => .num (e.value c.1 c.2).sum := by
    rintro c h1 rfl h2
    rw [h1]
    injection h2 with h2
    rw [← h2]; rfl
  have many : columns s = s.comp.map (fun c => (s, c)) →
      Outcome.ok (s.comp.map fun c => reduced (e.value s c)) = .ok r →
      r = (columns s).map fun c => .num (e.value c.1 c.2).sum := by
    intro h1 h2
    rw [h1]
    injection h2 with h2
    rw [← h2, List.map_map]; rfl
  have hv : isVector s.id = true → columns s = s.comp.map (fun c => (s, c)) := fun h => by
    simp [columns, h]
  have hs : isVector s.id = false → s.id ≠ T → columns s = [(s, [])] := fun h h' => by
    simp [columns, h, h']
  have ht : s.id = T → columns s = s.comp.map (fun c => (s, c)) := fun h => by simp [columns, h]
  unfold rowOf at h
  by_cases h1 : s.id = Custom
  · rw [if_pos h1] at h
    cases hc : e.hasCustom with
    | false => simp [hc] at h
    | true => exact one _ (hs (by rw [h1]; rfl) (by rw [h1]; decide)) rfl (by simpa [hc] using h)
  rw [if_neg h1] at h
  by_cases h2 : s.id = N
  · rw [if_pos h2] at h; exact one _ (hs (by rw [h2]; rfl) (by rw [h2]; decide)) rfl h
  rw [if_neg h2] at h
  by_cases h3 : s.id = Npart
  · rw [if_pos h3] at h; exact one _ (hs (by rw [h3]; rfl) (by rw [h3]; decide)) rfl h
  rw [if_neg h3] at h
  by_cases h4 : s.id = Rho
  · rw [if_pos h4] at h; exact one _ (hs (by rw [h4]; rfl) (by rw [h4]; decide)) rfl h
  rw [if_neg h4] at h
  by_cases h5 : s.id = Charge
  · rw [if_pos h5] at h; exact one _ (hs (by rw [h5]; rfl) (by rw [h5]; decide)) rfl h
  rw [if_neg h5] at h
  by_cases h6 : s.id = T
  · rw [if_pos h6] at h; exact many (ht h6) h
  rw [if_neg h6] at h
  by_cases h7 : s.id = JdotE
  · rw [if_pos h7] at h; exact one _ (hs (by rw [h7]; rfl) (by rw [h7]; decide)) rfl h
  rw [if_neg h7] at h
  cases hsr : e.srpic with
  | false => simp [hsr] at h
  | true =>
    rw [if_pos hsr] at h
    by_cases h8 : s.id = E2
    · rw [if_pos h8] at h; exact many (hv (by rw [h8]; rfl)) h
    rw [if_neg h8] at h
    by_cases h9 : s.id = B2
    · rw [if_pos h9] at h; exact many (hv (by rw [h9]; rfl)) h
    rw [if_neg h9] at h
    by_cases h10 : s.id = ExB
    · rw [if_pos h10] at h; exact many (hv (by rw [h10]; rfl)) h
    rw [if_neg h10] at h
    simp at h

theorem headerOf_eq (s : Stat) (h : List (Tok V)) (hT : s.id = T → s.comp.length = 1)
    (hh : headerOf s = .ok h) :
    ∃ names, List.Forall₂ (fun c n => label c = .ok n) (columns s) names ∧ h = names.map .text := by
  unfold headerOf at hh
  by_cases hv : isVector s.id = true
  · rw [if_pos hv] at hh
    have := mapM_map _ _ _ hh
    unfold columns
    simp only [hv, Bool.true_or, if_true]
    clear hh
    generalize s.comp = cs at this
    induction this with
    | nil => exact ⟨[], by simp, rfl⟩
    | @cons a b l l' hab _ ih =>
      obtain ⟨ns, h1, h2⟩ := ih
      obtain ⟨n, hn, hb⟩ := Outcome.bind_eq_ok.1 hab
      simp only [Outcome.pure_eq, Outcome.ok.injEq] at hb
      refine ⟨n :: ns, ?_, by rw [List.map_cons, h2, hb]⟩
      rw [List.map_cons]
      refine .cons ?_ h1
      simp only [label, hv, if_true]
      exact hn
  · rw [if_neg hv] at hh
    obtain ⟨n, hn, hb⟩ := Outcome.bind_eq_ok.1 hh
    simp only [Outcome.pure_eq, Outcome.ok.injEq] at hb
    refine ⟨[n], ?_, by rw [← hb]; rfl⟩
    have hv' : isVector s.id = false := by simpa using hv
    have hl : ∀ c, label (s, c) = .ok n := fun c => by simp only [label, hv']; exact hn
    by_cases ht : s.id = T
    · have hc := hT ht
      obtain ⟨c, hc⟩ := List.length_eq_one_iff.1 hc
      have : columns s = [(s, c)] := by simp [columns, ht, hc]
      rw [this]
      exact .cons (hl _) .nil
    · have : columns s = [(s, [])] := by simp [columns, ht, hv']
      rw [this]
      exact .cons (hl _) .nil

theorem forall₂_flatten {α β γ : Type} {R : β → γ → Prop} {f : α → List β} {l : List α}
    {ns : List (List γ)} (h : List.Forall₂ (fun a n => List.Forall₂ R (f a) n) l ns) :
    List.Forall₂ R (l.flatMap f) ns.flatten := by
  induction h with
  | nil => simp
  | cons h _ ih =>
    rw [List.flatMap_cons, List.flatten_cons]
    exact List.rel_append h ih

theorem row_eq (e : Env V) (stats : List Stat) (r : List (Tok V)) (h0 : row e stats = .ok r) :
    r = rowCells (stats.flatMap columns) e ++ [.nl] := by
  obtain ⟨cols, hc, h⟩ := Outcome.bind_eq_ok.1 h0
  simp only [Outcome.pure_eq, Outcome.ok.injEq] at h
  have h2 := mapM_map _ _ _ hc
  have : cols.flatten = (stats.flatMap columns).map fun c => .num (e.value c.1 c.2).sum := by
    clear h hc h0
    induction h2 with
    | nil => rfl
    | cons hab _ ih =>
      rw [List.flatten_cons, ih, rowOf_eq e _ _ hab, List.flatMap_cons, List.map_append]
  rw [← h, this]
  simp [rowCells]

theorem header_eq (stats : List Stat) (h : List (Tok V))
    (hT : ∀ s ∈ stats, s.id = T → s.comp.length = 1) (h0 : header stats = .ok h) :
    ∃ names, List.Forall₂ (fun c n => label c = .ok n) (stats.flatMap columns) names ∧
      h = headCells names ++ [.nl] := by
  obtain ⟨cols, hc, hh⟩ := Outcome.bind_eq_ok.1 h0
  simp only [Outcome.pure_eq, Outcome.ok.injEq] at hh
  have h2 := mapM_map _ _ _ hc
  have : ∃ names, List.Forall₂ (fun c n => label c = .ok n) (stats.flatMap columns) names ∧
      cols.flatten = names.map .text := by
    clear hh hc h0
    induction h2 with
    | nil => exact ⟨[], by simp, rfl⟩
    | @cons a b l l' hab _ ih =>
      obtain ⟨ns, h3, h4⟩ := ih fun s hs => hT s (List.mem_cons_of_mem _ hs)
      obtain ⟨n, h5, h6⟩ := headerOf_eq a b (hT a (by simp)) hab
      refine ⟨n ++ ns, ?_, ?_⟩
      · rw [List.flatMap_cons]; exact List.rel_append h5 h3
      · rw [List.flatten_cons, h4, h6, List.map_append]
  obtain ⟨names, h3, h4⟩ := this
  refine ⟨names, h3, ?_⟩
  rw [← hh, h4]
  simp [headCells]

theorem writeRows_eq (stats : List Stat) (es : List (Env V)) (f g : List (Tok V))
    (h : writeRows true stats es f = .ok g) :
    g = f ++ es.flatMap fun e => rowCells (stats.flatMap columns) e ++ [.nl] := by
  induction es generalizing f with
  | nil => simp only [writeRows, Outcome.ok.injEq] at h; simp [h]
  | cons e es ih =>
    simp only [writeRows, if_true] at h
    obtain ⟨r, hr, h⟩ := Outcome.bind_eq_ok.1 h
    rw [ih _ h, row_eq e stats r hr, List.flatMap_cons, List.append_assoc]

theorem writeRows_disabled (stats : List Stat) (es : List (Env V)) (f : List (Tok V)) :
    writeRows false stats es f = .ok f := by
  induction es with
  | nil => rfl
  | cons e es ih => simpa [writeRows] using ih

/-- The file holds a header and the rows `es`, all with the columns `cols`. -/
def Holds (cols : List (Stat × List Nat)) (es : List (Env V)) (f : List (Tok V)) : Prop :=
  ∃ names, List.Forall₂ (fun c n => label c = .ok n) cols names ∧
    f = headCells names ++ [.nl] ++ es.flatMap fun e => rowCells cols e ++ [.nl]

theorem run_holds (r : Run V) (stats : List Stat)
    (hs : r.requests.mapM (fun q => mkStat q.1 q.2) = .ok stats)
    (hT : ∀ s ∈ stats, s.id = T → s.comp.length = 1)
    (file : Option (List (Tok V))) (es : List (Env V))
    (hfile : ∀ f, file = some f → Holds (stats.flatMap columns) es f)
    (hnone : file = none → es = []) (out : Option (List (Tok V)))
    (h : run r file = .ok out) :
    ∃ g, out = some g ∧ Holds (stats.flatMap columns)
      ((if r.enabled && !r.resuming then [] else es) ++ (if r.enabled then r.rows else [])) g := by
  unfold run at h
  simp only [hs, Outcome.bind_ok] at h
  obtain ⟨f, hf, h⟩ := Outcome.bind_eq_ok.1 h
  obtain ⟨g, hg, h⟩ := Outcome.bind_eq_ok.1 h
  simp only [Outcome.pure_eq, Outcome.ok.injEq] at h
  refine ⟨g, h.symm, ?_⟩
  have hf' : Holds (stats.flatMap columns) (if r.enabled && !r.resuming then [] else es) f := by
    by_cases hfresh : (r.enabled && !r.resuming) = true
    · simp only [hfresh, if_true] at hf ⊢
      obtain ⟨names, h1, h2⟩ := header_eq stats f hT hf
      exact ⟨names, h1, by rw [h2]; simp⟩
    · simp only [hfresh] at hf ⊢
      cases file with
      | none =>
        obtain ⟨names, h1, h2⟩ := header_eq stats f hT hf
        refine ⟨names, h1, ?_⟩
        rw [hnone rfl, h2]; simp
      | some f0 =>
        simp only [Bool.false_eq_true, if_false, openFile, Outcome.ok.injEq] at hf
        rw [← hf]
        exact hfile f0 rfl
  obtain ⟨names, h1, h2⟩ := hf'
  refine ⟨names, h1, ?_⟩
  cases hen : r.enabled with
  | false =>
    rw [hen, writeRows_disabled] at hg
    simp only [Outcome.ok.injEq] at hg
    rw [← hg, h2, hen]
    simp
  | true =>
    rw [hen] at hg
    rw [writeRows_eq stats r.rows f g hg, h2, hen]
    simp [List.flatMap_append, List.append_assoc]

/-- **C52**: for any sequence of runs of the program with the same requests (fresh or resumed, with
any rows falling due), the statistics file consists of one header line followed by exactly the rows
due since the last fresh start; the k-th cell of every row is the value of the quantity that the
k-th header cell names.  Proved for requests in which every stress-energy statistic is a single
component; see `C52_counterexample` for the others. -/
theorem C52_rows_match_header_partial (requests : List (List Char × Bool)) (stats : List Stat)
    (hs : requests.mapM (fun q => mkStat q.1 q.2) = .ok stats)
    (hT : ∀ s ∈ stats, s.id = T → s.comp.length = 1)
    (rs : List (Run V)) (hrs : ∀ r ∈ rs, r.requests = requests) (hne : rs ≠ [])
    (out : Option (List (Tok V))) (h : runs rs none = .ok out) :
    ∃ f names, out = some f ∧
      List.Forall₂ (fun c n => label c = .ok n) (stats.flatMap columns) names ∧
      f = headCells names ++ [.nl] ++
        (kept rs).flatMap fun e => rowCells (stats.flatMap columns) e ++ [.nl] := by
  have key : ∀ (rs : List (Run V)), (∀ r ∈ rs, r.requests = requests) →
      ∀ (file out : Option (List (Tok V))) (es : List (Env V)),
      (∀ f, file = some f → Holds (stats.flatMap columns) es f) → (file = none → es = []) →
      runs rs file = .ok out →
      (∀ f, out = some f → Holds (stats.flatMap columns)
        (rs.foldl (fun acc r => (if r.enabled && !r.resuming then [] else acc) ++
          (if r.enabled then r.rows else [])) es) f) ∧ (rs ≠ [] → ∃ f, out = some f) := by
    intro rs
    induction rs with
    | nil =>
      intro _ file out es h1 _ h
      simp only [runs, List.foldlM_nil, Outcome.pure_eq, Outcome.ok.injEq] at h
      subst h
      exact ⟨h1, fun hn => absurd rfl hn⟩
    | cons r rs ih =>
      intro hrs file out es h1 h2 h
      rw [runs, List.foldlM_cons] at h
      obtain ⟨mid, hm, h⟩ := Outcome.bind_eq_ok.1 h
      obtain ⟨g, hg, hgH⟩ := run_holds r stats (by rw [hrs r (by simp)]; exact hs) hT file es h1 h2
        mid hm
      have := ih (fun r hr => hrs r (List.mem_cons_of_mem _ hr)) mid out _
        (fun f hf => by rw [hg] at hf; cases hf; exact hgH) (fun hn => by rw [hg] at hn; cases hn) h
      refine ⟨this.1, fun _ => ?_⟩
      by_cases hrs' : rs = []
      · subst hrs'
        simp only [List.foldlM_nil, Outcome.pure_eq, Outcome.ok.injEq] at h
        exact ⟨g, by rw [← h, hg]⟩
      · exact this.2 hrs'
  have := key rs hrs none out [] (fun f hf => by cases hf) (fun _ => rfl) h
  obtain ⟨f, hf⟩ := this.2 hne
  obtain ⟨names, h1, h2⟩ := this.1 f hf
  exact ⟨f, names, hf, h1, h2⟩

/-- **C52** as a statement about widths: under the same hypotheses all lines of the file have the
same number of cells. -/
theorem C52_same_width_partial (requests : List (List Char × Bool)) (stats : List Stat)
    (hs : requests.mapM (fun q => mkStat q.1 q.2) = .ok stats)
    (hT : ∀ s ∈ stats, s.id = T → s.comp.length = 1)
    (rs : List (Run V)) (hrs : ∀ r ∈ rs, r.requests = requests) (hne : rs ≠ [])
    (out : Option (List (Tok V))) (h : runs rs none = .ok out) :
    ∃ head rows, out = some (head ++ [.nl] ++ rows.flatMap (· ++ [.nl])) ∧
      (∀ l ∈ head :: rows, Tok.nl ∉ l ∧ l.length = head.length) := by
  obtain ⟨f, names, h1, h2, h3⟩ := C52_rows_match_header_partial requests stats hs hT rs hrs hne out h
  refine ⟨headCells names, (kept rs).map (rowCells (stats.flatMap columns)), ?_, ?_⟩
  · rw [h1, h3, List.flatMap_map]
  · intro l hl
    rcases List.mem_cons.1 hl with rfl | hl
    · exact ⟨by simp [headCells], rfl⟩
    · obtain ⟨e, -, rfl⟩ := List.mem_map.1 hl
      refine ⟨by simp [rowCells], ?_⟩
      simp only [rowCells, headCells, List.length_cons, List.length_map, h2.length_eq]

/-- **C52** (vectors): the three header cells of a squared field or of the Poynting flux say which
component they are. -/
theorem C52_vector_names (name : List Char) (s : Stat) (h : mkStat name false = .ok s) :
    (s.id = E2 → headerOf (V := V) s =
      .ok [.text "E1^2".toList, .text "E2^2".toList, .text "E3^2".toList]) ∧
    (s.id = B2 → headerOf (V := V) s =
      .ok [.text "B1^2".toList, .text "B2^2".toList, .text "B3^2".toList]) ∧
    (s.id = ExB → headerOf (V := V) s =
      .ok [.text "ExB1".toList, .text "ExB2".toList, .text "ExB3".toList]) := by
  simp only [mkStat, Bool.false_eq_true, if_false] at h
  obtain ⟨known, -, h⟩ := Outcome.bind_eq_ok.1 h
  obtain ⟨-, -, h⟩ := Outcome.bind_eq_ok.1 h
  obtain ⟨id, -, h⟩ := Outcome.bind_eq_ok.1 h
  have hid' : id = s.id := by
    split_ifs at h <;> simp only [Outcome.bind_eq_ok, Outcome.pure_eq, Outcome.ok.injEq] at h <;> aesop
  refine ⟨fun hid => ?_, fun hid => ?_, fun hid => ?_⟩
  all_goals
    rw [hid', hid] at h
    cases h
    rfl

/-- An environment for the examples: every value is 1 on each of two ranks. -/
def exEnv (step : ℚ) : Env ℚ := ⟨step, step / 10, fun _ _ => [1, 1], true, true⟩

/-- **C52**, violated for a request of several components of the stress-energy tensor: asking for
`Tii` writes one header cell but three numbers per row. -/
theorem C52_counterexample :
    runs [(⟨false, true, [(['T', 'i', 'i'], false)], [exEnv 1]⟩ : Run ℚ)] none
      = .ok (some [.text "step".toList, .text "time".toList, .text "Tii".toList, .nl,
          .num 1, .num (1 / 10), .num 2, .num 2, .num 2, .nl]) := by decide +kernel

/-- **C52**, violated when the requests change between a run and its continuation: the header of
the first run stays. -/
theorem C52_changed_requests_counterexample :
    runs [(⟨false, true, [("Npart".toList, false)], [exEnv 1]⟩ : Run ℚ),
        ⟨true, true, [("Npart".toList, false), ("J.E".toList, false)], [exEnv 2]⟩] none
      = .ok (some [.text "step".toList, .text "time".toList, .text "Npart".toList, .nl,
          .num 1, .num (1 / 10), .num 2, .nl,
          .num 2, .num (1 / 5), .num 2, .num 2, .nl]) := by decide +kernel

/-- The hypotheses of `C52_rows_match_header_partial` hold for an ordinary set of requests. -/
example : ∃ stats, ([("Npart_1_2".toList, false), ("E^2".toList, false), ("T0x".toList, false),
      ("mine".toList, true)]).mapM (fun q => mkStat q.1 q.2) = .ok stats ∧
    (∀ s ∈ stats, s.id = T → s.comp.length = 1) ∧
    (match runs [(⟨false, true, [("Npart_1_2".toList, false), ("E^2".toList, false),
      ("T0x".toList, false), ("mine".toList, true)], [exEnv 1, exEnv 2]⟩ : Run ℚ),
      ⟨true, true, [("Npart_1_2".toList, false), ("E^2".toList, false),
      ("T0x".toList, false), ("mine".toList, true)], [exEnv 3]⟩] none with
      | .ok (some out) => decide (out.length = 9 * 4)
      | _ => false) = true :=
  ⟨[⟨"Npart_1_2".toList, 9, [], [1, 2]⟩, ⟨"E^2".toList, 2, [[1], [2], [3]], []⟩,
    ⟨"T0x".toList, 5, [[0, 1]], []⟩, ⟨"mine".toList, 10, [], []⟩], by decide +kernel,
    by decide +kernel, by decide +kernel⟩

/-! ## C84 -/

variable {K : Type} [Field K] [LinearOrder K]

/-- The statistics whose contribution the code computes as specified: particle and number counts,
mass and charge without weights, the stress-energy tensor without weights for unit or zero mass. -/
def Sound (id : Nat) (useWeights : Bool) (m : K) : Prop :=
  id = Npart ∨ id = N ∨ useWeights = false ∧ (id = Rho ∨ id = Charge ∨ id = T ∧ (m = 1 ∨ m = 0))

theorem momentOf_eq (sqrt : K → K) (dV : K) (uw : Bool) (id : Nat) (sp : Species K)
    (a b : Nat) (ha : a ≤ 3) (hb : b ≤ 3) (p : Prtl K) (hS : Sound id uw sp.mass) :
    momentOf sqrt dV uw id sp [a, b] p
      = .ok (contribution sqrt dV uw id sp.mass sp.charge a b p) := by
  unfold momentOf contribution
  by_cases ht : p.tag ≠ Tags.alive
  · rw [if_pos ht, if_pos ht]
  rw [if_neg ht, if_neg ht]
  by_cases h1 : id = Npart
  · rw [if_pos h1, if_pos h1]
  rw [if_neg h1, if_neg h1]
  by_cases h2 : id = N
  · rw [if_pos (Or.inl h2), if_pos h2]
    have : contrib id sp = 1 := by rw [h2]; rfl
    rw [this]
    simp only [weightOf, mul_one]
  have huw : uw = false := by
    rcases hS with h | h | h
    · exact absurd h h1
    · exact absurd h h2
    · exact h.1
  subst huw
  by_cases h3 : id = Rho
  · rw [if_pos (Or.inr (Or.inl h3)), if_neg h2, if_pos h3]
    simp [contrib, h3, weightOf]
  by_cases h4 : id = Charge
  · rw [if_pos (Or.inr (Or.inr h4)), if_neg h2, if_neg h3, if_pos h4]
    simp [contrib, h4, weightOf, Charge, Rho]
  rw [if_neg (by tauto), if_neg h2, if_neg h3, if_neg h4]
  have hm : sp.mass = 1 ∨ sp.mass = 0 := by
    rcases hS with h | h | ⟨-, h | h | h⟩
    · exact absurd h h1
    · exact absurd h h2
    · exact absurd h h3
    · exact absurd h h4
    · exact h.2
  have hen : (if sp.mass = 0 then sqrt (p.ux1 * p.ux1 + p.ux2 * p.ux2 + p.ux3 * p.ux3)
      else sp.mass * sqrt (1 + (p.ux1 * p.ux1 + p.ux2 * p.ux2 + p.ux3 * p.ux3)))
      = u4 sqrt sp.mass p 0 := by
    rcases hm with h | h <;> simp [u4, h]
  have hf : ∀ c ≤ 3, tFactor (u4 sqrt sp.mass p 0) p c = .ok (u4 sqrt sp.mass p c) := by
    intro c hc
    have : c = 0 ∨ c = 1 ∨ c = 2 ∨ c = 3 := by omega
    rcases this with rfl | rfl | rfl | rfl <;> rfl
  have hm1 : (if sp.mass = 0 then 1 else sp.mass) = 1 := by rcases hm with h | h <;> simp [h]
  simp only [hen, List.headD_cons, hf a ha, List.length_cons, List.length_nil, if_true,
    List.getD_cons_succ, List.getD_cons_zero, hf b hb, Outcome.bind_ok, Outcome.pure_eq, hm1,
    weightOf]
  congr 1
  simp only [Bool.false_eq_true, if_false]
  ring

theorem mapM_eq_map {α β : Type} (f : α → Outcome β) (g : α → β) (l : List α)
    (h : ∀ a ∈ l, f a = .ok (g a)) : l.mapM f = .ok (l.map g) := by
  induction l with
  | nil => rfl
  | cons a l ih =>
    rw [List.mapM_cons, h a (by simp), ih fun b hb => h b (List.mem_cons_of_mem _ hb)]
    rfl

theorem sum_swap {α β : Type} (l : List α) (l' : List β) (f : α → β → K) :
    (l.map fun a => (l'.map fun b => f a b).sum).sum
      = (l'.map fun b => (l.map fun a => f a b).sum).sum := by
  induction l with
  | nil => simp
  | cons a l ih =>
    simp only [List.map_cons, List.sum_cons, ih]
    rw [List.sum_map_add]

theorem forall₂_sum {α : Type} {f : α → Outcome K} {g : α → K} {l : List α} {vs : List K}
    (h : List.Forall₂ (fun a b => f a = .ok b) l vs) (hg : ∀ a ∈ l, ∀ v, f a = .ok v → v = g a) :
    vs.sum = (l.map g).sum := by
  induction h with
  | nil => rfl
  | cons hab _ ih =>
    rw [List.sum_cons, List.map_cons, List.sum_cons, hg _ (by simp) _ hab,
      ih fun a ha => hg a (List.mem_cons_of_mem _ ha)]

theorem same_get (sp : List (K × K)) (ranks : List (List (Species K))) (h : SameSpecies sp ranks)
    (R : List (Species K)) (hR : R ∈ ranks) (k : Nat) (r : Species K) (hr : R[k]? = some r) :
    sp[k]? = some (r.mass, r.charge) ∧ r.index = k + 1 := by
  have := congrArg (·[k]?) (h R hR)
  simp only [List.getElem?_map, hr, Option.map_some] at this
  rw [List.getElem?_zipIdx] at this
  cases hsp : sp[k]? with
  | none => rw [hsp] at this; simp at this
  | some x =>
    rw [hsp] at this
    simp only [Option.map_some, Option.some.injEq, Prod.mk.injEq, zero_add] at this
    exact ⟨by rw [this.2.1, this.2.2], this.1⟩

theorem same_wanted (sp : List (K × K)) (ranks : List (List (Species K)))
    (h : SameSpecies sp ranks) (R : List (Species K)) (hR : R ∈ ranks) (species specs : List Nat)
    (hc : chosen R species = .ok specs) :
    specs = wanted sp species ∧ ∀ s ∈ specs, s ≠ 0 ∧ s ≤ R.length := by
  obtain ⟨u, hu, hc2⟩ := Outcome.bind_eq_ok.1 hc
  simp only [Outcome.pure_eq, Outcome.ok.injEq] at hc2
  rw [hc2] at hu
  have hany : ¬ (specs.any fun s => decide (R.length < s) || decide (s = 0)) = true := by
    intro hcon
    simp only [Outcome.errorIf, hcon, if_true] at hu
    cases hu
  constructor
  · rw [← hc2]
    unfold wanted
    split
    · have e1 : (R.filter fun s => decide (0 < s.mass)).map (·.index)
          = ((R.map fun r => (r.index, r.mass, r.charge)).filter fun x => decide (0 < x.2.1)).map
            (·.1) := by
        rw [List.filter_map, List.map_map]; rfl
      rw [e1, h R hR, List.filter_map, List.map_map]; rfl
    · rfl
  · intro s hs
    simp only [List.any_eq_true, Bool.or_eq_true, decide_eq_true_eq, not_exists, not_and,
      not_or] at hany
    have := hany s hs
    omega

/-- **C84**: the number written for a particle statistic is the sum of the contributions of all
live particles of the wanted species on all ranks, normalised, for the statistics of `Sound`; see
the counterexamples for the others. -/
theorem C84_particle_statistic_partial (sqrt : K → K) (dV vol ppc0 : K) (uw : Bool) (id : Nat)
    (species : List Nat) (a b : Nat) (ha : a ≤ 3) (hb : b ≤ 3) (sp : List (K × K))
    (ranks : List (List (Species K))) (hsame : SameSpecies sp ranks)
    (hS : ∀ s ∈ wanted sp species, ∀ x, sp[s - 1]? = some x → Sound id uw x.1) (v : K)
    (h : momentCell sqrt dV vol ppc0 uw id species [a, b] ranks = .ok v) :
    v = (if id = Npart then 1 else (vol * ppc0)⁻¹) *
      ((wanted sp species).map fun s => ((everywhere ranks s).map fun p =>
        contribution sqrt dV uw id ((sp.getD (s - 1) (0, 0)).1) ((sp.getD (s - 1) (0, 0)).2) a b
          p).sum).sum := by
  obtain ⟨vs, hvs, h⟩ := Outcome.bind_eq_ok.1 h
  simp only [Outcome.pure_eq, Outcome.ok.injEq] at h
  have hvs := mapM_map _ _ _ hvs
  set nrm : K := if id = Npart then 1 else (vol * ppc0)⁻¹ with hn
  set c : Nat → Prtl K → K := fun s p =>
    contribution sqrt dV uw id ((sp.getD (s - 1) (0, 0)).1) ((sp.getD (s - 1) (0, 0)).2) a b p
  have key : vs.sum = (ranks.map fun R => nrm * ((wanted sp species).map fun s =>
      ((((R[s - 1]?).map (·.prtls)).getD []).map (c s)).sum).sum).sum := by
    refine forall₂_sum hvs ?_
    intro R hR w hw
    obtain ⟨specs, hspecs, hw2⟩ := Outcome.bind_eq_ok.1 hw
    obtain ⟨ws, hws, hw3⟩ := Outcome.bind_eq_ok.1 hw2
    simp only [Outcome.pure_eq, Outcome.ok.injEq] at hw3
    clear hw2
    obtain ⟨rfl, hrange⟩ := same_wanted sp ranks hsame R hR species specs hspecs
    have hsum : ws.sum = ((wanted sp species).map fun s =>
        ((((R[s - 1]?).map (·.prtls)).getD []).map (c s)).sum).sum := by
      refine forall₂_sum (mapM_map _ _ _ hws) ?_
      intro s hs x hx
      unfold speciesSum at hx
      cases hr : R[s - 1]? with
      | none =>
        have := hrange s hs
        rw [List.getElem?_eq_none_iff] at hr
        omega
      | some r =>
        obtain ⟨h1, -⟩ := same_get sp ranks hsame R hR _ r hr
        have hSr := hS s hs _ h1
        have hd : sp.getD (s - 1) (0, 0) = (r.mass, r.charge) := by
          rw [List.getD_eq_getElem?_getD, h1]; rfl
        have hcs : c s = contribution sqrt dV uw id r.mass r.charge a b := by
          funext p; simp only [c, hd]
        rw [hr] at hx
        dsimp only at hx
        simp only [Option.map_some, Option.getD_some, hcs]
        have hz : ∀ q0 : id = Charge ∧ r.charge = 0 ∨ id = Rho ∧ r.mass = 0,
            (r.prtls.map (contribution sqrt dV uw id r.mass r.charge a b)).sum = 0 := by
          intro q0
          have hall : r.prtls.map (contribution sqrt dV uw id r.mass r.charge a b)
              = r.prtls.map fun _ => (0 : K) := by
            apply List.map_congr_left
            intro p _
            unfold contribution
            rcases q0 with ⟨q1, q2⟩ | ⟨q1, q2⟩ <;> rw [q1, q2] <;> simp [Npart, N, Rho, Charge]
          rw [hall]; simp
        split_ifs at hx with q1 q2
        · simp only [Outcome.ok.injEq] at hx
          rw [← hx, hz (Or.inl q1)]
        · simp only [Outcome.ok.injEq] at hx
          rw [← hx, hz (Or.inr q2)]
        · obtain ⟨-, -, hx⟩ := Outcome.bind_eq_ok.1 hx
          obtain ⟨ps, hps, hx⟩ := Outcome.bind_eq_ok.1 hx
          simp only [Outcome.pure_eq, Outcome.ok.injEq] at hx
          rw [mapM_eq_map _ _ _ fun p _ => momentOf_eq sqrt dV uw id r a b ha hb p hSr] at hps
          simp only [Outcome.ok.injEq] at hps
          rw [← hx, ← hps]
    rw [← hw3, hsum, hn]
    by_cases q1 : id = Npart
    · rw [if_neg (by simpa using q1), if_pos q1, one_mul]
    · rw [if_pos q1, if_neg q1, div_eq_mul_inv, mul_comm]
  have mul_sum : ∀ l : List (List (Species K)), ∀ g : List (Species K) → K,
      (l.map fun R => nrm * g R).sum = nrm * (l.map g).sum := by
    intro l g
    induction l with
    | nil => simp
    | cons R l ih => rw [List.map_cons, List.sum_cons, ih, List.map_cons, List.sum_cons, mul_add]
  have sum_flat : ∀ l : List (List (Species K)), ∀ g : List (Species K) → List K,
      (l.map fun R => (g R).sum).sum = (l.flatMap g).sum := by
    intro l g
    induction l with
    | nil => rfl
    | cons R l ih =>
      rw [List.map_cons, List.sum_cons, ih, List.flatMap_cons, List.sum_append]
  rw [← h, key, mul_sum, sum_swap]
  congr 2
  apply List.map_congr_left
  intro s _
  unfold everywhere
  rw [sum_flat, List.map_flatMap]

/-- **C84**: hence the number does not depend on how the particles are distributed over the ranks
or ordered in memory. -/
theorem C84_decomposition_independent_partial (sqrt : K → K) (dV vol ppc0 : K) (uw : Bool)
    (id : Nat) (species : List Nat) (a b : Nat) (ha : a ≤ 3) (hb : b ≤ 3) (sp : List (K × K))
    (ranks ranks' : List (List (Species K))) (hsame : SameSpecies sp ranks)
    (hsame' : SameSpecies sp ranks')
    (hperm : ∀ s, (everywhere ranks s).Perm (everywhere ranks' s))
    (hS : ∀ s ∈ wanted sp species, ∀ x, sp[s - 1]? = some x → Sound id uw x.1) (v v' : K)
    (h : momentCell sqrt dV vol ppc0 uw id species [a, b] ranks = .ok v)
    (h' : momentCell sqrt dV vol ppc0 uw id species [a, b] ranks' = .ok v') : v = v' := by
  rw [C84_particle_statistic_partial sqrt dV vol ppc0 uw id species a b ha hb sp ranks hsame hS v h,
    C84_particle_statistic_partial sqrt dV vol ppc0 uw id species a b ha hb sp ranks' hsame' hS v' h']
  congr 2
  apply List.map_congr_left
  intro s _
  exact ((hperm s).map _).sum_eq

/-- A live particle at rest. -/
def exRest (w : ℚ) : Prtl ℚ := ⟨1, w, 0, 0, 0⟩
/-- A live particle with Lorentz factor 5/4 and a dead one. -/
def exMove : Prtl ℚ := ⟨1, 1, 3 / 4, 0, 0⟩
/-- A dead particle. -/
def exDead : Prtl ℚ := ⟨0, 7, 9, 9, 9⟩
/-- A square root for the numbers of the examples. -/
def exSqrt (x : ℚ) : ℚ := if x = 25 / 16 then 5 / 4 else x

/-- Electrons and positrons on two ranks. -/
def exRanks : List (List (Species ℚ)) :=
  [[⟨1, 1, -1, [exRest 1, exMove, exDead]⟩, ⟨2, 1, 1, [exRest 1]⟩],
   [⟨1, 1, -1, []⟩, ⟨2, 1, 1, [exMove, exDead]⟩]]

example : SameSpecies [(1, -1), (1, 1)] exRanks := by
  intro R hR
  revert R
  decide +kernel

example : momentCell exSqrt 2 8 1 false Charge [] [0, 0] exRanks = .ok 0 ∧
    momentCell exSqrt 2 8 1 false N [] [0, 0] exRanks = .ok 1 ∧
    momentCell exSqrt 2 8 1 true Npart [1] [0, 0] exRanks = .ok 2 ∧
    momentCell exSqrt 2 8 1 false T [2] [0, 0] exRanks = .ok (9 / 16) := by decide +kernel

/-- **C84**, violated for charge and mass density with weights: the weight replaces the charge, so a
neutral electron-positron plasma is reported with non-zero charge. -/
theorem C84_weighted_charge_counterexample :
    momentCell exSqrt 2 8 1 true Charge [] [0, 0] exRanks = .ok 1 ∧
    ((wanted [((1 : ℚ), (-1 : ℚ)), (1, 1)] []).map fun s => ((everywhere exRanks s).map fun p =>
      contribution exSqrt 2 true Charge 1 (if s = 1 then -1 else 1) 0 0 p).sum).sum = 0 := by
  decide +kernel

/-- **C84**, violated for the stress-energy tensor of a species with mass different from one: the
momentum flux of a particle of mass 4 is reported 16 times too small. -/
theorem C84_stress_mass_counterexample :
    momentCell exSqrt 1 1 1 false T [1] [1, 1] [[(⟨1, 4, 1, [exMove]⟩ : Species ℚ)]]
        = .ok (9 / 80) ∧
      contribution exSqrt 1 false T 4 1 1 1 exMove = 9 / 5 := by
  decide +kernel

/-- **C84**, violated for the stress-energy tensor with weights: weights are ignored. -/
theorem C84_stress_weight_counterexample :
    momentCell exSqrt 1 1 1 true T [1] [0, 0] [[(⟨1, 1, 1, [exRest 3]⟩ : Species ℚ)]] = .ok 1 ∧
      contribution exSqrt 1 true T 1 1 0 0 (exRest 3) = 3 := by
  decide +kernel

end Entity.Props.Stats
