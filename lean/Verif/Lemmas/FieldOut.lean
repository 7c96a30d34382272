import Verif.Spec.FieldOut
import Verif.Props.Prompt
import Mathlib.Data.List.TakeWhile
import Mathlib.Data.List.Nodup

/-!
# Lemmas about output names
-/

namespace Entity.FieldOut

open Entity Entity.Prompt Entity.Props.Prompt

theorem compInt_ok {c : List Char} {n : Int} (h : compInt c = .ok n) :
    ∃ l ∈ Spec.Prompt.letters, c = [l] := by
  unfold compInt at h
  split_ifs at h with h1 h2 h3 h4 h5 h6 h7
  · exact ⟨'t', by decide, h1⟩
  · exact ⟨'x', by decide, h2⟩
  · exact ⟨'y', by decide, h3⟩
  · exact ⟨'z', by decide, h4⟩
  · exact ⟨'i', by decide, h5⟩
  · exact ⟨'j', by decide, h6⟩
  · rcases h7 with h7 | h7 | h7 | h7
    · exact ⟨'0', by decide, h7⟩
    · exact ⟨'1', by decide, h7⟩
    · exact ⟨'2', by decide, h7⟩
    · exact ⟨'3', by decide, h7⟩

theorem interpretComponents_ok {a b : List Char} {l : List (List Nat)}
    (h : interpretComponents [a, b] = .ok l) :
    ∃ c₁ ∈ Spec.Prompt.letters, ∃ c₂ ∈ Spec.Prompt.letters, a = [c₁] ∧ b = [c₂] := by
  unfold interpretComponents at h
  have e : (Outcome.errorIf (2 < [a, b].length)) = .ok () := rfl
  rw [e, Outcome.bind_ok] at h
  obtain ⟨ints, h1, -⟩ := Outcome.bind_eq_ok.mp h
  simp only [List.mapM_cons, List.mapM_nil] at h1
  obtain ⟨n1, hn1, h1⟩ := Outcome.bind_eq_ok.mp h1
  obtain ⟨r, h2, -⟩ := Outcome.bind_eq_ok.mp h1
  obtain ⟨n2, hn2, -⟩ := Outcome.bind_eq_ok.mp h2
  obtain ⟨c1, hc1, e1⟩ := compInt_ok hn1
  obtain ⟨c2, hc2, e2⟩ := compInt_ok hn2
  exact ⟨c1, hc1, c2, hc2, e1, e2⟩

/-- A component given by two digits, or several components. -/
def Numbered (c₁ c₂ : Char) : Prop :=
  Spec.Prompt.free c₁ = true ∨ Spec.Prompt.free c₂ = true ∨
    (c₁ ∉ ['t', 'x', 'y', 'z'] ∧ c₂ ∉ ['t', 'x', 'y', 'z'])

instance (c₁ c₂ : Char) : Decidable (Numbered c₁ c₂) := by unfold Numbered; infer_instance

/-- The outcome is a value with the property. -/
def okAnd {α : Type} (x : Outcome α) (p : α → Bool) : Bool :=
  match x with
  | .ok a => p a
  | _ => false

/-- All pairs of component letters. -/
theorem components_table : ∀ c₁ ∈ Spec.Prompt.letters, ∀ c₂ ∈ Spec.Prompt.letters,
    ∃ l, interpretComponents [[c₁], [c₂]] = .ok l ∧
      (l.length = 1 ∨ l.length = 3 ∨ l.length = 6) ∧
      (∀ c ∈ l, ∃ a ∈ List.range 4, ∃ b ∈ List.range 4, c = [a, b]) ∧
      (l.length = 1 → Numbered c₁ c₂ →
        l = [[c₁.toNat - 48, c₂.toNat - 48]] ∧ Nat.toDigits 10 (c₁.toNat - 48) = [c₁] ∧
          Nat.toDigits 10 (c₂.toNat - 48) = [c₂]) := by
  have key : ∀ c₁ ∈ Spec.Prompt.letters, ∀ c₂ ∈ Spec.Prompt.letters,
      okAnd (interpretComponents [[c₁], [c₂]]) (fun l => decide
      ((l.length = 1 ∨ l.length = 3 ∨ l.length = 6) ∧
      (∀ c ∈ l, ∃ a ∈ List.range 4, ∃ b ∈ List.range 4, c = [a, b]) ∧
      (l.length = 1 → Numbered c₁ c₂ →
        l = [[c₁.toNat - 48, c₂.toNat - 48]] ∧ Nat.toDigits 10 (c₁.toNat - 48) = [c₁] ∧
          Nat.toDigits 10 (c₂.toNat - 48) = [c₂]))) = true := by decide +kernel
  intro c₁ h₁ c₂ h₂
  have := key c₁ h₁ c₂ h₂
  revert this
  cases interpretComponents [[c₁], [c₂]] with
  | ok l => intro h; exact ⟨l, rfl, of_decide_eq_true h⟩
  | err => intro h; exact absurd h Bool.false_ne_true
  | ub => intro h; exact absurd h Bool.false_ne_true

theorem digits_table : ∀ a ∈ List.range 4, ∀ b ∈ List.range 4,
    interpretComponents [(Nat.toDigits 10 a ++ Nat.toDigits 10 b).take 1,
      ((Nat.toDigits 10 a ++ Nat.toDigits 10 b).drop 1).take 1] = .ok [[a, b]] ∧
    (Nat.toDigits 10 a).length = 1 ∧ (Nat.toDigits 10 b).length = 1 := by decide +kernel

theorem substr_ok {s r : List Char} {p n : Nat} (h : substr s p n = .ok r) :
    p ≤ s.length ∧ r = (s.drop p).take n := by
  unfold substr at h
  split_ifs at h with hp
  cases h
  exact ⟨by omega, rfl⟩

/-- What the components of an accepted field can be. -/
inductive Comps (gr : Bool) (name : List Char) : Id → List (List Nat) → Prop
  | field (id : Id) : id.isField = true ∨ id = .J → Comps gr name id [[1], [2], [3]]
  | vel3 : gr = false → Comps gr name .V [[1], [2], [3]]
  | vel4 : gr = true → Comps gr name .V [[0], [1], [2], [3]]
  | pot : Comps gr name .A [[3]]
  | tensor (c₁ c₂ : Char) (l : List (List Nat)) : (name.drop 1).take 2 = [c₁, c₂] →
      (l.length = 1 ∨ l.length = 3 ∨ l.length = 6) →
      (∀ c ∈ l, ∃ a ∈ List.range 4, ∃ b ∈ List.range 4, c = [a, b]) →
      (l.length = 1 → Numbered c₁ c₂ →
        l = [[c₁.toNat - 48, c₂.toNat - 48]] ∧ Nat.toDigits 10 (c₁.toNat - 48) = [c₁] ∧
          Nat.toDigits 10 (c₂.toNat - 48) = [c₂]) → Comps gr name .T l
  | scalar (id : Id) : id ∈ [Id.divE, .divD, .Rho, .Charge, .N, .Nppc, .Custom] →
      Comps gr name id []

theorem components_cases {gr : Bool} {id : Id} {name : List Char} {l : List (List Nat)}
    (h : components gr id name = .ok l) : Comps gr name id l := by
  unfold components at h
  split_ifs at h with h1 h2 h3 h4 h5
  · cases h
    refine .field id ?_
    simpa [Id.isCurrent] using h1
  · cases h; subst h2; exact .vel4 h3
  · cases h; subst h2; exact .vel3 (by simpa using h3)
  · cases h; subst h4; exact .pot
  · subst h5
    obtain ⟨a, ha, h⟩ := Outcome.bind_eq_ok.mp h
    obtain ⟨b, hb, h⟩ := Outcome.bind_eq_ok.mp h
    obtain ⟨c1, hc1, c2, hc2, rfl, rfl⟩ := interpretComponents_ok h
    obtain ⟨l', e, p1, p2, p3⟩ := components_table c1 hc1 c2 hc2
    rw [h] at e
    cases e
    obtain ⟨_, ea⟩ := substr_ok ha
    obtain ⟨_, eb⟩ := substr_ok hb
    refine .tensor c1 c2 l ?_ p1 p2 p3
    have : (name.drop 1).take 2 = (name.drop 1).take 1 ++ (name.drop 2).take 1 := by
      rcases name with _ | ⟨x, _ | ⟨y, _ | ⟨z, r⟩⟩⟩ <;> simp
    rw [this, ← ea, ← eb]; rfl
  · cases h
    refine .scalar id ?_
    cases id <;> simp_all [Id.isField, Id.isCurrent]

/-- The members of an accepted field. -/
theorem construct_ok {gr : Bool} {name : List Char} {f : Field} (h : construct gr name = .ok f) :
    f.name = name ∧ f.id = fieldId name ∧ (f.id = .A → gr = true) ∧
    (if f.id.isMoment then interpretSpecies name = .ok f.species else f.species = []) ∧
    Comps gr name f.id f.comp ∧ f.prep = prepFlag gr f.id ∧ interpFlag f.id = .ok f.interp := by
  unfold construct at h
  obtain ⟨u, h1, h⟩ := Outcome.bind_eq_ok.mp h
  obtain ⟨sp, h2, h⟩ := Outcome.bind_eq_ok.mp h
  obtain ⟨cm, h3, h⟩ := Outcome.bind_eq_ok.mp h
  obtain ⟨ip, h4, h⟩ := Outcome.bind_eq_ok.mp h
  cases h
  refine ⟨rfl, rfl, ?_, ?_, components_cases h3, rfl, h4⟩
  · intro hA
    unfold Outcome.errorIf at h1
    split_ifs at h1 with hc
    cases gr
    · exact absurd ⟨hA, rfl⟩ hc
    · rfl
  · unfold speciesOf at h2
    split_ifs at h2 ⊢ with hm
    · exact h2
    · cases h2; rfl

theorem nameComp_eq {f : Field} {k : Nat} (hk : k < f.comp.length) (hc : f.comp.getD k [] ≠ []) :
    nameComp f k = .ok ('f' :: capitals (f.id.str ++ (f.comp.getD k []).flatMap (Nat.toDigits 10)
      ++ speciesSuffix f.species)) := by
  unfold nameComp Outcome.errorIf
  rw [if_neg (by rintro h; rw [h] at hk; simp at hk), Outcome.bind_ok, if_neg (by omega),
    Outcome.bind_ok]
  dsimp only
  rw [if_neg hc, Outcome.bind_ok]
  rfl

/-- The name of one component. -/
def compName (f : Field) (c : List Nat) : List Char :=
  'f' :: capitals (f.id.str ++ c.flatMap (Nat.toDigits 10) ++ speciesSuffix f.species)

theorem Comps.ne {gr : Bool} {name : List Char} {id : Id} {l : List (List Nat)}
    (h : Comps gr name id l) : ∀ c ∈ l, c ≠ [] := by
  cases h with
  | tensor c₁ c₂ l h1 h2 h3 h4 =>
    intro c hc
    obtain ⟨a, _, b, _, rfl⟩ := h3 c hc
    simp
  | _ => simp

theorem mapM_nameComp {f : Field} (hc : ∀ c ∈ f.comp, c ≠ []) (n : Nat) (hn : f.comp.length = n) :
    (List.range n).mapM (nameComp f) = .ok (f.comp.map (compName f)) := by
  have key : ∀ ks : List Nat, (∀ k ∈ ks, k < f.comp.length) →
      ks.mapM (nameComp f) = .ok (ks.map fun k => compName f (f.comp.getD k [])) := by
    intro ks
    induction ks with
    | nil => intro _; rfl
    | cons k ks ih =>
      intro h
      have hk := h k (by simp)
      rw [List.mapM_cons, nameComp_eq hk (hc _ (by
        simp [List.getD_eq_getElem?_getD, hk])), Outcome.bind_ok,
        ih (fun k' hk' => h k' (by simp [hk'])), Outcome.bind_ok]
      rfl
  rw [key _ (fun k hk => by rw [hn]; exact List.mem_range.mp hk)]
  congr 1
  apply List.ext_getElem
  · simp [hn]
  · intro i h1 h2
    have : i < f.comp.length := by simpa using h2
    simp [this]

theorem declared_eq {gr : Bool} {name : List Char} {f : Field} (h : construct gr name = .ok f) :
    declared f = .ok (if f.comp = [] then [nameAll f] else f.comp.map (compName f)) := by
  obtain ⟨-, -, -, -, hc, -⟩ := construct_ok h
  unfold declared
  by_cases he : f.comp = []
  · simp [he]
  · rw [if_neg (by simpa using he), if_neg he, mapM_nameComp hc.ne _ rfl]

/-! ## Names identify quantities -/

/-- The name of a quantity. -/
def nm (q : Quantity) : List Char :=
  if q.id = .Custom then 'f' :: q.name
  else 'f' :: capitals (q.id.str ++ q.comp.flatMap (Nat.toDigits 10) ++ speciesSuffix q.species)

/-- What quantities of accepted fields look like. -/
inductive Valid : Quantity → Prop
  | custom (name : List Char) : fieldId name = .Custom → Valid ⟨.Custom, [], [], name⟩
  | div (id : Id) : id.isDivergence = true → Valid ⟨id, [], [], []⟩
  | scalar (id : Id) (sp : List Nat) : id ∈ [Id.Rho, .Charge, .N, .Nppc] →
      (∀ s ∈ sp, s < 256) → Valid ⟨id, [], sp, []⟩
  | vec (id : Id) (a : Nat) (sp : List Nat) : id ∈ [Id.E, .D, .B, .H, .J, .V, .A] → a ∈ List.range 4 →
      (∀ s ∈ sp, s < 256) → Valid ⟨id, [a], sp, []⟩
  | tensor (a b : Nat) (sp : List Nat) : a ∈ List.range 4 → b ∈ List.range 4 →
      (∀ s ∈ sp, s < 256) → Valid ⟨.T, [a, b], sp, []⟩

theorem mapM_mem {α β : Type} {g : α → Outcome β} {P : β → Prop} (hg : ∀ a b, g a = .ok b → P b) :
    ∀ (l : List α) (r : List β), l.mapM g = .ok r → ∀ b ∈ r, P b := by
  intro l
  induction l with
  | nil =>
    intro r h b hb
    rw [List.mapM_nil] at h
    cases h
    cases hb
  | cons a l ih =>
    intro r h b hb
    rw [List.mapM_cons] at h
    obtain ⟨x, h1, h⟩ := Outcome.bind_eq_ok.mp h
    obtain ⟨xs, h2, h⟩ := Outcome.bind_eq_ok.mp h
    cases h
    rcases List.mem_cons.mp hb with rfl | hb
    · exact hg _ _ h1
    · exact ih xs h2 b hb

theorem species_lt {name : List Char} {sp : List Nat} (h : interpretSpecies name = .ok sp) :
    ∀ s ∈ sp, s < 256 := by
  unfold interpretSpecies at h
  split at h
  · cases h; simp
  · refine mapM_mem ?_ _ _ h
    intro t b hb
    obtain ⟨n, _, hb⟩ := Outcome.bind_eq_ok.mp hb
    cases hb
    unfold toSpidx
    have := Int.emod_lt_of_pos n (show (0 : Int) < 256 by decide)
    omega

theorem quantities_valid {gr : Bool} {name : List Char} {f : Field} (h : construct gr name = .ok f) :
    ∀ q ∈ quantities f, Valid q := by
  obtain ⟨h1, h2, -, h4, h5, -⟩ := construct_ok h
  have hsp : ∀ s ∈ f.species, s < 256 := by
    split_ifs at h4 with hm
    · exact species_lt h4
    · rw [h4]; simp
  obtain ⟨fn, id, comp, sp, prep, interp⟩ := f
  simp only at h1 h2 h4 h5 hsp
  unfold quantities
  cases h5 with
  | field _ hf =>
    simp only [reduceCtorEq, if_false, List.map_cons, List.map_nil, List.mem_cons, List.not_mem_nil,
      or_false]
    rcases hf with hf | rfl
    · rintro q (rfl | rfl | rfl) <;> cases id <;>
        first | (exact absurd hf (by decide)) | exact .vec _ _ _ (by decide) (by decide) hsp
    · rintro q (rfl | rfl | rfl) <;> exact .vec _ _ _ (by decide) (by decide) hsp
  | vel3 _ =>
    simp only [reduceCtorEq, if_false, List.map_cons, List.map_nil, List.mem_cons, List.not_mem_nil,
      or_false]
    rintro q (rfl | rfl | rfl) <;> exact .vec _ _ _ (by decide) (by decide) hsp
  | vel4 _ =>
    simp only [reduceCtorEq, if_false, List.map_cons, List.map_nil, List.mem_cons, List.not_mem_nil,
      or_false]
    rintro q (rfl | rfl | rfl | rfl) <;> exact .vec _ _ _ (by decide) (by decide) hsp
  | pot =>
    simp only [reduceCtorEq, if_false, List.map_cons, List.map_nil, List.mem_cons, List.not_mem_nil,
      or_false]
    rintro q rfl
    exact .vec _ _ _ (by decide) (by decide) hsp
  | tensor c₁ c₂ _ e hl hab hd =>
    have hne : comp ≠ [] := by rintro rfl; simp at hl
    simp only [reduceCtorEq, if_false, hne, List.mem_map]
    rintro q ⟨c, hc, rfl⟩
    obtain ⟨a, ha, b, hb, rfl⟩ := hab c hc
    exact .tensor a b sp ha hb hsp
  | scalar _ hs =>
    simp only [if_true, List.mem_cons, List.not_mem_nil, or_false]
    rintro q rfl
    simp only [List.mem_cons, List.not_mem_nil, or_false] at hs
    rcases hs with rfl | rfl | rfl | rfl | rfl | rfl | rfl
    · have : sp = [] := h4
      subst this
      exact .div _ rfl
    · have : sp = [] := h4
      subst this
      exact .div _ rfl
    · exact .scalar _ _ (by decide) hsp
    · exact .scalar _ _ (by decide) hsp
    · exact .scalar _ _ (by decide) hsp
    · exact .scalar _ _ (by decide) hsp
    · have : sp = [] := h4
      subst this
      exact .custom _ (by rw [if_pos rfl, h1, ← h2])

theorem declared_nm {gr : Bool} {name : List Char} {f : Field} (h : construct gr name = .ok f) :
    declared f = .ok ((quantities f).map nm) := by
  rw [declared_eq h]
  obtain ⟨-, -, -, -, hc, -⟩ := construct_ok h
  obtain ⟨fn, id, comp, sp, prep, interp⟩ := f
  simp only at hc
  congr 1
  unfold quantities
  by_cases he : comp = []
  · subst he
    simp only [if_true, List.map_cons, List.map_nil]
    congr 1
    unfold nameAll nm
    by_cases hcu : id = .Custom
    · simp [hcu]
    · simp only [if_neg hcu]
      cases hc with
      | scalar _ hs =>
        simp only [List.mem_cons, List.not_mem_nil, or_false] at hs
        rcases hs with rfl | rfl | rfl | rfl | rfl | rfl | rfl <;> simp [Id.isField]
      | tensor _ _ _ _ hl => simp at hl
  · simp only [if_neg he, List.map_map]
    apply List.map_congr_left
    intro c hcc
    have hcu : id ≠ .Custom := by
      rintro rfl
      cases hc with
      | field _ hf => exact absurd hf (by decide)
      | scalar => exact he rfl
    simp [compName, nm, hcu]

/-- The name of a quantity with its capital letters. -/
def capStr : Id → List Char
  | .E => ['E']
  | .divE => ['D', 'i', 'v', 'E']
  | .D => ['D']
  | .divD => ['D', 'i', 'v', 'D']
  | .B => ['B']
  | .H => ['H']
  | .J => ['J']
  | .A => ['A']
  | .T => ['T']
  | .Rho => ['R', 'h', 'o']
  | .Charge => ['C', 'h', 'a', 'r', 'g', 'e']
  | .N => ['N']
  | .Nppc => ['N', 'p', 'p', 'c']
  | .V => ['V']
  | .Custom => ['C', 'u', 's', 't', 'o', 'm']

theorem suffix_cases (sp : List Nat) : speciesSuffix sp = [] ∨ ∃ r, speciesSuffix sp = '_' :: r := by
  unfold speciesSuffix
  cases sp with
  | nil => left; rfl
  | cons s sp =>
    right
    rw [if_neg (by simp), List.dropLast_cons_of_ne_nil (by simp)]
    exact ⟨_, rfl⟩

theorem digit_table : ∀ a ∈ List.range 4, ∃ d ∈ ['0', '1', '2', '3'], Nat.toDigits 10 a = [d] := by
  decide +kernel

theorem nm_eq {q : Quantity} (h : Valid q) (hc : q.id ≠ .Custom) :
    nm q = 'f' :: (capStr q.id ++ (q.comp.flatMap (Nat.toDigits 10) ++ speciesSuffix q.species)) := by
  unfold nm
  rw [if_neg hc]
  congr 1
  cases h with
  | custom _ _ => exact absurd rfl hc
  | div id hd => cases id <;> first | rfl | exact absurd hd (by decide)
  | scalar id sp hid hsp =>
    simp only [List.mem_cons, List.not_mem_nil, or_false] at hid
    rcases hid with rfl | rfl | rfl | rfl <;>
      simp [capitals, upperAt, Id.str, capStr]
  | vec id a sp hid ha hsp =>
    obtain ⟨d, hd, e⟩ := digit_table a ha
    have hdi : d ≠ 'i' := by rintro rfl; exact absurd hd (by decide)
    simp only [List.mem_cons, List.not_mem_nil, or_false] at hid
    rcases hid with rfl | rfl | rfl | rfl | rfl | rfl | rfl <;>
      simp [capitals, upperAt, Id.str, capStr, e, hdi]
  | tensor a b sp ha hb hsp =>
    simp [capitals, upperAt, Id.str, capStr]

theorem stem_digit (U d : Char) (r : List Char) (hU : U ≠ '_' ∧ U ∉ cutChars)
    (hd : d ∈ ['0', '1', '2', '3']) : stem (U :: d :: r) = [U] := by
  have hd1 : d ≠ '_' := by rintro rfl; exact absurd hd (by decide)
  have hd2 : d ∈ cutChars := by
    simp only [List.mem_cons, List.not_mem_nil, or_false] at hd
    rcases hd with rfl | rfl | rfl | rfl <;> decide
  have hd3 : d.toLower ≠ 'i' := by
    simp only [List.mem_cons, List.not_mem_nil, or_false] at hd
    rcases hd with rfl | rfl | rfl | rfl <;> decide
  unfold stem
  simp [hU.1, hU.2, hd1, hd2, lower, Id.str, hd3]

theorem stem_plain (w s : List Char) (hw : ∀ c ∈ w, c ≠ '_' ∧ c ∉ cutChars)
    (hs : s = [] ∨ ∃ r, s = '_' :: r) : stem (w ++ s) = w := by
  have h1 : (w ++ s).takeWhile (· ≠ '_') = w := by
    rw [List.takeWhile_append_of_pos (by simpa using fun c hc => (hw c hc).1)]
    rcases hs with rfl | ⟨r, rfl⟩ <;> simp
  have h2 : w.takeWhile (fun c => c ∉ cutChars) = w := by
    rw [List.takeWhile_eq_self_iff]; simpa using fun c hc => (hw c hc).2
  unfold stem
  simp only [h1, h2, ite_self]

theorem fieldId_nm {q : Quantity} (h : Valid q) : fieldId ((nm q).drop 1) = q.id := by
  by_cases hc : q.id = .Custom
  · have : nm q = 'f' :: q.name := by unfold nm; rw [if_pos hc]
    rw [this, hc]
    cases h with
    | custom _ hn => exact hn
    | div id hd => simp only at hc; subst hc; exact absurd hd (by decide)
    | scalar id sp hid => simp only at hc; subst hc; exact absurd hid (by decide)
    | vec id a sp hid => simp only at hc; subst hc; exact absurd hid (by decide)
    | tensor => exact Id.noConfusion hc
  · rw [nm_eq h hc]
    simp only [List.drop_succ_cons, List.drop_zero]
    unfold fieldId
    cases h with
    | custom _ _ => exact absurd rfl hc
    | div id hd => cases id <;> first | decide | exact absurd hd (by decide)
    | scalar id sp hid hsp =>
      simp only [List.mem_cons, List.not_mem_nil, or_false] at hid
      simp only [List.flatMap_nil, List.nil_append]
      rcases hid with rfl | rfl | rfl | rfl <;>
        rw [stem_plain _ _ (by decide) (suffix_cases sp)] <;> decide
    | vec id a sp hid ha hsp =>
      obtain ⟨d, hd, e⟩ := digit_table a ha
      simp only [List.mem_cons, List.not_mem_nil, or_false] at hid
      simp only [List.flatMap_cons, List.flatMap_nil, e, List.append_nil, List.cons_append,
        List.nil_append]
      rcases hid with rfl | rfl | rfl | rfl | rfl | rfl | rfl <;>
        (simp only [capStr, List.cons_append, List.nil_append]; rw [stem_digit _ _ _ (by decide) hd];
         decide)
    | tensor a b sp ha hb hsp =>
      obtain ⟨d, hd, e⟩ := digit_table a ha
      simp only [List.flatMap_cons, List.flatMap_nil, e, List.append_nil, List.cons_append,
        List.nil_append, capStr]
      rw [stem_digit _ _ _ (by decide) hd]
      decide

theorem suffix_eq (sp : List Nat) :
    speciesSuffix sp = sp.flatMap fun s => '_' :: Nat.toDigits 10 s := by
  have key : ∀ (s : Nat) (l : List Nat), (('_' :: (s :: l).flatMap
      (fun s => Nat.toDigits 10 s ++ ['_'])).dropLast) =
      (s :: l).flatMap fun s => '_' :: Nat.toDigits 10 s := by
    intro s l
    induction l generalizing s with
    | nil => 
      simp only [List.flatMap_cons, List.flatMap_nil, List.append_nil]
      rw [← List.cons_append, List.dropLast_concat]
    | cons t l ih =>
      have h := ih t
      rw [List.flatMap_cons, List.flatMap_cons (xs := t :: l) (f := fun s => '_' :: Nat.toDigits 10 s), ← h]
      rw [List.append_assoc, ← List.cons_append, List.singleton_append,
        List.dropLast_append_of_ne_nil (by simp)]
  unfold speciesSuffix
  cases sp with
  | nil => rfl
  | cons s l => rw [if_neg (by simp)]; exact key s l

theorem suffix_read (sp : List Nat) (h : ∀ s ∈ sp, s < 256) :
    interpretSpecies (speciesSuffix sp) = .ok sp := by
  have := interpret_withSpecies [] (by simp) sp (fun s hs => by have := h s hs; omega)
  rw [Spec.Prompt.withSpecies, List.nil_append, ← suffix_eq] at this
  rw [this]
  congr 1
  conv_rhs => rw [← List.map_id sp]
  exact List.map_congr_left fun s hs => Nat.mod_eq_of_lt (h s hs)

theorem nm_inj {q r : Quantity} (hq : Valid q) (hr : Valid r) (h : nm q = nm r) : q = r := by
  have hid : q.id = r.id := by rw [← fieldId_nm hq, ← fieldId_nm hr, h]
  by_cases hc : q.id = .Custom
  · have h1 : nm q = 'f' :: q.name := by unfold nm; rw [if_pos hc]
    have h2 : nm r = 'f' :: r.name := by unfold nm; rw [if_pos (hid ▸ hc)]
    have hn : q.name = r.name := by rw [h1, h2] at h; exact (List.cons.inj h).2
    have e : ∀ {x : Quantity}, Valid x → x.id = .Custom → x.comp = [] ∧ x.species = [] := by
      intro x hx hxc
      cases hx with
      | custom => exact ⟨rfl, rfl⟩
      | div id hd => simp only at hxc; subst hxc; exact absurd hd (by decide)
      | scalar id sp hid => simp only at hxc; subst hxc; exact absurd hid (by decide)
      | vec id a sp hid => simp only at hxc; subst hxc; exact absurd hid (by decide)
      | tensor => exact Id.noConfusion hxc
    obtain ⟨a1, a2⟩ := e hq hc
    obtain ⟨b1, b2⟩ := e hr (hid ▸ hc)
    cases q; cases r
    simp_all
  · rw [nm_eq hq hc, nm_eq hr (hid ▸ hc), hid] at h
    have h := List.append_cancel_left (List.cons.inj h).2
    have hsplit : ∀ {x : Quantity}, Valid x → (x.comp.flatMap (Nat.toDigits 10) ++
        speciesSuffix x.species).takeWhile (· ≠ '_') = x.comp.flatMap (Nat.toDigits 10) := by
      intro x _
      rw [List.takeWhile_append_of_pos]
      · rcases suffix_cases x.species with e | ⟨r, e⟩ <;> simp [e]
      · intro c hcm
        obtain ⟨n, _, hn⟩ := List.mem_flatMap.mp hcm
        simp only [ne_eq, decide_not, Bool.not_eq_eq_eq_not, Bool.not_true, decide_eq_false_iff_not]
        rintro rfl
        exact digits_no_underscore n hn
    have hd : q.comp.flatMap (Nat.toDigits 10) = r.comp.flatMap (Nat.toDigits 10) := by
      rw [← hsplit hq, ← hsplit hr, h]
    have hs : speciesSuffix q.species = speciesSuffix r.species := by
      rw [hd] at h; exact List.append_cancel_left h
    have hlt : ∀ {x : Quantity}, Valid x → ∀ s ∈ x.species, s < 256 := by
      intro x hx
      cases hx <;> first | assumption | simp
    have hsp : q.species = r.species := by
      have := suffix_read q.species (hlt hq)
      rw [hs, suffix_read r.species (hlt hr)] at this
      injection this with this
      exact this.symm
    have one : ∀ a ∈ List.range 4, ∀ b ∈ List.range 4, Nat.toDigits 10 a = Nat.toDigits 10 b → a = b := by
      decide +kernel
    have one' : ∀ a ∈ List.range 4, (Nat.toDigits 10 a).length = 1 := by decide +kernel
    clear h hs hsplit hlt
    obtain ⟨qi, qc, qs, qn⟩ := q
    obtain ⟨ri, rc, rs, rn⟩ := r
    dsimp only at hid hc hd hsp
    subst hid hsp
    cases hq with
    | custom => exact absurd rfl hc
    | div id hdv =>
      cases hr with
      | custom => exact absurd rfl hc
      | div => rfl
      | scalar _ _ hid2 => simp
      | vec _ _ _ hid2 => simp only [List.mem_cons, List.not_mem_nil, or_false] at hid2; rcases hid2 with rfl | rfl | rfl | rfl | rfl | rfl | rfl <;> exact absurd hdv (by decide)
      | tensor => exact absurd hdv (by decide)
    | scalar id sp hid1 hsp1 =>
      cases hr with
      | custom => exact absurd rfl hc
      | div => rfl
      | scalar => rfl
      | vec _ _ _ hid2 => simp only [List.mem_cons, List.not_mem_nil, or_false] at hid2; rcases hid2 with rfl | rfl | rfl | rfl | rfl | rfl | rfl <;> exact absurd hid1 (by decide)
      | tensor => exact absurd hid1 (by decide)
    | vec id a sp hid1 ha hsp1 =>
      cases hr with
      | custom => exact absurd rfl hc
      | div _ hdv => cases qi <;> first | exact absurd hdv (by decide) | exact absurd hid1 (by decide)
      | scalar _ _ hid2 => simp only [List.mem_cons, List.not_mem_nil, or_false] at hid2; rcases hid2 with rfl | rfl | rfl | rfl <;> exact absurd hid1 (by decide)
      | vec _ b _ _ hb _ =>
        have := one a ha b hb (by simpa using hd)
        rw [this]
      | tensor => exact absurd hid1 (by decide)
    | tensor a b sp ha hb hsp1 =>
      cases hr with
      | scalar _ _ hid2 => exact absurd hid2 (by decide)
      | vec _ _ _ hid2 => exact absurd hid2 (by decide)
      | div _ hdv => exact absurd hdv (by decide)
      | tensor a' b' _ ha' hb' _ =>
        simp only [List.flatMap_cons, List.flatMap_nil, List.append_nil] at hd
        obtain ⟨e1, e2⟩ := List.append_inj hd (by rw [one' a ha, one' a' ha'])
        rw [one a ha a' ha' e1, one b hb b' hb' e2]

/-! ## What is written -/

/-- One pass of the loop: names and contents. -/
theorem writeOne_eq {gr asIs hasCustom : Bool} {dim : Nat} {name : List Char} {f : Field}
    (h : construct gr name = .ok f) (hcu : f.id = .Custom → hasCustom = true)
    (hA : f.id = .A → dim = 2) :
    writeOne gr asIs dim hasCustom f = .ok
      ((if f.comp.length ≤ 1 then [nameAll f] else f.comp.map (compName f)).zip (wanted gr asIs f)) := by
  obtain ⟨h1, h2, hgr, h4, hc, hp, hi⟩ := construct_ok h
  obtain ⟨fn, id, comp, sp, prep, interp⟩ := f
  simp only at h1 h2 hgr h4 hc hp hi hcu hA
  unfold writeOne
  cases hc with
  | field _ hf =>
    subst hp
    rcases hf with hf | rfl
    · cases id <;> first
        | exact absurd hf (by decide)
        | (cases gr <;> cases asIs <;> cases hi <;>
            simp [nameComp, compName, Outcome.errorIf, vectorSource, Id.isMoment, fieldSource, Id.isField, Id.isCurrent, Id.isAux,
              Id.isEfield, wanted, prepFlag, Id.isDivergence, List.range_succ])
    · cases gr <;> cases asIs <;> cases hi <;>
        simp [nameComp, compName, Outcome.errorIf, vectorSource, Id.isMoment, fieldSource, Id.isField, Id.isCurrent, Id.isAux,
              Id.isEfield, wanted, prepFlag, Id.isDivergence, List.range_succ]
  | vel3 hg =>
    subst hg
    simp [nameComp, compName, Outcome.errorIf, vectorSource, Id.isMoment, vectorMoment, normalised, wanted, List.range_succ]
  | vel4 hg =>
    subst hg
    simp [nameComp, compName, Outcome.errorIf, fourSource, wanted, List.range_succ]
  | pot =>
    have := hgr rfl
    subst this
    rw [hA rfl]
    simp [scalarSource, Id.isMoment, Id.isDivergence, wanted]
  | tensor c₁ c₂ _ e hl hab hd =>
    rcases hl with hl | hl | hl
    · obtain ⟨c, rfl⟩ := List.length_eq_one_iff.mp hl
      simp [scalarSource, Id.isMoment, wanted]
    · obtain ⟨x, y, z, rfl⟩ := List.length_eq_three.mp hl
      have hx : x.length = 2 := by obtain ⟨a, _, b, _, rfl⟩ := hab x (by simp); rfl
      have hy : y.length = 2 := by obtain ⟨a, _, b, _, rfl⟩ := hab y (by simp); rfl
      have hz : z.length = 2 := by obtain ⟨a, _, b, _, rfl⟩ := hab z (by simp); rfl
      have hx0 : x ≠ [] := by rintro rfl; simp at hx
      have hy0 : y ≠ [] := by rintro rfl; simp at hy
      have hz0 : z ≠ [] := by rintro rfl; simp at hz
      simp [nameComp, compName, Outcome.errorIf, vectorSource, Id.isMoment, vectorMoment, wanted,
        List.range_succ, hx, hy, hz, hx0, hy0, hz0,
        normalised]
    · match comp, hl with
      | [a1, a2, a3, a4, a5, a6], _ =>
        have hx : ∀ c ∈ [a1, a2, a3, a4, a5, a6], c.length = 2 := by
          intro c hc
          obtain ⟨a, _, b, _, rfl⟩ := hab c hc
          rfl
        simp only [List.mem_cons, List.not_mem_nil, or_false, forall_eq_or_imp, forall_eq] at hx
        obtain ⟨q1, q2, q3, q4, q5, q6⟩ := hx
        have ne : ∀ c : List Nat, c.length = 2 → c ≠ [] := by rintro c hc rfl; simp at hc
        simp [nameComp, compName, Outcome.errorIf, sixSource, wanted, List.range_succ, q1, q2, q3, q4, q5, q6, ne a1 q1,
          ne a2 q2, ne a3 q3, ne a4 q4, ne a5 q5, ne a6 q6]
  | scalar _ hs =>
    simp only [List.mem_cons, List.not_mem_nil, or_false] at hs
    rcases hs with rfl | rfl | rfl | rfl | rfl | rfl | rfl
    · simp [scalarSource, Id.isMoment, Id.isDivergence, wanted]
    · simp [scalarSource, Id.isMoment, Id.isDivergence, wanted]
    · simp [scalarSource, Id.isMoment, wanted]
    · simp [scalarSource, Id.isMoment, wanted]
    · simp [scalarSource, Id.isMoment, wanted]
    · simp [scalarSource, Id.isMoment, wanted]
    · simp [scalarSource, Id.isMoment, Id.isDivergence, wanted, hcu rfl, nameAll]

/-- The name of the scalar branch is the declared one, unless a single component of the tensor was
requested by letters. -/
theorem nameAll_single {gr : Bool} {name : List Char} {f : Field} (h : construct gr name = .ok f)
    (hT : f.id = .T → ∀ c₁ c₂, (name.drop 1).take 2 = [c₁, c₂] → Numbered c₁ c₂) :
    (if f.comp.length ≤ 1 then [nameAll f] else f.comp.map (compName f)) =
      (quantities f).map nm := by
  have hd := declared_nm h
  rw [declared_eq h] at hd
  injection hd with hd
  rw [← hd]
  obtain ⟨-, -, -, -, hc, -⟩ := construct_ok h
  obtain ⟨fn, id, comp, sp, prep, interp⟩ := f
  simp only at hc hT
  obtain ⟨hn, -⟩ := construct_ok h
  simp only at hn
  by_cases he : comp = []
  · simp [he]
  · rw [if_neg he]
    by_cases hl : comp.length ≤ 1
    · rw [if_pos hl]
      cases hc with
      | field => simp at hl
      | vel3 => simp at hl
      | vel4 => simp at hl
      | scalar => exact absurd rfl he
      | pot => simp [nameAll, compName]; rfl
      | tensor c₁ c₂ _ e hl' hab hd =>
        have hl1 : comp.length = 1 := by omega
        obtain ⟨e1, e2, e3⟩ := hd hl1 (hT rfl c₁ c₂ e)
        subst e1
        subst hn
        have e' : List.take 2 fn.tail = [c₁, c₂] := by rw [← List.drop_one]; exact e
        simp [nameAll, compName, e', e2, e3]
    · rw [if_neg hl]

theorem wanted_length {gr asIs : Bool} {name : List Char} {f : Field} (h : construct gr name = .ok f) :
    (wanted gr asIs f).length = (quantities f).length := by
  obtain ⟨-, -, -, -, hc, -⟩ := construct_ok h
  obtain ⟨fn, id, comp, sp, prep, interp⟩ := f
  simp only at hc
  cases hc with
  | field _ hf =>
    rcases hf with hf | rfl
    · cases id <;> first | exact absurd hf (by decide) | (cases gr <;> simp [wanted, quantities])
    · simp [wanted, quantities]
  | vel3 hg => simp [wanted, quantities, hg]
  | vel4 hg => simp [wanted, quantities, hg]
  | pot => simp [wanted, quantities]
  | tensor _ _ _ _ hl =>
    have : comp ≠ [] := by rintro rfl; simp at hl
    simp [wanted, quantities, this]
  | scalar _ hs =>
    simp only [List.mem_cons, List.not_mem_nil, or_false] at hs
    rcases hs with rfl | rfl | rfl | rfl | rfl | rfl | rfl <;> simp [wanted, quantities]

theorem defineAll_ok (ns : List (List Char)) : ∀ vars : List (List Char), vars.Nodup →
    ((∃ r, defineAll vars ns = .ok r) ↔ (vars ++ ns).Nodup) ∧
    (∀ r, defineAll vars ns = .ok r → r = vars ++ ns) := by
  induction ns with
  | nil => intro vars hv; simp [defineAll, hv]
  | cons n ns ih =>
    intro vars hv
    unfold defineAll
    by_cases hn : n ∈ vars
    · rw [if_pos hn]
      refine ⟨?_, fun r hr => by cases hr⟩
      constructor
      · rintro ⟨r, hr⟩; cases hr
      · intro h
        exact absurd rfl ((List.nodup_append.mp h).2.2 n hn n (by simp))
    · rw [if_neg hn]
      have hv' : (vars ++ [n]).Nodup := by
        rw [List.nodup_append]
        refine ⟨hv, by simp, ?_⟩
        rintro a ha b hb rfl
        simp only [List.mem_cons, List.not_mem_nil, or_false] at hb
        exact hn (hb ▸ ha)
      have := ih _ hv'
      rw [List.append_assoc, List.singleton_append] at this
      exact this

theorem mapM_ok {α β : Type} {g : α → Outcome β} : ∀ (l : List α) (r : List β), l.mapM g = .ok r →
    List.Forall₂ (fun a b => g a = .ok b) l r := by
  intro l
  induction l with
  | nil => intro r h; rw [List.mapM_nil] at h; cases h; exact .nil
  | cons a l ih =>
    intro r h
    rw [List.mapM_cons] at h
    obtain ⟨x, h1, h⟩ := Outcome.bind_eq_ok.mp h
    obtain ⟨xs, h2, h⟩ := Outcome.bind_eq_ok.mp h
    cases h
    exact .cons h1 (ih xs h2)

theorem mapM_declared {gr : Bool} {reqs : List (List Char)} {fs : List Field}
    (h : List.Forall₂ (fun a b => construct gr a = .ok b) reqs fs) :
    fs.mapM declared = .ok (fs.map fun f => (quantities f).map nm) := by
  induction h with
  | nil => rfl
  | cons h _ ih =>
    rw [List.mapM_cons, declared_nm h, Outcome.bind_ok, ih, Outcome.bind_ok]
    rfl

theorem forall₂_mem {α β : Type} {R : α → β → Prop} {l : List α} {r : List β}
    (h : List.Forall₂ R l r) : ∀ b ∈ r, ∃ a ∈ l, R a b := by
  induction h with
  | nil => simp
  | cons h _ ih =>
    intro b hb
    rcases List.mem_cons.mp hb with rfl | hb
    · exact ⟨_, by simp, h⟩
    · obtain ⟨a, ha, hab⟩ := ih b hb
      exact ⟨a, by simp [ha], hab⟩

theorem define_eq {gr : Bool} {reqs : List (List Char)} {fs : List Field}
    (h : reqs.mapM (construct gr) = .ok fs) :
    defineFields gr reqs = (do let v ← defineAll [] ((fs.flatMap quantities).map nm); return (fs, v)) := by
  unfold defineFields
  rw [h, Outcome.bind_ok, mapM_declared (mapM_ok _ _ h), Outcome.bind_ok, List.map_flatMap,
    List.flatMap_def]

theorem nodup_names {gr : Bool} {reqs : List (List Char)} {fs : List Field}
    (h : reqs.mapM (construct gr) = .ok fs) :
    ((fs.flatMap quantities).map nm).Nodup ↔ (fs.flatMap quantities).Nodup := by
  constructor
  · exact List.Nodup.of_map _
  · intro hn
    refine hn.map_on ?_
    have hv : ∀ q ∈ fs.flatMap quantities, Valid q := by
      intro q hq
      obtain ⟨f, hf, hq⟩ := List.mem_flatMap.mp hq
      obtain ⟨a, _, ha⟩ := forall₂_mem (mapM_ok _ _ h) f hf
      exact quantities_valid ha q hq
    intro q hq r hr e
    exact nm_inj (hv q hq) (hv r hr) e

end Entity.FieldOut
