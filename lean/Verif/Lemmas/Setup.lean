import Verif.Spec.Setup
import Verif.Props.Enums

/-!
# Lemmas for `[setup]` and the attributes of the output
-/

namespace Entity.Setup

open Entity Entity.Outcome

variable {K : Type}

theorem toInt32_of {n : Int} (h : Int32 n) : toInt32 n = n := by
  obtain ⟨h1, h2⟩ := h
  unfold toInt32
  omega

theorem each_ok {α β : Type} {f : α → Outcome β} {g : α → β} {l : List α}
    (h : ∀ a ∈ l, f a = .ok (g a)) : each f l = .ok (l.map g) := by
  induction l with
  | nil => rfl
  | cons a l ih =>
    rw [each, h a (by simp), ih fun a ha => h a (by simp [ha])]
    rfl

theorem each_map {α β γ : Type} {f : α → Outcome β} {c : γ → α} {g : γ → β} {l : List γ}
    (h : ∀ a ∈ l, f (c a) = .ok (g a)) : each f (l.map c) = .ok (l.map g) := by
  induction l with
  | nil => rfl
  | cons a l ih =>
    rw [List.map_cons, each, h a (by simp), ih fun a ha => h a (by simp [ha])]
    rfl

/-- A loop ends normally when every entry is converted, and throws otherwise. -/
theorem each_cases {α β : Type} {f : α → Outcome β} (hf : ∀ a, f a ≠ .ub) (l : List α) :
    (∃ r, each f l = .ok r) ∧ (∀ a ∈ l, ∃ b, f a = .ok b) ∨
      each f l = .err ∧ ∃ a ∈ l, f a = .err := by
  induction l with
  | nil => exact .inl ⟨⟨[], rfl⟩, by simp⟩
  | cons a l ih =>
    rw [each]
    cases ha : f a with
    | ub => exact absurd ha (hf a)
    | err => exact .inr ⟨rfl, a, by simp, ha⟩
    | ok b =>
      rcases ih with ⟨⟨r, hr⟩, h⟩ | ⟨h1, x, hx, h2⟩
      · rw [hr]
        exact .inl ⟨⟨_, rfl⟩, fun x hx => by
          rcases List.mem_cons.1 hx with rfl | hx
          · exact ⟨b, ha⟩
          · exact h x hx⟩
      · rw [h1]
        exact .inr ⟨rfl, x, by simp [hx], h2⟩

theorem look_cons_ne {α : Type} {k k' : String} {v : α} {p : List (String × α)} (h : k ≠ k') :
    look ((k, v) :: p) k' = look p k' := by simp [look, h]

theorem look_none {α : Type} {p : List (String × α)} {k : String} (h : k ∉ p.map (·.1)) :
    look p k = none := by
  induction p with
  | nil => rfl
  | cons x p ih =>
    simp only [List.map_cons, List.mem_cons, not_or] at h
    rw [look, if_neg (fun e => h.1 e.symm), ih h.2]

theorem look_append {α : Type} (p q : List (String × α)) (k : String) :
    look (p ++ q) k = (look p k).or (look q k) := by
  induction p with
  | nil => rfl
  | cons x p ih =>
    obtain ⟨k', v⟩ := x
    rw [List.cons_append, look, look]
    split
    · rfl
    · exact ih

theorem setup_inj {a b : String} (h : "setup." ++ a = "setup." ++ b) : a = b := by
  have := congrArg String.toList h
  simp only [String.toList_append, List.append_cancel_left_eq] at this
  exact String.toList_inj.1 this

/-- What the loop over the table does to the container. -/
theorem setSetup_look {B : Build K} {tab : List (String × Toml K)} {p q : Params K}
    (h : setSetup B tab p = .ok q) (hn : (tab.map (·.1)).Nodup) :
    (∀ key val, (key, val) ∈ tab → ∃ o, setupVal B val = .ok o ∧
      look q ("setup." ++ key) = o.or (look p ("setup." ++ key))) ∧
    ∀ k, (∀ key ∈ tab.map (·.1), k ≠ "setup." ++ key) → look q k = look p k := by
  induction tab generalizing p with
  | nil =>
    cases h
    exact ⟨by simp, fun _ _ => rfl⟩
  | cons x tab ih =>
    obtain ⟨key, val⟩ := x
    rw [setSetup] at h
    obtain ⟨o, ho, h⟩ := bind_eq_ok.1 h
    simp only [List.map_cons, List.nodup_cons] at hn
    obtain ⟨i1, i2⟩ := ih h hn.2
    constructor
    · intro key' val' hm
      rcases List.mem_cons.1 hm with e | hm
      · injection e with e1 e2
        subst e1 e2
        refine ⟨o, ho, ?_⟩
        rw [i2 _ fun k hk e => hn.1 (by rw [setup_inj e]; exact hk)]
        cases o with
        | none => rfl
        | some v => simp [look]
      · obtain ⟨o', ho', e⟩ := i1 key' val' hm
        refine ⟨o', ho', e.trans ?_⟩
        congr 1
        have hne : key ≠ key' := fun e => hn.1 (e ▸ List.mem_map_of_mem (f := (·.1)) hm)
        cases o with
        | none => rfl
        | some v => exact look_cons_ne fun e => hne (setup_inj e)
    · intro k hk
      rw [i2 k fun key hkey => hk key (by simp at hkey ⊢; exact .inr hkey)]
      cases o with
      | none => rfl
      | some v => exact look_cons_ne fun e => hk key (by simp) e.symm

/-- The table is read without an error exactly when each value is. -/
theorem setSetup_ok {B : Build K} (tab : List (String × Toml K)) (p : Params K) :
    (∃ q, setSetup B tab p = .ok q) ↔ ∀ x ∈ tab, ∃ o, setupVal B x.2 = .ok o := by
  induction tab generalizing p with
  | nil => simp [setSetup]
  | cons x tab ih =>
    obtain ⟨key, val⟩ := x
    rw [setSetup]
    cases ho : setupVal B val with
    | ok o =>
      rw [bind_ok, ih]
      simp [ho]
    | err => simp [ho]
    | ub => simp [ho]

theorem asInt_ok (x : Toml K) : (∃ b, asInt x = .ok b) ↔ IsA .int x := by cases x <;> simp [asInt, IsA]
theorem asReal_ok (B : Build K) (x : Toml K) : (∃ b, asReal B x = .ok b) ↔ IsA .float x := by
  cases x <;> simp [asReal, IsA]
theorem asBool_ok (x : Toml K) : (∃ b, asBool x = .ok b) ↔ IsA .bool x := by
  cases x <;> simp [asBool, IsA]
theorem asStr_ok (x : Toml K) : (∃ b, asStr x = .ok b) ↔ IsA .str x := by cases x <;> simp [asStr, IsA]

theorem each_iff {α β : Type} {f : α → Outcome β} (l : List α) :
    (∃ r, each f l = .ok r) ↔ ∀ a ∈ l, ∃ b, f a = .ok b := by
  induction l with
  | nil => simp [each]
  | cons a l ih =>
    rw [each]
    constructor
    · rintro ⟨r, h⟩
      obtain ⟨b, hb, h⟩ := bind_eq_ok.1 h
      obtain ⟨r', hr, h⟩ := bind_eq_ok.1 h
      intro x hx
      rcases List.mem_cons.1 hx with rfl | hx
      · exact ⟨b, hb⟩
      · exact ih.1 ⟨r', hr⟩ x hx
    · intro h
      obtain ⟨b, hb⟩ := h a (by simp)
      obtain ⟨r, hr⟩ := ih.2 fun x hx => h x (by simp [hx])
      exact ⟨b :: r, by rw [hb, hr]; rfl⟩

theorem asArr_ok {f : Toml K → Outcome (Sv K)} {e : Kind} (hf : ∀ x, (∃ b, f x = .ok b) ↔ IsA e x)
    (x : Toml K) : (∃ b, asArr f x = .ok b) ↔ ∃ l, x = .arr l ∧ ∀ y ∈ l, IsA e y := by
  cases x <;> simp [asArr]
  rw [each_iff]
  simp only [hf]

/-- A value that starts an array of one kind is of no other kind. -/
theorem IsA.unique {e e' : Kind} {x : Toml K} (h : IsA e x) (h' : IsA e' x) : e = e' := by
  cases x <;> cases e <;> cases e' <;> first | rfl | exact h.elim | exact h'.elim

theorem wrap_ok {α β : Type} {x : Outcome α} {g : α → β} :
    (∃ o, (do let a ← x; return g a : Outcome β) = .ok o) ↔ ∃ r, x = .ok r := by
  cases x <;> simp

theorem setupVal_ok (B : Build K) (t : Toml K) : (∃ o, setupVal B t = .ok o) ↔ Accepted t := by
  have key : ∀ {v : Toml K} {vs} {e : Kind}, IsA e v →
      ((∀ x ∈ v :: vs, IsA e x) ↔ Accepted (.arr (v :: vs))) := by
    intro v vs e h
    constructor
    · intro h'
      exact .inl ⟨e, h'⟩
    · rintro (⟨e', h'⟩ | ⟨w, ws, rfl, -⟩)
      · rw [h.unique (h' v (by simp))]
        exact h'
      · cases e <;> exact h.elim
  have key2 : ∀ {w : Toml K} {ws vs} {e : Kind}, IsA e w →
      ((∀ x ∈ .arr (w :: ws) :: vs, ∃ l, x = .arr l ∧ ∀ y ∈ l, IsA e y) ↔
        Accepted (.arr (.arr (w :: ws) :: vs))) := by
    intro w ws vs e h
    constructor
    · intro h'
      exact .inr ⟨w, ws, rfl, .inr ⟨e, h'⟩⟩
    · rintro (⟨e', h'⟩ | ⟨w', ws', e1, h'⟩)
      · have := h' _ List.mem_cons_self
        cases e' <;> exact this.elim
      · injection e1 with e1
        injection e1 with e1 e2
        subst e1 e2
        rcases h' with rfl | ⟨e', h'⟩
        · cases e <;> exact h.elim
        · obtain ⟨l, e1, hl⟩ := h' _ List.mem_cons_self
          injection e1 with e1
          subst e1
          rw [h.unique (hl w (by simp))]
          exact h'
  match t with
  | .bool _ | .int _ | .float _ | .str _ | .other | .arr [] => simp [setupVal, Accepted]
  | .arr (.int n :: vs) =>
    rw [← key (v := .int n) (e := .int) trivial, setupVal, wrap_ok, each_iff]; simp only [asInt_ok]
  | .arr (.float n :: vs) =>
    rw [← key (v := .float n) (e := .float) trivial, setupVal, wrap_ok, each_iff]; simp only [asReal_ok]
  | .arr (.bool n :: vs) =>
    rw [← key (v := .bool n) (e := .bool) trivial, setupVal, wrap_ok, each_iff]; simp only [asBool_ok]
  | .arr (.str n :: vs) =>
    rw [← key (v := .str n) (e := .str) trivial, setupVal, wrap_ok, each_iff]; simp only [asStr_ok]
  | .arr (.other :: vs) =>
    simp only [setupVal, Accepted, List.mem_cons, forall_eq_or_imp, reduceCtorEq, exists_false, false_and,
      or_false, false_iff]
    rintro ⟨e, h, -⟩
    cases e <;> exact h
  | .arr (.arr [] :: vs) =>
    simp only [setupVal, Accepted, List.mem_cons, forall_eq_or_imp, reduceCtorEq, exists_false, false_iff]
    rintro (⟨e, h, -⟩ | ⟨w, ws, h, -⟩)
    · cases e <;> exact h
    · simp at h
  | .arr (.arr (.int n :: ws) :: vs) =>
    rw [← key2 (w := .int n) (e := .int) trivial, setupVal, wrap_ok, each_iff]; simp only [asArr_ok asInt_ok]
  | .arr (.arr (.float n :: ws) :: vs) =>
    rw [← key2 (w := .float n) (e := .float) trivial, setupVal, wrap_ok, each_iff]; simp only [asArr_ok (asReal_ok B)]
  | .arr (.arr (.bool n :: ws) :: vs) =>
    rw [← key2 (w := .bool n) (e := .bool) trivial, setupVal, wrap_ok, each_iff]; simp only [asArr_ok asBool_ok]
  | .arr (.arr (.str n :: ws) :: vs) =>
    rw [← key2 (w := .str n) (e := .str) trivial, setupVal, wrap_ok, each_iff]; simp only [asArr_ok asStr_ok]
  | .arr (.arr (.other :: ws) :: vs) =>
    simp [setupVal, Accepted]
  | .arr (.arr (.arr l :: ws) :: vs) =>
    simp only [setupVal, reduceCtorEq, exists_false, false_iff]
    rintro (⟨e, h⟩ | ⟨w, ws', h1, h⟩)
    · have := h _ List.mem_cons_self
      cases e <;> exact this
    · injection h1 with h1
      injection h1 with h1 h2
      subst h1
      rcases h with h | ⟨e, h⟩
      · cases h
      · obtain ⟨l, e1, hl⟩ := h _ List.mem_cons_self
        injection e1 with e1
        subst e1
        have := hl _ List.mem_cons_self
        cases e <;> exact this

theorem setupVal_reads {B : Build K} {t : Toml K} {q : Params K} {name : String}
    (h : ∀ v, setupVal B t = .ok (some v) → look q name = some v) : Reads B q name t := by
  match t with
  | .bool b => rw [Reads, getOne, h _ rfl]; simp
  | .int n => intro hn; rw [getOne, h _ rfl, toInt32_of hn]; simp
  | .float x => rw [Reads, getOne, h _ rfl]; simp
  | .str x => rw [Reads, getOne, h _ rfl]; simp
  | .other => trivial
  | .arr l =>
    intro hl
    have one : ∀ {α : Type} (c : α → Toml K) (g : α → Sv K) (f : Toml K → Outcome (Sv K)) (T : Ty)
        (xs : List α), l = xs.map c → (∀ x ∈ xs, f (c x) = .ok (g x)) →
        (∀ x vs, setupVal B (.arr (c x :: vs)) =
          (do return some (.vec T (← each f (c x :: vs))))) →
        getVec q name T = .ok (xs.map g) := by
      intro α c g f T xs e hx hs
      subst e
      cases xs with
      | nil => exact absurd rfl hl
      | cons x xs =>
        have := hs x (xs.map c)
        rw [← List.map_cons, each_map hx] at this
        rw [getVec, h _ this]
        simp
    have two : ∀ {α : Type} (c : α → Toml K) (g : α → Sv K) (f : Toml K → Outcome (Sv K)) (T : Ty)
        (xss : List (List α)), l = xss.map (fun xs => Toml.arr (xs.map c)) → xss.head? ≠ some [] →
        (∀ xs ∈ xss, ∀ x ∈ xs, f (c x) = .ok (g x)) →
        (∀ x xs vs, setupVal B (.arr (.arr (c x :: xs) :: vs)) =
          (do return some (.vecVec T (← each (asArr f) (.arr (c x :: xs) :: vs))))) →
        getVecVec q name T = .ok (xss.map fun xs => xs.map g) := by
      intro α c g f T xss e hne hx hs
      subst e
      match xss with
      | [] => exact absurd rfl hl
      | [] :: _ => simp at hne
      | (x :: xs) :: xss =>
        have e2 : each (asArr f) (((x :: xs) :: xss).map fun xs => Toml.arr (xs.map c)) =
            .ok (((x :: xs) :: xss).map fun xs => xs.map g) :=
          each_map fun xs hxs => by rw [asArr]; exact each_map (hx xs hxs)
        have := hs x (xs.map c) (xss.map fun xs => Toml.arr (xs.map c))
        rw [List.map_cons, List.map_cons] at e2
        rw [e2] at this
        rw [getVecVec, List.map_cons, List.map_cons, h _ this]
        simp
    refine ⟨fun ns e hn => one _ _ asInt _ ns e (fun n hn' => ?_) (fun _ _ => rfl),
      fun xs e => one _ _ (asReal B) _ xs e (fun _ _ => rfl) (fun _ _ => rfl),
      fun xs e => one _ _ asBool _ xs e (fun _ _ => rfl) (fun _ _ => rfl),
      fun xs e => one _ _ asStr _ xs e (fun _ _ => rfl) (fun _ _ => rfl),
      fun ns e h0 hn => two _ _ asInt _ ns e h0 (fun n hn' x hx => ?_) (fun _ _ _ => rfl),
      fun xs e h0 => two _ _ (asReal B) _ xs e h0 (fun _ _ _ _ => rfl) (fun _ _ _ => rfl),
      fun xs e h0 => two _ _ asBool _ xs e h0 (fun _ _ _ _ => rfl) (fun _ _ _ => rfl),
      fun xs e h0 => two _ _ asStr _ xs e h0 (fun _ _ _ _ => rfl) (fun _ _ _ => rfl)⟩
    · rw [asInt, toInt32_of (hn n hn')]
    · rw [asInt, toInt32_of (hn n hn' x hx)]

/-! ## Attributes -/

theorem convEntry_ok {t : Ty} {v : Sv K} (hr : regMany t) (hv : Fits t v) :
    ∃ w, convEntry t v = .ok w ∧ decode t w = some v := by
  cases t with
  | enum e =>
    have he : e ∈ Enums.allEnums := by
      have : e ∈ writableEnums := by simpa [regMany] using hr
      revert this
      simp only [writableEnums, Enums.allEnums, List.mem_cons, List.not_mem_nil, or_false]
      tauto
    cases v with
    | int n =>
      obtain ⟨h0, hm⟩ := hv
      obtain ⟨s, h1, h2⟩ := (Enums.C11_names_round_trip e he).1 _ hm
      refine ⟨.str s, by simp [convEntry, h1], ?_⟩
      simp [decode, h2, Int.toNat_of_nonneg h0]
    | _ => exact hv.elim
  | bool | dim | uchar => simp [regMany] at hr
  | _ => exact ⟨v, rfl, rfl⟩

theorem conv_ok {t : Ty} {v : Sv K} (hr : regOne t) (hv : Fits t v) :
    ∃ w, conv t v = .ok w ∧ decode t w.2 = some v := by
  cases t with
  | enum e =>
    have he : e ∈ Enums.allEnums := by
      have : e ∈ writableEnums := by simpa [regOne] using hr
      revert this
      simp only [writableEnums, Enums.allEnums, List.mem_cons, List.not_mem_nil, or_false]
      tauto
    cases v with
    | int n =>
      obtain ⟨h0, hm⟩ := hv
      obtain ⟨s, h1, h2⟩ := (Enums.C11_names_round_trip e he).1 _ hm
      refine ⟨(.str, .str s), by simp [conv, h1], ?_⟩
      simp [decode, h2, Int.toNat_of_nonneg h0]
    | _ => exact hv.elim
  | bool =>
    cases v with
    | bool b => cases b <;> exact ⟨_, rfl, rfl⟩
    | _ => exact hv.elim
  | uchar => simp [regOne] at hr
  | _ => exact ⟨(_, v), rfl, rfl⟩

theorem each_conv {t : Ty} (hr : regMany t) {l : List (Sv K)} (hl : ∀ v ∈ l, Fits t v) :
    ∃ l', each (convEntry t) l = .ok l' ∧ decodeAll t l' = some l := by
  induction l with
  | nil => exact ⟨[], rfl, rfl⟩
  | cons v l ih =>
    obtain ⟨w, h1, h2⟩ := convEntry_ok hr (hl v (by simp))
    obtain ⟨l', h3, h4⟩ := ih fun v hv => hl v (by simp [hv])
    exact ⟨w :: l', by rw [each, h1, h3]; rfl, by simp [decodeAll, h2, h4]⟩

theorem define_ok {io : List (String × Attr K)} {k : String} {a : Attr K} (h : k ∉ io.map (·.1)) :
    define io k a = .ok (io ++ [(k, a)]) := by
  rw [define, look_none h]

theorem look_last {α : Type} {io : List (String × α)} {k : String} {a : α} (h : k ∉ io.map (·.1)) :
    look (io ++ [(k, a)]) k = some a := by
  rw [look_append, look_none h]
  simp [look]

theorem look_some {α : Type} {io : List (String × α)} {k : String} {a : α} (h : look io k = some a)
    (ext : List (String × α)) : look (io ++ ext) k = some a := by
  rw [look_append, h]
  rfl

theorem Recorded.append {io : List (String × Attr K)} {k : String} {v : Any K} (h : Recorded io k v)
    (ext : List (String × Attr K)) : Recorded (io ++ ext) k v := by
  cases v with
  | one t v => obtain ⟨a, b, c, d⟩ := h; exact ⟨a, b, look_some c _, d⟩
  | pair t v => obtain ⟨a, b, c, d⟩ := h; exact ⟨a, b, look_some c _, d⟩
  | vec t v => obtain ⟨a, b, c, d⟩ := h; exact ⟨a, b, look_some c _, d⟩
  | vecPair t v => obtain ⟨a, b, c, d⟩ := h; exact ⟨a, b, look_some c _, d⟩
  | vecVec t v => obtain ⟨a, b, c, d⟩ := h; exact ⟨a, b, look_some c _, d⟩
  | dict t l => intro p hp; obtain ⟨a, b, c, d⟩ := h p hp; exact ⟨a, b, look_some c _, d⟩
  | other => exact h

theorem twoByTwo_flat {α : Type} (l : List (α × α)) :
    twoByTwo (l.flatMap fun p => [p.1, p.2]) = l := by
  induction l with
  | nil => rfl
  | cons p l ih => simp [twoByTwo, ih]

theorem writeDict_ok {t : Ty} (ht : regDict t) {k : String} {l : List (String × Sv K)}
    {io : List (String × Attr K)}
    (hn : (io.map (·.1) ++ l.map fun p => k ++ "_" ++ p.1).Nodup) :
    ∃ ext, writeDict io k t l = .ok (io ++ ext) ∧ ext.map (·.1) = (l.map fun p => k ++ "_" ++ p.1) ∧
      ∀ p ∈ l, look (io ++ ext) (k ++ "_" ++ p.1) = some (.one t p.2) := by
  induction l generalizing io with
  | nil => exact ⟨[], by simp [writeDict]⟩
  | cons p l ih =>
    obtain ⟨key, v⟩ := p
    have hk : (k ++ "_" ++ key) ∉ io.map (·.1) := by
      intro hm
      rw [List.nodup_append] at hn
      exact hn.2.2 _ hm _ (by simp) rfl
    obtain ⟨ext, h1, h2, h3⟩ := ih (io := io ++ [(k ++ "_" ++ key, .one t v)]) (by
      simpa [List.append_assoc] using hn)
    refine ⟨(k ++ "_" ++ key, .one t v) :: ext, ?_, by simp [h2], ?_⟩
    · rw [writeDict, define_ok hk]
      simpa using h1
    · intro p hp
      rcases List.mem_cons.1 hp with rfl | hp
      · have := look_some (look_last (a := Attr.one t v) hk) ext
        simpa using this
      · simpa using h3 p hp

theorem mem_writable (e : Enums.EnumTable) : e ∈ writableEnums ↔ KnownEnum e := by
  simp [writableEnums, KnownEnum]

theorem regOne_iff (t : Ty) : regOne t = true ↔ t ≠ .uchar ∧ ∀ e, t = .enum e → KnownEnum e := by
  cases t <;> simp [regOne, mem_writable]

theorem regMany_iff (t : Ty) : regMany t = true ↔
    t ≠ .uchar ∧ t ≠ .bool ∧ t ≠ .dim ∧ ∀ e, t = .enum e → KnownEnum e := by
  cases t <;> simp [regMany, mem_writable]

theorem regDict_iff (t : Ty) : regDict t = true ↔
    t ≠ .uchar ∧ t ≠ .bool ∧ t ≠ .dim ∧ ∀ e, t ≠ .enum e := by
  cases t <;> simp [regDict]

/-- One parameter. -/
theorem writeAny_ok {io : List (String × Attr K)} {k : String} {v : Any K} (ht : Typed v)
    (hn : (io.map (·.1) ++ names k v).Nodup) :
    ∃ ext, writeAny io k v = .ok (io ++ ext) ∧ (ext.map (·.1)).Sublist (names k v) ∧
      (Recordable v → Recorded (io ++ ext) k v) ∧ (¬ Recordable v → ext = []) := by
  have hnil : ∀ {P : Prop}, ¬ P → ∃ ext, (Outcome.ok io : Outcome (List (String × Attr K))) =
      .ok (io ++ ext) ∧ (ext.map (·.1)).Sublist (names k v) ∧
      (P → Recorded (io ++ ext) k v) ∧ (¬ P → ext = []) := fun h =>
    ⟨[], by simp, by simp, fun h' => absurd h' h, fun _ => rfl⟩
  have arr : ∀ {t : Ty} {l : List (Sv K)}, names k v = [k] → regMany t → (∀ x ∈ l, Fits t x) →
      ∃ l', decodeAll t l' = some l ∧
      (attempt io do
        let l ← each (convEntry t) l
        define io k (.arr (convTy t) l)) = .ok (io ++ [(k, .arr (convTy t) l')]) ∧
      look (io ++ [(k, .arr (convTy t) l')]) k = some (.arr (convTy t) l') := by
    intro t l hk hr hl
    obtain ⟨l', h1, h2⟩ := each_conv hr hl
    have hk' : k ∉ io.map (·.1) := by
      intro hm
      rw [hk, List.nodup_append] at hn
      exact hn.2.2 _ hm _ (by simp) rfl
    exact ⟨l', h2, by rw [h1, bind_ok, define_ok hk']; rfl, look_last hk'⟩
  cases v with
  | one t x =>
    rw [writeAny]
    simp only [Recordable, ← regOne_iff]
    by_cases hr : regOne t = true
    · rw [if_pos hr]
      obtain ⟨⟨t', w⟩, h1, h2⟩ := conv_ok hr ht
      have hk' : k ∉ io.map (·.1) := by
        intro hm
        rw [List.nodup_append] at hn
        exact hn.2.2 _ hm _ (by simp [names]) rfl
      refine ⟨[(k, .one t' w)], ?_, by simp [names], fun _ => ⟨t', w, look_last hk', h2⟩,
        fun h => absurd hr h⟩
      rw [h1, bind_ok]
      show attempt io (define io k _) = _
      rw [define_ok hk']
      rfl
    · rw [if_neg hr]; exact hnil hr
  | pair t a b =>
    rw [writeAny]
    simp only [Recordable, ← regMany_iff]
    by_cases hr : regMany t = true
    · rw [if_pos hr]
      obtain ⟨l', h1, h2, h3⟩ := arr (l := [a, b]) rfl hr (by simpa [Typed] using ht)
      exact ⟨_, h2, by simp [names], fun _ => ⟨_, l', h3, h1⟩, fun h => absurd hr h⟩
    · rw [if_neg hr]; exact hnil hr
  | vec t l =>
    rw [writeAny]
    simp only [Recordable, ← regMany_iff]
    by_cases hr : regMany t = true
    · rw [if_pos hr]
      obtain ⟨l', h1, h2, h3⟩ := arr (l := l) rfl hr ht
      exact ⟨_, h2, by simp [names], fun _ => ⟨_, l', h3, h1⟩, fun h => absurd hr h⟩
    · rw [if_neg hr]; exact hnil hr
  | vecPair t l =>
    rw [writeAny]
    simp only [Recordable, ← regMany_iff]
    by_cases hr : regMany t = true
    · rw [if_pos hr]
      obtain ⟨l', h1, h2, h3⟩ := arr (l := l.flatMap fun p => [p.1, p.2]) rfl hr (by
        intro x hx
        obtain ⟨p, hp, hx⟩ := List.mem_flatMap.1 hx
        obtain ⟨q1, q2⟩ := ht p hp
        simp only [List.mem_cons, List.not_mem_nil, or_false] at hx
        rcases hx with rfl | rfl
        · exact q1
        · exact q2)
      exact ⟨_, h2, by simp [names], fun _ => ⟨_, l', h3, by rw [h1]; simp [twoByTwo_flat]⟩,
        fun h => absurd hr h⟩
    · rw [if_neg hr]; exact hnil hr
  | vecVec t l =>
    rw [writeAny]
    simp only [Recordable, ← regMany_iff]
    by_cases hr : regMany t = true
    · rw [if_pos hr]
      obtain ⟨l', h1, h2, h3⟩ := arr (l := l.flatten) rfl hr (by
        intro x hx
        obtain ⟨r, hr, hx⟩ := List.mem_flatten.1 hx
        exact ht r hr x hx)
      exact ⟨_, h2, by simp [names], fun _ => ⟨_, l', h3, h1⟩, fun h => absurd hr h⟩
    · rw [if_neg hr]; exact hnil hr
  | dict t l =>
    rw [writeAny]
    simp only [Recordable, ← regDict_iff]
    by_cases hr : regDict t = true
    · rw [if_pos hr]
      obtain ⟨ext, h1, h2, h3⟩ := writeDict_ok hr hn
      refine ⟨ext, by rw [h1]; rfl, by rw [h2]; exact List.Sublist.refl _, fun _ p hp => ⟨t, p.2, h3 p hp, ?_⟩,
        fun h => absurd hr h⟩
      cases t <;> first | rfl | simp [regDict] at hr
    · rw [if_neg hr]; exact hnil hr
  | other => rw [writeAny]; exact hnil id

/-- All parameters. -/
theorem writeParams_ok {p : Params K} {io : List (String × Attr K)} (ht : ∀ x ∈ p, Typed x.2)
    (hn : (io.map (·.1) ++ p.flatMap fun x => names x.1 x.2).Nodup) :
    ∃ ext, writeParams io p = .ok (io ++ ext) ∧
      (ext.map (·.1)).Sublist (p.flatMap fun x => names x.1 x.2) ∧
      (∀ x ∈ p, x.1 ≠ "particles.species" → Recordable x.2 → Recorded (io ++ ext) x.1 x.2) ∧
      (∀ n ∈ ext.map (·.1), ∃ x ∈ p, n ∈ names x.1 x.2 ∧ x.1 ≠ "particles.species" ∧
        Recordable x.2) := by
  induction p generalizing io with
  | nil => exact ⟨[], by simp [writeParams]⟩
  | cons x p ih =>
    obtain ⟨k, v⟩ := x
    rw [writeParams]
    have hn' : (io.map (·.1) ++ p.flatMap fun x => names x.1 x.2).Nodup := by
      refine hn.sublist ?_
      rw [List.flatMap_cons]
      exact List.Sublist.append (List.Sublist.refl _) (List.sublist_append_right _ _)
    by_cases hk : k = "particles.species"
    · rw [if_pos hk]
      obtain ⟨ext, h1, h2, h3, h4⟩ := ih (fun x hx => ht x (by simp [hx])) hn'
      refine ⟨ext, h1, ?_, fun x hx hne => ?_, fun n hn => ?_⟩
      · rw [List.flatMap_cons]
        exact h2.trans (List.sublist_append_right _ _)
      · rcases List.mem_cons.1 hx with rfl | hx
        · exact absurd hk hne
        · exact h3 x hx hne
      · obtain ⟨x, hx, h⟩ := h4 n hn
        exact ⟨x, by simp [hx], h⟩
    · rw [if_neg hk]
      obtain ⟨e1, a1, a2, a3, a4⟩ := writeAny_ok (io := io) (k := k) (ht (k, v) (by simp)) (by
        refine hn.sublist ?_
        rw [List.flatMap_cons]
        exact List.Sublist.append (List.Sublist.refl _) (List.sublist_append_left _ _))
      obtain ⟨e2, b1, b2, b3, b4⟩ := ih (io := io ++ e1) (fun x hx => ht x (by simp [hx])) (by
        refine hn.sublist ?_
        rw [List.flatMap_cons, List.map_append, List.append_assoc]
        exact List.Sublist.append (List.Sublist.refl _) (List.Sublist.append a2 (List.Sublist.refl _)))
      refine ⟨e1 ++ e2, ?_, ?_, fun x hx hne hr => ?_, fun n hn => ?_⟩
      · rw [a1, bind_ok, b1, List.append_assoc]
      · rw [List.flatMap_cons, List.map_append]
        exact List.Sublist.append a2 b2
      · rw [← List.append_assoc]
        rcases List.mem_cons.1 hx with rfl | hx
        · exact (a3 hr).append e2
        · exact b3 x hx hne hr
      · rw [List.map_append, List.mem_append] at hn
        rcases hn with hn | hn
        · refine ⟨(k, v), by simp, a2.subset hn, hk, ?_⟩
          by_contra hr
          rw [a4 hr] at hn
          simp at hn
        · obtain ⟨x, hx, h⟩ := b4 n hn
          exact ⟨x, by simp [hx], h⟩

theorem each_fits {t : Ty} {f : Toml K → Outcome (Sv K)} (hf : ∀ x v, f x = .ok v → Fits t v)
    {l : List (Toml K)} {r : List (Sv K)} (h : each f l = .ok r) : ∀ v ∈ r, Fits t v := by
  induction l generalizing r with
  | nil => cases h; simp
  | cons x l ih =>
    rw [each] at h
    obtain ⟨b, hb, h⟩ := bind_eq_ok.1 h
    obtain ⟨r', hr, h⟩ := bind_eq_ok.1 h
    cases h
    intro v hv
    rcases List.mem_cons.1 hv with rfl | hv
    · exact hf _ _ hb
    · exact ih hr v hv

theorem each_fits2 {t : Ty} {f : Toml K → Outcome (Sv K)} (hf : ∀ x v, f x = .ok v → Fits t v)
    {l : List (Toml K)} {r : List (List (Sv K))} (h : each (asArr f) l = .ok r) :
    ∀ s ∈ r, ∀ v ∈ s, Fits t v := by
  induction l generalizing r with
  | nil => cases h; simp
  | cons x l ih =>
    rw [each] at h
    obtain ⟨b, hb, h⟩ := bind_eq_ok.1 h
    obtain ⟨r', hr, h⟩ := bind_eq_ok.1 h
    cases h
    intro s hs
    rcases List.mem_cons.1 hs with rfl | hs
    · cases x <;> simp only [asArr, reduceCtorEq] at hb
      exact each_fits hf hb
    · exact ih hr s hs

theorem asInt_fits (x : Toml K) (v) (h : asInt x = .ok v) : Fits .int v := by
  cases x <;> simp only [asInt, reduceCtorEq] at h
  cases h; trivial
theorem asBool_fits (x : Toml K) (v) (h : asBool x = .ok v) : Fits .bool v := by
  cases x <;> simp only [asBool, reduceCtorEq] at h
  cases h; trivial
theorem asStr_fits (x : Toml K) (v) (h : asStr x = .ok v) : Fits .str v := by
  cases x <;> simp only [asStr, reduceCtorEq] at h
  cases h; trivial
theorem asReal_fits {B : Build K} (hB : B.realT = .float ∨ B.realT = .double) (x : Toml K) (v)
    (h : asReal B x = .ok v) : Fits B.realT v := by
  cases x <;> simp only [asReal, reduceCtorEq] at h
  cases h
  rcases hB with e | e <;> rw [e] <;> trivial

theorem setupVal_typed {B : Build K} (hB : B.realT = .float ∨ B.realT = .double) {t : Toml K} {v : Any K}
    (h : setupVal B t = .ok (some v)) : Typed v := by
  match t with
  | .bool _ | .int _ | .str _ => cases h; trivial
  | .float _ =>
    cases h
    rcases hB with e | e <;> simp [Typed, Fits, e]
  | .other | .arr [] => cases h
  | .arr (.int n :: vs) =>
    obtain ⟨r, hr, h⟩ := bind_eq_ok.1 h; cases h; exact each_fits asInt_fits hr
  | .arr (.float n :: vs) =>
    obtain ⟨r, hr, h⟩ := bind_eq_ok.1 h; cases h; exact each_fits (asReal_fits hB) hr
  | .arr (.bool n :: vs) =>
    obtain ⟨r, hr, h⟩ := bind_eq_ok.1 h; cases h; exact each_fits asBool_fits hr
  | .arr (.str n :: vs) =>
    obtain ⟨r, hr, h⟩ := bind_eq_ok.1 h; cases h; exact each_fits asStr_fits hr
  | .arr (.other :: vs) => cases h
  | .arr (.arr [] :: vs) => cases h
  | .arr (.arr (.int n :: ws) :: vs) =>
    obtain ⟨r, hr, h⟩ := bind_eq_ok.1 h; cases h; exact each_fits2 asInt_fits hr
  | .arr (.arr (.float n :: ws) :: vs) =>
    obtain ⟨r, hr, h⟩ := bind_eq_ok.1 h; cases h; exact each_fits2 (asReal_fits hB) hr
  | .arr (.arr (.bool n :: ws) :: vs) =>
    obtain ⟨r, hr, h⟩ := bind_eq_ok.1 h; cases h; exact each_fits2 asBool_fits hr
  | .arr (.arr (.str n :: ws) :: vs) =>
    obtain ⟨r, hr, h⟩ := bind_eq_ok.1 h; cases h; exact each_fits2 asStr_fits hr
  | .arr (.arr (.other :: ws) :: vs) => cases h
  | .arr (.arr (.arr l :: ws) :: vs) => cases h

theorem setSetup_typed {B : Build K} (hB : B.realT = .float ∨ B.realT = .double)
    {tab : List (String × Toml K)} {p q : Params K} (h : setSetup B tab p = .ok q)
    (hp : ∀ x ∈ p, Typed x.2) : ∀ x ∈ q, Typed x.2 := by
  induction tab generalizing p with
  | nil => cases h; exact hp
  | cons x tab ih =>
    obtain ⟨key, val⟩ := x
    rw [setSetup] at h
    obtain ⟨o, ho, h⟩ := bind_eq_ok.1 h
    refine ih h ?_
    cases o with
    | none => exact hp
    | some v =>
      intro x hx
      rcases List.mem_cons.1 hx with rfl | hx
      · exact setupVal_typed hB ho
      · exact hp x hx

theorem mem_of_look {α : Type} {p : List (String × α)} {k : String} {v : α} (h : look p k = some v) :
    (k, v) ∈ p := by
  induction p with
  | nil => simp [look] at h
  | cons x p ih =>
    obtain ⟨k', v'⟩ := x
    rw [look] at h
    split at h
    · next e => subst e; cases h; simp
    · simp [ih h]

theorem setup_ne_species (key : String) : "setup." ++ key ≠ "particles.species" := by
  intro h
  have := congrArg (fun s => s.toList.head?) h
  simp [String.toList_append] at this

theorem each_ne_ub {α β : Type} {f : α → Outcome β} (hf : ∀ a, f a ≠ .ub) (l : List α) :
    each f l ≠ .ub := by
  rcases each_cases hf l with ⟨⟨r, h⟩, -⟩ | ⟨h, -⟩ <;> rw [h] <;> simp

theorem wrap_ne_ub {α β : Type} {x : Outcome α} {g : α → β} (h : x ≠ .ub) :
    (do let a ← x; return g a : Outcome β) ≠ .ub := by
  cases x <;> simp at h ⊢

theorem asArr_ne_ub {f : Toml K → Outcome (Sv K)} (hf : ∀ x, f x ≠ .ub) (x : Toml K) :
    asArr f x ≠ .ub := by
  cases x <;> simp [asArr]
  exact each_ne_ub hf _

theorem asInt_ne_ub (x : Toml K) : asInt x ≠ .ub := by cases x <;> simp [asInt]
theorem asReal_ne_ub (B : Build K) (x : Toml K) : asReal B x ≠ .ub := by cases x <;> simp [asReal]
theorem asBool_ne_ub (x : Toml K) : asBool x ≠ .ub := by cases x <;> simp [asBool]
theorem asStr_ne_ub (x : Toml K) : asStr x ≠ .ub := by cases x <;> simp [asStr]

theorem setupVal_ne_ub (B : Build K) (t : Toml K) : setupVal B t ≠ .ub := by
  match t with
  | .bool _ | .int _ | .float _ | .str _ | .other | .arr [] | .arr (.other :: _) | .arr (.arr [] :: _)
  | .arr (.arr (.other :: _) :: _) | .arr (.arr (.arr _ :: _) :: _) => simp [setupVal]
  | .arr (.int n :: vs) => exact wrap_ne_ub (each_ne_ub asInt_ne_ub _)
  | .arr (.float n :: vs) => exact wrap_ne_ub (each_ne_ub (asReal_ne_ub B) _)
  | .arr (.bool n :: vs) => exact wrap_ne_ub (each_ne_ub asBool_ne_ub _)
  | .arr (.str n :: vs) => exact wrap_ne_ub (each_ne_ub asStr_ne_ub _)
  | .arr (.arr (.int n :: ws) :: vs) => exact wrap_ne_ub (each_ne_ub (asArr_ne_ub asInt_ne_ub) _)
  | .arr (.arr (.float n :: ws) :: vs) =>
    exact wrap_ne_ub (each_ne_ub (asArr_ne_ub (asReal_ne_ub B)) _)
  | .arr (.arr (.bool n :: ws) :: vs) => exact wrap_ne_ub (each_ne_ub (asArr_ne_ub asBool_ne_ub) _)
  | .arr (.arr (.str n :: ws) :: vs) => exact wrap_ne_ub (each_ne_ub (asArr_ne_ub asStr_ne_ub) _)

theorem setSetup_ne_ub (B : Build K) (tab : List (String × Toml K)) (p : Params K) :
    setSetup B tab p ≠ .ub := by
  induction tab generalizing p with
  | nil => simp [setSetup]
  | cons x tab ih =>
    obtain ⟨key, val⟩ := x
    rw [setSetup]
    cases h : setupVal B val with
    | ok o => exact ih _
    | err => simp
    | ub => exact absurd h (setupVal_ne_ub B val)

theorem attempt_ne_err {α : Type} (a : α) (x : Outcome α) : attempt a x ≠ .err := by
  cases x <;> simp [attempt]

theorem writeParams_ne_err (io : List (String × Attr K)) (p : Params K) : writeParams io p ≠ .err := by
  induction p generalizing io with
  | nil => simp [writeParams]
  | cons x p ih =>
    obtain ⟨k, v⟩ := x
    rw [writeParams]
    split
    · exact ih io
    · cases h : writeAny io k v with
      | ok io' => exact ih io'
      | ub => simp
      | err => cases v <;> (rw [writeAny] at h; exact absurd h (attempt_ne_err _ _))

end Entity.Setup
