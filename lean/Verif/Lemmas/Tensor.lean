import Verif.Model.Decomp
import Mathlib.Data.List.Forall2
import Mathlib.Data.List.Nodup
import Mathlib.Data.List.Basic
import Mathlib.Algebra.BigOperators.Group.List.Basic

/-! Helper lemmas about `tensorProduct`, the per-axis offsets and `createDomains`. -/

namespace Entity.Decomp

/-- One axis entry: size, cell offset, domain offset. -/
structure AxisRec where
  n : Nat
  off : Nat
  dom : Nat
  deriving DecidableEq

def axisRecs : Nat → Nat → List Nat → List AxisRec
  | _, _, [] => []
  | o, k, x :: xs => ⟨x, o, k⟩ :: axisRecs (o + x) (k + 1) xs

theorem axisRecs_n (o k : Nat) (d : List Nat) : (axisRecs o k d).map (·.n) = d := by
  induction d generalizing o k with
  | nil => rfl
  | cons x xs ih => simp [axisRecs, ih]

theorem axisRecs_length (o k : Nat) (d : List Nat) : (axisRecs o k d).length = d.length := by
  induction d generalizing o k with
  | nil => rfl
  | cons x xs ih => simp [axisRecs, ih]

theorem offsets_aux (o k : Nat) (x : Nat) (xs : List Nat) (acc : List Nat) :
    (x :: xs).dropLast.foldl (fun acc di => acc ++ [acc.getLastD 0 + di]) (acc ++ [o]) =
      acc ++ (axisRecs o k (x :: xs)).map (·.off) := by
  induction xs generalizing o k x acc with
  | nil => simp [axisRecs]
  | cons y ys ih =>
    have h := ih (o + x) (k + 1) y (acc ++ [o])
    simp only [List.dropLast_cons_cons, List.foldl_cons, axisRecs, List.map_cons] at h ⊢
    simpa using h

theorem offsetsNcells_eq (d : List Nat) (hd : d ≠ []) :
    offsetsNcells d = (axisRecs 0 0 d).map (·.off) := by
  obtain ⟨x, xs, rfl⟩ := List.exists_cons_of_ne_nil hd
  simpa [offsetsNcells] using offsets_aux 0 0 x xs []

theorem offsetsD_aux (o k : Nat) (x : Nat) (xs : List Nat) (acc : List Nat) :
    (x :: xs).dropLast.foldl (fun acc _ => acc ++ [acc.getLastD 0 + 1]) (acc ++ [k]) =
      acc ++ (axisRecs o k (x :: xs)).map (·.dom) := by
  induction xs generalizing o k x acc with
  | nil => simp [axisRecs]
  | cons y ys ih =>
    have h := ih (o + x) (k + 1) y (acc ++ [k])
    simp only [List.dropLast_cons_cons, List.foldl_cons, axisRecs, List.map_cons] at h ⊢
    simpa using h

theorem offsetsNdoms_eq (d : List Nat) (hd : d ≠ []) :
    offsetsNdoms d = (axisRecs 0 0 d).map (·.dom) := by
  obtain ⟨x, xs, rfl⟩ := List.exists_cons_of_ne_nil hd
  simpa [offsetsNdoms] using offsetsD_aux 0 0 x xs []

theorem axisRecs_bounds {o k : Nat} {d : List Nat} {r : AxisRec} (h : r ∈ axisRecs o k d) :
    o ≤ r.off ∧ r.off + r.n ≤ o + d.sum ∧ k ≤ r.dom ∧ r.dom < k + d.length := by
  induction d generalizing o k with
  | nil => simp [axisRecs] at h
  | cons x xs ih =>
    simp only [axisRecs, List.mem_cons] at h
    rcases h with rfl | h
    · simp
    · have := ih h
      simp only [List.sum_cons, List.length_cons]
      omega

theorem axisRecs_disjoint {o k : Nat} {d : List Nat} {r s : AxisRec} (hr : r ∈ axisRecs o k d)
    (hs : s ∈ axisRecs o k d) {c : Nat} (h1 : r.off ≤ c) (h2 : c < r.off + r.n)
    (h3 : s.off ≤ c) (h4 : c < s.off + s.n) : r = s := by
  induction d generalizing o k with
  | nil => simp [axisRecs] at hr
  | cons x xs ih =>
    simp only [axisRecs, List.mem_cons] at hr hs
    rcases hr with rfl | hr <;> rcases hs with rfl | hs
    · rfl
    · have := axisRecs_bounds hs; simp at h1 h2; omega
    · have := axisRecs_bounds hr; simp at h3 h4; omega
    · exact ih hr hs

theorem axisRecs_cover {o k : Nat} {d : List Nat} {c : Nat} (h1 : o ≤ c) (h2 : c < o + d.sum) :
    ∃ r ∈ axisRecs o k d, r.off ≤ c ∧ c < r.off + r.n := by
  induction d generalizing o k with
  | nil => simp at h2; omega
  | cons x xs ih =>
    simp only [axisRecs, List.mem_cons]
    by_cases h : c < o + x
    · exact ⟨_, Or.inl rfl, h1, h⟩
    · simp only [List.sum_cons] at h2
      obtain ⟨r, hr, h⟩ := ih (o := o + x) (k := k + 1) (by omega) (by omega)
      exact ⟨r, Or.inr hr, h⟩

theorem axisRecs_dom_inj {o k : Nat} {d : List Nat} {r s : AxisRec} (hr : r ∈ axisRecs o k d)
    (hs : s ∈ axisRecs o k d) (h : r.dom = s.dom) : r = s := by
  induction d generalizing o k with
  | nil => simp [axisRecs] at hr
  | cons x xs ih =>
    simp only [axisRecs, List.mem_cons] at hr hs
    rcases hr with rfl | hr <;> rcases hs with rfl | hs
    · rfl
    · have := axisRecs_bounds hs; simp at h; omega
    · have := axisRecs_bounds hr; simp at h; omega
    · exact ih hr hs

theorem axisRecs_dom_ex {o k : Nat} {d : List Nat} {p : Nat} (h1 : k ≤ p) (h2 : p < k + d.length) :
    ∃ r ∈ axisRecs o k d, r.dom = p := by
  induction d generalizing o k with
  | nil => simp at h2; omega
  | cons x xs ih =>
    simp only [axisRecs, List.mem_cons]
    by_cases h : p = k
    · exact ⟨_, Or.inl rfl, h.symm⟩
    · simp only [List.length_cons] at h2
      obtain ⟨r, hr, h⟩ := ih (o := o + x) (k := k + 1) (by omega) (by omega)
      exact ⟨r, Or.inr hr, h⟩

theorem axisRecs_nodup (o k : Nat) (d : List Nat) : (axisRecs o k d).Nodup := by
  induction d generalizing o k with
  | nil => simp [axisRecs]
  | cons x xs ih =>
    simp only [axisRecs, List.nodup_cons]
    refine ⟨fun h => ?_, ih _ _⟩
    have := axisRecs_bounds h
    simp only at this; omega

/-! ### tensor products -/

section tensor
variable {α β : Type*}

/-- one step of the fold -/
abbrev tpStep (result : List (List α)) (sublist : List α) : List (List α) :=
  sublist.flatMap (fun e => result.map (fun r => r ++ [e]))

theorem tp_map_aux (f : α → β) (ls : List (List α)) (init : List (List α)) :
    (ls.map (List.map f)).foldl tpStep (init.map (List.map f)) =
      (ls.foldl tpStep init).map (List.map f) := by
  induction ls generalizing init with
  | nil => rfl
  | cons l ls ih =>
    simp only [List.map_cons, List.foldl_cons]
    rw [← ih]
    congr 1
    simp [tpStep, List.flatMap_map, List.map_flatMap, Function.comp_def]

theorem tp_map (f : α → β) (ls : List (List α)) :
    tensorProduct (ls.map (List.map f)) = (tensorProduct ls).map (List.map f) :=
  tp_map_aux f ls [[]]

theorem mem_tp_aux (ls : List (List α)) (init : List (List α)) (r : List α) :
    r ∈ ls.foldl tpStep init ↔ ∃ r0 ∈ init, ∃ t, List.Forall₂ (· ∈ ·) t ls ∧ r = r0 ++ t := by
  induction ls generalizing init with
  | nil => simp
  | cons l ls ih =>
    simp only [List.foldl_cons, ih, tpStep, List.mem_flatMap, List.mem_map]
    constructor
    · rintro ⟨_, ⟨e, he, r0, h0, rfl⟩, t, ht, rfl⟩
      exact ⟨r0, h0, e :: t, List.Forall₂.cons he ht, by simp⟩
    · rintro ⟨r0, h0, t, ht, rfl⟩
      cases ht with
      | cons he ht => exact ⟨_, ⟨_, he, r0, h0, rfl⟩, _, ht, by simp⟩

theorem mem_tp (ls : List (List α)) (r : List α) :
    r ∈ tensorProduct ls ↔ List.Forall₂ (· ∈ ·) r ls := by
  have := mem_tp_aux ls [[]] r
  rw [tensorProduct]; simpa using this

theorem tp_nodup_aux (ls : List (List α)) (hls : ∀ l ∈ ls, l.Nodup) (init : List (List α))
    (h0 : init.Nodup) : (ls.foldl tpStep init).Nodup := by
  induction ls generalizing init with
  | nil => simpa
  | cons l ls ih =>
    simp only [List.foldl_cons]
    apply ih (fun x hx => hls x (by simp [hx]))
    rw [List.nodup_flatMap]
    constructor
    · intro e _
      apply h0.map
      intro a b h; exact List.append_cancel_right h
    · have := hls l (by simp)
      refine List.Pairwise.imp ?_ this
      intro a b hab
      simp only [Function.onFun, List.disjoint_left, List.mem_map, not_exists, not_and]
      rintro _ ⟨x, _, rfl⟩ y _ hxy
      have := List.append_inj_right' hxy rfl
      simp at this; exact hab this.symm

theorem tp_nodup (ls : List (List α)) (hls : ∀ l ∈ ls, l.Nodup) : (tensorProduct ls).Nodup :=
  tp_nodup_aux ls hls [[]] (by simp)

theorem tp_length_aux (ls : List (List α)) (init : List (List α)) :
    (ls.foldl tpStep init).length = init.length * (ls.map List.length).prod := by
  induction ls generalizing init with
  | nil => simp
  | cons l ls ih =>
    simp only [List.foldl_cons, List.map_cons, List.prod_cons, ih]
    have : (tpStep init l).length = l.length * init.length := by
      induction l with
      | nil => simp [tpStep]
      | cons a l ihl => simp [tpStep, Nat.add_mul, Nat.add_comm]
    rw [this, Nat.mul_comm l.length, Nat.mul_assoc]

theorem tp_length (ls : List (List α)) :
    (tensorProduct ls).length = (ls.map List.length).prod := by
  have := tp_length_aux ls [[]]
  rw [tensorProduct]; simpa using this

end tensor

theorem mapM_some {α β : Type} {f : α → Option β} {g : α → β} {l : List α}
    (h : ∀ a ∈ l, f a = some (g a)) : l.mapM f = some (l.map g) := by
  induction l with
  | nil => rfl
  | cons x xs ih =>
    simp [List.mapM_cons, h x (by simp), ih (fun a ha => h a (by simp [ha]))]

def mkSub (i : Nat) (r : List AxisRec) : Subdomain :=
  ⟨i, r.map (·.dom), r.map (·.off), r.map (·.n)⟩

/-- The table of axis records in subdomain order. -/
def recTable (dN : List (List Nat)) : List (List AxisRec) := tensorProduct (dN.map (axisRecs 0 0))

theorem recTable_length (dN : List (List Nat)) :
    (recTable dN).length = (dN.map List.length).prod := by
  rw [recTable, tp_length]
  simp [axisRecs_length, Function.comp_def]

theorem recTable_nodup (dN : List (List Nat)) : (recTable dN).Nodup := by
  apply tp_nodup
  intro l hl
  simp only [List.mem_map] at hl
  obtain ⟨d, _, rfl⟩ := hl
  exact axisRecs_nodup _ _ _

theorem createDomains_eq (dN : List (List Nat)) (hne : ∀ d ∈ dN, d ≠ []) :
    createDomains (dN.map List.length).prod dN = some ((recTable dN).mapIdx mkSub) := by
  have h1 : tensorProduct dN = (recTable dN).map (List.map (·.n)) := by
    rw [recTable, ← tp_map]
    congr 1
    simp [axisRecs_n, Function.comp_def]
  have h2 : tensorProduct (dN.map offsetsNcells) = (recTable dN).map (List.map (·.off)) := by
    rw [recTable, ← tp_map]
    congr 1
    simp only [List.map_map]
    apply List.map_congr_left
    intro d hd
    simp [offsetsNcells_eq d (hne d hd)]
  have h3 : tensorProduct (dN.map offsetsNdoms) = (recTable dN).map (List.map (·.dom)) := by
    rw [recTable, ← tp_map]
    congr 1
    simp only [List.map_map]
    apply List.map_congr_left
    intro d hd
    simp [offsetsNdoms_eq d (hne d hd)]
  rw [createDomains]
  simp only [h1, h2, h3]
  rw [mapM_some (g := fun i => mkSub i ((recTable dN)[i]?.getD []))]
  · congr 1
    apply List.ext_getElem
    · simp [recTable_length]
    · intro i hi hi'
      simp at hi'
      simp [List.getElem?_eq_getElem hi']
  · intro i hi
    have hi' : i < (recTable dN).length := by
      rw [recTable_length]; simpa using hi
    simp [List.getElem?_eq_getElem hi', mkSub]

end Entity.Decomp
