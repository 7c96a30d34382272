import Verif.Model.SpeciesInput
import Mathlib.Tactic.Common

/-!
# C69: pushers given in the input file
-/

namespace Entity.SpeciesInput

open Entity

/-- Specification: join names with commas. -/
def commaList : List (List Char) → List Char
  | [] => []
  | [t] => t
  | t :: ts => t ++ ',' :: commaList ts

/-- The four names the input file may use. -/
def names : List (List Char) :=
  ["photon".toList, "boris".toList, "vay".toList, "gca".toList]

theorem tokensFrom_word (cur t rest : List Char) (h : ',' ∉ t) :
    tokensFrom cur (t ++ rest) = tokensFrom (cur ++ t) rest := by
  induction t generalizing cur with
  | nil => simp
  | cons c t ih =>
    simp only [List.mem_cons, not_or] at h
    rw [List.cons_append, tokensFrom, if_neg (fun hc => h.1 hc.symm), ih _ h.2]
    simp

theorem tokens_commaList (ts : List (List Char)) (h : ∀ t ∈ ts, ',' ∉ t ∧ t ≠ []) :
    tokens (commaList ts) = ts := by
  induction ts with
  | nil => simp [tokens, commaList, tokensFrom]
  | cons t ts ih =>
    have ht := h t (by simp)
    cases ts with
    | nil =>
      have : tokens (t ++ []) = tokensFrom ([] ++ t) [] := tokensFrom_word [] t [] ht.1
      simp only [List.append_nil, List.nil_append] at this
      simp only [commaList]
      rw [this]; simp [tokensFrom, ht.2]
    | cons u us =>
      simp only [commaList]
      have : tokens (t ++ ',' :: commaList (u :: us)) = tokensFrom ([] ++ t) (',' :: commaList (u :: us)) :=
        tokensFrom_word [] t _ ht.1
      rw [this]
      simp only [List.nil_append, tokensFrom, if_true]
      rw [show tokensFrom [] (commaList (u :: us)) = tokens (commaList (u :: us)) from rfl,
        ih (fun x hx => h x (by simp [hx]))]

theorem pusherLoop_names (ts : List (List Char)) (f : Pusher) (h : ∀ t ∈ ts, t ∈ names) :
    pusherLoop f ts = .ok ⟨f.photon || decide ("photon".toList ∈ ts),
      f.boris || decide ("boris".toList ∈ ts), f.vay || decide ("vay".toList ∈ ts),
      f.gca || decide ("gca".toList ∈ ts)⟩ := by
  induction ts generalizing f with
  | nil => simp [pusherLoop]
  | cons t ts ih =>
    have ht := h t (by simp)
    have ih' := fun f => ih f (fun x hx => h x (by simp [hx]))
    simp only [names, List.mem_cons, List.not_mem_nil, or_false] at ht
    rcases ht with rfl | rfl | rfl | rfl <;>
      simp [pusherLoop, ih']

theorem pusherLoop_bad (ts : List (List Char)) (f : Pusher) (h : ∃ t ∈ ts, t ∉ names) :
    pusherLoop f ts = .err := by
  induction ts generalizing f with
  | nil => simp at h
  | cons t ts ih =>
    by_cases ht : t ∈ names
    · have h' : ∃ t ∈ ts, t ∉ names := by
        obtain ⟨x, hx, hn⟩ := h
        rcases List.mem_cons.mp hx with rfl | hx
        · exact absurd ht hn
        · exact ⟨x, hx, hn⟩
      simp only [names, List.mem_cons, List.not_mem_nil, or_false] at ht
      rcases ht with rfl | rfl | rfl | rfl <;> simp [pusherLoop, ih _ h']
    · simp only [names, List.mem_cons, List.not_mem_nil, or_false, not_or] at ht
      rw [pusherLoop, if_neg ht.1, if_neg ht.2.1, if_neg ht.2.2.1, if_neg ht.2.2.2]

/-- **C69**: for every non-empty list of comma-free words, the pusher string made of them is
accepted exactly if all words are pusher names and not both photon and guiding centre are asked
for; the result has exactly the named flags. -/
theorem C69_pusher_flags (ts : List (List Char)) (hw : ∀ t ∈ ts, ',' ∉ t ∧ t ≠ [])
    (hn : ts ≠ ["none".toList]) (f : Pusher) :
    getPusherFlags (commaList ts) = .ok f ↔
      (∀ t ∈ ts, t ∈ names) ∧ ¬ ("photon".toList ∈ ts ∧ "gca".toList ∈ ts) ∧
      (f.photon = true ↔ "photon".toList ∈ ts) ∧ (f.boris = true ↔ "boris".toList ∈ ts) ∧
      (f.vay = true ↔ "vay".toList ∈ ts) ∧ (f.gca = true ↔ "gca".toList ∈ ts) := by
  have htok := tokens_commaList ts hw
  have hnone : commaList ts ≠ "none".toList := by
    intro hc
    rw [hc] at htok
    exact hn (by rw [← htok]; decide)
  simp only [getPusherFlags, if_neg hnone, htok]
  by_cases hall : ∀ t ∈ ts, t ∈ names
  · rw [pusherLoop_names ts {} hall]
    simp only [Bool.false_or, Outcome.bind_ok]
    obtain ⟨a, b, c, d⟩ := f
    by_cases h1 : "photon".toList ∈ ts <;> by_cases h2 : "gca".toList ∈ ts <;>
      by_cases h3 : "boris".toList ∈ ts <;> by_cases h4 : "vay".toList ∈ ts <;>
      simp only [h1, h2, h3, h4] <;> cases a <;> cases b <;> cases c <;> cases d <;> simp_all
  · rw [pusherLoop_bad ts {} (by simpa using hall)]
    simp [hall]

example : getPusherFlags "vay,gca".toList = .ok { vay := true, gca := true } ∧
    commaList ["vay".toList, "gca".toList] = "vay,gca".toList ∧
    getPusherFlags "photon,gca".toList = .err ∧ getPusherFlags "leapfrog".toList = .err := by decide

/-- **C69** (partial): a charged species is never massless; and a massive species whose pusher
string is exactly "photon" is rejected. -/
theorem C69_species_partial (mass charge : Int) (s : List Char) (f : Pusher)
    (h : species mass charge s = .ok f) :
    (charge ≠ 0 → mass ≠ 0) ∧ (s = "photon".toList → mass = 0 ∧ charge = 0) := by
  unfold species at h
  split at h
  · cases h
  · split at h
    · cases h
    · rename_i h1 h2
      refine ⟨fun hc hm => h1 ⟨hc, hm⟩, fun hs => ?_⟩
      by_contra hcon; exact h2 ⟨hs, hcon⟩

example : species 1 (-1) "boris".toList = .ok { boris := true } ∧
    species 0 0 "photon".toList = .ok { photon := true } := by decide

/-- **C69 fails** in general: a massive charged species is accepted with the photon flag set if the
string names a second pusher. -/
theorem C69_massive_photon_counterexample :
    ∃ f, species 1 (-1) "photon,boris".toList = .ok f ∧ f.photon = true :=
  ⟨{ photon := true, boris := true }, by decide, rfl⟩

end Entity.SpeciesInput
