import Verif.Lemmas.DiagTable
import Mathlib.Data.Nat.Digits.Defs
import Mathlib.Tactic.IntervalCases

/-!
# C151: tables printed while the code runs

`Spec.Fits`, `Spec.Laid`, `Spec.render` are in Verif/Spec/Diag.lean.
-/

namespace Entity.Diag
open Spec

/-- **C151 (cells at their anchors).**  Texts of any characters of UTF-8, anchors and texts shorter
than 2⁶¹, strings of at most `maxSize` bytes.  If the cells do not overlap, `alignedTable`
returns a row in which every text lies exactly at its anchor, the gaps are filled with the
filler, and every gap and every text has its colour. -/
theorem C151_table (maxSize : Nat) (black reset : List UInt8) (cells : List Cell)
    (hsmall : ∀ c ∈ cells, c.anchor.natAbs ≤ maxSize ∧ c.anchor.natAbs < 2 ^ 61 ∧
      c.text.length < 2 ^ 61)
    (hfits : Fits 0 cells) :
    ∃ gaps, Laid 0 cells gaps ∧
      alignedTable maxSize (cells.map fun c => ⟨utf8 c.text, c.color, c.anchor, c.filler⟩)
        black reset = .ok (render black reset cells gaps) := by
  obtain ⟨gaps, hl, h⟩ := loop_ok (maxSize := maxSize) (black := black) (reset := reset)
    cells 0 hsmall hfits
  refine ⟨gaps, hl, ?_⟩
  have h' : tableLoop maxSize black reset 0
      (cells.map fun c => ⟨utf8 c.text, c.color, c.anchor, c.filler⟩) = _ := h
  simp only [alignedTable, h', Outcome.bind_ok, Outcome.pure_eq, render]

/-- **C151 (cells that overlap).**  If the cells do not fit, `alignedTable` ends with an exception
(a length near 2⁶⁴ is asked for), it never returns a wrong row. -/
theorem C151_overlap (maxSize : Nat) (hm : maxSize < 2 ^ 63) (black reset : List UInt8)
    (cells : List Cell)
    (hsmall : ∀ c ∈ cells, c.anchor.natAbs ≤ maxSize ∧ c.anchor.natAbs < 2 ^ 61 ∧
      c.text.length < 2 ^ 61)
    (hfits : ¬ Fits 0 cells) :
    alignedTable maxSize (cells.map fun c => ⟨utf8 c.text, c.color, c.anchor, c.filler⟩)
      black reset = .err := by
  have h : tableLoop maxSize black reset 0
      (cells.map fun c => ⟨utf8 c.text, c.color, c.anchor, c.filler⟩) = .err :=
    loop_err hm cells 0 (by norm_num) hsmall hfits
  simp only [alignedTable, h, Outcome.bind_err]

/-- A row with a text of two-byte characters, anchors on both sides and the separator `:`. -/
def exCells : List Cell :=
  [⟨"Push", [], -2, 0x20⟩, ⟨"3µs", [], 20, 0x2E⟩, ⟨"7%", [], -24, 0x3A⟩]

example : Fits 0 exCells := by
  have e1 : "Push".length = 4 := by decide
  have e2 : "3µs".length = 3 := by decide
  simp [exCells, Fits, Cell.start, Cell.stop, e1, e2]

example : alignedTable (2 ^ 62) (exCells.map fun c => ⟨utf8 c.text, c.color, c.anchor, c.filler⟩)
    [] [] = .ok (utf8 "  Push...........3µs :  7%\n") := by decide +kernel

theorem repr_len {n e : Nat} (he : 0 < e) (h : n < 10 ^ e) : (toString n).length ≤ e :=
  Nat.repr_length n e he h

theorem pad2_len {n : Nat} (h : n < 100) : (pad2 n).length = 2 := by
  interval_cases n <;> decide +kernel

theorem percent_ok {npart maxnpart : Nat} (h0 : 0 < maxnpart) (h : npart ≤ maxnpart) :
    percentage npart maxnpart = .ok (100 * npart / maxnpart) ∧ 100 * npart / maxnpart ≤ 100 := by
  have h1 : 100 * npart / maxnpart ≤ 100 := by
    apply Nat.div_le_of_le_mul; rw [Nat.mul_comm maxnpart]; exact Nat.mul_le_mul_left _ h
  refine ⟨?_, h1⟩
  rw [percentage, if_neg (by omega), if_pos (by omega)]

/-- The cells of the row of a species. -/
def speciesCells (sci : Nat → String) (reset pct : List UInt8) (i : Nat) (label : String)
    (npart maxnpart : Nat) : List Cell :=
  [⟨"species " ++ pad2 (i + 1) ++ " (" ++ label ++ ")", reset, -2, 0x20⟩,
   ⟨if npart > 9999 then sci npart else toString npart, reset, 37, 0x2E⟩,
   ⟨toString (100 * npart / maxnpart) ++ "%", pct, 45, 0x20⟩]

theorem species_fits_iff (sci : Nat → String) (reset pct : List UInt8) (i : Nat) (label : String)
    (npart maxnpart : Nat) (hi : i < 99) (h0 : 0 < maxnpart) (h : npart ≤ maxnpart) :
    Fits 0 (speciesCells sci reset pct i label npart maxnpart) ↔
      label.length + (if npart > 9999 then sci npart else toString npart).length ≤ 22 := by
  have hp : (pad2 (i + 1)).length = 2 := pad2_len (by omega)
  have hq : (toString (100 * npart / maxnpart)).length ≤ 3 :=
    repr_len (by norm_num) (by have := (percent_ok h0 h).2; omega)
  simp only [speciesCells, Fits, Cell.start, Cell.stop, String.length_append, hp]
  have e1 : "species ".length = 8 := by decide
  have e2 : " (".length = 2 := by decide
  have e3 : ")".length = 1 := by decide
  have e4 : "%".length = 1 := by decide
  rw [e1, e2, e3, e4]
  generalize (if npart > 9999 then sci npart else toString npart).length = x
  generalize (toString (100 * npart / maxnpart)).length = y at hq
  norm_num
  constructor
  · rintro ⟨h1, _⟩; omega
  · intro h1; refine ⟨?_, ?_⟩ <;> omega

/-- **C151 (row of a species).**  For up to 99 species, not more particles than allocated, and
numbers above 9999 in scientific notation with eight characters: a label of at most
14 characters is printed with number and percentage at their anchors. -/
theorem C151_species_partial (maxSize : Nat) (hmin : 45 ≤ maxSize) (sci : Nat → String)
    (black reset pct : List UInt8) (i : Nat) (label : String) (npart maxnpart : Nat) (hi : i < 99)
    (h0 : 0 < maxnpart) (h : npart ≤ maxnpart) (hsci : (sci npart).length = 8)
    (hlabel : label.length ≤ 14) :
    ∃ gaps, Laid 0 (speciesCells sci reset pct i label npart maxnpart) gaps ∧
      speciesRow maxSize sci black reset pct i label npart maxnpart =
        .ok (render black reset (speciesCells sci reset pct i label npart maxnpart) gaps) := by
  have hlen : (if npart > 9999 then sci npart else toString npart).length ≤ 8 := by
    split
    · omega
    · exact (repr_len (e := 4) (by norm_num) (by omega)).trans (by norm_num)
  have hp : (pad2 (i + 1)).length = 2 := pad2_len (by omega)
  have hq : (toString (100 * npart / maxnpart)).length ≤ 3 :=
    repr_len (by norm_num) (by have := (percent_ok h0 h).2; omega)
  have e1 : "species ".length = 8 := by decide
  have e2 : " (".length = 2 := by decide
  have e3 : ")".length = 1 := by decide
  have e4 : "%".length = 1 := by decide
  obtain ⟨gaps, hl, ht⟩ := C151_table maxSize black reset
    (speciesCells sci reset pct i label npart maxnpart)
    (by
      intro c hc
      simp only [speciesCells, List.mem_cons, List.not_mem_nil, or_false] at hc
      rcases hc with rfl | rfl | rfl
      · simp only [String.length_append, hp, e1, e2, e3]; omega
      · simp only; omega
      · simp only [String.length_append, e4]; omega)
    ((species_fits_iff sci reset pct i label npart maxnpart hi h0 h).2 (by omega))
  refine ⟨gaps, hl, ?_⟩
  rw [← ht]
  simp only [speciesRow, npartStats, (percent_ok h0 h).1, Outcome.bind_ok, Outcome.pure_eq]
  rfl

/-- **C151 (a long label ends the simulation).**  A label of 22 or more characters: the first
diagnostics printed end with an exception, whatever the number of particles. -/
theorem C151_species_counterexample (maxSize : Nat) (hmin : 45 ≤ maxSize) (hm : maxSize < 2 ^ 63)
    (sci : Nat → String) (black reset pct : List UInt8) (i : Nat) (label : String)
    (npart maxnpart : Nat) (hi : i < 99) (h0 : 0 < maxnpart) (h : npart ≤ maxnpart)
    (hsci : (sci npart).length = 8) (hlabel : 22 ≤ label.length) (hl : label.length < 2 ^ 60) :
    speciesRow maxSize sci black reset pct i label npart maxnpart = .err := by
  have hlen : 1 ≤ (if npart > 9999 then sci npart else toString npart).length ∧
      (if npart > 9999 then sci npart else toString npart).length ≤ 8 := by
    split
    · omega
    · exact ⟨Nat.length_repr_pos, (repr_len (e := 4) (by norm_num) (by omega)).trans (by norm_num)⟩
  have hp : (pad2 (i + 1)).length = 2 := pad2_len (by omega)
  have hq : (toString (100 * npart / maxnpart)).length ≤ 3 :=
    repr_len (by norm_num) (by have := (percent_ok h0 h).2; omega)
  have e1 : "species ".length = 8 := by decide
  have e2 : " (".length = 2 := by decide
  have e3 : ")".length = 1 := by decide
  have e4 : "%".length = 1 := by decide
  have ht := C151_overlap maxSize hm black reset
    (speciesCells sci reset pct i label npart maxnpart)
    (by
      intro c hc
      simp only [speciesCells, List.mem_cons, List.not_mem_nil, or_false] at hc
      rcases hc with rfl | rfl | rfl
      · simp only [String.length_append, hp, e1, e2, e3]; omega
      · simp only; omega
      · simp only [String.length_append, e4]; omega)
    (fun hf => by
      have := (species_fits_iff sci reset pct i label npart maxnpart hi h0 h).1 hf
      omega)
  rw [← ht]
  simp only [speciesRow, npartStats, (percent_ok h0 h).1, Outcome.bind_ok, Outcome.pure_eq]
  rfl

example : speciesRow (2 ^ 62) (fun _ => "1.00e+05") [] [] [] 0 "e-" 1234 5000 =
    .ok (utf8 "  species  1 (e-)................1234     24%\n") := by decide +kernel

example : speciesRow (2 ^ 62) (fun _ => "1.00e+05") [] [] [] 0 "photons-from-the-corona" 1234 5000
    = .err := by decide +kernel

end Entity.Diag
