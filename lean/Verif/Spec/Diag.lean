import Verif.Model.Base
import Mathlib.Algebra.Order.Field.Basic
import Mathlib.Algebra.Order.Floor.Ring
import Mathlib.Algebra.BigOperators.Group.List.Basic

/-!
# Specification of what the code prints while it runs

Independent of the model: rows of tables, units of time, statements about numbers.
-/

namespace Entity.Diag.Spec

/-! ## Rows of a table -/

/-- A cell: its text, the escape sequence of its colour (no width on a terminal), its anchor and its
filler.  A positive anchor is the position of the right end of the text, otherwise its absolute value is the
position of the left end. -/
structure Cell where
  text : String
  color : List UInt8
  anchor : Int
  filler : UInt8

/-- Position of the left end of the text. -/
def Cell.start (c : Cell) : Int := if c.anchor ≤ 0 then -c.anchor else c.anchor - c.text.length

/-- Position of the right end of the text. -/
def Cell.stop (c : Cell) : Int := c.start + c.text.length

/-- The cells, beginning at position `pos`, do not overlap; before a cell that is aligned to the left with
the filler `:` there is room for the two characters ` :`. -/
def Fits : Int → List Cell → Prop
  | _, [] => True
  | pos, c :: cs =>
    pos + (if c.anchor ≤ 0 ∧ c.filler = 0x3A then 2 else 0) ≤ c.start ∧ Fits c.stop cs

/-- `gap` is what is printed before the cell: blanks after ` :`, or the filler repeated. -/
def Gap (c : Cell) (gap : List UInt8) : Prop :=
  if c.anchor ≤ 0 ∧ c.filler = 0x3A then ∃ n, gap = [0x20, 0x3A] ++ List.replicate n 0x20
  else ∃ n, gap = List.replicate n c.filler

/-- The cells with gaps of one-column characters before them, beginning at position `pos`, lie at
their anchors. -/
def Laid : Int → List Cell → List (List UInt8) → Prop
  | _, [], [] => True
  | pos, c :: cs, g :: gs => Gap c g ∧ pos + g.length = c.start ∧ Laid c.stop cs gs
  | _, _, _ => False

/-- UTF-8. -/
def utf8 (s : String) : List UInt8 := s.toList.flatMap String.utf8EncodeChar

/-- The row on the terminal: gaps in one colour, texts in theirs. -/
def render (black reset : List UInt8) (cells : List Cell) (gaps : List (List UInt8)) :
    List UInt8 :=
  reset ++ ((gaps.zip cells).map
    (fun gc => black ++ gc.1 ++ gc.2.color ++ utf8 gc.2.text ++ reset)).flatten ++ reset ++ [0x0A]

/-! ## Units of time -/

variable {K : Type} [Field K] [LinearOrder K] [IsStrictOrderedRing K]

/-- A pair of units, the larger one first, and their sizes in microseconds. -/
inductive UnitPair : String → K → String → K → Prop
  | hours : UnitPair "hr" (60 * 60 * 1000000) "min" (60 * 1000000)
  | minutes : UnitPair "min" (60 * 1000000) "s" 1000000
  | seconds : UnitPair "s" 1000000 "ms" 1000
  | milliseconds : UnitPair "ms" 1000 "µs" 1
  | microseconds : UnitPair "µs" 1 "µs" 1

/-- `text` shows the duration `t` (in microseconds) as so many units and so many of the next smaller
unit, rounded down; below a millisecond only the first number counts and the second one is zero. -/
def Shows (t : K) (text : String) : Prop :=
  ∃ (u : String) (U : K) (v : String) (V : K) (n m : Nat), UnitPair u U v V ∧
    text = toString n ++ u ++ " " ++ toString m ++ v ∧
    (n : K) * U + (m : K) * V ≤ t ∧ t < (n : K) * U + ((m : K) + 1) * V ∧
    (m : K) * V < U ∧ (1 ≤ t → 1 ≤ n)

end Entity.Diag.Spec
