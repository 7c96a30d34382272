import Verif.Model.Base
import Mathlib.Algebra.Field.Basic

/-!
# The vector potential written to the output

Models `ComputeVectorPotential`, `ExtractVectorPotential` and `CommunicateVectorPotential`
(src/framework/domain/metadomain_io.cpp:200-350).

* Indices are local and without ghost cells: `i1`, `i2` of the code minus `N_GHOSTS`; the field is read
  at local row `-1` (a ghost cell) too.
* Numbers are exact.
* The ranks exchange messages with blocking sends and receives.  A message passes when both ends have
  reached it in their own order, so an execution is an order of the messages that agrees, on every
  rank, with the order of the loop on this rank (`Execution`).
-/

namespace Entity.VecPot

variable {K : Type} [Field K]

/-- Local columns, rows, and the numbers of subdomains along the two axes; rank `nr2 * n1 + nr1`. -/
structure Grid where
  n1 : Nat
  n2 : Nat
  nx1 : Nat → Nat
  nx2 : Nat → Nat

/-- Array of one component on all ranks: rank, column, row. -/
abbrev Buf (K : Type) := Nat → Nat → Nat → K

/-- The term added for row `k` (metadomain_io.cpp:215-222): `h` is `sqrt_det_h` at the column, a function
of the code coordinate along the second axis, `B` the field `bx1` in the column. -/
def term (h : K → K) (B : Int → K) (k : Nat) : K :=
  1/2 * (h ((k : K) - 1/2) * B ((k : Int) - 1) + h ((k : K) + 1/2) * B (k : Int))

/-- `ComputeVectorPotential` at one cell (metadomain_io.cpp:211-224): the loop `k = 0 … i2`. -/
def local_ (h : K → K) (B : Int → K) (i2 : Nat) : K :=
  (List.range (i2 + 1)).foldl (fun A3 k => A3 + term h B k) 0

/-- `ComputeVectorPotential` on every rank, in the active cells; other cells keep the value. -/
def compute (g : Grid) (h : Nat → Nat → K → K) (B : Nat → Nat → Int → K) (buf : Buf K) : Buf K :=
  fun r i1 i2 =>
    if i1 < g.nx1 r ∧ i2 < g.nx2 r then local_ (h r i1) (B r i1) i2 else buf r i1 i2

/-- One message: the last active row of `rank_send`, added to all active rows of `rank_recv`
(metadomain_io.cpp:263-275, 296-342). -/
def message (g : Grid) (buf : Buf K) (it : Nat × Nat) : Buf K :=
  let send := (it.1 - 1) * g.n1 + it.2
  let recv := it.1 * g.n1 + it.2
  fun r i1 i2 =>
    if r = recv ∧ i1 < g.nx1 r ∧ i2 < g.nx2 r then
      buf r i1 i2 + buf send i1 (g.nx2 send - 1)
    else buf r i1 i2

/-- The iterations `(nr2, nr1)` of the double loop (metadomain_io.cpp:290-295). -/
def loop (g : Grid) : List (Nat × Nat) :=
  ((List.range g.n2).filter (fun m => decide (1 ≤ m))).flatMap fun nr2 =>
    (List.range g.n1).map fun nr1 => (nr2, nr1)

/-- The rank takes part in the iteration. -/
def takesPart (g : Grid) (r : Nat) (it : Nat × Nat) : Bool :=
  decide (r = (it.1 - 1) * g.n1 + it.2) || decide (r = it.1 * g.n1 + it.2)

/-- An order in which the messages can pass: every message once, and every rank sees its own messages in
the order of the loop. -/
def Execution (g : Grid) (L : List (Nat × Nat)) : Prop :=
  L.Perm (loop g) ∧ ∀ r, L.filter (takesPart g r) = (loop g).filter (takesPart g r)

/-- `CommunicateVectorPotential`, for an order of the messages. -/
def communicate (g : Grid) (L : List (Nat × Nat)) (buf : Buf K) : Buf K :=
  L.foldl (message g) buf

/-- `Write` for a vector potential (metadomain_io.cpp:548-556). -/
def vectorPotential (g : Grid) (h : Nat → Nat → K → K) (B : Nat → Nat → Int → K)
    (L : List (Nat × Nat)) (buf : Buf K) : Buf K :=
  communicate g L (compute g h B buf)

end Entity.VecPot
