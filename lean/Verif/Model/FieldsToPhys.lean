import Verif.Model.FieldOut
import Verif.Model.Kernel

/-!
# Interpolation and conversion of the fields written to the output

Models `FieldsToPhys_kernel` (src/kernels/fields_to_phys.hpp:36-248) and the branch of `Metadomain::Write`
that prepares vector fields (src/framework/domain/metadomain_io.cpp:634-695).

* Every conversion of the basis (`metric.transform`) multiplies by a matrix that depends on the position
  only; the matrix is a parameter.
* Memory is that of `Model/Kernel.lean`; one thread runs per active cell, in any interleaving.
-/

namespace Entity.FieldsToPhys

open Entity Entity.Kernel Entity.FieldOut

variable {K : Type} [Field K]

/-- `transform<U, T>`, `transform<U, PU>`, `transform<D, PD>` of the metric: entry `(k, j)` of the matrix at
a position in code units. -/
abbrev Mat (K : Type) := Prep → List K → Nat → Nat → K

/-- `INV_2 * (a + b)`. -/
def avg2 (a b : Ex K) : Ex K := .lit (1/2) * (a + b)

/-- `INV_4 * (a + b + c + d)`. -/
def avg4 (a b c d : Ex K) : Ex K := .lit (1/4) * (a + b + c + d)

/-- `f_int` in 1D (fields_to_phys.hpp:73-92), component `k`; `F k i` is `Ffrom(i, cf_{k+1})`. -/
def int1 (it : Interp) (F : Nat → List Int → Ex K) (i1 : Int) (k : Nat) : Ex K :=
  match it, k with
  | .edges, 0 => F 0 [i1]
  | .edges, 1 => avg2 (F 1 [i1]) (F 1 [i1 + 1])
  | .edges, 2 => avg2 (F 2 [i1]) (F 2 [i1 + 1])
  | .faces, 0 => avg2 (F 0 [i1]) (F 0 [i1 + 1])
  | .faces, 1 => F 1 [i1]
  | .faces, 2 => F 2 [i1]
  | _, k => F k [i1]

/-- `f_int` in 2D (fields_to_phys.hpp:121-142). -/
def int2 (it : Interp) (F : Nat → List Int → Ex K) (i1 i2 : Int) (k : Nat) : Ex K :=
  match it, k with
  | .edges, 0 => avg2 (F 0 [i1, i2]) (F 0 [i1, i2 + 1])
  | .edges, 1 => avg2 (F 1 [i1, i2]) (F 1 [i1 + 1, i2])
  | .edges, 2 => avg4 (F 2 [i1, i2]) (F 2 [i1 + 1, i2]) (F 2 [i1, i2 + 1]) (F 2 [i1 + 1, i2 + 1])
  | .faces, 0 => avg2 (F 0 [i1, i2]) (F 0 [i1 + 1, i2])
  | .faces, 1 => avg2 (F 1 [i1, i2]) (F 1 [i1, i2 + 1])
  | .faces, 2 => F 2 [i1, i2]
  | _, k => F k [i1, i2]

/-- `f_int` in 3D (fields_to_phys.hpp:177-203). -/
def int3 (it : Interp) (F : Nat → List Int → Ex K) (i1 i2 i3 : Int) (k : Nat) : Ex K :=
  match it, k with
  | .edges, 0 => avg4 (F 0 [i1, i2, i3]) (F 0 [i1, i2 + 1, i3]) (F 0 [i1, i2, i3 + 1])
      (F 0 [i1, i2 + 1, i3 + 1])
  | .edges, 1 => avg4 (F 1 [i1, i2, i3]) (F 1 [i1 + 1, i2, i3]) (F 1 [i1, i2, i3 + 1])
      (F 1 [i1 + 1, i2, i3 + 1])
  | .edges, 2 => avg4 (F 2 [i1, i2, i3]) (F 2 [i1 + 1, i2, i3]) (F 2 [i1, i2 + 1, i3])
      (F 2 [i1 + 1, i2 + 1, i3])
  | .faces, 0 => avg2 (F 0 [i1, i2, i3]) (F 0 [i1 + 1, i2, i3])
  | .faces, 1 => avg2 (F 1 [i1, i2, i3]) (F 1 [i1, i2 + 1, i3])
  | .faces, 2 => avg2 (F 2 [i1, i2, i3]) (F 2 [i1, i2, i3 + 1])
  | _, k => F k [i1, i2, i3]

/-- `f_int` for a cell of any dimension. -/
def fInt (it : Interp) (F : Nat → List Int → Ex K) : List Int → Nat → Ex K
  | [i1], k => int1 it F i1 k
  | [i1, i2], k => int2 it F i1 i2 k
  | [i1, i2, i3], k => int3 it F i1 i2 i3 k
  | _, _ => .lit 0

/-- `xi_field` (fields_to_phys.hpp:94-99, 144-151, 205-214): `COORD(i)`, with `+ HALF` if interpolated. -/
def xi (ng : Nat) (it : Interp) (t : List Int) : List K :=
  t.map fun i => ((i - (ng : Int) : Int) : K) + if it = .none then 0 else 1/2

/-- `f_fin` (fields_to_phys.hpp:101-112, 153-163, 216-226). -/
def fFin (M : Mat K) (p : Prep) (x : List K) (f : Nat → Ex K) (k : Nat) : Ex K :=
  if p = .none then f k
  else .lit (M p x k 0) * f 0 + .lit (M p x k 1) * f 1 + .lit (M p x k 2) * f 2

/-- The kernel for one cell (fields_to_phys.hpp:70-248): from the components `cf` of array `src` to the
components `ct` of array `dst`. -/
def body (ng : Nat) (M : Mat K) (it : Interp) (p : Prep) (src dst : Nat) (cf ct : Nat → Nat)
    (t : List Int) : List (Assign K) :=
  (List.range 3).map fun (k : Nat) =>
    ⟨⟨dst, ct k, t⟩, fFin M p (xi ng it t) (fInt it (fun k i => .ld ⟨src, cf k, i⟩) t) k⟩

/-- `DeepCopyFields` of three components (metadomain_io.cpp:175-198), all cells. -/
def copy3 (src from' dst to' : Nat) (m : Mem K) : Mem K := fun l =>
  if l.arr = dst ∧ to' ≤ l.comp ∧ l.comp < to' + 3 then m ⟨src, l.comp - to' + from', l.idx⟩ else m l

/-- The buffer `bckp`. -/
def bckp : Nat := 9

/-- The preparation of a vector field that starts with component `c` of array `src`
(metadomain_io.cpp:634-695); afterwards components 3, 4, 5 of the buffer are written. -/
def prepare (ng : Nat) (M : Mat K) (asIs : Bool) (it : Interp) (p : Prep) (cells : List (List Int))
    (src c : Nat) (m m' : Mem K) : Prop :=
  if asIs then m' = copy3 src c bckp 3 m
  else Launch cells (body ng M it p bckp bckp id (· + 3)) (copy3 bckp 0 bckp 3 (copy3 src c bckp 0 m)) m'

end Entity.FieldsToPhys
