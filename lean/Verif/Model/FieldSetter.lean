import Verif.Model.Ranks
import Verif.Model.Base
import Mathlib.Algebra.BigOperators.Group.List.Basic

/-!
# Fields prescribed by the problem generator
(src/archetypes/field_setter.h, `Engine::init` in src/engines/engine.hpp, `UpdateEMFields` in
src/archetypes/utils.h)

Array 0 is `em` (components 0-2 `E` or `D`, 3-5 `B`), array 9 is `bckp`.  Functions of the user are
arbitrary functions of the position (and of the fields, for the conditional setter).
-/

namespace Entity.FieldSetter

open Entity Entity.Kernel Entity.Ranks Entity.Topology

variable {K : Type} [Field K]

/-- What the kernels use of a metric. -/
structure FMetric (K : Type) where
  /-- `convert<Crd::Cd, Crd::Ph>` -/
  phys : List K → List K
  /-- `convert<a + 1, Crd::Cd, Crd::Ph>` -/
  phys1 : Nat → K → K
  /-- `transform<c + 1, Idx::T, Idx::U>` -/
  toU : Nat → List K → K → K
  /-- `transform<Idx::U, Idx::T>` of a vector -/
  toT : List K → List K → List K

/-- The member functions `ex1`, ..., `bx1`, ..., `dx1`, ... the class of the user may have
(`traits::fieldsetter::HasEx1` etc., src/global/traits/archetypes.h). -/
structure Setter (K : Type) where
  e : Nat → Option (List K → K)
  b : Nat → Option (List K → K)
  d : Nat → Option (List K → K)

/-- `COORD(i)`, with `+ HALF` along the marked axes. -/
def coord (ng : Nat) (half : List Bool) (t : List Int) : List K :=
  List.zipWith (fun h (i : Int) => ((i - (ng : Int) : Int) : K) + if h then 1 / 2 else 0) half t

/-- The axes with `+ HALF` in the special-relativistic branches of `SetEMFields_kernel`
(field_setter.h:67-103 in 1D, 117-155 in 2D, 206-252 in 3D), for `ex1`, ..., `bx3` in this order. -/
def srHalf (D : Nat) : List (List Bool) :=
  match D with
  | 1 => [[true], [false], [false], [false], [true], [true]]
  | 2 => [[true, false], [false, true], [false, false], [false, true], [true, false], [true, true]]
  | _ => [[true, false, false], [false, true, false], [false, false, true],
      [false, true, true], [true, false, true], [true, true, false]]

/-- The function of component `c` of `em` in special relativity. -/
def Setter.eb (fs : Setter K) (c : Nat) : Option (List K → K) := if c < 3 then fs.e c else fs.b (c - 3)

/-- `SetEMFields_kernel::operator()` in special relativity (field_setter.h:63-110, 112-155, 200-252). -/
def srBody (fs : Setter K) (met : FMetric K) (ng : Nat) (t : List Int) : List (Assign K) :=
  (List.range 6).flatMap fun (c : Nat) =>
    match fs.eb c with
    | none => []
    | some f =>
      let x := coord ng ((srHalf t.length).getD c []) t
      [⟨⟨0, c, t⟩, .lit (met.toU (c % 3) x (f (met.phys x)))⟩]

/-- The positions in the general-relativistic branches (field_setter.h:156-192 in 2D, 253-287 in 3D). -/
def grHalf (D : Nat) : List (List Bool) :=
  match D with
  | 2 => [[true, false], [false, true], [false, false], [false, true], [true, false], [true, true]]
  | _ => [[true, false, false], [false, true, false], [false, false, true],
      [false, true, true], [true, false, true], [true, true, false]]

/-- `SetEMFields_kernel::operator()` in general relativity (field_setter.h:156-192, 253-287), in two and
three dimensions (there is no metric in one dimension, where the kernel is an error).  A vector is set only
if all three of its functions exist; what the user returns is stored. -/
def grBody (fs : Setter K) (met : FMetric K) (ng : Nat) (t : List Int) : List (Assign K) :=
  let x := fun (c : Nat) => (coord ng ((grHalf t.length).getD c []) t).mapIdx met.phys1
  (match fs.d 0, fs.d 1, fs.d 2 with
    | some f0, some f1, some f2 =>
      [⟨⟨0, 0, t⟩, .lit (f0 (x 0))⟩, ⟨⟨0, 1, t⟩, .lit (f1 (x 1))⟩, ⟨⟨0, 2, t⟩, .lit (f2 (x 2))⟩]
    | _, _, _ => []) ++
  (match fs.b 0, fs.b 1, fs.b 2 with
    | some f0, some f1, some f2 =>
      [⟨⟨0, 3, t⟩, .lit (f0 (x 3))⟩, ⟨⟨0, 4, t⟩, .lit (f1 (x 4))⟩, ⟨⟨0, 5, t⟩, .lit (f2 (x 5))⟩]
    | _, _, _ => [])

/-- `InitFields` of `Engine::init` (engine.hpp:146-156) on all ranks: the kernel on the active cells. -/
def InitFields (gr : Bool) (m : Meta) (ng : Nat) (fs : Setter K) (met : Nat → FMetric K) (M M' : MMem K) : Prop :=
  LaunchAll m ng (fun r => if gr then grBody fs (met r) ng else srBody fs (met r) ng) M M'

/-! ## The conditional setter -/

/-- The member functions of a conditional setter: component `0`-`5` of `em` from the position and the
fields in the orthonormal basis; whether to set, and the value. -/
abbrev CSetter (K : Type) := Nat → Option (List K → List K → List K → Bool × K)

/-- The blocks of `CustomSetEMFields_kernel::operator()` (field_setter.h:331-414 in 1D, 432-554 in 2D,
572-814 in 3D): the position, and the components that are set there. -/
def groups (D : Nat) : List (List Bool × List Nat) :=
  match D with
  | 1 => [([true], [0, 4, 5]), ([false], [1, 2, 3])]
  | 2 => [([true, false], [0, 4]), ([false, true], [1, 3]), ([false, false], [2]), ([true, true], [5])]
  | _ => [([true, false, false], [0]), ([false, true, false], [1]), ([false, false, true], [2]),
      ([false, true, true], [3]), ([true, false, true], [4]), ([true, true, false], [5])]

/-- The elements of `buffer` that are averaged for `e_U[0..2]`, `b_U[0..2]` in the block at a position. -/
def stencil (loc : List Bool) : List (List (List Int)) :=
  match loc with
  -- field_setter.h:334-340, 376-382
  | [true] => [[[0]], [[0], [1]], [[0], [1]], [[0], [1]], [[0]], [[0]]]
  | [false] => [[[0], [-1]], [[0]], [[0]], [[0]], [[0], [-1]], [[0], [-1]]]
  -- field_setter.h:435-445, 471-481, 507-515, 531-539
  | [true, false] => [[[0, 0]], [[0, 0], [1, 0], [0, -1], [1, -1]], [[0, 0], [1, 0]],
      [[0, 0], [1, 0], [0, -1], [1, -1]], [[0, 0]], [[0, 0], [0, -1]]]
  | [false, true] => [[[0, 0], [-1, 0], [0, 1], [-1, 1]], [[0, 0]], [[0, 0], [0, 1]],
      [[0, 0]], [[0, 0], [-1, 0], [0, 1], [-1, 1]], [[0, 0], [-1, 0]]]
  | [false, false] => [[[0, 0], [-1, 0]], [[0, 0], [0, -1]], [[0, 0]],
      [[0, 0], [0, -1]], [[0, 0], [-1, 0]], [[0, 0], [-1, 0], [0, -1], [-1, -1]]]
  | [true, true] => [[[0, 0], [0, 1]], [[0, 0], [1, 0]], [[0, 0], [1, 0], [0, 1], [1, 1]],
      [[0, 0], [1, 0]], [[0, 0], [0, 1]], [[0, 0]]]
  -- field_setter.h:575-596
  | [true, false, false] => [[[0, 0, 0]],
      [[0, 0, 0], [1, 0, 0], [0, -1, 0], [1, -1, 0]],
      [[0, 0, 0], [1, 0, 0], [0, 0, -1], [1, 0, -1]],
      [[0, 0, 0], [1, 0, 0], [0, -1, 0], [1, -1, 0], [0, 0, -1], [1, 0, -1], [0, -1, -1], [1, -1, -1]],
      [[0, 0, 0], [0, 0, -1]],
      [[0, 0, 0], [0, -1, 0]]]
  -- field_setter.h:615-636
  | [false, true, false] => [[[0, 0, 0], [-1, 0, 0], [0, 1, 0], [-1, 1, 0]],
      [[0, 0, 0]],
      [[0, 0, 0], [0, 1, 0], [0, 0, -1], [0, 1, -1]],
      [[0, 0, 0], [0, 0, -1]],
      [[0, 0, 0], [-1, 0, 0], [0, 1, 0], [-1, 1, 0], [0, 0, -1], [-1, 0, -1], [0, 1, -1], [-1, 1, -1]],
      [[0, 0, 0], [-1, 0, 0]]]
  -- field_setter.h:655-676
  | [false, false, true] => [[[0, 0, 0], [-1, 0, 0], [0, 0, 1], [-1, 0, 1]],
      [[0, 0, 0], [0, -1, 0], [0, 0, 1], [0, -1, 1]],
      [[0, 0, 0]],
      [[0, 0, 0], [0, -1, 0]],
      [[0, 0, 0], [-1, 0, 0]],
      [[0, 0, 0], [-1, 0, 0], [0, 0, 1], [-1, 0, 1], [0, -1, 0], [-1, -1, 0], [0, -1, 1], [-1, -1, 1]]]
  -- field_setter.h:696-717
  | [false, true, true] => [
      [[0, 0, 0], [-1, 0, 0], [0, 1, 0], [-1, 1, 0], [0, 0, 1], [-1, 0, 1], [0, 1, 1], [-1, 1, 1]],
      [[0, 0, 0], [0, 0, 1]],
      [[0, 0, 0], [0, 1, 0]],
      [[0, 0, 0]],
      [[0, 0, 0], [-1, 0, 0], [0, 1, 0], [-1, 1, 0]],
      [[0, 0, 0], [-1, 0, 0], [0, 0, 1], [-1, 0, 1]]]
  -- field_setter.h:737-758
  | [true, false, true] => [[[0, 0, 0], [0, 0, 1]],
      [[0, 0, 0], [1, 0, 0], [0, -1, 0], [1, -1, 0], [0, 0, 1], [1, 0, 1], [0, -1, 1], [1, -1, 1]],
      [[0, 0, 0], [1, 0, 0]],
      [[0, 0, 0], [1, 0, 0], [0, -1, 0], [1, -1, 0]],
      [[0, 0, 0]],
      [[0, 0, 0], [0, -1, 0], [0, 0, 1], [0, -1, 1]]]
  -- field_setter.h:778-799
  | [true, true, false] => [[[0, 0, 0], [0, 1, 0]],
      [[0, 0, 0], [1, 0, 0]],
      [[0, 0, 0], [1, 0, 0], [0, 1, 0], [1, 1, 0], [0, 0, -1], [1, 0, -1], [0, 1, -1], [1, 1, -1]],
      [[0, 0, 0], [1, 0, 0], [0, 0, -1], [1, 0, -1]],
      [[0, 0, 0], [0, 1, 0], [0, 0, -1], [0, 1, -1]],
      [[0, 0, 0]]]
  | _ => []

/-- `HALF`, `INV_4`, `INV_8`. -/
def weight (n : Nat) : K := if n = 1 then 1 else if n = 2 then 1 / 2 else if n = 4 then 1 / 4 else 1 / 8

/-- `buffer(i, c)`; `buffer` is a view of an array, or a default-constructed view, which has no memory. -/
def rd (buffer : Option Nat) (v : Mem K) (c : Nat) (i : List Int) : Outcome K :=
  match buffer with
  | none => .ub
  | some a => .ok (v ⟨a, c, i⟩)

/-- One average. -/
def mean (buffer : Option Nat) (v : Mem K) (offs : List (List Int)) (c : Nat) (t : List Int) : Outcome K := do
  let vs ← offs.mapM fun o => rd buffer v c (List.zipWith (· + ·) t o)
  pure (weight offs.length * vs.sum)

/-- One block: nothing if none of its components has a function, otherwise the averages, the conversion
to the orthonormal basis, and the components one after the other. -/
def block (fs : CSetter K) (met : FMetric K) (ng : Nat) (buffer : Option Nat) (t : List Int)
    (v : Mem K) (g : List Bool × List Nat) : Outcome (Mem K) :=
  if g.2.all fun c => (fs c).isNone then .ok v
  else do
    let us ← ((stencil g.1).zip (List.range 6)).mapM fun oc => mean buffer v oc.1 oc.2 t
    let x := coord ng g.1 t
    let e := met.toT x (us.take 3)
    let b := met.toT x (us.drop 3)
    pure (g.2.foldl (fun (v : Mem K) (c : Nat) =>
      match fs c with
      | none => v
      | some f => if (f (met.phys x) e b).1 then store v ⟨0, c, t⟩ (met.toU (c % 3) x (f (met.phys x) e b).2) else v) v)

/-- `CustomSetEMFields_kernel::operator()` for a cell (field_setter.h:320-418, 420-558, 560-818).  A cell is
processed in one piece: with a buffer apart from `em` no thread reads what another one writes. -/
def customCell (fs : CSetter K) (met : FMetric K) (ng : Nat) (buffer : Option Nat) (t : List Int)
    (v : Mem K) : Outcome (Mem K) :=
  (groups t.length).foldlM (block fs met ng buffer t) v

/-- `Kokkos::deep_copy(domain.fields.bckp, domain.fields.em)`. -/
def deepCopy (v : Mem K) : Mem K := fun l => if l.arr = 9 then v ⟨0, l.comp, l.idx⟩ else v l

/-- The constructor (field_setter.h:311-318) takes the fourth argument `buffer` without a name and does
not initialise the member `buffer`. -/
def constructed (_buffer : Nat) : Option Nat := none

/-- The launch of a kernel whose member `buffer` is given. -/
def runCustom (fs : CSetter K) (met : FMetric K) (ng : Nat) (buffer : Option Nat) (sched : List (List Int))
    (v : Mem K) : Outcome (Mem K) :=
  sched.foldlM (fun v t => customCell fs met ng buffer t v) v

/-- `UpdateEMFields` (utils.h:171-188), the cells in the order `sched`. -/
def updateEMFields (srpic : Bool) (fs : CSetter K) (met : FMetric K) (ng : Nat) (sched : List (List Int))
    (v : Mem K) : Outcome (Mem K) :=
  if srpic then runCustom fs met ng (constructed 9) sched (deepCopy v) else .err

end Entity.FieldSetter
