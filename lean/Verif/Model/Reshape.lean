import Verif.Model.Startup

/-!
# Extents and metrics of a moving window

`Metadomain::ShiftByCells` (src/framework/domain/metadomain_reshape.cpp:12-42) with the metrics, in the
arithmetic of `Model/Startup.lean`: `Mesh::set_extent` (src/framework/domain/mesh.h:62-66) makes a new metric out
of the new extent, whose constructor checks the cell sizes again.
-/

namespace Entity.Startup

open Entity Entity.Decomp

/-- `new_extent[dir].first += delta_shift; new_extent[dir].second += delta_shift` with
`delta_shift = n_cells * metric.get_dx()` (metadomain_reshape.cpp:25-28, 36-39). -/
def Arith.shiftAxis (A : Arith) (s : Int) (dx : ℚ) (a : Axis) : Axis :=
  ⟨A.mulAdd (A.rnd (s : ℚ)) dx a.xmin, A.mulAdd (A.rnd (s : ℚ)) dx a.xmax, a.n⟩

/-- The shift of one mesh, given by the axes of its extent (metadomain_reshape.cpp:24-30, 35-41); `get_dx`
is the cell size of the metric along the first axis (minkowski.h:49, 74-76). -/
def Arith.shiftMesh (A : Arith) (o : Nat) (s : Int) : List Axis → Outcome (List Axis)
  | [] => .ub
  | a :: rest =>
    let new := (a :: rest).modify o (A.shiftAxis s (A.cell a))
    if o < (a :: rest).length then
      match A.minkowski new with
      | .ok _ => .ok new
      | .err => .err
      | .ub => .ub
    else .ub

/-- All meshes, that of the box first (metadomain_reshape.cpp:23-42). -/
def Arith.shiftMeshes (A : Arith) (o : Nat) (s : Int) : List (List Axis) → Outcome (List (List Axis))
  | [] => .ok []
  | m :: rest =>
    match A.shiftMesh o s m with
    | .ok m' =>
      match A.shiftMeshes o s rest with
      | .ok r' => .ok (m' :: r')
      | .err => .err
      | .ub => .ub
    | .err => .err
    | .ub => .ub

/-- `ShiftByCells` (metadomain_reshape.cpp:12-42). -/
def Arith.shiftByCells (A : Arith) (o : Nat) (s : Int) (ms : List (List Axis)) : Outcome (List (List Axis)) :=
  if s = 0 then .err else A.shiftMeshes o s ms

/-- A window moved several times: directions and numbers of cells, in order. -/
def Arith.runShifts (A : Arith) : List (Nat × Int) → List (List Axis) → Outcome (List (List Axis))
  | [], ms => .ok ms
  | t :: rest, ms =>
    match A.shiftByCells t.1 t.2 ms with
    | .ok ms' => A.runShifts rest ms'
    | .err => .err
    | .ub => .ub

/-- The meshes after start-up: that of the box and those of the subdomains (metadomain.cpp:36-61,
133-190). -/
def Arith.startMeshes (A : Arith) (box : List Axis) (dN : List (List Nat)) : Outcome (List (List Axis)) :=
  match A.startup box dN with
  | .ok g =>
    match createDomains (dN.map List.length).prod dN with
    | none => .ub
    | some doms => .ok (box :: doms.map (A.subAxes g.dx box))
  | .err => .err
  | .ub => .ub

/-- The loop over subdomains and axes that collects the extent of the box
(src/framework/domain/metadomain_chckpt.cpp:281-302); `big` is the largest number of `real_t`. -/
def collect (big : ℚ) (box : List Axis) (saved : List (List Axis)) : List (ℚ × ℚ) :=
  saved.foldl (fun g m => List.zipWith (fun (p : ℚ × ℚ) (a : Axis) => (min p.1 a.xmin, max p.2 a.xmax)) g m)
    (box.map (fun _ => (big, -big)))

/-- The metrics of all subdomains (metadomain_chckpt.cpp:319-325). -/
def Arith.remake (A : Arith) : List (List Axis) → Outcome Unit
  | [] => .ok ()
  | m :: rest =>
    match A.minkowski m with
    | .ok _ => A.remake rest
    | .err => .err
    | .ub => .ub

/-- The meshes after `ContinueFromCheckpoint` (metadomain_chckpt.cpp:276-326): those of the subdomains have the
stored extents, that of the box the smallest one containing them.  `box` is the box of the input file, of which
only the numbers of cells are kept; `saved` are the stored meshes of the subdomains, written at
metadomain_chckpt.cpp:142-161.  Simplification: the stored numbers of cells agree with those of the present
decomposition or are accepted in its place; which ones are is C51. -/
def Arith.restore (A : Arith) (big : ℚ) (box : List Axis) (saved : List (List Axis)) :
    Outcome (List (List Axis)) :=
  match A.remake saved with
  | .ok _ =>
    let new := List.zipWith (fun (p : ℚ × ℚ) (a : Axis) => (⟨p.1, p.2, a.n⟩ : Axis)) (collect big box saved) box
    match A.minkowski new with
    | .ok _ => .ok (new :: saved)
    | .err => .err
    | .ub => .ub
  | .err => .err
  | .ub => .ub

end Entity.Startup
