import Verif.Model.FieldSolver
import Verif.Model.Ranks
import Verif.Model.MeshBox
import Mathlib.Analysis.SpecialFunctions.Trigonometric.DerivHyp

/-!
# Boundary conditions of the fields
(src/kernels/fields_bcs.hpp, src/engines/srpic/fields_bcs.h, src/engines/grpic/fields_bcs.h)

The kernels are written out in the source for every dimension, orientation and side.  All these copies
have the same shape, which is transcribed once: the components are numbered as in `ntt::em`
(`ex1 = 0, …, bx3 = 5`), an index is a list with one entry per dimension, and `t.set o k` is the index
`t` with entry `o` replaced by `k`.  `Props/FieldBC.lean` unfolds some of the copies as a check.

The axis condition (`AxisBoundaries_kernel`) is in `Model/Curvi.lean`.
-/

namespace Entity.FieldBC

open Entity Entity.Kernel Entity.Ranks

variable {K : Type} [Field K]

/-- One assignment for each selected component `c` of array `arr` that `g` provides with an index and a
right-hand side. -/
def byComp (arr : Nat) (sel : List Nat) (g : Nat → Option (List Int × Ex K)) : List (Assign K) :=
  sel.filterMap fun c => (g c).map fun p => ⟨⟨arr, c, p.1⟩, p.2⟩

/-- The components selected by the tags: `tags & BC::E`, `tags & BC::B` (global.h:306-332; in GR
`BC::D` and `BC::H` have the same bits). -/
def tagged (setE setB : Bool) : List Nat :=
  (if setE = true then [0, 1, 2] else []) ++ (if setB = true then [3, 4, 5] else [])

/-- Component `c` of a cell sits half a cell further along axis `a` (the `+ HALF` in the coordinates
passed to the metric, fields_bcs.hpp:101-160, 180-335, 352-510, 900-960, 990-1060, 1090-1170): the
electric components along their own axis, the magnetic ones along the two others. -/
def halfAlong (c a : Nat) : Bool := if c < 3 then c == a else c != a + 3

/-- The numbers of active cells and `N_GHOSTS` of a subdomain. -/
structure Mesh where
  ng : Nat
  n : List Nat

/-- `i_min`, `i_max` (grid.h:86-108). -/
def Mesh.iMin (M : Mesh) : Int := M.ng
def Mesh.iMax (M : Mesh) (o : Nat) : Int := M.n.getD o 0 + M.ng

/-! ## Conducting wall -/

/-- `ConductorBoundaries_kernel<D, o, P>` (fields_bcs.hpp:524-812) for component `c` and thread `t`;
`e` is `i_edge`. -/
def conductorAt (o : Nat) (P : Bool) (e : Int) (t : List Int) (c : Nat) :
    Option (List Int × Ex K) :=
  let i := t.getD o 0
  let F (k : Int) : Ex K := .ld ⟨0, c, t.set o k⟩
  if halfAlong c o = true then
    if i = 0 then none
    else if P = true then some (t.set o (e + i - 1), F (e - i))
    else some (t.set o (e - i), F (e + i - 1))
  else
    if i = 0 then some (t.set o e, .lit 0)
    else if P = true then some (t.set o (e + i), -F (e - i))
    else some (t.set o (e - i), -F (e + i))

/-- The range of `PerfectConductorFieldsIn` (srpic/fields_bcs.h:376-389). -/
def conductorRange (M : Mesh) (o : Nat) (P : Bool) : List (Int × Int) :=
  M.n.mapIdx fun (d n : Nat) =>
    if d = o then (0, if P = true then (M.ng : Int) else M.ng + 1) else (0, (n : Int) + 2 * M.ng)

/-- `PerfectConductorFieldsIn` (srpic/fields_bcs.h:350-471) at the upper (`P`) or lower end of axis
`o`. -/
def conductor (M : Mesh) (o : Nat) (P setE setB : Bool) (m m' : Mem K) : Prop :=
  Launch (box (conductorRange M o P))
    (fun t => byComp 0 (tagged setE setB)
      (conductorAt o P (if P = true then M.iMax o else M.iMin) t)) m m'

/-! ## Fixed fields -/

/-- The range of `FixedFieldsIn` (srpic/fields_bcs.h:258-275). -/
def fixedRange (M : Mesh) (o : Nat) (P : Bool) : List (Int × Int) :=
  M.n.mapIdx fun (d n : Nat) =>
    if d = o then (if P = true then ((n : Int) + M.ng, (n : Int) + 2 * M.ng) else (0, (M.ng : Int)))
    else (0, (n : Int) + 2 * M.ng)

/-- `FixedFieldsIn` (srpic/fields_bcs.h:240-347) with Cartesian coordinates.  `val c` is what
`pgen.FixFieldsConst` returns for component `c`: a value in the code basis (`value_U`) or nothing
(`shouldset = false`).  The `deep_copy` to a subview is a kernel that stores the value in each cell; the
copies for the components one after the other are one kernel here. -/
def fixed (M : Mesh) (o : Nat) (P setE setB : Bool) (val : Nat → Option K) (m m' : Mem K) : Prop :=
  Launch (box (fixedRange M o P))
    (fun t => byComp 0 (tagged setE setB) (fun c => (val c).map fun v => (t, .lit v))) m m'

/-! ## Fields given by the problem generator -/

/-- What the kernels that evaluate a field setter know. -/
structure Setter where
  /-- `metric.convert<i, Cd, Ph>` along the axis of the boundary. -/
  conv1 : ℝ → ℝ
  /-- `metric.convert<Cd, Ph>`. -/
  conv : List ℝ → List ℝ
  /-- `metric.transform<c, T, U>` at a code position; in GR the value is stored as it is. -/
  toU : Nat → List ℝ → ℝ → ℝ
  /-- The components the setter has (`HasEx1`, …) as functions of the physical position. -/
  fset : Nat → Option (List ℝ → ℝ)

/-- The code position of component `c` of cell `t`: `COORD(i)`, `COORD(i) + HALF`
(`COORD(I) = I - N_GHOSTS`, global.h:139-140). -/
noncomputable def pos (ng : Nat) (c : Nat) (t : List Int) : List ℝ :=
  t.mapIdx fun a i => ((i - (ng : Int) : Int) : ℝ) + if halfAlong c a = true then 1 / 2 else 0

/-- The value the setter prescribes for component `c` of cell `t`, in the code basis. -/
noncomputable def Setter.target (S : Setter) (ng c : Nat) (t : List Int) : Option ℝ :=
  (S.fset c).map fun h => S.toU c (pos ng c t) (h (S.conv (pos ng c t)))

/-- Parameters of `MatchBoundaries_kernel` (fields_bcs.hpp:58-89): orientation, edge, thickness, and
for grids with an axis whether the ends along `x2` are axes, with the extent of the array along `x2`. -/
structure Match where
  o : Nat
  edge : ℝ
  ds : ℝ
  axisLo : Bool := false
  axisHi : Bool := false
  extent2 : Int := 0

/-- `shape(|x - x_edge|)` (fields_bcs.hpp:91-93) at the position of component `c` of cell `t`. -/
noncomputable def weight (S : Setter) (p : Match) (ng c : Nat) (t : List Int) : ℝ :=
  Real.tanh (|S.conv1 ((pos ng c t).getD p.o 0) - p.edge| * 4 / p.ds)

/-- The third electric component is not driven on an axis (fields_bcs.hpp:292-299, 302-306, 417-423). -/
def driven (p : Match) (ng c : Nat) (t : List Int) : Bool :=
  c != 2 || ((!p.axisLo || decide ((ng : Int) < t.getD 1 0)) &&
    (!p.axisHi || decide (t.getD 1 0 < p.extent2 - ng)))

/-- `MatchBoundaries_kernel` (fields_bcs.hpp:41-522) for component `c` of cell `t`.  For the third
electric component the source stores `s * F` and then adds the rest; here it is one store. -/
noncomputable def matchAt (S : Setter) (p : Match) (ng : Nat) (t : List Int) (c : Nat) :
    Option (List Int × Ex ℝ) :=
  (S.target ng c t).map fun v =>
    let s := weight S p ng c t
    (t, if driven p ng c t = true then .lit s * .ld ⟨0, c, t⟩ + .lit (1 - s) * .lit v
      else .lit s * .ld ⟨0, c, t⟩)

/-- The launch of the matching kernel over a range. -/
noncomputable def matchKernel (S : Setter) (p : Match) (ng : Nat) (setE setB : Bool)
    (r : List (Int × Int)) (m m' : Mem ℝ) : Prop :=
  Launch (box r) (fun t => byComp 0 (tagged setE setB) (matchAt S p ng t)) m m'

/-- The layer of `MatchFieldsIn` (srpic/fields_bcs.h:77-87, grpic/fields_bcs.h:56-66): extent of the
global grid along the axis, thickness and side to `xg_min`, `xg_max`, `xg_edge`. -/
def matchLayer {R : Type} [Field R] (ext : R × R) (ds : R) (P : Bool) : R × R × R :=
  if P = true then (ext.2 - ds, ext.2, ext.2) else (ext.1, ext.1 + ds, ext.1)

/-- `incl_ghosts` along the axis of the boundary (srpic/fields_bcs.h:90-97; in GR only the upper radial
boundary can be of this type and grpic/fields_bcs.h:70-72 has the same entry). -/
def matchGhosts (P : Bool) : Bool × Bool :=
  if P = true then (false, true) else (true, false)

/-- The range of cells along the axis of the boundary that `MatchFieldsIn` launches the kernel on:
`Intersects`, then `ExtentToRange` (srpic/fields_bcs.h:102-112), with Cartesian coordinates; `none` if
the subdomain does not meet the layer.  `a` describes the subdomain, `ext` the global grid. -/
def matchRange {R : Type} [Field R] [LinearOrder R] [FloorRing R] (ng : Nat) (P : Bool)
    (ext : R × R) (ds : R) (a : MeshBox.Axis R) : Option (Int × Int) :=
  let l := matchLayer ext ds P
  let b : MeshBox.Bnd R × MeshBox.Bnd R := (.at l.1, .at l.2.1)
  match MeshBox.intersects [a.ext] [b] with
  | .ok true => some (MeshBox.rangeEntry ng a.ext a.dx a.n (matchGhosts P) b)
  | _ => none

/-! ## Atmosphere -/

/-- `EnforcedBoundaries_kernel<M, FS, P, O>` (fields_bcs.hpp:872-1177) for component `c` of cell `t`;
`e` is the member `i_edge`. -/
noncomputable def enforcedAt (S : Setter) (ng o : Nat) (P : Bool) (e : Int) (t : List Int) (c : Nat) :
    Option (List Int × Ex ℝ) :=
  if halfAlong c o = true ∧ ¬ (if P = true then e ≤ t.getD o 0 else t.getD o 0 < e) then none
  else (S.target ng c t).map fun v => (t, .lit v)

/-- `i_edge` of the kernel: `il_edge` of `AtmosphereFieldsIn` (srpic/fields_bcs.h:519-524) plus
`N_GHOSTS` (fields_bcs.hpp:897). -/
def atmEdge (ng : Nat) (P : Bool) (r : Int × Int) : Int :=
  (if P = true then r.1 - ng else r.2 - 1 - ng) + ng

/-- The launch of `AtmosphereFieldsIn` (srpic/fields_bcs.h:525-604) on the range `r`. -/
noncomputable def atmosphere (S : Setter) (ng o : Nat) (P setE setB : Bool) (r : List (Int × Int))
    (m m' : Mem ℝ) : Prop :=
  Launch (box r) (fun t => byComp 0 (tagged setE setB)
    (enforcedAt S ng o P (atmEdge ng P (r.getD o (0, 0))) t)) m m'

/-- `buffer_ncells` (srpic/utils.h:55-58). -/
def bufferCells (filters : Nat) : Nat := if filters + 2 > 5 then filters + 2 else 5

/-- `ig_min`, `ig_max` of `GetAtmosphereExtent` (srpic/utils.h:65-72); `n` is the number of cells of the
global grid, at least `buffer_ncells`. -/
def atmCells (n filters : Nat) (P : Bool) : Nat × Nat :=
  if P = true then (n - bufferCells filters, n) else (0, bufferCells filters)

/-- The range along the axis of an undivided Cartesian grid that starts at `x0` and has cells of size
`dx` (srpic/utils.h:74-98, srpic/fields_bcs.h:493-518). -/
def atmRange {R : Type} [Field R] [LinearOrder R] [FloorRing R] (ng n filters : Nat) (P : Bool)
    (x0 dx : R) : Int × Int :=
  let g := atmCells n filters P
  MeshBox.rangeEntry ng (x0, x0 + n * dx) dx n (if P = true then (false, true) else (true, false))
    (.at (x0 + g.1 * dx), .at (x0 + g.2 * dx))

/-! ## Horizon and absorption of currents (GR) -/

/-- `gr::HorizonBoundaries_kernel` (fields_bcs.hpp:1201-1232), one thread per `i2`; `a` is the array. -/
def horizonBody (a : Nat) (ng : Nat) (i1min : Int) (nfilter : Nat) (setE setB : Bool) :
    List Int → List (Assign K)
  | [i2] =>
    let copies (cs : List Nat) : List (Assign K) :=
      (List.range (2 + nfilter + 1)).flatMap fun (i : Nat) => cs.map fun c =>
        ⟨⟨a, c, [i1min - ng + i, i2]⟩, .ld ⟨a, c, [i1min + 1 + nfilter, i2]⟩⟩
    (if setE = true then copies [0, 1, 2] else []) ++ (if setB = true then copies [3, 4, 5] else [])
  | _ => []

/-- `HorizonFieldsIn` (grpic/fields_bcs.h:139-178) on one of the two arrays. -/
def horizon (M : Mesh) (a : Nat) (nfilter : Nat) (setE setB : Bool) (m m' : Mem K) : Prop :=
  Launch (box [(M.iMin, M.iMax 1 + 1)]) (horizonBody a M.ng M.iMin nfilter setE setB) m m'

/-- `gr::AbsorbCurrents_kernel<M, 1>` (fields_bcs.hpp:1259-1275) for component `c` of the current in cell
`t`: `INV_4 * dx_abs` is the length of the profile; `a` is the array of currents. -/
noncomputable def absorbAt (a : Nat) (ng : Nat) (conv1 : ℝ → ℝ) (edge ds : ℝ) (t : List Int) (c : Nat) :
    Option (List Int × Ex ℝ) :=
  some (t, .ld ⟨a, c, t⟩ *
    .lit (Real.tanh (|conv1 ((t.getD 0 0 - (ng : Int) : Int) : ℝ) - edge| / (1 / 4 * ds))))

/-- The launch of `gr::AbsorbCurrents_kernel` over a range (grpic/fields_bcs.h:120-128). -/
noncomputable def absorbCurrents (a : Nat) (ng : Nat) (conv1 : ℝ → ℝ) (edge ds : ℝ)
    (r : List (Int × Int)) (m m' : Mem ℝ) : Prop :=
  Launch (box r) (fun t => byComp a [0, 1, 2] (absorbAt a ng conv1 edge ds t)) m m'

end Entity.FieldBC
