import Verif.Model.FieldSolver

/-!
# Field solvers on curvilinear grids
(src/kernels/faraday_sr.hpp, ampere_sr.hpp, faraday_gr.hpp, ampere_gr.hpp, aux_fields_gr.hpp, the axis
kernel of fields_bcs.hpp, src/engines/{srpic,grpic}/fieldsolvers.h, srpic.hpp, grpic.hpp)

All of these exist in two dimensions only.  One subdomain is modelled.  The kernel bodies are
transcribed term by term, at the absolute cell `(i1, i2)`; the geometric factors are parameters
(`CMetric`), so the theorems hold for every metric.  The operations on numbers are arbitrary.
-/

namespace Entity.Curvi

open Entity.Kernel Entity.FieldSolver

variable {K : Type} [Add K] [Sub K] [Mul K] [Div K] [Neg K] [Zero K] [One K] [NatCast K] [IntCast K]

/-- The functions of a metric that the solvers use (in code coordinates): `h_<i,j>`, `sqrt_det_h`,
`sqrt_det_h_tilde`, `alpha`, `beta1`, `polar_area` (src/metrics/*.h). -/
structure CMetric (K : Type) where
  h11 : K → K → K
  h22 : K → K → K
  h33 : K → K → K
  h13 : K → K → K
  sqrtDet : K → K → K
  sqrtDetT : K → K → K
  alpha : K → K → K
  beta1 : K → K → K
  polarArea : K → K

/-- Number of ghost cells and of active cells of the subdomain; whether its lower and upper `x2` edges
are a polar axis (`boundaries[1].first / second == FldsBC::AXIS`). -/
structure CGrid where
  ng : Int
  n1 : Nat
  n2 : Nat
  axisLo : Bool
  axisHi : Bool

namespace CGrid

/-- `mesh.i_min`, `mesh.i_max` (grid.h). -/
def i1min (g : CGrid) : Int := g.ng
def i1max (g : CGrid) : Int := g.ng + g.n1
def i2min (g : CGrid) : Int := g.ng
def i2max (g : CGrid) : Int := g.ng + g.n2

end CGrid

/-- `COORD(i)` (global.h:139-140). -/
def coord (g : CGrid) (i : Int) : K := ((i - g.ng : Int) : K)

/-- `HALF` (numeric.h). -/
def half : K := 1 / 2

/-! Arrays of a subdomain (fields.h). -/

def emA : Nat := 0
def curA : Nat := 1
def em0A : Nat := 3
def auxA : Nat := 4
def cur0A : Nat := 5

/-- `A(i1, i2, em::c)`; `em::dx*` are `em::ex*` and `em::hx*` are `em::bx*` (global.h:142-155). -/
def fL (a : Nat) (c : Em) (i1 i2 : Int) : Loc := ⟨a, c.toNat, [i1, i2]⟩
/-- `A(i1, i2, cur::c)`. -/
def jL (a : Nat) (c : Cc) (i1 i2 : Int) : Loc := ⟨a, c.toNat, [i1, i2]⟩
def f (a : Nat) (c : Em) (i1 i2 : Int) : Ex K := .ld (fL a c i1 i2)
def j (a : Nat) (c : Cc) (i1 i2 : Int) : Ex K := .ld (jL a c i1 i2)

/-- `CreateRangePolicy({a, c}, {b, d})`. -/
def box (a b c d : Int) : List (List Int) :=
  (List.range (b - a).toNat).flatMap fun (k : Nat) =>
    (List.range (d - c).toNat).map fun (l : Nat) => [a + (k : Int), c + (l : Int)]

/-! ## Special relativity -/

/-- `kernel::sr::Faraday_kernel` (faraday_sr.hpp:53-85). -/
def faradaySR (M : CMetric K) (g : CGrid) (coeff : K) : List Int → List (Assign K)
  | [i1, i2] =>
    let x1 : K := coord g i1
    let x2 : K := coord g i2
    let inv_0pH := 1 / M.sqrtDet x1 (x2 + half)
    let inv_pHpH := 1 / M.sqrtDet (x1 + half) (x2 + half)
    let h1_pHp1 := M.h11 (x1 + half) (x2 + 1)
    let h1_pH0 := M.h11 (x1 + half) x2
    let h2_p1pH := M.h22 (x1 + 1) (x2 + half)
    let h2_0pH := M.h22 x1 (x2 + half)
    let h3_00 := M.h33 x1 x2
    let h3_0p1 := M.h33 x1 (x2 + 1)
    [ fL emA .bx1 i1 i2 +=. .lit (coeff * inv_0pH) *
        (.lit h3_00 * f emA .ex3 i1 i2 - .lit h3_0p1 * f emA .ex3 i1 (i2 + 1)) ] ++
    (if i2 ≠ g.i2min ∨ g.axisLo = false then
      let inv_pH0 := 1 / M.sqrtDet (x1 + half) x2
      let h3_p10 := M.h33 (x1 + 1) x2
      [ fL emA .bx2 i1 i2 +=. .lit (coeff * inv_pH0) *
          (.lit h3_p10 * f emA .ex3 (i1 + 1) i2 - .lit h3_00 * f emA .ex3 i1 i2) ]
    else []) ++
    [ fL emA .bx3 i1 i2 +=. .lit (coeff * inv_pHpH) *
        (.lit h1_pHp1 * f emA .ex1 i1 (i2 + 1) - .lit h1_pH0 * f emA .ex1 i1 i2 +
          .lit h2_0pH * f emA .ex2 i1 i2 - .lit h2_p1pH * f emA .ex2 (i1 + 1) i2) ]
  | _ => []

/-- `kernel::sr::Ampere_kernel` (ampere_sr.hpp:57-110). -/
def ampereSR (M : CMetric K) (g : CGrid) (coeff : K) : List Int → List (Assign K)
  | [i1, i2] =>
    let x1 : K := coord g i1
    let x2 : K := coord g i2
    let inv_0pH := 1 / M.sqrtDet x1 (x2 + half)
    let h3_mHpH := M.h33 (x1 - half) (x2 + half)
    let h3_pHpH := M.h33 (x1 + half) (x2 + half)
    if i2 = g.i2min ∧ g.axisLo = true then
      let inv_area := 1 / M.polarArea (x1 + half)
      [ fL emA .ex1 i1 i2 +=. .lit (inv_area * coeff) * (.lit h3_pHpH * f emA .bx3 i1 i2),
        fL emA .ex2 i1 i2 +=. .lit (coeff * inv_0pH) *
          (.lit h3_mHpH * f emA .bx3 (i1 - 1) i2 - .lit h3_pHpH * f emA .bx3 i1 i2) ]
    else if i2 = g.i2max ∧ g.axisHi = true then
      let inv_area := 1 / M.polarArea (x1 + half)
      let h3_pHmH := M.h33 (x1 + half) (x2 - half)
      [ fL emA .ex1 i1 i2 +=. -(.lit (inv_area * coeff) * (.lit h3_pHmH * f emA .bx3 i1 i2)) ]
    else
      let inv_00 := 1 / M.sqrtDet x1 x2
      let inv_pH0 := 1 / M.sqrtDet (x1 + half) x2
      let h1_0mH := M.h11 x1 (x2 - half)
      let h1_0pH := M.h11 x1 (x2 + half)
      let h2_pH0 := M.h22 (x1 + half) x2
      let h2_mH0 := M.h22 (x1 - half) x2
      let h3_pHmH := M.h33 (x1 + half) (x2 - half)
      [ fL emA .ex1 i1 i2 +=. .lit (coeff * inv_pH0) *
          (.lit h3_pHpH * f emA .bx3 i1 i2 - .lit h3_pHmH * f emA .bx3 i1 (i2 - 1)),
        fL emA .ex2 i1 i2 +=. .lit (coeff * inv_0pH) *
          (.lit h3_mHpH * f emA .bx3 (i1 - 1) i2 - .lit h3_pHpH * f emA .bx3 i1 i2),
        fL emA .ex3 i1 i2 +=. .lit (coeff * inv_00) *
          (.lit h1_0mH * f emA .bx1 i1 (i2 - 1) - .lit h1_0pH * f emA .bx1 i1 i2 +
            .lit h2_pH0 * f emA .bx2 i1 i2 - .lit h2_mH0 * f emA .bx2 (i1 - 1) i2) ]
  | _ => []

/-- `l *= c`. -/
def timesEq (l : Loc) (c : K) : Assign K := ⟨l, .ld l * .lit c⟩

/-- `kernel::sr::CurrentsAmpere_kernel` (ampere_sr.hpp:160-200). -/
def currentsSR (M : CMetric K) (g : CGrid) (coeff inv_n0 : K) : List Int → List (Assign K)
  | [i1, i2] =>
    let x1 : K := coord g i1
    let x2 : K := coord g i2
    (if i2 = g.i2min ∧ g.axisLo = true then
      [ timesEq (jL curA .jx1 i1 i2) (inv_n0 * half / M.polarArea (x1 + half)),
        timesEq (jL curA .jx2 i1 i2) (inv_n0 / M.sqrtDet x1 (x2 + half)),
        fL emA .ex2 i1 i2 +=. j curA .jx2 i1 i2 * .lit coeff,
        jL curA .jx3 i1 i2 :=. .lit 0 ]
    else if i2 = g.i2max ∧ g.axisHi = true then
      [ timesEq (jL curA .jx1 i1 i2) (inv_n0 * half / M.polarArea (x1 + half)),
        jL curA .jx3 i1 i2 :=. .lit 0 ]
    else
      [ timesEq (jL curA .jx1 i1 i2) (inv_n0 / M.sqrtDet (x1 + half) x2),
        timesEq (jL curA .jx2 i1 i2) (inv_n0 / M.sqrtDet x1 (x2 + half)),
        fL emA .ex2 i1 i2 +=. j curA .jx2 i1 i2 * .lit coeff,
        timesEq (jL curA .jx3 i1 i2) (inv_n0 / M.sqrtDet x1 x2),
        fL emA .ex3 i1 i2 +=. j curA .jx3 i1 i2 * .lit coeff ]) ++
    [ fL emA .ex1 i1 i2 +=. j curA .jx1 i1 i2 * .lit coeff ]
  | _ => []

/-- `AxisBoundaries_kernel<D, P>` (fields_bcs.hpp:838-866), one thread per `i1`; `a` is the array,
`e` is `i_edge`. -/
def axisBody (P : Bool) (a : Nat) (e : Int) (setE setB : Bool) : List Int → List (Assign K)
  | [i1] =>
    if P = false then
      (if setE = true then
        [ fL a .ex2 i1 (e - 1) :=. -f a .ex2 i1 e,
          fL a .ex3 i1 e :=. .lit 0,
          fL a .ex3 i1 (e - 1) :=. f a .ex3 i1 (e + 1) ] else []) ++
      (if setB = true then
        [ fL a .bx1 i1 (e - 1) :=. f a .bx1 i1 e,
          fL a .bx2 i1 e :=. .lit 0,
          fL a .bx2 i1 (e - 1) :=. -f a .bx2 i1 (e + 1),
          fL a .bx3 i1 (e - 1) :=. f a .bx3 i1 e ] else [])
    else
      (if setE = true then
        [ fL a .ex2 i1 e :=. -f a .ex2 i1 (e - 1),
          fL a .ex3 i1 e :=. .lit 0,
          fL a .ex3 i1 (e + 1) :=. f a .ex3 i1 (e - 1) ] else []) ++
      (if setB = true then
        [ fL a .bx1 i1 e :=. f a .bx1 i1 (e - 1),
          fL a .bx2 i1 e :=. .lit 0,
          fL a .bx2 i1 (e + 1) :=. -f a .bx2 i1 (e - 1),
          fL a .bx3 i1 e :=. f a .bx3 i1 (e - 1) ] else [])
  | _ => []

/-! ### Ranges and calls -/

/-- What a piece of the step may do to the memory. -/
abbrev Rel (K : Type) := Mem K → Mem K → Prop

/-- One piece after the other. -/
def Seq : List (Rel K) → Rel K
  | [] => fun m m' => m' = m
  | r :: rs => fun m m' => ∃ m1, r m m1 ∧ Seq rs m1 m'

/-- `mesh.rangeActiveCells()` (mesh.h). -/
def rangeActive (g : CGrid) : List (List Int) := box g.i1min g.i1max g.i2min g.i2max

/-- `RangeWithAxisBCs` of the SR engine (srpic/utils.h:103-128). -/
def rangeAxisSR (g : CGrid) : List (List Int) :=
  if g.axisHi = true then box g.i1min g.i1max g.i2min (g.i2max + 1) else rangeActive g

/-- `n_all(in::x1)` threads. -/
def rangeAll1 (g : CGrid) : List (List Int) :=
  (List.range (g.n1 + 2 * g.ng.toNat)).map fun (k : Nat) => [(k : Int)]

/-- `AxisFieldsIn` for the lower, then the upper edge, on array `a` (srpic/fields_bcs.h:204-237,
grpic/fields_bcs.h:178-220; `FieldBoundaries` calls it for the edges that are an axis). -/
def axisBC (g : CGrid) (a : Nat) (setE setB : Bool) : Rel K :=
  Seq [ fun m m' => if g.axisLo = true then
          Launch (rangeAll1 g) (axisBody false a g.i2min setE setB) m m' else m' = m,
        fun m m' => if g.axisHi = true then
          Launch (rangeAll1 g) (axisBody true a g.i2max setE setB) m m' else m' = m ]

/-- Everything else that happens to the fields between two kernels: exchange of the ghost cells
(`CommunicateFields`) and the boundary conditions other than the axis (match, conductor, fixed,
horizon, custom).  The only assumption is where it does *not* write: columns `a ≤ i1 < b` of the
active cells and, if the upper edge is an axis, of the row on the axis. -/
def Keeps (g : CGrid) (a b : Int) (arrs : List Nat) : Rel K := fun m m' =>
  ∀ A ∈ arrs, ∀ c i1 i2, a ≤ i1 → i1 < b → g.i2min ≤ i2 →
    (i2 < g.i2max ∨ (i2 = g.i2max ∧ g.axisHi = true)) → m' ⟨A, c, [i1, i2]⟩ = m ⟨A, c, [i1, i2]⟩

/-- `FieldBoundaries` (srpic/fields_bcs.h:621-657, grpic/fields_bcs.h:234-266): the directions in turn. -/
def fieldBCs (g : CGrid) (a b : Int) (all arrs : List Nat) (setE setB : Bool) : Rel K :=
  Seq (Keeps g a b all :: arrs.map (fun A => axisBC g A setE setB) ++ [Keeps g a b all])

/-- The current arrays after the particles have been pushed and `CurrentsDeposit`,
`SynchronizeFields(J)`, `CommunicateFields(J)`, the absorption of currents and `CurrentsFilter` have
run: some values `J`.  The electromagnetic arrays are not touched. -/
def Deposited (A : Nat) (em : List Nat) (J : Cc → Int → Int → K) : Rel K := fun m m' =>
  (∀ c i1 i2, m' (jL A c i1 i2) = J c i1 i2) ∧ ∀ E ∈ em, ∀ c idx, m' ⟨E, c, idx⟩ = m ⟨E, c, idx⟩

/-- Numbers a step depends on: `dt`, `algorithms.timestep.correction`, `scales.q0`, `scales.n0`,
`scales.B0`. -/
structure StepPrm (K : Type) where
  dt : K
  correction : K
  q0 : K
  n0 : K
  B0 : K

/-- `srpic::Faraday` with `fraction` (srpic/fieldsolvers.h:36-46, 90-96). -/
def srFaraday (M : CMetric K) (g : CGrid) (p : StepPrm K) (fraction : K) : Rel K :=
  Launch (rangeActive g) (faradaySR M g (fraction * p.correction * p.dt))

/-- `srpic::Ampere` (srpic/fieldsolvers.h:100-140). -/
def srAmpere (M : CMetric K) (g : CGrid) (p : StepPrm K) (fraction : K) : Rel K :=
  Launch (rangeAxisSR g) (ampereSR M g (fraction * p.correction * p.dt))

/-- `srpic::CurrentsAmpere`, non-Minkowski (srpic/fieldsolvers.h:186-200). -/
def srCurrents (M : CMetric K) (g : CGrid) (p : StepPrm K) : Rel K :=
  Launch (rangeAxisSR g) (currentsSR M g (-p.dt * p.q0 * p.n0 / p.B0) (1 / p.n0))

/-- `SRPICEngine::step_forward` (srpic.hpp:66-188) as far as the fields are concerned, in the order of
the code.  `some J`: deposition is enabled and yields the currents `J`. -/
def srStep (M : CMetric K) (g : CGrid) (p : StepPrm K) (a b : Int)
    (J : Option (Cc → Int → Int → K)) : Rel K :=
  Seq ([ srFaraday M g p half, Keeps g a b [emA, curA], fieldBCs g a b [emA, curA] [emA] false true ] ++
    (match J with | some J => [Deposited curA [emA] J] | none => []) ++
    [ srFaraday M g p half, Keeps g a b [emA, curA], fieldBCs g a b [emA, curA] [emA] false true,
      srAmpere M g p 1 ] ++
    (match J with | some _ => [srCurrents M g p] | none => []) ++
    [ Keeps g a b [emA, curA], fieldBCs g a b [emA, curA] [emA] true false ])

/-! ## General relativity -/

/-- `kernel::gr::Faraday_kernel` (faraday_gr.hpp:62-93). -/
def faradayGR (M : CMetric K) (g : CGrid) (bin bout e : Nat) (coeff : K) :
    List Int → List (Assign K)
  | [i1, i2] =>
    let x1 : K := coord g i1
    let x2 : K := coord g i2
    let inv_0pH := 1 / M.sqrtDet x1 (x2 + half)
    let inv_pHpH := 1 / M.sqrtDet (x1 + half) (x2 + half)
    [ fL bout .bx1 i1 i2 :=. f bin .bx1 i1 i2 + .lit (coeff * inv_0pH) *
        (f e .ex3 i1 i2 - f e .ex3 i1 (i2 + 1)) ] ++
    (if i2 = g.i2min ∧ g.axisLo = true then
      [ fL bout .bx2 i1 i2 :=. .lit 0 ]
    else
      let inv_pH0 := 1 / M.sqrtDet (x1 + half) x2
      [ fL bout .bx2 i1 i2 :=. f bin .bx2 i1 i2 + .lit (coeff * inv_pH0) *
          (f e .ex3 (i1 + 1) i2 - f e .ex3 i1 i2) ]) ++
    [ fL bout .bx3 i1 i2 :=. f bin .bx3 i1 i2 + .lit (coeff * inv_pHpH) *
        (f e .ex1 i1 (i2 + 1) - f e .ex1 i1 i2 + f e .ex2 i1 i2 - f e .ex2 (i1 + 1) i2) ]
  | _ => []

/-- `kernel::gr::Ampere_kernel` (ampere_gr.hpp:65-101). -/
def ampereGR (M : CMetric K) (g : CGrid) (din dout h : Nat) (coeff : K) :
    List Int → List (Assign K)
  | [i1, i2] =>
    let x1 : K := coord g i1
    let x2 : K := coord g i2
    let inv_0pH := 1 / M.sqrtDet x1 (x2 + half)
    if i2 = g.i2min ∧ g.axisLo = true then
      let inv_0pH := 1 / M.sqrtDet x1 half
      [ fL dout .ex1 i1 i2 :=. f din .ex1 i1 (i2 + 1),
        fL dout .ex2 i1 i2 :=. f din .ex2 i1 i2 + .lit (coeff * inv_0pH) *
          (f h .bx3 (i1 - 1) i2 - f h .bx3 i1 i2) ]
    else if i2 = g.i2max ∧ g.axisHi = true then
      [ fL dout .ex1 i1 i2 :=. f din .ex1 i1 (i2 - 1) ]
    else
      let inv_00 := 1 / M.sqrtDet x1 x2
      let inv_pH0 := 1 / M.sqrtDet (x1 + half) x2
      [ fL dout .ex1 i1 i2 :=. f din .ex1 i1 i2 + .lit (coeff * inv_pH0) *
          (f h .bx3 i1 i2 - f h .bx3 i1 (i2 - 1)),
        fL dout .ex2 i1 i2 :=. f din .ex2 i1 i2 + .lit (coeff * inv_0pH) *
          (f h .bx3 (i1 - 1) i2 - f h .bx3 i1 i2),
        fL dout .ex3 i1 i2 :=. f din .ex3 i1 i2 + .lit (coeff * inv_00) *
          ((f h .bx1 i1 (i2 - 1) - f h .bx1 i1 i2) + (f h .bx2 i1 i2 - f h .bx2 (i1 - 1) i2)) ]
  | _ => []

/-- `kernel::gr::CurrentsAmpere_kernel` (ampere_gr.hpp:145-181). -/
def currentsGR (M : CMetric K) (g : CGrid) (df jA : Nat) (coeff : K) : List Int → List (Assign K)
  | [i1, i2] =>
    let x1 : K := coord g i1
    let x2 : K := coord g i2
    let inv_0pH := 1 / M.sqrtDet x1 (x2 + half)
    if i2 = g.i2min ∧ g.axisLo = true then
      [ fL df .ex1 i1 i2 +=. j jA .jx1 i1 i2 * .lit half * .lit coeff /
          .lit (M.polarArea (x1 + half)),
        fL df .ex2 i1 i2 +=. j jA .jx2 i1 i2 * .lit coeff * .lit inv_0pH ]
    else if i2 = g.i2max ∧ g.axisHi = true then
      [ fL df .ex1 i1 i2 +=. j jA .jx1 i1 i2 * .lit half * .lit coeff /
          .lit (M.polarArea (x1 + half)) ]
    else
      let inv_00 := 1 / M.sqrtDet x1 x2
      let inv_pH0 := 1 / M.sqrtDet (x1 + half) x2
      [ fL df .ex1 i1 i2 +=. j jA .jx1 i1 i2 * .lit coeff * .lit inv_pH0,
        fL df .ex2 i1 i2 +=. j jA .jx2 i1 i2 * .lit coeff * .lit inv_0pH,
        fL df .ex3 i1 i2 +=. j jA .jx3 i1 i2 * .lit coeff * .lit inv_00 ]
  | _ => []

/-- Average of `c · A` between two points with the weights `sqrt_det_h_tilde` (the `w1, w2, ww` of
aux_fields_gr.hpp). -/
def wavg (w1 c1 : K) (l1 : Loc) (w2 c2 : K) (l2 : Loc) (w : K) : Ex K :=
  (.lit (w1 * c1) * .ld l1 + .lit (w2 * c2) * .ld l2) / .lit (2 * w)

/-- `ComputeAuxE_kernel` (aux_fields_gr.hpp:51-117). -/
def auxE (M : CMetric K) (g : CGrid) (df bf : Nat) : List Int → List (Assign K)
  | [i1, i2] =>
    let x1 : K := coord g i1
    let x2 : K := coord g i2
    let D1_half : Ex K := wavg
      (M.sqrtDetT (x1 - half) x2) (M.h13 (x1 - half) x2) (fL df .ex1 (i1 - 1) i2)
      (M.sqrtDetT (x1 + half) x2) (M.h13 (x1 + half) x2) (fL df .ex1 i1 i2)
      (M.sqrtDetT x1 x2)
    let B2_half : Ex K := wavg
      (M.sqrtDetT (x1 - half) x2) (M.sqrtDet (x1 - half) x2 * M.beta1 (x1 - half) x2)
        (fL bf .bx2 (i1 - 1) i2)
      (M.sqrtDetT (x1 + half) x2) (M.sqrtDet (x1 + half) x2 * M.beta1 (x1 + half) x2)
        (fL bf .bx2 i1 i2)
      (M.sqrtDetT x1 x2)
    let B3_half : Ex K := wavg
      (M.sqrtDetT (x1 - half) (x2 + half))
        (M.sqrtDet (x1 - half) (x2 + half) * M.beta1 (x1 - half) (x2 + half)) (fL bf .bx3 (i1 - 1) i2)
      (M.sqrtDetT (x1 + half) (x2 + half))
        (M.sqrtDet (x1 + half) (x2 + half) * M.beta1 (x1 + half) (x2 + half)) (fL bf .bx3 i1 i2)
      (M.sqrtDetT x1 (x2 + half))
    let D3_half : Ex K := wavg
      (M.sqrtDetT x1 x2) (M.h13 x1 x2) (fL df .ex3 i1 i2)
      (M.sqrtDetT (x1 + 1) x2) (M.h13 (x1 + 1) x2) (fL df .ex3 (i1 + 1) i2)
      (M.sqrtDetT (x1 + half) x2)
    let D1_cov : Ex K := .lit (M.h11 (x1 + half) x2) * f df .ex1 i1 i2 + D3_half
    let D2_cov : Ex K := .lit (M.h22 x1 (x2 + half)) * f df .ex2 i1 i2
    let D3_cov : Ex K := .lit (M.h33 x1 x2) * f df .ex3 i1 i2 + D1_half
    [ fL auxA .ex1 i1 i2 :=. .lit (M.alpha (x1 + half) x2) * D1_cov,
      fL auxA .ex2 i1 i2 :=. .lit (M.alpha x1 (x2 + half)) * D2_cov - B3_half,
      fL auxA .ex3 i1 i2 :=. .lit (M.alpha x1 x2) * D3_cov + B2_half ]
  | _ => []

/-- `ComputeAuxH_kernel` (aux_fields_gr.hpp:154-225). -/
def auxH (M : CMetric K) (g : CGrid) (df bf : Nat) : List Int → List (Assign K)
  | [i1, i2] =>
    let x1 : K := coord g i1
    let x2 : K := coord g i2
    let B1_half : Ex K := wavg
      (M.sqrtDetT x1 (x2 + half)) (M.h13 x1 (x2 + half)) (fL bf .bx1 i1 i2)
      (M.sqrtDetT (x1 + 1) (x2 + half)) (M.h13 (x1 + 1) (x2 + half)) (fL bf .bx1 (i1 + 1) i2)
      (M.sqrtDetT (x1 + half) (x2 + half))
    let D2_half : Ex K := wavg
      (M.sqrtDetT x1 (x2 + half)) (M.sqrtDet x1 (x2 + half) * M.beta1 x1 (x2 + half))
        (fL df .ex2 i1 i2)
      (M.sqrtDetT (x1 + 1) (x2 + half)) (M.sqrtDet (x1 + 1) (x2 + half) * M.beta1 (x1 + 1) (x2 + half))
        (fL df .ex2 (i1 + 1) i2)
      (M.sqrtDetT (x1 + half) (x2 + half))
    let D3_half : Ex K := wavg
      (M.sqrtDetT x1 x2) (M.sqrtDet x1 x2 * M.beta1 x1 x2) (fL df .ex3 i1 i2)
      (M.sqrtDetT (x1 + 1) x2) (M.sqrtDet (x1 + 1) x2 * M.beta1 (x1 + 1) x2) (fL df .ex3 (i1 + 1) i2)
      (M.sqrtDetT (x1 + half) x2)
    let B3_half : Ex K := wavg
      (M.sqrtDetT (x1 - half) (x2 + half)) (M.h13 (x1 - half) (x2 + half)) (fL bf .bx3 (i1 - 1) i2)
      (M.sqrtDetT (x1 + half) (x2 + half)) (M.h13 (x1 + half) (x2 + half)) (fL bf .bx3 i1 i2)
      (M.sqrtDetT x1 (x2 + half))
    let B1_cov : Ex K := .lit (M.h11 x1 (x2 + half)) * f bf .bx1 i1 i2 + B3_half
    let B2_cov : Ex K := .lit (M.h22 (x1 + half) x2) * f bf .bx2 i1 i2
    let B3_cov : Ex K := .lit (M.h33 (x1 + half) (x2 + half)) * f bf .bx3 i1 i2 + B1_half
    [ fL auxA .bx1 i1 i2 :=. .lit (M.alpha x1 (x2 + half)) * B1_cov,
      fL auxA .bx2 i1 i2 :=. .lit (M.alpha (x1 + half) x2) * B2_cov + D3_half,
      fL auxA .bx3 i1 i2 :=. .lit (M.alpha (x1 + half) (x2 + half)) * B3_cov - D2_half ]
  | _ => []

/-- `TimeAverageDB_kernel` (aux_fields_gr.hpp:262-274): `em0 = ½ (em0 + em)`. -/
def timeAvgDB : List Int → List (Assign K)
  | [i1, i2] => [Em.bx1, .bx2, .bx3, .ex1, .ex2, .ex3].map fun c =>
      fL em0A c i1 i2 :=. .lit half * (f em0A c i1 i2 + f emA c i1 i2)
  | _ => []

/-- `TimeAverageJ_kernel` (aux_fields_gr.hpp:300-306): `cur = ½ (cur0 + cur)`. -/
def timeAvgJ : List Int → List (Assign K)
  | [i1, i2] => [Cc.jx1, .jx2, .jx3].map fun c =>
      jL curA c i1 i2 :=. .lit half * (j cur0A c i1 i2 + j curA c i1 i2)
  | _ => []

/-- `range_with_axis_BCs` of the GR engine (grpic/fieldsolvers.h:55-76). -/
def rangeAxisGR (g : CGrid) : List (List Int) :=
  if g.axisHi = true then box (g.i1min - 1) g.i1max g.i2min (g.i2max + 1)
  else box (g.i1min - 1) g.i1max g.i2min g.i2max

/-- The range of `grpic::Ampere` and `grpic::AmpereCurrents` (grpic/fieldsolvers.h:177-179,
232-234). -/
def rangeAmpereGR (g : CGrid) : List (List Int) := box g.i1min g.i1max g.i2min (g.i2max + 1)

inductive GetE | D0_B | D_B0
inductive GetH | D_B0 | D0_B0
inductive GrFaraday | aux | main
inductive GrAmpere | init | aux | main

/-- `grpic::ComputeAuxE` (grpic/fieldsolvers.h:78-99). -/
def grAuxE (M : CMetric K) (g : CGrid) : GetE → Rel K
  | .D0_B => Launch (rangeAxisGR g) (auxE M g em0A emA)
  | .D_B0 => Launch (rangeAxisGR g) (auxE M g emA em0A)

/-- `grpic::ComputeAuxH` (grpic/fieldsolvers.h:101-122). -/
def grAuxH (M : CMetric K) (g : CGrid) : GetH → Rel K
  | .D_B0 => Launch (rangeAxisGR g) (auxH M g emA em0A)
  | .D0_B0 => Launch (rangeAxisGR g) (auxH M g em0A em0A)

/-- `grpic::Faraday` (grpic/fieldsolvers.h:124-162). -/
def grFaraday (M : CMetric K) (g : CGrid) (p : StepPrm K) (fraction : K) : GrFaraday → Rel K
  | .aux => Launch (rangeActive g) (faradayGR M g em0A em0A auxA (fraction * p.correction * p.dt))
  | .main => Launch (rangeActive g) (faradayGR M g emA em0A auxA (fraction * p.correction * p.dt))

/-- `grpic::Ampere` (grpic/fieldsolvers.h:164-218). -/
def grAmpere (M : CMetric K) (g : CGrid) (p : StepPrm K) (fraction : K) : GrAmpere → Rel K
  | .aux => Launch (rangeAmpereGR g) (ampereGR M g em0A em0A auxA (fraction * p.correction * p.dt))
  | .main => Launch (rangeAmpereGR g) (ampereGR M g emA em0A auxA (fraction * p.correction * p.dt))
  | .init => Launch (rangeAmpereGR g) (ampereGR M g emA emA auxA (fraction * p.correction * p.dt))

/-- `grpic::AmpereCurrents` (grpic/fieldsolvers.h:220-262). -/
def grCurrents (M : CMetric K) (g : CGrid) (p : StepPrm K) (jA : Nat) : Rel K :=
  Launch (rangeAmpereGR g) (currentsGR M g em0A jA (-p.dt * p.q0 / p.B0))

/-- `TimeAverageDB`, `TimeAverageJ` (grpic/utils.h:45-62). -/
def grTimeAvgDB (g : CGrid) : Rel K := Launch (rangeActive g) timeAvgDB
def grTimeAvgJ (g : CGrid) : Rel K := Launch (rangeActive g) timeAvgJ

/-- The array that `SwapFields` makes out of an array (grpic/utils.h:31-38). -/
def swapArr (a : Nat) : Nat :=
  if a = emA then em0A else if a = em0A then emA
  else if a = curA then cur0A else if a = cur0A then curA else a

/-- `SwapFields` (grpic/utils.h:31-38). -/
def grSwap : Rel K := fun m m' => ∀ l : Loc, m' l = m { l with arr := swapArr l.arr }

/-- `CopyFields` (grpic/utils.h:40-43): `em0 = em`. -/
def grCopy : Rel K := fun m m' =>
  ∀ l : Loc, m' l = if l.arr = em0A then m { l with arr := emA } else m l

/-- `CommunicateFields` and `FieldBoundaries(BC::B | BC::D | ..., gr_bc::main)` (grpic.hpp).
`FieldBoundaries(..., gr_bc::aux)` does nothing (grpic/fields_bcs.h:140-176, 253-258: horizon only, and that
kernel is launched for `gr_bc::main` only); the exchange of `aux` is a `Keeps`. -/
def grBCs (g : CGrid) (a b : Int) (setE setB : Bool) : Rel K :=
  Seq [ Keeps g a b [emA, em0A, auxA, curA, cur0A],
        fieldBCs g a b [emA, em0A, auxA, curA, cur0A] [emA, em0A] setE setB ]

/-- `CommunicateFields(E / H)`: like every exchange it leaves the active cells alone. -/
def grCommAux (g : CGrid) (a b : Int) : Rel K := Keeps g a b [emA, em0A, auxA, curA, cur0A]

/-- First-step preparation (grpic.hpp:78-272). -/
def grInit (M : CMetric K) (g : CGrid) (p : StepPrm K) (a b : Int) : Rel K :=
  Seq [ grBCs g a b true true,
        grCopy,
        grAuxE M g .D_B0, grAuxH M g .D_B0, grCommAux g a b,
        grFaraday M g p half .aux, grBCs g a b false true,
        grAmpere M g p half .init, grBCs g a b true false,
        grAuxE M g .D_B0, grAuxH M g .D_B0, grCommAux g a b,
        grFaraday M g p 1 .main, grBCs g a b false true,
        grAmpere M g p 1 .aux, grBCs g a b true false,
        grAuxH M g .D0_B0, grCommAux g a b,
        grAmpere M g p 1 .main, grBCs g a b true false,
        grSwap ]

/-- The rest of `GRPICEngine::step_forward` (grpic.hpp:310-605) with the field solver enabled.
`some J`: deposition is enabled and yields `cur0 = J`. -/
def grMain (M : CMetric K) (g : CGrid) (p : StepPrm K) (a b : Int)
    (J : Option (Cc → Int → Int → K)) : Rel K :=
  Seq ([ grTimeAvgDB g, grAuxE M g .D0_B, grCommAux g a b,
         grFaraday M g p 1 .aux, grBCs g a b false true,
         grAuxH M g .D_B0, grCommAux g a b ] ++
    (match J with
      | some J => [Deposited cur0A [emA, em0A, auxA, curA] J, grTimeAvgJ g]
      | none => []) ++
    [ grAuxE M g .D_B0, grCommAux g a b,
      grFaraday M g p 1 .main, grBCs g a b false true,
      grAmpere M g p 1 .aux ] ++
    (match J with | some _ => [grCurrents M g p curA] | none => []) ++
    [ grBCs g a b true false,
      grAuxH M g .D0_B0, grCommAux g a b,
      grAmpere M g p 1 .main ] ++
    (match J with | some _ => [grCurrents M g p cur0A] | none => []) ++
    [ grSwap, grBCs g a b true false ])

/-- `GRPICEngine::step_forward` number `step` (grpic.hpp:66-630), field solver enabled. -/
def grStep (M : CMetric K) (g : CGrid) (p : StepPrm K) (a b : Int) (step : Nat)
    (J : Option (Cc → Int → Int → K)) : Rel K :=
  Seq ((if step = 0 then [grInit M g p a b] else []) ++ [grMain M g p a b J])

end Entity.Curvi
