import Verif.Model.Kernel

/-!
# Field solver on Cartesian grids
(src/kernels/faraday_mink.hpp, ampere_mink.hpp, divergences.hpp, src/engines/srpic/fieldsolvers.h)

The kernel bodies are transcribed term by term; index arguments `i1 + a` become the offset `a`.
The arrays are `EB` (components `em`), `J` (components `cur`) and a buffer.  The operations on numbers are arbitrary; laws are assumed only by the theorems that need them.
Only `Coord::Cartesian` is modelled here.
-/

namespace Entity.FieldSolver

open Entity.Kernel

variable {K : Type}

/-- `ntt::em` (global.h:142-155). -/
inductive Em | ex1 | ex2 | ex3 | bx1 | bx2 | bx3
  deriving DecidableEq, Repr

/-- `ntt::cur` (global.h:157-161). -/
inductive Cc | jx1 | jx2 | jx3
  deriving DecidableEq, Repr

def Em.toNat : Em → Nat
  | .ex1 => 0 | .ex2 => 1 | .ex3 => 2 | .bx1 => 3 | .bx2 => 4 | .bx3 => 5

def Cc.toNat : Cc → Nat
  | .jx1 => 0 | .jx2 => 1 | .jx3 => 2

/-- `EB(i + o, c)`. -/
def ebL (c : Em) (o : List Int) : Loc := ⟨0, c.toNat, o⟩
/-- `J(i + o, c)`. -/
def jcL (c : Cc) (o : List Int) : Loc := ⟨1, c.toNat, o⟩
/-- `buff(i + o, c)`. -/
def bfL (c : Nat) (o : List Int) : Loc := ⟨2, c, o⟩

def eb (c : Em) (o : List Int) : Ex K := .ld (ebL c o)
def jc (c : Cc) (o : List Int) : Ex K := .ld (jcL c o)
def bf (c : Nat) (o : List Int) : Ex K := .ld (bfL c o)

@[inherit_doc plusEq] scoped infix:50 " +=. " => plusEq
scoped infix:50 " :=. " => Assign.mk

/-- The location at cell `t`. -/
def _root_.Entity.Kernel.Loc.at (t : List Int) (l : Loc) : Loc :=
  { l with idx := List.zipWith (· + ·) t l.idx }

/-- The expression at cell `t`. -/
def _root_.Entity.Kernel.Ex.at (t : List Int) : Ex K → Ex K
  | .lit c => .lit c
  | .ld l => .ld (l.at t)
  | .add a b => .add (a.at t) (b.at t)
  | .sub a b => .sub (a.at t) (b.at t)
  | .mul a b => .mul (a.at t) (b.at t)
  | .div a b => .div (a.at t) (b.at t)
  | .neg a => .neg (a.at t)

/-- A body given by offsets, at cell `t`. -/
def atCell (as : List (Assign K)) (t : List Int) : List (Assign K) :=
  as.map (fun a => ⟨a.dst.at t, a.rhs.at t⟩)

/-- `algorithms.fieldsolver.*` (fieldsolvers.h:50-68). -/
structure Coeffs (K : Type) where
  deltax : K
  deltay : K
  betaxy : K
  betayx : K
  deltaz : K
  betaxz : K
  betazx : K
  betayz : K
  betazy : K

section
variable [One K] [NatCast K] [Sub K] [Mul K]

/-- `Faraday_kernel::operator()`, 1D (faraday_mink.hpp:71-86). -/
def faraday1 (coeff1 : K) (c : Coeffs K) : List (Assign K) :=
  let alphax : Ex K := .lit (1 - 3 * c.deltax)
  [ ebL .bx2 [0] +=. .lit coeff1 * (
        alphax * (eb .ex3 [1] - eb .ex3 [0])
        + (.lit c.deltax) * (eb .ex3 [2] - eb .ex3 [-1])),
    ebL .bx3 [0] +=. .lit coeff1 * (
        - alphax * (eb .ex2 [1] - eb .ex2 [0])
        - (.lit c.deltax) * (eb .ex2 [2] - eb .ex2 [-1])) ]

/-- `Faraday_kernel::operator()`, 2D (faraday_mink.hpp:88-116). -/
def faraday2 (coeff1 coeff2 : K) (c : Coeffs K) : List (Assign K) :=
  let alphax : Ex K := .lit (1 - 2 * c.betaxy - 3 * c.deltax)
  let alphay : Ex K := .lit (1 - 2 * c.betayx - 3 * c.deltay)
  [ ebL .bx1 [0, 0] +=. .lit coeff1 * (
        - alphay * (eb .ex3 [0, 1] - eb .ex3 [0, 0])
        - (.lit c.deltay) * (eb .ex3 [0, 2] - eb .ex3 [0, -1])
        - (.lit c.betayx) * (eb .ex3 [1, 1] - eb .ex3 [1, 0])
        - (.lit c.betayx) * (eb .ex3 [-1, 1] - eb .ex3 [-1, 0])),
    ebL .bx2 [0, 0] +=. .lit coeff1 * (
        alphax * (eb .ex3 [1, 0] - eb .ex3 [0, 0])
        + (.lit c.deltax) * (eb .ex3 [2, 0] - eb .ex3 [-1, 0])
        + (.lit c.betaxy) * (eb .ex3 [1, 1] - eb .ex3 [0, 1])
        + (.lit c.betaxy) * (eb .ex3 [1, -1] - eb .ex3 [0, -1])),
    ebL .bx3 [0, 0] +=. .lit coeff2 * (
        alphay * (eb .ex1 [0, 1] - eb .ex1 [0, 0])
        + (.lit c.deltay) * (eb .ex1 [0, 2] - eb .ex1 [0, -1])
        + (.lit c.betayx) * (eb .ex1 [1, 1] - eb .ex1 [1, 0])
        + (.lit c.betayx) * (eb .ex1 [-1, 1] - eb .ex1 [-1, 0])
        - alphax * (eb .ex2 [1, 0] - eb .ex2 [0, 0])
        - (.lit c.deltax) * (eb .ex2 [2, 0] - eb .ex2 [-1, 0])
        - (.lit c.betaxy) * (eb .ex2 [1, 1] - eb .ex2 [0, 1])
        - (.lit c.betaxy) * (eb .ex2 [1, -1] - eb .ex2 [0, -1])) ]

/-- `Faraday_kernel::operator()`, 3D (faraday_mink.hpp:118-163). -/
def faraday3 (coeff1 : K) (c : Coeffs K) : List (Assign K) :=
  let alphax : Ex K := .lit (1 - 2 * c.betaxy - 2 * c.betaxz - 3 * c.deltax)
  let alphay : Ex K := .lit (1 - 2 * c.betayx - 2 * c.betayz - 3 * c.deltay)
  let alphaz : Ex K := .lit (1 - 2 * c.betazx - 2 * c.betazy - 3 * c.deltaz)
  [ ebL .bx1 [0, 0, 0] +=. .lit coeff1 * (
        alphaz * (eb .ex2 [0, 0, 1] - eb .ex2 [0, 0, 0])
        + (.lit c.deltaz) * (eb .ex2 [0, 0, 2] - eb .ex2 [0, 0, -1])
        + (.lit c.betazx) * (eb .ex2 [1, 0, 1] - eb .ex2 [1, 0, 0])
        + (.lit c.betazx) * (eb .ex2 [-1, 0, 1] - eb .ex2 [-1, 0, 0])
        + (.lit c.betazy) * (eb .ex2 [0, 1, 1] - eb .ex2 [0, 1, 0])
        + (.lit c.betazy) * (eb .ex2 [0, -1, 1] - eb .ex2 [0, -1, 0])
        - alphay * (eb .ex3 [0, 1, 0] - eb .ex3 [0, 0, 0])
        - (.lit c.deltay) * (eb .ex3 [0, 2, 0] - eb .ex3 [0, -1, 0])
        - (.lit c.betayx) * (eb .ex3 [1, 1, 0] - eb .ex3 [1, 0, 0])
        - (.lit c.betayx) * (eb .ex3 [-1, 1, 0] - eb .ex3 [-1, 0, 0])
        - (.lit c.betayz) * (eb .ex3 [0, 1, 1] - eb .ex3 [0, 0, 1])
        - (.lit c.betayz) * (eb .ex3 [0, 1, -1] - eb .ex3 [0, 0, -1])),
    ebL .bx2 [0, 0, 0] +=. .lit coeff1 * (
        alphax * (eb .ex3 [1, 0, 0] - eb .ex3 [0, 0, 0])
        + (.lit c.deltax) * (eb .ex3 [2, 0, 0] - eb .ex3 [-1, 0, 0])
        + (.lit c.betaxy) * (eb .ex3 [1, 1, 0] - eb .ex3 [0, 1, 0])
        + (.lit c.betaxy) * (eb .ex3 [1, -1, 0] - eb .ex3 [0, -1, 0])
        + (.lit c.betaxz) * (eb .ex3 [1, 0, 1] - eb .ex3 [0, 0, 1])
        + (.lit c.betaxz) * (eb .ex3 [1, 0, -1] - eb .ex3 [0, 0, -1])
        - alphaz * (eb .ex1 [0, 0, 1] - eb .ex1 [0, 0, 0])
        - (.lit c.deltaz) * (eb .ex1 [0, 0, 2] - eb .ex1 [0, 0, -1])
        - (.lit c.betazx) * (eb .ex1 [1, 0, 1] - eb .ex1 [1, 0, 0])
        - (.lit c.betazx) * (eb .ex1 [-1, 0, 1] - eb .ex1 [-1, 0, 0])
        - (.lit c.betazy) * (eb .ex1 [0, 1, 1] - eb .ex1 [0, 1, 0])
        - (.lit c.betazy) * (eb .ex1 [0, -1, 1] - eb .ex1 [0, -1, 0])),
    ebL .bx3 [0, 0, 0] +=. .lit coeff1 * (
        alphay * (eb .ex1 [0, 1, 0] - eb .ex1 [0, 0, 0])
        + (.lit c.deltay) * (eb .ex1 [0, 2, 0] - eb .ex1 [0, -1, 0])
        + (.lit c.betayx) * (eb .ex1 [1, 1, 0] - eb .ex1 [1, 0, 0])
        + (.lit c.betayx) * (eb .ex1 [-1, 1, 0] - eb .ex1 [-1, 0, 0])
        + (.lit c.betayz) * (eb .ex1 [0, 1, 1] - eb .ex1 [0, 0, 1])
        + (.lit c.betayz) * (eb .ex1 [0, 1, -1] - eb .ex1 [0, 0, -1])
        - alphax * (eb .ex2 [1, 0, 0] - eb .ex2 [0, 0, 0])
        - (.lit c.deltax) * (eb .ex2 [2, 0, 0] - eb .ex2 [-1, 0, 0])
        - (.lit c.betaxy) * (eb .ex2 [1, 1, 0] - eb .ex2 [0, 1, 0])
        - (.lit c.betaxy) * (eb .ex2 [1, -1, 0] - eb .ex2 [0, -1, 0])
        - (.lit c.betaxz) * (eb .ex2 [1, 0, 1] - eb .ex2 [0, 0, 1])
        - (.lit c.betaxz) * (eb .ex2 [1, 0, -1] - eb .ex2 [0, 0, -1])) ]

end

/-- `Ampere_kernel::operator()`, 1D (ampere_mink.hpp:48-55). -/
def ampere1 (coeff1 : K) : List (Assign K) :=
  [ ebL .ex2 [0] +=. .lit coeff1 * (eb .bx3 [-1] - eb .bx3 [0]),
    ebL .ex3 [0] +=. .lit coeff1 * (eb .bx2 [0] - eb .bx2 [-1]) ]

/-- `Ampere_kernel::operator()`, 2D (ampere_mink.hpp:57-69). -/
def ampere2 (coeff1 coeff2 : K) : List (Assign K) :=
  [ ebL .ex1 [0, 0] +=. .lit coeff1 * (eb .bx3 [0, 0] - eb .bx3 [0, -1]),
    ebL .ex2 [0, 0] +=. .lit coeff1 * (eb .bx3 [-1, 0] - eb .bx3 [0, 0]),
    ebL .ex3 [0, 0] +=. .lit coeff2 * (eb .bx1 [0, -1] - eb .bx1 [0, 0] +
      eb .bx2 [0, 0] - eb .bx2 [-1, 0]) ]

/-- `Ampere_kernel::operator()`, 3D (ampere_mink.hpp:71-88). -/
def ampere3 (coeff1 : K) : List (Assign K) :=
  [ ebL .ex1 [0, 0, 0] +=. .lit coeff1 * (eb .bx2 [0, 0, -1] - eb .bx2 [0, 0, 0] +
      eb .bx3 [0, 0, 0] - eb .bx3 [0, -1, 0]),
    ebL .ex2 [0, 0, 0] +=. .lit coeff1 * (eb .bx3 [-1, 0, 0] - eb .bx3 [0, 0, 0] +
      eb .bx1 [0, 0, 0] - eb .bx1 [0, 0, -1]),
    ebL .ex3 [0, 0, 0] +=. .lit coeff1 * (eb .bx1 [0, -1, 0] - eb .bx1 [0, 0, 0] +
      eb .bx2 [0, 0, 0] - eb .bx2 [-1, 0, 0]) ]

/-- The offset of the cell itself. -/
def here (D : Nat) : List Int := List.replicate D 0

/-- `CurrentsAmpere_kernel::operator()` without external current, 1D to 3D
(ampere_mink.hpp:141-147, 165-171, 199-205). -/
def currentsAmpere (D : Nat) (coeff ppc0 : K) : List (Assign K) :=
  [ ebL .ex1 (here D) +=. jc .jx1 (here D) * .lit coeff,
    ebL .ex2 (here D) +=. jc .jx2 (here D) * .lit coeff,
    ebL .ex3 (here D) +=. jc .jx3 (here D) * .lit coeff,
    jcL .jx1 (here D) :=. jc .jx1 (here D) / .lit ppc0,
    jcL .jx2 (here D) :=. jc .jx2 (here D) / .lit ppc0,
    jcL .jx3 (here D) :=. jc .jx3 (here D) / .lit ppc0 ]

/-- Where the external current of component `c` is evaluated at cell `t`
(ampere_mink.hpp:136-140, 153-164, 177-197): at the staggered position of the component; along the
axes the grid does not have there is no offset.  `COORD(i) = i - N_GHOSTS`. -/
def extPos [Add K] [Mul K] [Div K] [Zero K] [One K] [NatCast K] [IntCast K]
    (NG : Int) (dx : K) (xmin : List K) (c : Nat) (t : List Int) : List K :=
  (List.zipWith (fun (i : Int) x0 => (i, x0)) t xmin).mapIdx
    (fun a p => (((p.1 - NG : Int) : K) + if a = c then 1 / 2 else 0) * dx + p.2)

/-- The additional assignments with an external current, at cell `t`
(ampere_mink.hpp:134-140, 151-164, 175-197). -/
def extCurrent [Add K] [Mul K] [Div K] [Zero K] [One K] [NatCast K] [IntCast K]
    (NG : Int) (dx : K) (xmin : List K) (ppc0 : K) (ext : Nat → List K → K)
    (t : List Int) : List (Assign K) :=
  [ jcL .jx1 (here t.length) +=. .lit ppc0 * .lit (ext 0 (extPos NG dx xmin 0 t)),
    jcL .jx2 (here t.length) +=. .lit ppc0 * .lit (ext 1 (extPos NG dx xmin 1 t)),
    jcL .jx3 (here t.length) +=. .lit ppc0 * .lit (ext 2 (extPos NG dx xmin 2 t)) ]

/-- `ComputeDivergence_kernel::operator()` (divergences.hpp:45-121), Cartesian. -/
def divergence (D : Nat) (buffIdx : Nat) : List (Assign K) :=
  match D with
  | 1 => [ bfL buffIdx [0] :=. eb .ex1 [0] - eb .ex1 [-1] ]
  | 2 => [ bfL buffIdx [0, 0] :=. eb .ex1 [0, 0] - eb .ex1 [-1, 0] +
             eb .ex2 [0, 0] - eb .ex2 [0, -1] ]
  | 3 => [ bfL buffIdx [0, 0, 0] :=. eb .ex1 [0, 0, 0] - eb .ex1 [-1, 0, 0] +
             eb .ex2 [0, 0, 0] - eb .ex2 [0, -1, 0] +
             eb .ex3 [0, 0, 0] - eb .ex3 [0, 0, -1] ]
  | _ => []

/-! ## Launches -/

/-- `coeff1`, `coeff2` (fieldsolvers.h:69-76, 119-126). -/
def solverCoeffs [Zero K] [Mul K] [Div K] (D : Nat) (dT dx : K) : K × K :=
  if D = 2 then (dT / (dx * dx), dT) else (dT / dx, 0)

/-- The body that `Faraday` launches (fieldsolvers.h:36-98; `dT = fraction * correction * dt`). -/
def faraday [Zero K] [One K] [NatCast K] [Sub K] [Mul K] [Div K] (D : Nat) (dT dx : K) (c : Coeffs K) : List (Assign K) :=
  let k := solverCoeffs D dT dx
  match D with
  | 1 => faraday1 k.1 c
  | 2 => faraday2 k.1 k.2 c
  | 3 => faraday3 k.1 c
  | _ => []

/-- The body that `Ampere` launches (fieldsolvers.h:100-143). -/
def ampere [Zero K] [Mul K] [Div K] (D : Nat) (dT dx : K) : List (Assign K) :=
  let k := solverCoeffs D dT dx
  match D with
  | 1 => ampere1 k.1
  | 2 => ampere2 k.1 k.2
  | 3 => ampere3 k.1
  | _ => []

end Entity.FieldSolver
