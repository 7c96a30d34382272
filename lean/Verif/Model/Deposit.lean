import Verif.Model.Shapes
import Verif.Model.Push

/-!
# Current deposition

Models `src/kernels/currents_deposit.hpp` (`DepositCurrents_kernel`): the zigzag scheme of order 0
and the Esirkepov scheme of the orders 1 ... 11, in one, two and three dimensions.

* `J_acc(i, j, k, c) += v` on a scatter view is one *update*; a kernel run is the application of the
  updates of all particles in some order.  An update outside the array is undefined behaviour.
* The velocity `vp` (lines 112-166: a metric transformation of the momentum times the inverse
  energy) is a field of the particle here: only the components along axes without a grid are used.
* Numbers are elements of an ordered field; rounding is not modelled.
-/

namespace Entity.Deposit

open Entity Entity.Push Entity.Shapes Entity.Tags

variable {K : Type} [Field K] [LinearOrder K] [IsStrictOrderedRing K]

/-- What the kernel reads of one particle (currents_deposit.hpp:109-168): positions along the `D`
axes, weight, velocity `vp`, tag. -/
structure DPrtl (K : Type) where
  ax : List (Ax K)
  weight : K
  vp2 : K
  vp3 : K
  tag : Int

/-- One `J_acc(idx, comp) += val`; components 0, 1, 2 are `cur::jx1`, `cur::jx2`, `cur::jx3`. -/
structure Upd (K : Type) where
  comp : Nat
  idx : List Int
  val : K

/-- A current array: component, index (including ghost cells), value. -/
abbrev Cur (K : Type) := Nat → List Int → K

/-- The index lies in the allocated array (`n_all` cells along every axis). -/
def inArray : List Nat → List Int → Bool
  | [], [] => true
  | n :: ns, i :: is => decide (0 ≤ i) && decide (i < (n : Int)) && inArray ns is
  | _, _ => false

/-- One scatter addition; outside the array undefined. -/
def applyUpd (nAll : List Nat) (J : Cur K) (u : Upd K) : Outcome (Cur K) :=
  if inArray nAll u.idx then
    .ok (fun c is => if c = u.comp ∧ is = u.idx then J c is + u.val else J c is)
  else .ub

/-- A sequence of scatter additions. -/
def applyAll (nAll : List Nat) (us : List (Upd K)) (J : Cur K) : Outcome (Cur K) :=
  us.foldlM (applyUpd nAll) J

/-! ## Zigzag (O = 0) -/

/-- The four numbers computed for each axis (currents_deposit.hpp:175-194, 219-238, 294-311):
`(W_1, W_2, F_1, F_2)`; `q` stands for `coeff * inv_dt`. -/
def zzAxis (a : Ax K) (q : K) : K × K × K × K :=
  let r : K := (if a.i = a.iPrev then 1 else 0) * (a.dx + a.dxPrev) * (1/2)
  let up : K := if a.i > a.iPrev then 1 else 0
  let upI : Int := if a.i > a.iPrev then 1 else 0
  (1/2 * (r + a.dxPrev + up),
   1/2 * (a.dx + r + ((upI + a.iPrev - a.i : Int) : K)),
   (up + r - a.dxPrev) * q,
   (((a.i - a.iPrev - upI : Int) : K) + a.dx - r) * q)

/-- The updates of one particle in one dimension (currents_deposit.hpp:198-217). -/
def zigzag1 (NG : Int) (coeff invDt vp2 vp3 : K) (a : Ax K) : List (Upd K) :=
  let (w1, w2, f1, f2) := zzAxis a (coeff * invDt)
  let fy := 1/2 * vp2 * coeff
  let fz := 1/2 * vp3 * coeff
  let p := a.iPrev + NG
  let n := a.i + NG
  [⟨0, [p], f1⟩, ⟨0, [n], f2⟩,
   ⟨1, [p], fy * (1 - w1)⟩, ⟨1, [p + 1], fy * w1⟩, ⟨1, [n], fy * (1 - w2)⟩, ⟨1, [n + 1], fy * w2⟩,
   ⟨2, [p], fz * (1 - w1)⟩, ⟨2, [p + 1], fz * w1⟩, ⟨2, [n], fz * (1 - w2)⟩, ⟨2, [n + 1], fz * w2⟩]

/-- The updates of one particle in two dimensions (currents_deposit.hpp:240-290). -/
def zigzag2 (NG : Int) (coeff invDt vp3 : K) (a b : Ax K) : List (Upd K) :=
  let (w11, w12, f11, f12) := zzAxis a (coeff * invDt)
  let (w21, w22, f21, f22) := zzAxis b (coeff * invDt)
  let fz := 1/2 * vp3 * coeff
  let p1 := a.iPrev + NG
  let n1 := a.i + NG
  let p2 := b.iPrev + NG
  let n2 := b.i + NG
  [⟨0, [p1, p2], f11 * (1 - w21)⟩, ⟨0, [p1, p2 + 1], f11 * w21⟩,
   ⟨0, [n1, n2], f12 * (1 - w22)⟩, ⟨0, [n1, n2 + 1], f12 * w22⟩,
   ⟨1, [p1, p2], f21 * (1 - w11)⟩, ⟨1, [p1 + 1, p2], f21 * w11⟩,
   ⟨1, [n1, n2], f22 * (1 - w12)⟩, ⟨1, [n1 + 1, n2], f22 * w12⟩,
   ⟨2, [p1, p2], fz * (1 - w11) * (1 - w21)⟩, ⟨2, [p1 + 1, p2], fz * w11 * (1 - w21)⟩,
   ⟨2, [p1, p2 + 1], fz * (1 - w11) * w21⟩, ⟨2, [p1 + 1, p2 + 1], fz * w11 * w21⟩,
   ⟨2, [n1, n2], fz * (1 - w12) * (1 - w22)⟩, ⟨2, [n1 + 1, n2], fz * w12 * (1 - w22)⟩,
   ⟨2, [n1, n2 + 1], fz * (1 - w12) * w22⟩, ⟨2, [n1 + 1, n2 + 1], fz * w12 * w22⟩]

/-- The updates of one particle in three dimensions (currents_deposit.hpp:313-403). -/
def zigzag3 (NG : Int) (coeff invDt : K) (a b c : Ax K) : List (Upd K) :=
  let (w11, w12, f11, f12) := zzAxis a (coeff * invDt)
  let (w21, w22, f21, f22) := zzAxis b (coeff * invDt)
  let (w31, w32, f31, f32) := zzAxis c (coeff * invDt)
  let p1 := a.iPrev + NG
  let n1 := a.i + NG
  let p2 := b.iPrev + NG
  let n2 := b.i + NG
  let p3 := c.iPrev + NG
  let n3 := c.i + NG
  [⟨0, [p1, p2, p3], f11 * (1 - w21) * (1 - w31)⟩, ⟨0, [p1, p2 + 1, p3], f11 * w21 * (1 - w31)⟩,
   ⟨0, [p1, p2, p3 + 1], f11 * (1 - w21) * w31⟩, ⟨0, [p1, p2 + 1, p3 + 1], f11 * w21 * w31⟩,
   ⟨0, [n1, n2, n3], f12 * (1 - w22) * (1 - w32)⟩, ⟨0, [n1, n2 + 1, n3], f12 * w22 * (1 - w32)⟩,
   ⟨0, [n1, n2, n3 + 1], f12 * (1 - w22) * w32⟩, ⟨0, [n1, n2 + 1, n3 + 1], f12 * w22 * w32⟩,
   ⟨1, [p1, p2, p3], f21 * (1 - w11) * (1 - w31)⟩, ⟨1, [p1 + 1, p2, p3], f21 * w11 * (1 - w31)⟩,
   ⟨1, [p1, p2, p3 + 1], f21 * (1 - w11) * w31⟩, ⟨1, [p1 + 1, p2, p3 + 1], f21 * w11 * w31⟩,
   ⟨1, [n1, n2, n3], f22 * (1 - w12) * (1 - w32)⟩, ⟨1, [n1 + 1, n2, n3], f22 * w12 * (1 - w32)⟩,
   ⟨1, [n1, n2, n3 + 1], f22 * (1 - w12) * w32⟩, ⟨1, [n1 + 1, n2, n3 + 1], f22 * w12 * w32⟩,
   ⟨2, [p1, p2, p3], f31 * (1 - w11) * (1 - w21)⟩, ⟨2, [p1 + 1, p2, p3], f31 * w11 * (1 - w21)⟩,
   ⟨2, [p1, p2 + 1, p3], f31 * (1 - w11) * w21⟩, ⟨2, [p1 + 1, p2 + 1, p3], f31 * w11 * w21⟩,
   ⟨2, [n1, n2, n3], f32 * (1 - w12) * (1 - w22)⟩, ⟨2, [n1 + 1, n2, n3], f32 * w12 * (1 - w22)⟩,
   ⟨2, [n1, n2 + 1, n3], f32 * (1 - w12) * w22⟩, ⟨2, [n1 + 1, n2 + 1, n3], f32 * w12 * w22⟩]

/-! ## Esirkepov (1 ≤ O ≤ 11) -/

/-- `j[0] = -Q W[0]`, `j[i] = j[i - 1] - Q W[i]` (e.g. currents_deposit.hpp:447-451): the running sum
along one axis. -/
def runSum (q : K) (w : Nat → K) : Nat → K
  | 0 => -q * w 0
  | i + 1 => runSum q w i - q * w (i + 1)

/-- The updates of one particle in one dimension (currents_deposit.hpp:423-473). -/
def esirkepov1 (O : Nat) (NG : Int) (coeff invDt vp2 vp3 : K) (a : Ax K) :
    Outcome (List (Upd K)) := do
  let (iMin, iMax, iS, fS) ← forDeposit O a.iPrev a.dxPrev a.i a.dx
  let wx1 := fun i => fS i - iS i
  let wx23 := fun i => 1/2 * (fS i + iS i)
  let j1 := runSum (coeff * invDt) wx1
  let iMin := iMin + NG
  let d := (iMax + NG - iMin).toNat
  return (List.range d).map (fun i => ⟨0, [iMin + i], j1 i⟩) ++
    (List.range (d + 1)).map (fun i => ⟨1, [iMin + i], coeff * vp2 * wx23 i⟩) ++
    (List.range (d + 1)).map (fun i => ⟨2, [iMin + i], coeff * vp3 * wx23 i⟩)

/-- The updates of one particle in two dimensions (currents_deposit.hpp:475-584). -/
def esirkepov2 (O : Nat) (NG : Int) (coeff invDt vp3 : K) (a b : Ax K) :
    Outcome (List (Upd K)) := do
  let (iMin1, iMax1, iS1, fS1) ← forDeposit O a.iPrev a.dxPrev a.i a.dx
  let (iMin2, iMax2, iS2, fS2) ← forDeposit O b.iPrev b.dxPrev b.i b.dx
  let wx1 := fun i j => 1/2 * (fS1 i - iS1 i) * (fS2 j + iS2 j)
  let wx2 := fun i j => 1/2 * (fS1 i + iS1 i) * (fS2 j - iS2 j)
  let wx3 := fun i j => 1/3 * (fS2 j * (1/2 * iS1 i + fS1 i) + iS2 j * (1/2 * fS1 i + iS1 i))
  let j1 := fun i j => runSum (coeff * invDt) (fun i' => wx1 i' j) i
  let j2 := fun i j => runSum (coeff * invDt) (fun j' => wx2 i j') j
  let m1 := iMin1 + NG
  let m2 := iMin2 + NG
  let d1 := (iMax1 + NG - m1).toNat
  let d2 := (iMax2 + NG - m2).toNat
  return (List.range d1).flatMap (fun i => (List.range (d2 + 1)).map (fun j =>
      ⟨0, [m1 + i, m2 + j], j1 i j⟩)) ++
    (List.range (d1 + 1)).flatMap (fun i => (List.range d2).map (fun j =>
      ⟨1, [m1 + i, m2 + j], j2 i j⟩)) ++
    (List.range (d1 + 1)).flatMap (fun i => (List.range (d2 + 1)).map (fun j =>
      ⟨2, [m1 + i, m2 + j], coeff * vp3 * wx3 i j⟩))

/-- The updates of one particle in three dimensions (currents_deposit.hpp:586-752). -/
def esirkepov3 (O : Nat) (NG : Int) (coeff invDt : K) (a b c : Ax K) :
    Outcome (List (Upd K)) := do
  let (iMin1, iMax1, iS1, fS1) ← forDeposit O a.iPrev a.dxPrev a.i a.dx
  let (iMin2, iMax2, iS2, fS2) ← forDeposit O b.iPrev b.dxPrev b.i b.dx
  let (iMin3, iMax3, iS3, fS3) ← forDeposit O c.iPrev c.dxPrev c.i c.dx
  let wx1 := fun i j k => 1/3 * (fS1 i - iS1 i) *
    ((iS2 j * iS3 k + fS2 j * fS3 k) + 1/2 * (iS3 k * fS2 j + iS2 j * fS3 k))
  let wx2 := fun i j k => 1/3 * (fS2 j - iS2 j) *
    (iS1 i * iS3 k + fS1 i * fS3 k + 1/2 * (iS3 k * fS1 i + iS1 i * fS3 k))
  let wx3 := fun i j k => 1/3 * (fS3 k - iS3 k) *
    (iS1 i * iS2 j + fS1 i * fS2 j + 1/2 * (iS1 i * fS2 j + iS2 j * fS1 i))
  let j1 := fun i j k => runSum (coeff * invDt) (fun i' => wx1 i' j k) i
  let j2 := fun i j k => runSum (coeff * invDt) (fun j' => wx2 i j' k) j
  let j3 := fun i j k => runSum (coeff * invDt) (fun k' => wx3 i j k') k
  let m1 := iMin1 + NG
  let m2 := iMin2 + NG
  let m3 := iMin3 + NG
  let d1 := (iMax1 + NG - m1).toNat
  let d2 := (iMax2 + NG - m2).toNat
  let d3 := (iMax3 + NG - m3).toNat
  return (List.range d1).flatMap (fun i => (List.range (d2 + 1)).flatMap (fun j =>
      (List.range (d3 + 1)).map (fun k => ⟨0, [m1 + i, m2 + j, m3 + k], j1 i j k⟩))) ++
    (List.range (d1 + 1)).flatMap (fun i => (List.range d2).flatMap (fun j =>
      (List.range (d3 + 1)).map (fun k => ⟨1, [m1 + i, m2 + j, m3 + k], j2 i j k⟩))) ++
    (List.range (d1 + 1)).flatMap (fun i => (List.range (d2 + 1)).flatMap (fun j =>
      (List.range d3).map (fun k => ⟨2, [m1 + i, m2 + j, m3 + k], j3 i j k⟩)))

/-- The body of the kernel for one particle (currents_deposit.hpp:108-762): nothing for dead
particles, the scheme of the order otherwise. -/
def depositOne (O : Nat) (NG : Int) (charge dt : K) (p : DPrtl K) : Outcome (List (Upd K)) :=
  if p.tag = dead then .ok []
  else
    let coeff := p.weight * charge
    let invDt := 1 / dt
    match O, p.ax with
    | 0, [a] => .ok (zigzag1 NG coeff invDt p.vp2 p.vp3 a)
    | 0, [a, b] => .ok (zigzag2 NG coeff invDt p.vp3 a b)
    | 0, [a, b, c] => .ok (zigzag3 NG coeff invDt a b c)
    | O + 1, [a] => esirkepov1 (O + 1) NG coeff invDt p.vp2 p.vp3 a
    | O + 1, [a, b] => esirkepov2 (O + 1) NG coeff invDt p.vp3 a b
    | O + 1, [a, b, c] => esirkepov3 (O + 1) NG coeff invDt a b c
    | _, _ => .err

/-- All updates of a kernel launch, particle by particle. -/
def depositAll (O : Nat) (NG : Int) (charge dt : K) : List (DPrtl K) → Outcome (List (Upd K))
  | [] => .ok []
  | p :: ps => do
    let us ← depositOne O NG charge dt p
    let vs ← depositAll O NG charge dt ps
    return us ++ vs

end Entity.Deposit
