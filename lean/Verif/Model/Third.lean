import Verif.Model.Deposit

/-!
# The constant `THIRD`

`Model/Deposit.lean` and `Model/Shapes.lean` write the constant `THIRD` of the source as the exact number
1/3.  Here it is a parameter `t`, and `third` is the value it has.  Arithmetic is exact; only the value of
the constant is that of the code.
-/

namespace Entity.Deposit

open Entity Entity.Push Entity.Shapes Entity.Tags

variable {K : Type} [Field K]

/-- `THIRD` (numeric.h:41 in single precision, `0.333333f`; numeric.h:60 in double precision,
`0.3333333333333333`): the value of the literal, i.e. the closest number of the type. -/
def third (single : Bool) : K :=
  if single then 11184799 / 2 ^ 25 else 6004799503160661 / 2 ^ 54

/-- The updates of one particle in two dimensions (currents_deposit.hpp:475-584), with the constant of
line 507. -/
def esirkepov2At [LinearOrder K] [IsStrictOrderedRing K] (t : K) (O : Nat) (NG : Int)
    (coeff invDt vp3 : K) (a b : Ax K) : Outcome (List (Upd K)) := do
  let (iMin1, iMax1, iS1, fS1) ← forDeposit O a.iPrev a.dxPrev a.i a.dx
  let (iMin2, iMax2, iS2, fS2) ← forDeposit O b.iPrev b.dxPrev b.i b.dx
  let wx1 := fun i j => 1/2 * (fS1 i - iS1 i) * (fS2 j + iS2 j)
  let wx2 := fun i j => 1/2 * (fS1 i + iS1 i) * (fS2 j - iS2 j)
  let wx3 := fun i j => t * (fS2 j * (1/2 * iS1 i + fS1 i) + iS2 j * (1/2 * fS1 i + iS1 i))
  let j1 := fun i j => runSum (coeff * invDt) (fun i' => wx1 i' j) i
  let j2 := fun i j => runSum (coeff * invDt) (fun j' => wx2 i j') j
  let m1 := iMin1 + NG
  let m2 := iMin2 + NG
  let d1 := (iMax1 + NG - m1).toNat
  let d2 := (iMax2 + NG - m2).toNat
  return (List.range d1).flatMap (fun i => (List.range (d2 + 1)).map (fun j =>
      ⟨0, [m1 + i, m2 + j], j1 i j⟩)) ++
    (List.range (d1 + 1)).flatMap (fun i => (List.range d2).map (fun j =>
      ⟨1, [m1 + i, m2 + j], j2 i j⟩)) ++
    (List.range (d1 + 1)).flatMap (fun i => (List.range (d2 + 1)).map (fun j =>
      ⟨2, [m1 + i, m2 + j], coeff * vp3 * wx3 i j⟩))

/-- The updates of one particle in three dimensions (currents_deposit.hpp:586-752), with the constant of
lines 626, 630 and 634. -/
def esirkepov3At [LinearOrder K] [IsStrictOrderedRing K] (t : K) (O : Nat) (NG : Int)
    (coeff invDt : K) (a b c : Ax K) : Outcome (List (Upd K)) := do
  let (iMin1, iMax1, iS1, fS1) ← forDeposit O a.iPrev a.dxPrev a.i a.dx
  let (iMin2, iMax2, iS2, fS2) ← forDeposit O b.iPrev b.dxPrev b.i b.dx
  let (iMin3, iMax3, iS3, fS3) ← forDeposit O c.iPrev c.dxPrev c.i c.dx
  let wx1 := fun i j k => t * (fS1 i - iS1 i) *
    ((iS2 j * iS3 k + fS2 j * fS3 k) + 1/2 * (iS3 k * fS2 j + iS2 j * fS3 k))
  let wx2 := fun i j k => t * (fS2 j - iS2 j) *
    (iS1 i * iS3 k + fS1 i * fS3 k + 1/2 * (iS3 k * fS1 i + iS1 i * fS3 k))
  let wx3 := fun i j k => t * (fS3 k - iS3 k) *
    (iS1 i * iS2 j + fS1 i * fS2 j + 1/2 * (iS1 i * fS2 j + iS2 j * fS1 i))
  let j1 := fun i j k => runSum (coeff * invDt) (fun i' => wx1 i' j k) i
  let j2 := fun i j k => runSum (coeff * invDt) (fun j' => wx2 i j' k) j
  let j3 := fun i j k => runSum (coeff * invDt) (fun k' => wx3 i j k') k
  let m1 := iMin1 + NG
  let m2 := iMin2 + NG
  let m3 := iMin3 + NG
  let d1 := (iMax1 + NG - m1).toNat
  let d2 := (iMax2 + NG - m2).toNat
  let d3 := (iMax3 + NG - m3).toNat
  return (List.range d1).flatMap (fun i => (List.range (d2 + 1)).flatMap (fun j =>
      (List.range (d3 + 1)).map (fun k => ⟨0, [m1 + i, m2 + j, m3 + k], j1 i j k⟩))) ++
    (List.range (d1 + 1)).flatMap (fun i => (List.range d2).flatMap (fun j =>
      (List.range (d3 + 1)).map (fun k => ⟨1, [m1 + i, m2 + j, m3 + k], j2 i j k⟩))) ++
    (List.range (d1 + 1)).flatMap (fun i => (List.range (d2 + 1)).flatMap (fun j =>
      (List.range d3).map (fun k => ⟨2, [m1 + i, m2 + j, m3 + k], j3 i j k⟩)))

/-- The body of the kernel for one particle (currents_deposit.hpp:108-762), orders 1 ... 11. -/
def depositOneAt [LinearOrder K] [IsStrictOrderedRing K] (t : K) (O : Nat) (NG : Int) (charge dt : K)
    (p : DPrtl K) : Outcome (List (Upd K)) :=
  if p.tag = dead then .ok []
  else
    let coeff := p.weight * charge
    let invDt := 1 / dt
    match O, p.ax with
    | O + 1, [a] => esirkepov1 (O + 1) NG coeff invDt p.vp2 p.vp3 a
    | O + 1, [a, b] => esirkepov2At t (O + 1) NG coeff invDt p.vp3 a b
    | O + 1, [a, b, c] => esirkepov3At t (O + 1) NG coeff invDt a b c
    | _, _ => .err

/-- All updates of a kernel launch, particle by particle. -/
def depositAllAt [LinearOrder K] [IsStrictOrderedRing K] (t : K) (O : Nat) (NG : Int) (charge dt : K) :
    List (DPrtl K) → Outcome (List (Upd K))
  | [] => .ok []
  | p :: ps => do
    let us ← depositOneAt t O NG charge dt p
    let vs ← depositAllAt t O NG charge dt ps
    return us ++ vs

/-- particle_shapes.hpp:179-214 `S7`, with the constant of line 181. -/
def S7At [LinearOrder K] [IsStrictOrderedRing K] (t x : K) : K :=
  if x < 1 then
    151/315 - t * x^2 + (1/9) * x^4 - (1/36) * x^6 + (1/144) * x^7
  else if x ≤ 2 then
    103/210 - (7/90) * x - (1/10) * x^2 - (7/18) * x^3 + (1/2) * x^4 - (7/30) * x^5 +
      (1/20) * x^6 - (1/240) * x^7
  else if x < 3 then
    -(139/630) + (217/90) * x - (23/6) * x^2 + (49/18) * x^3 - (19/18) * x^4 + (7/30) * x^5 -
      (1/36) * x^6 + (1/720) * x^7
  else if x < 4 then
    1024/315 - (256/45) * x + (64/15) * x^2 - (16/9) * x^3 + (4/9) * x^4 - (1/15) * x^5 +
      (1/180) * x^6 - (1/5040) * x^7
  else 0

end Entity.Deposit
