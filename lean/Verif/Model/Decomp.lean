import Verif.Model.Base

/-!
# Domain decomposition (src/global/utils/tools.h, src/framework/domain/metadomain.cpp)
-/

namespace Entity.Decomp

open Entity

/-- `for (i = 0; i < k; ++i) v[i] += 1` (tools.h:88-90); `none` if an index is outside. -/
def incrFirst : Nat → List Nat → Option (List Nat)
  | 0, l => some l
  | _ + 1, [] => none
  | k + 1, x :: xs => (incrFirst k xs).map (fun t => (x + 1) :: t)

/-- `tools::decompose1D` (src/global/utils/tools.h:84-102).
The quotient of the two unsigned 32-bit numbers in `double`, truncated, is the integer quotient
(the distance of a non-integer quotient to the next integer, at least 1/ndomains, exceeds the
rounding error), so it is modelled by `Nat` division.  `ndomains = 0` casts an infinite or NaN
value to an integer: undefined.  Simplification: no 32-bit wrap-around (the only products are
bounded by `ncells`). -/
def decompose1D (ndomains ncells : Nat) : Outcome (List Nat) :=
  if ndomains = 0 then .ub
  else
    let size := ncells / ndomains
    match incrFirst (ncells - size * ndomains) (List.replicate ndomains size) with
    | none => .ub
    | some v =>
      if v.sum ≠ ncells then .err
      else if v.length ≠ ndomains then .err
      else if v.any (fun x => decide (x < 5)) then .err
      else .ok v

/-- `while (ntot % n1 != 0) { n1++; ErrorIf(n1 > ntot); }` (tools.h:118-121 and 146-149).
Only called with `n1 ≠ 0`. -/
def nextDivisor (ntot n1 : Nat) : Outcome Nat :=
  if ntot % n1 = 0 then .ok n1
  else if n1 + 1 > ntot then .err
  else nextDivisor ntot (n1 + 1)
termination_by ntot - n1

/-- `tools::divideInProportions2D` (tools.h:110-124).  `guess` is the value of
`(unsigned int) std::sqrt((double)ntot * s1 / s2)`; it is left arbitrary. -/
def divideInProportions2D (guess ntot : Nat) : Outcome (Nat × Nat) :=
  if guess = 0 then .ok (1, ntot)
  else if guess > ntot then .ok (ntot, 1)
  else do
    let n1 ← nextDivisor ntot guess
    return (n1, ntot / n1)

/-- `tools::divideInProportions3D` (tools.h:133-153).  `guess` is the truncated cube root, left
arbitrary; `guess2 n` is the truncated square root computed by the nested 2D call on `n` ranks. -/
def divideInProportions3D (guess : Nat) (guess2 : Nat → Nat) (ntot : Nat) :
    Outcome (Nat × Nat × Nat) :=
  if guess > ntot then .ok (ntot, 1, 1)
  else do
    let n1 ← nextDivisor ntot (if guess = 0 then 1 else guess)
    let (n2, n3) ← divideInProportions2D (guess2 (ntot / n1)) (ntot / n1)
    return (n1, n2, n3)

/-- Product of two `unsigned int` (wraps modulo 2^32). -/
def mulU32 (a b : Nat) : Nat := (a * b) % 2 ^ 32

/-- The number of domains per dimension chosen by the 2D branch of `tools::Decompose`
(tools.h:177-204), before the calls to `decompose1D`. -/
def choose2D (guess : Nat → Nat) (ndomains : Nat) (d1 d2 : Int) : Outcome (Nat × Nat) :=
  if d1 < 0 ∧ d2 > 0 then
    -- tools.h:189-195 returns here, without the later product check
    if ndomains % d2.toNat ≠ 0 then .err else .ok (ndomains / d2.toNat, d2.toNat)
  else do
    let (n1, n2) ←
      (if d1 > 0 ∧ d2 > 0 then .ok (d1.toNat, d2.toNat)
       else if d1 > 0 ∧ d2 < 0 then
         if ndomains % d1.toNat ≠ 0 then .err else .ok (d1.toNat, ndomains / d1.toNat)
       else if d1 < 0 ∧ d2 < 0 then divideInProportions2D (guess ndomains) ndomains
       else .err)
    if mulU32 n1 n2 ≠ ndomains then .err else .ok (n1, n2)

/-- The number of domains per dimension chosen by the 3D branch of `tools::Decompose`
(tools.h:205-269).  `guess n` is the value of the floating-point square root used by the 2D
helper when called with `n` ranks, `guess3` that of the cube root.  A zero entry leaves all three
numbers 0 (tools.h:207), which the final product check rejects for `ndomains > 0`.
A zero divisor cannot occur because the divisors are positive entries; their 32-bit product can
wrap to 0, which is undefined behaviour. -/
def choose3D (guess : Nat → Nat) (guess3 : Nat) (ndomains : Nat) (d1 d2 d3 : Int) :
    Outcome (Nat × Nat × Nat) := do
  let quot (a b : Int) : Outcome Nat :=
    let q := mulU32 a.toNat b.toNat
    if q = 0 then .ub else if ndomains % q ≠ 0 then .err else .ok (ndomains / q)
  let (n1, n2, n3) ←
    (if d1 > 0 ∧ d2 > 0 ∧ d3 > 0 then .ok (d1.toNat, d2.toNat, d3.toNat)
     else if d1 < 0 ∧ d2 > 0 ∧ d3 > 0 then do
       let n1 ← quot d2 d3
       return (n1, d2.toNat, d3.toNat)
     else if d1 > 0 ∧ d2 < 0 ∧ d3 > 0 then do
       let n2 ← quot d1 d3
       return (d1.toNat, n2, d3.toNat)
     else if d1 > 0 ∧ d2 > 0 ∧ d3 < 0 then do
       let n3 ← quot d1 d2
       return (d1.toNat, d2.toNat, n3)
     else if d1 < 0 ∧ d2 < 0 ∧ d3 > 0 then
       if ndomains % d3.toNat ≠ 0 then .err else do
       let (n1, n2) ← divideInProportions2D (guess (ndomains / d3.toNat)) (ndomains / d3.toNat)
       return (n1, n2, d3.toNat)
     else if d1 < 0 ∧ d2 > 0 ∧ d3 < 0 then
       if ndomains % d2.toNat ≠ 0 then .err else do
       let (n1, n3) ← divideInProportions2D (guess (ndomains / d2.toNat)) (ndomains / d2.toNat)
       return (n1, d2.toNat, n3)
     else if d1 > 0 ∧ d2 < 0 ∧ d3 < 0 then
       if ndomains % d1.toNat ≠ 0 then .err else do
       let (n2, n3) ← divideInProportions2D (guess (ndomains / d1.toNat)) (ndomains / d1.toNat)
       return (d1.toNat, n2, n3)
     else if d1 < 0 ∧ d2 < 0 ∧ d3 < 0 then divideInProportions3D guess3 guess ndomains
     else .ok (0, 0, 0))
  if mulU32 (mulU32 n1 n2) n3 ≠ ndomains then .err else .ok (n1, n2, n3)

/-- `tools::Decompose` (tools.h:166-274).  `guess`, `guess3` as above.
Simplification: the square-root guess of the 2D helper is a function of the number of ranks only
(its other arguments are fixed during a call). -/
def decompose (guess : Nat → Nat) (guess3 : Nat) (ndomains : Nat) (ncells : List Nat)
    (decomposition : List Int) : Outcome (List (List Nat)) :=
  if ncells.length ≠ decomposition.length then .err
  else match ncells, decomposition with
    | [c1], [_] => do
      let a ← decompose1D ndomains c1
      return [a]
    | [c1, c2], [d1, d2] => do
      let (n1, n2) ← choose2D guess ndomains d1 d2
      let a ← decompose1D n1 c1
      let b ← decompose1D n2 c2
      return [a, b]
    | [c1, c2, c3], [d1, d2, d3] => do
      let (n1, n2, n3) ← choose3D guess guess3 ndomains d1 d2 d3
      let a ← decompose1D n1 c1
      let b ← decompose1D n2 c2
      let c ← decompose1D n3 c3
      return [a, b, c]
    -- other dimensions read `ncells[2]`/`decomposition[2]` out of range or ignore entries;
    -- the code only instantiates dimensions 1, 2, 3
    | _, _ => .ub

/-- `tools::TensorProduct` (tools.h:62-77): later lists vary slowest. -/
def tensorProduct {α : Type u} (list : List (List α)) : List (List α) :=
  list.foldl (fun result sublist => sublist.flatMap (fun e => result.map (fun r => r ++ [e]))) [[]]

/-- The loop `offset = {0}; for i in 1..size-1: offset.push_back(offset.back() + d[i-1])`
(src/framework/domain/metadomain.cpp:111-117). -/
def offsetsNcells (d : List Nat) : List Nat :=
  d.dropLast.foldl (fun acc di => acc ++ [acc.getLastD 0 + di]) [0]

/-- `offset_ndom` (metadomain.cpp:112-116): 0, 1, 2, ... -/
def offsetsNdoms (d : List Nat) : List Nat :=
  d.dropLast.foldl (fun acc _ => acc ++ [acc.getLastD 0 + 1]) [0]

/-- What `createEmptyDomains` records for one subdomain (metadomain.cpp:136-192). -/
structure Subdomain where
  index : Nat
  offsetNdomains : List Nat
  offsetNcells : List Nat
  ncells : List Nat
  deriving Repr, DecidableEq

/-- `Metadomain::createEmptyDomains` (metadomain.cpp:101-193) after `tools::Decompose` returned
`dNcells`: one subdomain for each `idx < g_ndomains`.  Reading past the end of one of the three
tensor products is undefined behaviour (`none`).  Simplification: extents, metric, species and
the MPI placeholder distinction are not modelled here. -/
def createDomains (ndomains : Nat) (dNcells : List (List Nat)) : Option (List Subdomain) :=
  let nc := tensorProduct dNcells
  let onc := tensorProduct (dNcells.map offsetsNcells)
  let ond := tensorProduct (dNcells.map offsetsNdoms)
  (List.range ndomains).mapM (fun idx => do
    let a ← ond[idx]?
    let b ← nc[idx]?
    let c ← onc[idx]?
    return { index := idx, offsetNdomains := a, offsetNcells := c, ncells := b })

end Entity.Decomp
