import Verif.Model.Base
import Mathlib.Algebra.Order.Field.Basic

/-!
# Particle shapes

Models `src/kernels/particle_shapes.hpp`.  Numbers are elements of an arbitrary ordered field;
rounding is not modelled.  The products `SQR(SQR(x)) * CUBE(x)`, ... of the source are written as
powers, and `a.0 / b.0` as the exact rational `a / b`.  The fixed-size local arrays `S[O + 1]`,
`iS[O + 2]`, `fS[O + 2]` are functions of the index: every loop over them in the source has
constant bounds inside the array.
-/

namespace Entity.Shapes

open Entity

variable {K : Type} [Field K] [LinearOrder K] [IsStrictOrderedRing K]

/-! ## The shape functions (of the absolute distance to the node) -/

/-- particle_shapes.hpp:25-31 `S1`. -/
def S1 (x : K) : K :=
  if x < 1 then
    1 - x
  else 0

/-- particle_shapes.hpp:38-46 `S2`. The second piece is written as in the source, `1/2 (3/2 - x)^2`. -/
def S2 (x : K) : K :=
  if x < 1/2 then
    3/4 - x^2
  else if x < 3/2 then
    1/2 * (3/2 - x)^2
  else 0

/-- particle_shapes.hpp:54-63 `S3`. -/
def S3 (x : K) : K :=
  if x < 1 then
    2/3 - x^2 + (1/2) * x^3
  else if x < 2 then
    4/3 - 2 * x + x^2 - (1/6) * x^3
  else 0

/-- particle_shapes.hpp:71-90 `S4`. -/
def S4 (x : K) : K :=
  if x < 1/2 then
    115/192 - (5/8) * x^2 + (1/4) * x^4
  else if x < 3/2 then
    55/96 + (5/24) * x - (5/4) * x^2 + (5/6) * x^3 - (1/6) * x^4
  else if x < 5/2 then
    625/384 - (125/48) * x + (25/16) * x^2 - (5/12) * x^3 + (1/24) * x^4
  else 0

/-- particle_shapes.hpp:100-120 `S5`. -/
def S5 (x : K) : K :=
  if x ≤ 1 then
    11/20 - (1/2) * x^2 + (1/4) * x^4 - (1/12) * x^5
  else if x < 2 then
    17/40 + (5/8) * x - (7/4) * x^2 + (5/4) * x^3 - (3/8) * x^4 + (1/24) * x^5
  else if x < 3 then
    81/40 - (27/8) * x + (9/4) * x^2 - (3/4) * x^3 + (1/8) * x^4 - (1/120) * x^5
  else 0

/-- particle_shapes.hpp:133-166 `S6`. -/
def S6 (x : K) : K :=
  if x ≤ 1/2 then
    5887/11520 - (77/192) * x^2 + (7/48) * x^4 - (1/36) * x^6
  else if x < 3/2 then
    7861/15360 - (7/768) * x - (91/256) * x^2 - (35/288) * x^3 + (21/64) * x^4 - (7/48) * x^5 +
      (1/48) * x^6
  else if x < 5/2 then
    1379/7680 + (1267/960) * x - (329/128) * x^2 + (133/72) * x^3 - (21/32) * x^4 + (7/60) * x^5 -
      (1/120) * x^6
  else if x < 7/2 then
    117649/46080 - (16807/3840) * x + (2401/768) * x^2 - (343/288) * x^3 + (49/192) * x^4 -
      (7/240) * x^5 + (1/720) * x^6
  else 0

/-- particle_shapes.hpp:179-214 `S7`. -/
def S7 (x : K) : K :=
  if x < 1 then
    151/315 - (1/3) * x^2 + (1/9) * x^4 - (1/36) * x^6 + (1/144) * x^7
  else if x ≤ 2 then
    103/210 - (7/90) * x - (1/10) * x^2 - (7/18) * x^3 + (1/2) * x^4 - (7/30) * x^5 +
      (1/20) * x^6 - (1/240) * x^7
  else if x < 3 then
    -(139/630) + (217/90) * x - (23/6) * x^2 + (49/18) * x^3 - (19/18) * x^4 + (7/30) * x^5 -
      (1/36) * x^6 + (1/720) * x^7
  else if x < 4 then
    1024/315 - (256/45) * x + (64/15) * x^2 - (16/9) * x^3 + (4/9) * x^4 - (1/15) * x^5 +
      (1/180) * x^6 - (1/5040) * x^7
  else 0

/-- particle_shapes.hpp:229-279 `S8`. -/
def S8 (x : K) : K :=
  if x < 1/2 then
    259723/573440 - (289/1024) * x^2 + (43/512) * x^4 - (1/64) * x^6 + (1/576) * x^8
  else if x ≤ 3/2 then
    64929/143360 + (1/5120) * x - (363/1280) * x^2 + (7/1280) * x^3 + (9/128) * x^4 +
      (7/320) * x^5 - (3/80) * x^6 + (1/80) * x^7 - (1/720) * x^8
  else if x < 5/2 then
    145167/286720 - (1457/5120) * x + (195/512) * x^2 - (1127/1280) * x^3 + (207/256) * x^4 -
      (119/320) * x^5 + (3/32) * x^6 - (1/80) * x^7 + (1/1440) * x^8
  else if x < 7/2 then
    -(122729/143360) + (146051/35840) * x - (1465/256) * x^2 + (5123/1280) * x^3 -
      (209/128) * x^4 + (131/320) * x^5 - (1/16) * x^6 + (3/560) * x^7 - (1/5040) * x^8
  else if x < 9/2 then
    4782969/1146880 - (531441/71680) * x + (59049/10240) * x^2 - (6561/2560) * x^3 +
      (729/1024) * x^4 - (81/640) * x^5 + (9/640) * x^6 - (1/1120) * x^7 + (1/40320) * x^8
  else 0

/-- particle_shapes.hpp:294-349 `S9`. -/
def S9 (x : K) : K :=
  if x ≤ 1 then
    15619/36288 - (35/144) * x^2 + (19/288) * x^4 - (5/432) * x^6 + (1/576) * x^8 -
      (1/2880) * x^9
  else if x < 2 then
    7799/18144 + (1/192) * x - (19/72) * x^2 + (7/144) * x^3 - (1/144) * x^4 + (7/96) * x^5 -
      (13/216) * x^6 + (1/48) * x^7 - (1/288) * x^8 + (1/4320) * x^9
  else if x ≤ 3 then
    1553/2592 - (339/448) * x + (635/504) * x^2 - (83/48) * x^3 + (191/144) * x^4 -
      (19/32) * x^5 + (35/216) * x^6 - (3/112) * x^7 + (5/2016) * x^8 - (1/10080) * x^9
  else if x < 4 then
    -(133663/72576) + (5883/896) * x - (2449/288) * x^2 + (563/96) * x^3 - (1423/576) * x^4 +
      (43/64) * x^5 - (103/864) * x^6 + (3/224) * x^7 - (1/1152) * x^8 + (1/40320) * x^9
  else if x < 5 then
    390625/72576 - (78125/8064) * x + (15625/2016) * x^2 - (3125/864) * x^3 + (625/576) * x^4 -
      (125/576) * x^5 + (25/864) * x^6 - (5/2016) * x^7 + (1/8064) * x^8 - (1/362880) * x^9
  else 0

/-- particle_shapes.hpp:366-437 `S10`. -/
def S10 (x : K) : K :=
  if x < 1/2 then
    381773117/928972800 - (156409/737280) * x^2 + (14597/276480) * x^4 - (583/69120) * x^6 +
      (11/11520) * x^8 - (1/14400) * x^10
  else if x < 3/2 then
    152709293/371589120 - (11/4423680) * x - (62557/294912) * x^2 - (11/92160) * x^3 +
      (5885/110592) * x^4 - (77/76800) * x^5 - (187/27648) * x^6 - (11/5760) * x^7 +
      (11/4608) * x^8 - (11/17280) * x^9 + (1/17280) * x^10
  else if x ≤ 5/2 then
    37690169/92897280 + (135311/3870720) * x - (163603/516096) * x^2 + (7513/40320) * x^3 -
      (4543/27648) * x^4 + (1661/9600) * x^5 - (715/6912) * x^6 + (11/315) * x^7 -
      (55/8064) * x^8 + (11/15120) * x^9 - (1/30240) * x^10
  else if x < 7/2 then
    623786977/743178240 - (11695211/6881280) * x + (1654543/589824) * x^2 -
      (1352153/430080) * x^3 + (479281/221184) * x^4 - (48433/51200) * x^5 +
      (14905/55296) * x^6 - (451/8960) * x^7 + (55/9216) * x^8 - (11/26880) * x^9 +
      (1/80640) * x^10
  else if x < 9/2 then
    -(1241720381/371589120) + (237959711/23224320) * x - (3702215/294912) * x^2 +
      (2070343/241920) * x^3 - (407429/110592) * x^4 + (61061/57600) * x^5 -
      (5753/27648) * x^6 + (209/7560) * x^7 - (11/4608) * x^8 + (11/90720) * x^9 -
      (1/362880) * x^10
  else if x < 11/2 then
    25937424601/3715891200 - (2357947691/185794560) * x + (214358881/20643840) * x^2 -
      (19487171/3870720) * x^3 + (1771561/1105920) * x^4 - (161051/460800) * x^5 +
      (14641/276480) * x^6 - (1331/241920) * x^7 + (121/322560) * x^8 - (11/725760) * x^9 +
      (1/3628800) * x^10
  else 0

/-- particle_shapes.hpp:465-542 `S11`. -/
def S11 (x : K) : K :=
  if x < 1 then
    655177/1663200 - (809/4320) * x^2 + (31/720) * x^4 - (23/3600) * x^6 + (1/1440) * x^8 -
      (1/14400) * x^10 + (1/86400) * x^11
  else if x ≤ 2 then
    65521/166320 - (11/50400) * x - (563/3024) * x^2 - (11/3360) * x^3 + (25/504) * x^4 -
      (11/1200) * x^5 + (1/360) * x^6 - (11/1680) * x^7 + (1/252) * x^8 - (11/10080) * x^9 +
      (1/6720) * x^10 - (1/120960) * x^11
  else if x < 3 then
    61297/166320 + (781/5600) * x - (1619/3024) * x^2 + (583/1120) * x^3 - (239/504) * x^4 +
      (143/400) * x^5 - (13/72) * x^6 + (33/560) * x^7 - (25/2016) * x^8 + (11/6720) * x^9 -
      (1/8064) * x^10 + (1/241920) * x^11
  else if x ≤ 4 then
    894727/665280 - (38533/11200) * x + (9385/1728) * x^2 - (12199/2240) * x^3 +
      (1009/288) * x^4 - (1199/800) * x^5 + (631/1440) * x^6 - (99/1120) * x^7 + (7/576) * x^8 -
      (11/10080) * x^9 + (1/17280) * x^10 - (1/725760) * x^11
  else if x < 5 then
    -(18595037/3326400) + (4726777/302400) * x - (1113317/60480) * x^2 + (250657/20160) * x^3 -
      (54797/10080) * x^4 + (11737/7200) * x^5 - (2477/7200) * x^6 + (517/10080) * x^7 -
      (107/20160) * x^8 + (11/30240) * x^9 - (1/67200) * x^10 + (1/3628800) * x^11
  else if x < 6 then
    17496/1925 - (2916/175) * x + (486/35) * x^2 - (243/35) * x^3 + (81/35) * x^4 -
      (27/50) * x^5 + (9/100) * x^6 - (3/280) * x^7 + (1/1120) * x^8 - (1/20160) * x^9 +
      (1/604800) * x^10 - (1/39916800) * x^11
  else 0

/-- The shape function selected by the template parameter `O` (the calls of `S3` ... `S11` in
`order`); for other orders there is no function and the value 0 is never used. -/
def shape (O : Nat) (x : K) : K :=
  match O with
  | 1 => S1 x
  | 2 => S2 x
  | 3 => S3 x
  | 4 => S4 x
  | 5 => S5 x
  | 6 => S6 x
  | 7 => S7 x
  | 8 => S8 x
  | 9 => S9 x
  | 10 => S10 x
  | 11 => S11 x
  | _ => 0

/-! ## Weights around a particle -/

/-- The first node and the constant `c` of the loop `S[n] = S_O(fabs(c + di - n))`
(particle_shapes.hpp:586-916), for the orders 3 ... 11. -/
def orderBase (O : Nat) (staggered : Bool) (i : Int) (di : K) : Option (Int × K) :=
  match O, staggered with
  -- 586-614
  | 3, false => some (i - 1, 1)
  | 3, true => if di < 1/2 then some (i - 2, 3/2) else some (i - 1, 1/2)
  -- 615-646
  | 4, false => if di < 1/2 then some (i - 2, 2) else some (i - 1, 1)
  | 4, true => some (i - 2, 3/2)
  -- 647-679
  | 5, false => some (i - 2, 2)
  | 5, true => if di < 1/2 then some (i - 3, 5/2) else some (i - 2, 3/2)
  -- 680-717
  | 6, false => if di < 1/2 then some (i - 3, 3) else some (i - 2, 2)
  | 6, true => some (i - 3, 5/2)
  -- 718-754
  | 7, false => some (i - 3, 3)
  | 7, true => if di < 1/2 then some (i - 4, 7/2) else some (i - 3, 5/2)
  -- 755-793
  | 8, false => if di < 1/2 then some (i - 4, 4) else some (i - 3, 3)
  | 8, true => some (i - 4, 7/2)
  -- 794-832
  | 9, false => some (i - 4, 4)
  | 9, true => if di < 1/2 then some (i - 5, 9/2) else some (i - 4, 7/2)
  -- 833-873
  | 10, false => if di < 1/2 then some (i - 5, 5) else some (i - 4, 4)
  | 10, true => some (i - 5, 9/2)
  -- 874-916
  | 11, false => some (i - 5, 5)
  | 11, true => if di < 1/2 then some (i - 6, 11/2) else some (i - 5, 9/2)
  | _, _ => none

/-- `order<STAGGERED, O>(i, di, i_min, S)` (particle_shapes.hpp:544-932): the first node of the
stencil and the `O + 1` weights.  Unsupported orders end in `raise::KernelError`. -/
def order (staggered : Bool) (O : Nat) (i : Int) (di : K) : Outcome (Int × (Nat → K)) :=
  match O, staggered with
  -- 546-551
  | 1, false => .ok (i, fun n => if n = 0 then 1 - di else di)
  -- 552-563
  | 1, true =>
    if di < 1/2 then .ok (i - 1, fun n => if n = 0 then 1/2 - di else 1 - (1/2 - di))
    else .ok (i, fun n => if n = 0 then 3/2 - di else 1 - (3/2 - di))
  -- 564-579
  | 2, false =>
    if di < 1/2 then
      let s0 := 1/2 * (1/2 - di)^2
      let s1 := 3/4 - di^2
      .ok (i - 1, fun n => if n = 0 then s0 else if n = 1 then s1 else 1 - s0 - s1)
    else
      let s0 := 1/2 * (3/2 - di)^2
      let s1 := 3/4 - (1 - di)^2
      .ok (i, fun n => if n = 0 then s0 else if n = 1 then s1 else 1 - s0 - s1)
  -- 580-585
  | 2, true =>
    let s0 := 1/2 * (1 - di)^2
    let s2 := 1/2 * di^2
    .ok (i - 1, fun n => if n = 0 then s0 else if n = 2 then s2 else 1 - s0 - s2)
  | O, st =>
    match orderBase O st i di with
    | some (iMin, c) => .ok (iMin, fun n => shape O |c + di - (n : K)|)
    | none => .err

/-- `for_deposit<O>` (particle_shapes.hpp:934-1024): `(i_min, i_max, iS, fS)`. -/
def forDeposit (O : Nat) (iInit : Int) (diInit : K) (iFin : Int) (diFin : K) :
    Outcome (Int × Int × (Nat → K) × (Nat → K)) := do
  let (iInitMin, iS_) ← order false O iInit diInit
  let (iFinMin, fS_) ← order false O iFin diFin
  if iInitMin < iFinMin then
    return (iInitMin, iInitMin + O + 1,
      (fun j => if j = O + 1 then 0 else iS_ j),
      (fun j => if j = 0 then 0 else fS_ (j - 1)))
  else if iInitMin > iFinMin then
    return (iFinMin, iFinMin + O + 1,
      (fun j => if j = 0 then 0 else iS_ (j - 1)),
      (fun j => if j = O + 1 then 0 else fS_ j))
  else
    return (iInitMin, iInitMin + O,
      (fun j => if j = O + 1 then 0 else iS_ j),
      (fun j => if j = O + 1 then 0 else fS_ j))

end Entity.Shapes
