import Verif.Model.Shapes
import Mathlib.Tactic.Ring
import Mathlib.Tactic.Linarith
import Mathlib.Tactic.NormNum

/-!
# The polynomial pieces of the shape functions

For each order: the value on each piece (continuity makes `<` against `≤` in the source irrelevant)
and the recurrence of the cardinal B-splines, `S_{n+1}` from `S_n`.
-/

namespace Entity.Shapes

variable {K : Type} [Field K] [LinearOrder K] [IsStrictOrderedRing K]

theorem S1_p0 {x : K} (h₁ : x < 1) : S1 x =
    1 - x := by
  unfold S1
  rw [if_pos (by linarith)]

theorem S1_out {x : K} (h₀ : 1 ≤ x) : S1 x = 0 := by
  unfold S1
  rw [if_neg (by exact not_lt.mpr (by linarith))]

theorem S2_p0 {x : K} (h₁ : x < 1/2) : S2 x =
    3/4 - x^2 := by
  unfold S2
  rw [if_pos (by linarith)]

theorem S2_p1 {x : K} (h₀ : 1/2 ≤ x) (h₁ : x < 3/2) : S2 x =
    1/2 * (3/2 - x)^2 := by
  unfold S2
  rw [if_neg (by exact not_lt.mpr (by linarith))]
  rw [if_pos (by linarith)]

theorem S2_out {x : K} (h₀ : 3/2 ≤ x) : S2 x = 0 := by
  unfold S2
  rw [if_neg (by exact not_lt.mpr (by linarith))]
  rw [if_neg (by exact not_lt.mpr (by linarith))]

theorem S3_p0 {x : K} (h₁ : x < 1) : S3 x =
    2/3 - x^2 + (1/2) * x^3 := by
  unfold S3
  rw [if_pos (by linarith)]

theorem S3_p1 {x : K} (h₀ : 1 ≤ x) (h₁ : x < 2) : S3 x =
    4/3 - 2 * x + x^2 - (1/6) * x^3 := by
  unfold S3
  rw [if_neg (by exact not_lt.mpr (by linarith))]
  rw [if_pos (by linarith)]

theorem S3_out {x : K} (h₀ : 2 ≤ x) : S3 x = 0 := by
  unfold S3
  rw [if_neg (by exact not_lt.mpr (by linarith))]
  rw [if_neg (by exact not_lt.mpr (by linarith))]

theorem S4_p0 {x : K} (h₁ : x < 1/2) : S4 x =
    115/192 - (5/8) * x^2 + (1/4) * x^4 := by
  unfold S4
  rw [if_pos (by linarith)]

theorem S4_p1 {x : K} (h₀ : 1/2 ≤ x) (h₁ : x < 3/2) : S4 x =
    55/96 + (5/24) * x - (5/4) * x^2 + (5/6) * x^3 - (1/6) * x^4 := by
  unfold S4
  rw [if_neg (by exact not_lt.mpr (by linarith))]
  rw [if_pos (by linarith)]

theorem S4_p2 {x : K} (h₀ : 3/2 ≤ x) (h₁ : x < 5/2) : S4 x =
    625/384 - (125/48) * x + (25/16) * x^2 - (5/12) * x^3 + (1/24) * x^4 := by
  unfold S4
  rw [if_neg (by exact not_lt.mpr (by linarith))]
  rw [if_neg (by exact not_lt.mpr (by linarith))]
  rw [if_pos (by linarith)]

theorem S4_out {x : K} (h₀ : 5/2 ≤ x) : S4 x = 0 := by
  unfold S4
  rw [if_neg (by exact not_lt.mpr (by linarith))]
  rw [if_neg (by exact not_lt.mpr (by linarith))]
  rw [if_neg (by exact not_lt.mpr (by linarith))]

theorem S5_p0 {x : K} (h₁ : x < 1) : S5 x =
    11/20 - (1/2) * x^2 + (1/4) * x^4 - (1/12) * x^5 := by
  unfold S5
  rw [if_pos (by linarith)]

theorem S5_p1 {x : K} (h₀ : 1 ≤ x) (h₁ : x < 2) : S5 x =
    17/40 + (5/8) * x - (7/4) * x^2 + (5/4) * x^3 - (3/8) * x^4 + (1/24) * x^5 := by
  unfold S5
  rcases eq_or_lt_of_le h₀ with e | h₀
  · subst e; norm_num
  rw [if_neg (not_le.mpr h₀)]
  rw [if_pos (by linarith)]

theorem S5_p2 {x : K} (h₀ : 2 ≤ x) (h₁ : x < 3) : S5 x =
    81/40 - (27/8) * x + (9/4) * x^2 - (3/4) * x^3 + (1/8) * x^4 - (1/120) * x^5 := by
  unfold S5
  rw [if_neg (by exact not_le.mpr (by linarith))]
  rw [if_neg (by exact not_lt.mpr (by linarith))]
  rw [if_pos (by linarith)]

theorem S5_out {x : K} (h₀ : 3 ≤ x) : S5 x = 0 := by
  unfold S5
  rw [if_neg (by exact not_le.mpr (by linarith))]
  rw [if_neg (by exact not_lt.mpr (by linarith))]
  rw [if_neg (by exact not_lt.mpr (by linarith))]

theorem S6_p0 {x : K} (h₁ : x < 1/2) : S6 x =
    5887/11520 - (77/192) * x^2 + (7/48) * x^4 - (1/36) * x^6 := by
  unfold S6
  rw [if_pos (by linarith)]

theorem S6_p1 {x : K} (h₀ : 1/2 ≤ x) (h₁ : x < 3/2) : S6 x =
    7861/15360 - (7/768) * x - (91/256) * x^2 - (35/288) * x^3 + (21/64) * x^4 - (7/48) * x^5 +
      (1/48) * x^6 := by
  unfold S6
  rcases eq_or_lt_of_le h₀ with e | h₀
  · subst e; norm_num
  rw [if_neg (not_le.mpr h₀)]
  rw [if_pos (by linarith)]

theorem S6_p2 {x : K} (h₀ : 3/2 ≤ x) (h₁ : x < 5/2) : S6 x =
    1379/7680 + (1267/960) * x - (329/128) * x^2 + (133/72) * x^3 - (21/32) * x^4 + (7/60) * x^5 -
      (1/120) * x^6 := by
  unfold S6
  rw [if_neg (by exact not_le.mpr (by linarith))]
  rw [if_neg (by exact not_lt.mpr (by linarith))]
  rw [if_pos (by linarith)]

theorem S6_p3 {x : K} (h₀ : 5/2 ≤ x) (h₁ : x < 7/2) : S6 x =
    117649/46080 - (16807/3840) * x + (2401/768) * x^2 - (343/288) * x^3 + (49/192) * x^4 -
      (7/240) * x^5 + (1/720) * x^6 := by
  unfold S6
  rw [if_neg (by exact not_le.mpr (by linarith))]
  rw [if_neg (by exact not_lt.mpr (by linarith))]
  rw [if_neg (by exact not_lt.mpr (by linarith))]
  rw [if_pos (by linarith)]

theorem S6_out {x : K} (h₀ : 7/2 ≤ x) : S6 x = 0 := by
  unfold S6
  rw [if_neg (by exact not_le.mpr (by linarith))]
  rw [if_neg (by exact not_lt.mpr (by linarith))]
  rw [if_neg (by exact not_lt.mpr (by linarith))]
  rw [if_neg (by exact not_lt.mpr (by linarith))]

theorem S7_p0 {x : K} (h₁ : x < 1) : S7 x =
    151/315 - (1/3) * x^2 + (1/9) * x^4 - (1/36) * x^6 + (1/144) * x^7 := by
  unfold S7
  rw [if_pos (by linarith)]

theorem S7_p1 {x : K} (h₀ : 1 ≤ x) (h₁ : x < 2) : S7 x =
    103/210 - (7/90) * x - (1/10) * x^2 - (7/18) * x^3 + (1/2) * x^4 - (7/30) * x^5 +
      (1/20) * x^6 - (1/240) * x^7 := by
  unfold S7
  rw [if_neg (by exact not_lt.mpr (by linarith))]
  rw [if_pos (by linarith)]

theorem S7_p2 {x : K} (h₀ : 2 ≤ x) (h₁ : x < 3) : S7 x =
    -(139/630) + (217/90) * x - (23/6) * x^2 + (49/18) * x^3 - (19/18) * x^4 + (7/30) * x^5 -
      (1/36) * x^6 + (1/720) * x^7 := by
  unfold S7
  rw [if_neg (by exact not_lt.mpr (by linarith))]
  rcases eq_or_lt_of_le h₀ with e | h₀
  · subst e; norm_num
  rw [if_neg (not_le.mpr h₀)]
  rw [if_pos (by linarith)]

theorem S7_p3 {x : K} (h₀ : 3 ≤ x) (h₁ : x < 4) : S7 x =
    1024/315 - (256/45) * x + (64/15) * x^2 - (16/9) * x^3 + (4/9) * x^4 - (1/15) * x^5 +
      (1/180) * x^6 - (1/5040) * x^7 := by
  unfold S7
  rw [if_neg (by exact not_lt.mpr (by linarith))]
  rw [if_neg (by exact not_le.mpr (by linarith))]
  rw [if_neg (by exact not_lt.mpr (by linarith))]
  rw [if_pos (by linarith)]

theorem S7_out {x : K} (h₀ : 4 ≤ x) : S7 x = 0 := by
  unfold S7
  rw [if_neg (by exact not_lt.mpr (by linarith))]
  rw [if_neg (by exact not_le.mpr (by linarith))]
  rw [if_neg (by exact not_lt.mpr (by linarith))]
  rw [if_neg (by exact not_lt.mpr (by linarith))]

theorem S8_p0 {x : K} (h₁ : x < 1/2) : S8 x =
    259723/573440 - (289/1024) * x^2 + (43/512) * x^4 - (1/64) * x^6 + (1/576) * x^8 := by
  unfold S8
  rw [if_pos (by linarith)]

theorem S8_p1 {x : K} (h₀ : 1/2 ≤ x) (h₁ : x < 3/2) : S8 x =
    64929/143360 + (1/5120) * x - (363/1280) * x^2 + (7/1280) * x^3 + (9/128) * x^4 +
      (7/320) * x^5 - (3/80) * x^6 + (1/80) * x^7 - (1/720) * x^8 := by
  unfold S8
  rw [if_neg (by exact not_lt.mpr (by linarith))]
  rw [if_pos (by linarith)]

theorem S8_p2 {x : K} (h₀ : 3/2 ≤ x) (h₁ : x < 5/2) : S8 x =
    145167/286720 - (1457/5120) * x + (195/512) * x^2 - (1127/1280) * x^3 + (207/256) * x^4 -
      (119/320) * x^5 + (3/32) * x^6 - (1/80) * x^7 + (1/1440) * x^8 := by
  unfold S8
  rw [if_neg (by exact not_lt.mpr (by linarith))]
  rcases eq_or_lt_of_le h₀ with e | h₀
  · subst e; norm_num
  rw [if_neg (not_le.mpr h₀)]
  rw [if_pos (by linarith)]

theorem S8_p3 {x : K} (h₀ : 5/2 ≤ x) (h₁ : x < 7/2) : S8 x =
    -(122729/143360) + (146051/35840) * x - (1465/256) * x^2 + (5123/1280) * x^3 -
      (209/128) * x^4 + (131/320) * x^5 - (1/16) * x^6 + (3/560) * x^7 - (1/5040) * x^8 := by
  unfold S8
  rw [if_neg (by exact not_lt.mpr (by linarith))]
  rw [if_neg (by exact not_le.mpr (by linarith))]
  rw [if_neg (by exact not_lt.mpr (by linarith))]
  rw [if_pos (by linarith)]

theorem S8_p4 {x : K} (h₀ : 7/2 ≤ x) (h₁ : x < 9/2) : S8 x =
    4782969/1146880 - (531441/71680) * x + (59049/10240) * x^2 - (6561/2560) * x^3 +
      (729/1024) * x^4 - (81/640) * x^5 + (9/640) * x^6 - (1/1120) * x^7 + (1/40320) * x^8 := by
  unfold S8
  rw [if_neg (by exact not_lt.mpr (by linarith))]
  rw [if_neg (by exact not_le.mpr (by linarith))]
  rw [if_neg (by exact not_lt.mpr (by linarith))]
  rw [if_neg (by exact not_lt.mpr (by linarith))]
  rw [if_pos (by linarith)]

theorem S8_out {x : K} (h₀ : 9/2 ≤ x) : S8 x = 0 := by
  unfold S8
  rw [if_neg (by exact not_lt.mpr (by linarith))]
  rw [if_neg (by exact not_le.mpr (by linarith))]
  rw [if_neg (by exact not_lt.mpr (by linarith))]
  rw [if_neg (by exact not_lt.mpr (by linarith))]
  rw [if_neg (by exact not_lt.mpr (by linarith))]

theorem S9_p0 {x : K} (h₁ : x < 1) : S9 x =
    15619/36288 - (35/144) * x^2 + (19/288) * x^4 - (5/432) * x^6 + (1/576) * x^8 -
      (1/2880) * x^9 := by
  unfold S9
  rw [if_pos (by linarith)]

theorem S9_p1 {x : K} (h₀ : 1 ≤ x) (h₁ : x < 2) : S9 x =
    7799/18144 + (1/192) * x - (19/72) * x^2 + (7/144) * x^3 - (1/144) * x^4 + (7/96) * x^5 -
      (13/216) * x^6 + (1/48) * x^7 - (1/288) * x^8 + (1/4320) * x^9 := by
  unfold S9
  rcases eq_or_lt_of_le h₀ with e | h₀
  · subst e; norm_num
  rw [if_neg (not_le.mpr h₀)]
  rw [if_pos (by linarith)]

theorem S9_p2 {x : K} (h₀ : 2 ≤ x) (h₁ : x < 3) : S9 x =
    1553/2592 - (339/448) * x + (635/504) * x^2 - (83/48) * x^3 + (191/144) * x^4 -
      (19/32) * x^5 + (35/216) * x^6 - (3/112) * x^7 + (5/2016) * x^8 - (1/10080) * x^9 := by
  unfold S9
  rw [if_neg (by exact not_le.mpr (by linarith))]
  rw [if_neg (by exact not_lt.mpr (by linarith))]
  rw [if_pos (by linarith)]

theorem S9_p3 {x : K} (h₀ : 3 ≤ x) (h₁ : x < 4) : S9 x =
    -(133663/72576) + (5883/896) * x - (2449/288) * x^2 + (563/96) * x^3 - (1423/576) * x^4 +
      (43/64) * x^5 - (103/864) * x^6 + (3/224) * x^7 - (1/1152) * x^8 + (1/40320) * x^9 := by
  unfold S9
  rw [if_neg (by exact not_le.mpr (by linarith))]
  rw [if_neg (by exact not_lt.mpr (by linarith))]
  rcases eq_or_lt_of_le h₀ with e | h₀
  · subst e; norm_num
  rw [if_neg (not_le.mpr h₀)]
  rw [if_pos (by linarith)]

theorem S9_p4 {x : K} (h₀ : 4 ≤ x) (h₁ : x < 5) : S9 x =
    390625/72576 - (78125/8064) * x + (15625/2016) * x^2 - (3125/864) * x^3 + (625/576) * x^4 -
      (125/576) * x^5 + (25/864) * x^6 - (5/2016) * x^7 + (1/8064) * x^8 - (1/362880) * x^9 := by
  unfold S9
  rw [if_neg (by exact not_le.mpr (by linarith))]
  rw [if_neg (by exact not_lt.mpr (by linarith))]
  rw [if_neg (by exact not_le.mpr (by linarith))]
  rw [if_neg (by exact not_lt.mpr (by linarith))]
  rw [if_pos (by linarith)]

theorem S9_out {x : K} (h₀ : 5 ≤ x) : S9 x = 0 := by
  unfold S9
  rw [if_neg (by exact not_le.mpr (by linarith))]
  rw [if_neg (by exact not_lt.mpr (by linarith))]
  rw [if_neg (by exact not_le.mpr (by linarith))]
  rw [if_neg (by exact not_lt.mpr (by linarith))]
  rw [if_neg (by exact not_lt.mpr (by linarith))]

theorem S10_p0 {x : K} (h₁ : x < 1/2) : S10 x =
    381773117/928972800 - (156409/737280) * x^2 + (14597/276480) * x^4 - (583/69120) * x^6 +
      (11/11520) * x^8 - (1/14400) * x^10 := by
  unfold S10
  rw [if_pos (by linarith)]

theorem S10_p1 {x : K} (h₀ : 1/2 ≤ x) (h₁ : x < 3/2) : S10 x =
    152709293/371589120 - (11/4423680) * x - (62557/294912) * x^2 - (11/92160) * x^3 +
      (5885/110592) * x^4 - (77/76800) * x^5 - (187/27648) * x^6 - (11/5760) * x^7 +
      (11/4608) * x^8 - (11/17280) * x^9 + (1/17280) * x^10 := by
  unfold S10
  rw [if_neg (by exact not_lt.mpr (by linarith))]
  rw [if_pos (by linarith)]

theorem S10_p2 {x : K} (h₀ : 3/2 ≤ x) (h₁ : x < 5/2) : S10 x =
    37690169/92897280 + (135311/3870720) * x - (163603/516096) * x^2 + (7513/40320) * x^3 -
      (4543/27648) * x^4 + (1661/9600) * x^5 - (715/6912) * x^6 + (11/315) * x^7 -
      (55/8064) * x^8 + (11/15120) * x^9 - (1/30240) * x^10 := by
  unfold S10
  rw [if_neg (by exact not_lt.mpr (by linarith))]
  rw [if_neg (by exact not_lt.mpr (by linarith))]
  rw [if_pos (by linarith)]

theorem S10_p3 {x : K} (h₀ : 5/2 ≤ x) (h₁ : x < 7/2) : S10 x =
    623786977/743178240 - (11695211/6881280) * x + (1654543/589824) * x^2 -
      (1352153/430080) * x^3 + (479281/221184) * x^4 - (48433/51200) * x^5 +
      (14905/55296) * x^6 - (451/8960) * x^7 + (55/9216) * x^8 - (11/26880) * x^9 +
      (1/80640) * x^10 := by
  unfold S10
  rw [if_neg (by exact not_lt.mpr (by linarith))]
  rw [if_neg (by exact not_lt.mpr (by linarith))]
  rcases eq_or_lt_of_le h₀ with e | h₀
  · subst e; norm_num
  rw [if_neg (not_le.mpr h₀)]
  rw [if_pos (by linarith)]

theorem S10_p4 {x : K} (h₀ : 7/2 ≤ x) (h₁ : x < 9/2) : S10 x =
    -(1241720381/371589120) + (237959711/23224320) * x - (3702215/294912) * x^2 +
      (2070343/241920) * x^3 - (407429/110592) * x^4 + (61061/57600) * x^5 -
      (5753/27648) * x^6 + (209/7560) * x^7 - (11/4608) * x^8 + (11/90720) * x^9 -
      (1/362880) * x^10 := by
  unfold S10
  rw [if_neg (by exact not_lt.mpr (by linarith))]
  rw [if_neg (by exact not_lt.mpr (by linarith))]
  rw [if_neg (by exact not_le.mpr (by linarith))]
  rw [if_neg (by exact not_lt.mpr (by linarith))]
  rw [if_pos (by linarith)]

theorem S10_p5 {x : K} (h₀ : 9/2 ≤ x) (h₁ : x < 11/2) : S10 x =
    25937424601/3715891200 - (2357947691/185794560) * x + (214358881/20643840) * x^2 -
      (19487171/3870720) * x^3 + (1771561/1105920) * x^4 - (161051/460800) * x^5 +
      (14641/276480) * x^6 - (1331/241920) * x^7 + (121/322560) * x^8 - (11/725760) * x^9 +
      (1/3628800) * x^10 := by
  unfold S10
  rw [if_neg (by exact not_lt.mpr (by linarith))]
  rw [if_neg (by exact not_lt.mpr (by linarith))]
  rw [if_neg (by exact not_le.mpr (by linarith))]
  rw [if_neg (by exact not_lt.mpr (by linarith))]
  rw [if_neg (by exact not_lt.mpr (by linarith))]
  rw [if_pos (by linarith)]

theorem S10_out {x : K} (h₀ : 11/2 ≤ x) : S10 x = 0 := by
  unfold S10
  rw [if_neg (by exact not_lt.mpr (by linarith))]
  rw [if_neg (by exact not_lt.mpr (by linarith))]
  rw [if_neg (by exact not_le.mpr (by linarith))]
  rw [if_neg (by exact not_lt.mpr (by linarith))]
  rw [if_neg (by exact not_lt.mpr (by linarith))]
  rw [if_neg (by exact not_lt.mpr (by linarith))]

theorem S11_p0 {x : K} (h₁ : x < 1) : S11 x =
    655177/1663200 - (809/4320) * x^2 + (31/720) * x^4 - (23/3600) * x^6 + (1/1440) * x^8 -
      (1/14400) * x^10 + (1/86400) * x^11 := by
  unfold S11
  rw [if_pos (by linarith)]

theorem S11_p1 {x : K} (h₀ : 1 ≤ x) (h₁ : x < 2) : S11 x =
    65521/166320 - (11/50400) * x - (563/3024) * x^2 - (11/3360) * x^3 + (25/504) * x^4 -
      (11/1200) * x^5 + (1/360) * x^6 - (11/1680) * x^7 + (1/252) * x^8 - (11/10080) * x^9 +
      (1/6720) * x^10 - (1/120960) * x^11 := by
  unfold S11
  rw [if_neg (by exact not_lt.mpr (by linarith))]
  rw [if_pos (by linarith)]

theorem S11_p2 {x : K} (h₀ : 2 ≤ x) (h₁ : x < 3) : S11 x =
    61297/166320 + (781/5600) * x - (1619/3024) * x^2 + (583/1120) * x^3 - (239/504) * x^4 +
      (143/400) * x^5 - (13/72) * x^6 + (33/560) * x^7 - (25/2016) * x^8 + (11/6720) * x^9 -
      (1/8064) * x^10 + (1/241920) * x^11 := by
  unfold S11
  rw [if_neg (by exact not_lt.mpr (by linarith))]
  rcases eq_or_lt_of_le h₀ with e | h₀
  · subst e; norm_num
  rw [if_neg (not_le.mpr h₀)]
  rw [if_pos (by linarith)]

theorem S11_p3 {x : K} (h₀ : 3 ≤ x) (h₁ : x < 4) : S11 x =
    894727/665280 - (38533/11200) * x + (9385/1728) * x^2 - (12199/2240) * x^3 +
      (1009/288) * x^4 - (1199/800) * x^5 + (631/1440) * x^6 - (99/1120) * x^7 + (7/576) * x^8 -
      (11/10080) * x^9 + (1/17280) * x^10 - (1/725760) * x^11 := by
  unfold S11
  rw [if_neg (by exact not_lt.mpr (by linarith))]
  rw [if_neg (by exact not_le.mpr (by linarith))]
  rw [if_neg (by exact not_lt.mpr (by linarith))]
  rw [if_pos (by linarith)]

theorem S11_p4 {x : K} (h₀ : 4 ≤ x) (h₁ : x < 5) : S11 x =
    -(18595037/3326400) + (4726777/302400) * x - (1113317/60480) * x^2 + (250657/20160) * x^3 -
      (54797/10080) * x^4 + (11737/7200) * x^5 - (2477/7200) * x^6 + (517/10080) * x^7 -
      (107/20160) * x^8 + (11/30240) * x^9 - (1/67200) * x^10 + (1/3628800) * x^11 := by
  unfold S11
  rw [if_neg (by exact not_lt.mpr (by linarith))]
  rw [if_neg (by exact not_le.mpr (by linarith))]
  rw [if_neg (by exact not_lt.mpr (by linarith))]
  rcases eq_or_lt_of_le h₀ with e | h₀
  · subst e; norm_num
  rw [if_neg (not_le.mpr h₀)]
  rw [if_pos (by linarith)]

theorem S11_p5 {x : K} (h₀ : 5 ≤ x) (h₁ : x < 6) : S11 x =
    17496/1925 - (2916/175) * x + (486/35) * x^2 - (243/35) * x^3 + (81/35) * x^4 -
      (27/50) * x^5 + (9/100) * x^6 - (3/280) * x^7 + (1/1120) * x^8 - (1/20160) * x^9 +
      (1/604800) * x^10 - (1/39916800) * x^11 := by
  unfold S11
  rw [if_neg (by exact not_lt.mpr (by linarith))]
  rw [if_neg (by exact not_le.mpr (by linarith))]
  rw [if_neg (by exact not_lt.mpr (by linarith))]
  rw [if_neg (by exact not_le.mpr (by linarith))]
  rw [if_neg (by exact not_lt.mpr (by linarith))]
  rw [if_pos (by linarith)]

theorem S11_out {x : K} (h₀ : 6 ≤ x) : S11 x = 0 := by
  unfold S11
  rw [if_neg (by exact not_lt.mpr (by linarith))]
  rw [if_neg (by exact not_le.mpr (by linarith))]
  rw [if_neg (by exact not_lt.mpr (by linarith))]
  rw [if_neg (by exact not_le.mpr (by linarith))]
  rw [if_neg (by exact not_lt.mpr (by linarith))]
  rw [if_neg (by exact not_lt.mpr (by linarith))]

theorem S2_rec_nonneg {x : K} (hx : 0 ≤ x) : S2 |x| =
    ((x + 3/2) * S1 |x + 1/2| + (3/2 - x) * S1 |x - 1/2|) / 2 := by
  rw [abs_of_nonneg hx, abs_of_nonneg (by linarith : (0:K) ≤ x + 1/2)]
  rcases lt_or_ge x (1/2) with h | h
  · rw [show |x - 1/2| = 1/2 - x by rw [abs_of_nonpos (by linarith)]; ring]
    rw [S2_p0 (by linarith), S1_p0 (by linarith), S1_p0 (by linarith)]
    ring
  rcases lt_or_ge x (3/2) with h | h
  · rw [abs_of_nonneg (by linarith : (0:K) ≤ x - 1/2)]
    rw [S2_p1 (by linarith) (by linarith), S1_out (by linarith), S1_p0 (by linarith)]
    ring
  rw [abs_of_nonneg (by linarith : (0:K) ≤ x - 1/2)]
  rw [S2_out (by linarith), S1_out (by linarith), S1_out (by linarith)]
  ring

theorem S2_rec (x : K) : S2 |x| =
    ((x + 3/2) * S1 |x + 1/2| + (3/2 - x) * S1 |x - 1/2|) / 2 := by
  rcases le_total 0 x with hx | hx
  · exact S2_rec_nonneg hx
  · have h := S2_rec_nonneg (x := -x) (by linarith)
    rw [abs_neg, show -x + 1/2 = -(x - 1/2) by ring, show -x - 1/2 = -(x + 1/2) by ring,
      abs_neg, abs_neg] at h
    rw [h]; ring

theorem S3_rec_nonneg {x : K} (hx : 0 ≤ x) : S3 |x| =
    ((x + 2) * S2 |x + 1/2| + (2 - x) * S2 |x - 1/2|) / 3 := by
  rw [abs_of_nonneg hx, abs_of_nonneg (by linarith : (0:K) ≤ x + 1/2)]
  rcases lt_or_ge x (1/2) with h | h
  · rw [show |x - 1/2| = 1/2 - x by rw [abs_of_nonpos (by linarith)]; ring]
    rcases eq_or_lt_of_le hx with e | hx
    · subst e; norm_num [S3, S2]
    rw [S3_p0 (by linarith), S2_p1 (by linarith) (by linarith), S2_p0 (by linarith)]
    ring
  rcases lt_or_ge x (1) with h | h
  · rw [abs_of_nonneg (by linarith : (0:K) ≤ x - 1/2)]
    rw [S3_p0 (by linarith), S2_p1 (by linarith) (by linarith), S2_p0 (by linarith)]
    ring
  rcases lt_or_ge x (2) with h | h
  · rw [abs_of_nonneg (by linarith : (0:K) ≤ x - 1/2)]
    rw [S3_p1 (by linarith) (by linarith), S2_out (by linarith), S2_p1 (by linarith) (by linarith)]
    ring
  rw [abs_of_nonneg (by linarith : (0:K) ≤ x - 1/2)]
  rw [S3_out (by linarith), S2_out (by linarith), S2_out (by linarith)]
  ring

theorem S3_rec (x : K) : S3 |x| =
    ((x + 2) * S2 |x + 1/2| + (2 - x) * S2 |x - 1/2|) / 3 := by
  rcases le_total 0 x with hx | hx
  · exact S3_rec_nonneg hx
  · have h := S3_rec_nonneg (x := -x) (by linarith)
    rw [abs_neg, show -x + 1/2 = -(x - 1/2) by ring, show -x - 1/2 = -(x + 1/2) by ring,
      abs_neg, abs_neg] at h
    rw [h]; ring

theorem S4_rec_nonneg {x : K} (hx : 0 ≤ x) : S4 |x| =
    ((x + 5/2) * S3 |x + 1/2| + (5/2 - x) * S3 |x - 1/2|) / 4 := by
  rw [abs_of_nonneg hx, abs_of_nonneg (by linarith : (0:K) ≤ x + 1/2)]
  rcases lt_or_ge x (1/2) with h | h
  · rw [show |x - 1/2| = 1/2 - x by rw [abs_of_nonpos (by linarith)]; ring]
    rw [S4_p0 (by linarith), S3_p0 (by linarith), S3_p0 (by linarith)]
    ring
  rcases lt_or_ge x (3/2) with h | h
  · rw [abs_of_nonneg (by linarith : (0:K) ≤ x - 1/2)]
    rw [S4_p1 (by linarith) (by linarith), S3_p1 (by linarith) (by linarith), S3_p0 (by linarith)]
    ring
  rcases lt_or_ge x (5/2) with h | h
  · rw [abs_of_nonneg (by linarith : (0:K) ≤ x - 1/2)]
    rw [S4_p2 (by linarith) (by linarith), S3_out (by linarith), S3_p1 (by linarith) (by linarith)]
    ring
  rw [abs_of_nonneg (by linarith : (0:K) ≤ x - 1/2)]
  rw [S4_out (by linarith), S3_out (by linarith), S3_out (by linarith)]
  ring

theorem S4_rec (x : K) : S4 |x| =
    ((x + 5/2) * S3 |x + 1/2| + (5/2 - x) * S3 |x - 1/2|) / 4 := by
  rcases le_total 0 x with hx | hx
  · exact S4_rec_nonneg hx
  · have h := S4_rec_nonneg (x := -x) (by linarith)
    rw [abs_neg, show -x + 1/2 = -(x - 1/2) by ring, show -x - 1/2 = -(x + 1/2) by ring,
      abs_neg, abs_neg] at h
    rw [h]; ring

theorem S5_rec_nonneg {x : K} (hx : 0 ≤ x) : S5 |x| =
    ((x + 3) * S4 |x + 1/2| + (3 - x) * S4 |x - 1/2|) / 5 := by
  rw [abs_of_nonneg hx, abs_of_nonneg (by linarith : (0:K) ≤ x + 1/2)]
  rcases lt_or_ge x (1/2) with h | h
  · rw [show |x - 1/2| = 1/2 - x by rw [abs_of_nonpos (by linarith)]; ring]
    rcases eq_or_lt_of_le hx with e | hx
    · subst e; norm_num [S5, S4]
    rw [S5_p0 (by linarith), S4_p1 (by linarith) (by linarith), S4_p0 (by linarith)]
    ring
  rcases lt_or_ge x (1) with h | h
  · rw [abs_of_nonneg (by linarith : (0:K) ≤ x - 1/2)]
    rw [S5_p0 (by linarith), S4_p1 (by linarith) (by linarith), S4_p0 (by linarith)]
    ring
  rcases lt_or_ge x (2) with h | h
  · rw [abs_of_nonneg (by linarith : (0:K) ≤ x - 1/2)]
    rw [S5_p1 (by linarith) (by linarith), S4_p2 (by linarith) (by linarith), S4_p1 (by linarith) (by linarith)]
    ring
  rcases lt_or_ge x (3) with h | h
  · rw [abs_of_nonneg (by linarith : (0:K) ≤ x - 1/2)]
    rw [S5_p2 (by linarith) (by linarith), S4_out (by linarith), S4_p2 (by linarith) (by linarith)]
    ring
  rw [abs_of_nonneg (by linarith : (0:K) ≤ x - 1/2)]
  rw [S5_out (by linarith), S4_out (by linarith), S4_out (by linarith)]
  ring

theorem S5_rec (x : K) : S5 |x| =
    ((x + 3) * S4 |x + 1/2| + (3 - x) * S4 |x - 1/2|) / 5 := by
  rcases le_total 0 x with hx | hx
  · exact S5_rec_nonneg hx
  · have h := S5_rec_nonneg (x := -x) (by linarith)
    rw [abs_neg, show -x + 1/2 = -(x - 1/2) by ring, show -x - 1/2 = -(x + 1/2) by ring,
      abs_neg, abs_neg] at h
    rw [h]; ring

theorem S6_rec_nonneg {x : K} (hx : 0 ≤ x) : S6 |x| =
    ((x + 7/2) * S5 |x + 1/2| + (7/2 - x) * S5 |x - 1/2|) / 6 := by
  rw [abs_of_nonneg hx, abs_of_nonneg (by linarith : (0:K) ≤ x + 1/2)]
  rcases lt_or_ge x (1/2) with h | h
  · rw [show |x - 1/2| = 1/2 - x by rw [abs_of_nonpos (by linarith)]; ring]
    rw [S6_p0 (by linarith), S5_p0 (by linarith), S5_p0 (by linarith)]
    ring
  rcases lt_or_ge x (3/2) with h | h
  · rw [abs_of_nonneg (by linarith : (0:K) ≤ x - 1/2)]
    rw [S6_p1 (by linarith) (by linarith), S5_p1 (by linarith) (by linarith), S5_p0 (by linarith)]
    ring
  rcases lt_or_ge x (5/2) with h | h
  · rw [abs_of_nonneg (by linarith : (0:K) ≤ x - 1/2)]
    rw [S6_p2 (by linarith) (by linarith), S5_p2 (by linarith) (by linarith), S5_p1 (by linarith) (by linarith)]
    ring
  rcases lt_or_ge x (7/2) with h | h
  · rw [abs_of_nonneg (by linarith : (0:K) ≤ x - 1/2)]
    rw [S6_p3 (by linarith) (by linarith), S5_out (by linarith), S5_p2 (by linarith) (by linarith)]
    ring
  rw [abs_of_nonneg (by linarith : (0:K) ≤ x - 1/2)]
  rw [S6_out (by linarith), S5_out (by linarith), S5_out (by linarith)]
  ring

theorem S6_rec (x : K) : S6 |x| =
    ((x + 7/2) * S5 |x + 1/2| + (7/2 - x) * S5 |x - 1/2|) / 6 := by
  rcases le_total 0 x with hx | hx
  · exact S6_rec_nonneg hx
  · have h := S6_rec_nonneg (x := -x) (by linarith)
    rw [abs_neg, show -x + 1/2 = -(x - 1/2) by ring, show -x - 1/2 = -(x + 1/2) by ring,
      abs_neg, abs_neg] at h
    rw [h]; ring

theorem S7_rec_nonneg {x : K} (hx : 0 ≤ x) : S7 |x| =
    ((x + 4) * S6 |x + 1/2| + (4 - x) * S6 |x - 1/2|) / 7 := by
  rw [abs_of_nonneg hx, abs_of_nonneg (by linarith : (0:K) ≤ x + 1/2)]
  rcases lt_or_ge x (1/2) with h | h
  · rw [show |x - 1/2| = 1/2 - x by rw [abs_of_nonpos (by linarith)]; ring]
    rcases eq_or_lt_of_le hx with e | hx
    · subst e; norm_num [S7, S6]
    rw [S7_p0 (by linarith), S6_p1 (by linarith) (by linarith), S6_p0 (by linarith)]
    ring
  rcases lt_or_ge x (1) with h | h
  · rw [abs_of_nonneg (by linarith : (0:K) ≤ x - 1/2)]
    rw [S7_p0 (by linarith), S6_p1 (by linarith) (by linarith), S6_p0 (by linarith)]
    ring
  rcases lt_or_ge x (2) with h | h
  · rw [abs_of_nonneg (by linarith : (0:K) ≤ x - 1/2)]
    rw [S7_p1 (by linarith) (by linarith), S6_p2 (by linarith) (by linarith), S6_p1 (by linarith) (by linarith)]
    ring
  rcases lt_or_ge x (3) with h | h
  · rw [abs_of_nonneg (by linarith : (0:K) ≤ x - 1/2)]
    rw [S7_p2 (by linarith) (by linarith), S6_p3 (by linarith) (by linarith), S6_p2 (by linarith) (by linarith)]
    ring
  rcases lt_or_ge x (4) with h | h
  · rw [abs_of_nonneg (by linarith : (0:K) ≤ x - 1/2)]
    rw [S7_p3 (by linarith) (by linarith), S6_out (by linarith), S6_p3 (by linarith) (by linarith)]
    ring
  rw [abs_of_nonneg (by linarith : (0:K) ≤ x - 1/2)]
  rw [S7_out (by linarith), S6_out (by linarith), S6_out (by linarith)]
  ring

theorem S7_rec (x : K) : S7 |x| =
    ((x + 4) * S6 |x + 1/2| + (4 - x) * S6 |x - 1/2|) / 7 := by
  rcases le_total 0 x with hx | hx
  · exact S7_rec_nonneg hx
  · have h := S7_rec_nonneg (x := -x) (by linarith)
    rw [abs_neg, show -x + 1/2 = -(x - 1/2) by ring, show -x - 1/2 = -(x + 1/2) by ring,
      abs_neg, abs_neg] at h
    rw [h]; ring

theorem S8_rec_nonneg {x : K} (hx : 0 ≤ x) : S8 |x| =
    ((x + 9/2) * S7 |x + 1/2| + (9/2 - x) * S7 |x - 1/2|) / 8 := by
  rw [abs_of_nonneg hx, abs_of_nonneg (by linarith : (0:K) ≤ x + 1/2)]
  rcases lt_or_ge x (1/2) with h | h
  · rw [show |x - 1/2| = 1/2 - x by rw [abs_of_nonpos (by linarith)]; ring]
    rw [S8_p0 (by linarith), S7_p0 (by linarith), S7_p0 (by linarith)]
    ring
  rcases lt_or_ge x (3/2) with h | h
  · rw [abs_of_nonneg (by linarith : (0:K) ≤ x - 1/2)]
    rw [S8_p1 (by linarith) (by linarith), S7_p1 (by linarith) (by linarith), S7_p0 (by linarith)]
    ring
  rcases lt_or_ge x (5/2) with h | h
  · rw [abs_of_nonneg (by linarith : (0:K) ≤ x - 1/2)]
    rw [S8_p2 (by linarith) (by linarith), S7_p2 (by linarith) (by linarith), S7_p1 (by linarith) (by linarith)]
    ring
  rcases lt_or_ge x (7/2) with h | h
  · rw [abs_of_nonneg (by linarith : (0:K) ≤ x - 1/2)]
    rw [S8_p3 (by linarith) (by linarith), S7_p3 (by linarith) (by linarith), S7_p2 (by linarith) (by linarith)]
    ring
  rcases lt_or_ge x (9/2) with h | h
  · rw [abs_of_nonneg (by linarith : (0:K) ≤ x - 1/2)]
    rw [S8_p4 (by linarith) (by linarith), S7_out (by linarith), S7_p3 (by linarith) (by linarith)]
    ring
  rw [abs_of_nonneg (by linarith : (0:K) ≤ x - 1/2)]
  rw [S8_out (by linarith), S7_out (by linarith), S7_out (by linarith)]
  ring

theorem S8_rec (x : K) : S8 |x| =
    ((x + 9/2) * S7 |x + 1/2| + (9/2 - x) * S7 |x - 1/2|) / 8 := by
  rcases le_total 0 x with hx | hx
  · exact S8_rec_nonneg hx
  · have h := S8_rec_nonneg (x := -x) (by linarith)
    rw [abs_neg, show -x + 1/2 = -(x - 1/2) by ring, show -x - 1/2 = -(x + 1/2) by ring,
      abs_neg, abs_neg] at h
    rw [h]; ring

theorem S9_rec_nonneg {x : K} (hx : 0 ≤ x) : S9 |x| =
    ((x + 5) * S8 |x + 1/2| + (5 - x) * S8 |x - 1/2|) / 9 := by
  rw [abs_of_nonneg hx, abs_of_nonneg (by linarith : (0:K) ≤ x + 1/2)]
  rcases lt_or_ge x (1/2) with h | h
  · rw [show |x - 1/2| = 1/2 - x by rw [abs_of_nonpos (by linarith)]; ring]
    rcases eq_or_lt_of_le hx with e | hx
    · subst e; norm_num [S9, S8]
    rw [S9_p0 (by linarith), S8_p1 (by linarith) (by linarith), S8_p0 (by linarith)]
    ring
  rcases lt_or_ge x (1) with h | h
  · rw [abs_of_nonneg (by linarith : (0:K) ≤ x - 1/2)]
    rw [S9_p0 (by linarith), S8_p1 (by linarith) (by linarith), S8_p0 (by linarith)]
    ring
  rcases lt_or_ge x (2) with h | h
  · rw [abs_of_nonneg (by linarith : (0:K) ≤ x - 1/2)]
    rw [S9_p1 (by linarith) (by linarith), S8_p2 (by linarith) (by linarith), S8_p1 (by linarith) (by linarith)]
    ring
  rcases lt_or_ge x (3) with h | h
  · rw [abs_of_nonneg (by linarith : (0:K) ≤ x - 1/2)]
    rw [S9_p2 (by linarith) (by linarith), S8_p3 (by linarith) (by linarith), S8_p2 (by linarith) (by linarith)]
    ring
  rcases lt_or_ge x (4) with h | h
  · rw [abs_of_nonneg (by linarith : (0:K) ≤ x - 1/2)]
    rw [S9_p3 (by linarith) (by linarith), S8_p4 (by linarith) (by linarith), S8_p3 (by linarith) (by linarith)]
    ring
  rcases lt_or_ge x (5) with h | h
  · rw [abs_of_nonneg (by linarith : (0:K) ≤ x - 1/2)]
    rw [S9_p4 (by linarith) (by linarith), S8_out (by linarith), S8_p4 (by linarith) (by linarith)]
    ring
  rw [abs_of_nonneg (by linarith : (0:K) ≤ x - 1/2)]
  rw [S9_out (by linarith), S8_out (by linarith), S8_out (by linarith)]
  ring

theorem S9_rec (x : K) : S9 |x| =
    ((x + 5) * S8 |x + 1/2| + (5 - x) * S8 |x - 1/2|) / 9 := by
  rcases le_total 0 x with hx | hx
  · exact S9_rec_nonneg hx
  · have h := S9_rec_nonneg (x := -x) (by linarith)
    rw [abs_neg, show -x + 1/2 = -(x - 1/2) by ring, show -x - 1/2 = -(x + 1/2) by ring,
      abs_neg, abs_neg] at h
    rw [h]; ring

theorem S10_rec_nonneg {x : K} (hx : 0 ≤ x) : S10 |x| =
    ((x + 11/2) * S9 |x + 1/2| + (11/2 - x) * S9 |x - 1/2|) / 10 := by
  rw [abs_of_nonneg hx, abs_of_nonneg (by linarith : (0:K) ≤ x + 1/2)]
  rcases lt_or_ge x (1/2) with h | h
  · rw [show |x - 1/2| = 1/2 - x by rw [abs_of_nonpos (by linarith)]; ring]
    rw [S10_p0 (by linarith), S9_p0 (by linarith), S9_p0 (by linarith)]
    ring
  rcases lt_or_ge x (3/2) with h | h
  · rw [abs_of_nonneg (by linarith : (0:K) ≤ x - 1/2)]
    rw [S10_p1 (by linarith) (by linarith), S9_p1 (by linarith) (by linarith), S9_p0 (by linarith)]
    ring
  rcases lt_or_ge x (5/2) with h | h
  · rw [abs_of_nonneg (by linarith : (0:K) ≤ x - 1/2)]
    rw [S10_p2 (by linarith) (by linarith), S9_p2 (by linarith) (by linarith), S9_p1 (by linarith) (by linarith)]
    ring
  rcases lt_or_ge x (7/2) with h | h
  · rw [abs_of_nonneg (by linarith : (0:K) ≤ x - 1/2)]
    rw [S10_p3 (by linarith) (by linarith), S9_p3 (by linarith) (by linarith), S9_p2 (by linarith) (by linarith)]
    ring
  rcases lt_or_ge x (9/2) with h | h
  · rw [abs_of_nonneg (by linarith : (0:K) ≤ x - 1/2)]
    rw [S10_p4 (by linarith) (by linarith), S9_p4 (by linarith) (by linarith), S9_p3 (by linarith) (by linarith)]
    ring
  rcases lt_or_ge x (11/2) with h | h
  · rw [abs_of_nonneg (by linarith : (0:K) ≤ x - 1/2)]
    rw [S10_p5 (by linarith) (by linarith), S9_out (by linarith), S9_p4 (by linarith) (by linarith)]
    ring
  rw [abs_of_nonneg (by linarith : (0:K) ≤ x - 1/2)]
  rw [S10_out (by linarith), S9_out (by linarith), S9_out (by linarith)]
  ring

theorem S10_rec (x : K) : S10 |x| =
    ((x + 11/2) * S9 |x + 1/2| + (11/2 - x) * S9 |x - 1/2|) / 10 := by
  rcases le_total 0 x with hx | hx
  · exact S10_rec_nonneg hx
  · have h := S10_rec_nonneg (x := -x) (by linarith)
    rw [abs_neg, show -x + 1/2 = -(x - 1/2) by ring, show -x - 1/2 = -(x + 1/2) by ring,
      abs_neg, abs_neg] at h
    rw [h]; ring

theorem S11_rec_nonneg {x : K} (hx : 0 ≤ x) : S11 |x| =
    ((x + 6) * S10 |x + 1/2| + (6 - x) * S10 |x - 1/2|) / 11 := by
  rw [abs_of_nonneg hx, abs_of_nonneg (by linarith : (0:K) ≤ x + 1/2)]
  rcases lt_or_ge x (1/2) with h | h
  · rw [show |x - 1/2| = 1/2 - x by rw [abs_of_nonpos (by linarith)]; ring]
    rcases eq_or_lt_of_le hx with e | hx
    · subst e; norm_num [S11, S10]
    rw [S11_p0 (by linarith), S10_p1 (by linarith) (by linarith), S10_p0 (by linarith)]
    ring
  rcases lt_or_ge x (1) with h | h
  · rw [abs_of_nonneg (by linarith : (0:K) ≤ x - 1/2)]
    rw [S11_p0 (by linarith), S10_p1 (by linarith) (by linarith), S10_p0 (by linarith)]
    ring
  rcases lt_or_ge x (2) with h | h
  · rw [abs_of_nonneg (by linarith : (0:K) ≤ x - 1/2)]
    rw [S11_p1 (by linarith) (by linarith), S10_p2 (by linarith) (by linarith), S10_p1 (by linarith) (by linarith)]
    ring
  rcases lt_or_ge x (3) with h | h
  · rw [abs_of_nonneg (by linarith : (0:K) ≤ x - 1/2)]
    rw [S11_p2 (by linarith) (by linarith), S10_p3 (by linarith) (by linarith), S10_p2 (by linarith) (by linarith)]
    ring
  rcases lt_or_ge x (4) with h | h
  · rw [abs_of_nonneg (by linarith : (0:K) ≤ x - 1/2)]
    rw [S11_p3 (by linarith) (by linarith), S10_p4 (by linarith) (by linarith), S10_p3 (by linarith) (by linarith)]
    ring
  rcases lt_or_ge x (5) with h | h
  · rw [abs_of_nonneg (by linarith : (0:K) ≤ x - 1/2)]
    rw [S11_p4 (by linarith) (by linarith), S10_p5 (by linarith) (by linarith), S10_p4 (by linarith) (by linarith)]
    ring
  rcases lt_or_ge x (6) with h | h
  · rw [abs_of_nonneg (by linarith : (0:K) ≤ x - 1/2)]
    rw [S11_p5 (by linarith) (by linarith), S10_out (by linarith), S10_p5 (by linarith) (by linarith)]
    ring
  rw [abs_of_nonneg (by linarith : (0:K) ≤ x - 1/2)]
  rw [S11_out (by linarith), S10_out (by linarith), S10_out (by linarith)]
  ring

theorem S11_rec (x : K) : S11 |x| =
    ((x + 6) * S10 |x + 1/2| + (6 - x) * S10 |x - 1/2|) / 11 := by
  rcases le_total 0 x with hx | hx
  · exact S11_rec_nonneg hx
  · have h := S11_rec_nonneg (x := -x) (by linarith)
    rw [abs_neg, show -x + 1/2 = -(x - 1/2) by ring, show -x - 1/2 = -(x + 1/2) by ring,
      abs_neg, abs_neg] at h
    rw [h]; ring

end Entity.Shapes
