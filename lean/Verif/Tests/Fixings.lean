import Verif.Model.Fixings

/-!
# The SOFR coupons in the project's tests

`tests/term_structures/test_swap_fixings.py` (commented out there, written for an earlier name of the class) lists quarterly
coupons of `tests/term_structures/historical_swap_index_fixings.xlsx`, to eight decimals: the model's `getCouponRates` agrees
with them.
-/

namespace Frm.Tests

set_option autoImplicit false

/-- Within the tests' `epsilon` of the expected rates. -/
def closeTo (r : Except Err (List NRat)) (expected : List Rat) : Bool :=
  match r with
  | .ok l => decide (l.length = expected.length) && (l.zip expected).all (fun p =>
      match p.1 with
      | some x => decide (x - p.2 < 1 / 100000000) && decide (p.2 - x < 1 / 100000000)
      | none => false)
  | .error _ => false

/-- A table of fixings as dates and rates. -/
def dated (t : List (Int × Int × List (Int × Int))) : List (Int × Rat) :=
  t.flatMap (fun m => m.2.2.map (fun d => (mkDate m.1 m.2.1 d.1, (d.2 : Rat) / 10000)))

/-- The fixings of the sheet `usd_sofr` from 2020-03-18 to 2020-06-18, in hundredths of a percent: year, month, then days and fixings. -/
def sofr0 : List (Int × Int × List (Int × Int)) :=
  [(2020, 3, [(18, 10), (19, 6), (20, 4), (23, 2), (24, 1), (25, 1), (26, 1), (27, 1), (30, 1), (31, 1)]),
   (2020, 4, [(1, 1), (2, 1), (3, 1), (6, 1), (7, 1), (8, 1), (9, 1), (13, 2), (14, 6), (15, 3), (16, 3), (17, 3), (20, 2), (21, 1), (22, 1), (23, 1), (24, 3), (27, 3), (28, 1), (29, 1), (30, 4)]),
   (2020, 5, [(1, 3), (4, 5), (5, 5), (6, 5), (7, 5), (8, 6), (11, 6), (12, 6), (13, 4), (14, 2), (15, 5), (18, 4), (19, 4), (20, 1), (21, 2), (22, 4), (26, 6), (27, 6), (28, 6), (29, 6)]),
   (2020, 6, [(1, 6), (2, 7), (3, 6), (4, 7), (5, 7), (8, 7), (9, 8), (10, 7), (11, 8), (12, 8), (15, 9), (16, 9), (17, 9)])]

example : closeTo (getCouponRates .act_360 (dated sofr0) [mkDate 2020 3 18] [mkDate 2020 6 18] .dailyCompounded)
    [3989330680/10000000000000] = true := by decide +kernel

example : closeTo (getCouponRates .act_360 (dated sofr0) [mkDate 2020 3 18] [mkDate 2020 6 18] .weightedAverage)
    [3989130435/10000000000000] = true := by decide +kernel

example : closeTo (getCouponRates .act_360 (dated sofr0) [mkDate 2020 3 18] [mkDate 2020 6 18] .simpleAverage)
    [4031250000/10000000000000] = true := by decide +kernel

/-- The fixings of the sheet `usd_sofr` from 2020-06-18 to 2020-09-18, in hundredths of a percent: year, month, then days and fixings. -/
def sofr1 : List (Int × Int × List (Int × Int)) :=
  [(2020, 6, [(18, 9), (19, 9), (22, 8), (23, 7), (24, 8), (25, 9), (26, 8), (29, 8), (30, 10)]),
   (2020, 7, [(1, 11), (2, 11), (6, 10), (7, 10), (8, 10), (9, 10), (10, 10), (13, 10), (14, 11), (15, 13), (16, 12), (17, 12), (20, 12), (21, 11), (22, 10), (23, 10), (24, 10), (27, 10), (28, 10), (29, 9), (30, 10), (31, 10)]),
   (2020, 8, [(3, 10), (4, 9), (5, 9), (6, 9), (7, 9), (10, 9), (11, 10), (12, 9), (13, 9), (14, 9), (17, 10), (18, 9), (19, 9), (20, 7), (21, 7), (24, 8), (25, 8), (26, 7), (27, 7), (28, 7), (31, 9)]),
   (2020, 9, [(1, 9), (2, 9), (3, 10), (4, 9), (8, 9), (9, 9), (10, 9), (11, 9), (14, 9), (15, 10), (16, 10), (17, 10)])]

example : closeTo (getCouponRates .act_360 (dated sofr1) [mkDate 2020 6 18] [mkDate 2020 9 18] .dailyCompounded)
    [9348930352/10000000000000] = true := by decide +kernel

example : closeTo (getCouponRates .act_360 (dated sofr1) [mkDate 2020 6 18] [mkDate 2020 9 18] .weightedAverage)
    [9347826087/10000000000000] = true := by decide +kernel

example : closeTo (getCouponRates .act_360 (dated sofr1) [mkDate 2020 6 18] [mkDate 2020 9 18] .simpleAverage)
    [9375000000/10000000000000] = true := by decide +kernel

/-- The fixings of the sheet `usd_sofr` from 2020-09-18 to 2020-12-18, in hundredths of a percent: year, month, then days and fixings. -/
def sofr2 : List (Int × Int × List (Int × Int)) :=
  [(2020, 9, [(18, 9), (21, 8), (22, 7), (23, 6), (24, 7), (25, 8), (28, 8), (29, 7), (30, 8)]),
   (2020, 10, [(1, 8), (2, 10), (5, 9), (6, 10), (7, 9), (8, 8), (9, 9), (13, 9), (14, 9), (15, 10), (16, 9), (19, 9), (20, 8), (21, 7), (22, 7), (23, 8), (26, 9), (27, 9), (28, 8), (29, 9), (30, 9)]),
   (2020, 11, [(2, 11), (3, 10), (4, 10), (5, 11), (6, 10), (9, 10), (10, 10), (12, 9), (13, 9), (16, 10), (17, 9), (18, 7), (19, 6), (20, 5), (23, 5), (24, 7), (25, 8), (27, 8), (30, 9)]),
   (2020, 12, [(1, 8), (2, 8), (3, 8), (4, 9), (7, 8), (8, 7), (9, 8), (10, 8), (11, 8), (14, 8), (15, 9), (16, 9), (17, 9)])]

example : closeTo (getCouponRates .act_360 (dated sofr2) [mkDate 2020 9 18] [mkDate 2020 12 18] .dailyCompounded)
    [8473424620/10000000000000] = true := by decide +kernel

example : closeTo (getCouponRates .act_360 (dated sofr2) [mkDate 2020 9 18] [mkDate 2020 12 18] .weightedAverage)
    [8472527473/10000000000000] = true := by decide +kernel

example : closeTo (getCouponRates .act_360 (dated sofr2) [mkDate 2020 9 18] [mkDate 2020 12 18] .simpleAverage)
    [8419354839/10000000000000] = true := by decide +kernel

/-- The fixings of the sheet `usd_sofr` from 2020-12-18 to 2021-03-18, in hundredths of a percent: year, month, then days and fixings. -/
def sofr3 : List (Int × Int × List (Int × Int)) :=
  [(2020, 12, [(18, 9), (21, 9), (22, 7), (23, 6), (24, 8), (28, 9), (29, 10), (30, 9), (31, 7)]),
   (2021, 1, [(4, 10), (5, 11), (6, 10), (7, 10), (8, 9), (11, 9), (12, 8), (13, 8), (14, 8), (15, 8), (19, 7), (20, 6), (21, 4), (22, 5), (25, 6), (26, 3), (27, 3), (28, 4), (29, 6)]),
   (2021, 2, [(1, 7), (2, 7), (3, 7), (4, 5), (5, 2), (8, 2), (9, 5), (10, 6), (11, 6), (12, 5), (16, 6), (17, 6), (18, 3), (19, 2), (22, 3), (23, 1), (24, 2), (25, 3), (26, 1)]),
   (2021, 3, [(1, 2), (2, 4), (3, 4), (4, 2), (5, 2), (8, 2), (9, 2), (10, 2), (11, 1), (12, 1), (15, 1), (16, 1), (17, 1)])]

example : closeTo (getCouponRates .act_360 (dated sofr3) [mkDate 2020 12 18] [mkDate 2021 3 18] .dailyCompounded)
    [5233670687/10000000000000] = true := by decide +kernel

example : closeTo (getCouponRates .act_360 (dated sofr3) [mkDate 2020 12 18] [mkDate 2021 3 18] .weightedAverage)
    [5233333333/10000000000000] = true := by decide +kernel

example : closeTo (getCouponRates .act_360 (dated sofr3) [mkDate 2020 12 18] [mkDate 2021 3 18] .simpleAverage)
    [5216666667/10000000000000] = true := by decide +kernel

/-- The fixings of the sheet `usd_sofr` from 2021-03-18 to 2022-03-18, in hundredths of a percent: year, month, then days and fixings. -/
def sofr4 : List (Int × Int × List (Int × Int)) :=
  [(2021, 3, [(18, 1), (19, 1), (22, 1), (23, 1), (24, 1), (25, 1), (26, 1), (29, 1), (30, 1), (31, 1)]),
   (2021, 4, [(1, 1), (5, 1), (6, 1), (7, 1), (8, 1), (9, 1), (12, 1), (13, 1), (14, 1), (15, 1), (16, 1), (19, 1), (20, 1), (21, 1), (22, 1), (23, 1), (26, 1), (27, 1), (28, 1), (29, 1), (30, 1)]),
   (2021, 5, [(3, 1), (4, 1), (5, 1), (6, 1), (7, 1), (10, 1), (11, 1), (12, 1), (13, 1), (14, 1), (17, 1), (18, 1), (19, 1), (20, 1), (21, 1), (24, 1), (25, 1), (26, 1), (27, 1), (28, 1)]),
   (2021, 6, [(1, 1), (2, 1), (3, 1), (4, 1), (7, 1), (8, 1), (9, 1), (10, 1), (11, 1), (14, 1), (15, 1), (16, 1), (17, 5), (18, 5), (21, 5), (22, 5), (23, 5), (24, 5), (25, 5), (28, 5), (29, 5), (30, 5)]),
   (2021, 7, [(1, 5), (2, 5), (6, 5), (7, 5), (8, 5), (9, 5), (12, 5), (13, 5), (14, 5), (15, 5), (16, 5), (19, 5), (20, 5), (21, 5), (22, 5), (23, 5), (26, 5), (27, 5), (28, 5), (29, 5), (30, 5)]),
   (2021, 8, [(2, 5), (3, 5), (4, 5), (5, 5), (6, 5), (9, 5), (10, 5), (11, 5), (12, 5), (13, 5), (16, 5), (17, 5), (18, 5), (19, 5), (20, 5), (23, 5), (24, 5), (25, 5), (26, 5), (27, 5), (30, 5), (31, 5)]),
   (2021, 9, [(1, 5), (2, 5), (3, 5), (7, 5), (8, 5), (9, 5), (10, 5), (13, 5), (14, 5), (15, 5), (16, 5), (17, 5), (20, 5), (21, 5), (22, 5), (23, 5), (24, 5), (27, 5), (28, 5), (29, 5), (30, 5)]),
   (2021, 10, [(1, 5), (4, 5), (5, 5), (6, 5), (7, 5), (8, 5), (12, 5), (13, 5), (14, 5), (15, 5), (18, 5), (19, 3), (20, 3), (21, 3), (22, 5), (25, 4), (26, 5), (27, 5), (28, 5), (29, 5)]),
   (2021, 11, [(1, 5), (2, 5), (3, 5), (4, 5), (5, 5), (8, 5), (9, 5), (10, 5), (12, 5), (15, 5), (16, 5), (17, 5), (18, 5), (19, 5), (22, 5), (23, 5), (24, 5), (26, 5), (29, 5), (30, 5)]),
   (2021, 12, [(1, 5), (2, 5), (3, 5), (6, 5), (7, 5), (8, 5), (9, 5), (10, 5), (13, 5), (14, 5), (15, 5), (16, 5), (17, 5), (20, 4), (21, 5), (22, 5), (23, 5), (27, 5), (28, 5), (29, 5), (30, 5), (31, 5)]),
   (2022, 1, [(3, 5), (4, 5), (5, 5), (6, 5), (7, 5), (10, 5), (11, 5), (12, 5), (13, 5), (14, 5), (18, 5), (19, 5), (20, 4), (21, 5), (24, 4), (25, 5), (26, 4), (27, 4), (28, 5), (31, 5)]),
   (2022, 2, [(1, 5), (2, 5), (3, 5), (4, 5), (7, 5), (8, 5), (9, 4), (10, 5), (11, 5), (14, 5), (15, 5), (16, 5), (17, 5), (18, 5), (22, 5), (23, 5), (24, 5), (25, 5), (28, 5)]),
   (2022, 3, [(1, 5), (2, 5), (3, 5), (4, 5), (7, 5), (8, 5), (9, 5), (10, 5), (11, 5), (14, 5), (15, 5), (16, 5), (17, 30)])]

example : closeTo (getCouponRates .act_360 (dated sofr4) [mkDate 2021 3 18, mkDate 2021 6 21, mkDate 2021 9 20, mkDate 2021 12 20] [mkDate 2021 6 21, mkDate 2021 9 20, mkDate 2021 12 20, mkDate 2022 3 18] .dailyCompounded)
    [1168438786/10000000000000, 5000312513/10000000000000, 4923379875/10000000000000, 5216236850/10000000000000] = true := by decide +kernel

example : closeTo (getCouponRates .act_360 (dated sofr4) [mkDate 2021 3 18, mkDate 2021 6 21, mkDate 2021 9 20, mkDate 2021 12 20] [mkDate 2021 6 21, mkDate 2021 9 20, mkDate 2021 12 20, mkDate 2022 3 18] .weightedAverage)
    [1168421053/10000000000000, 5000000000/10000000000000, 4923076923/10000000000000, 5215909091/10000000000000] = true := by decide +kernel

example : closeTo (getCouponRates .act_360 (dated sofr4) [mkDate 2021 3 18, mkDate 2021 6 21, mkDate 2021 9 20, mkDate 2021 12 20] [mkDate 2021 6 21, mkDate 2021 9 20, mkDate 2021 12 20, mkDate 2022 3 18] .simpleAverage)
    [1123076923/10000000000000, 5000000000/10000000000000, 4887096774/10000000000000, 5311475410/10000000000000] = true := by decide +kernel

/-- The fixings of the sheet `usd_sofr` from 2024-03-18 to 2024-06-18, in hundredths of a percent: year, month, then days and fixings. -/
def sofr5 : List (Int × Int × List (Int × Int)) :=
  [(2024, 3, [(18, 531), (19, 531), (20, 531), (21, 531), (22, 531), (25, 531), (26, 532), (27, 533), (28, 534)]),
   (2024, 4, [(1, 535), (2, 534), (3, 532), (4, 532), (5, 532), (8, 531), (9, 531), (10, 531), (11, 531), (12, 531), (15, 532), (16, 531), (17, 531), (18, 530), (19, 531), (22, 531), (23, 531), (24, 531), (25, 531), (26, 532), (29, 532), (30, 534)]),
   (2024, 5, [(1, 532), (2, 531), (3, 531), (6, 531), (7, 531), (8, 531), (9, 531), (10, 531), (13, 531), (14, 531), (15, 531), (16, 531), (17, 531), (20, 531), (21, 531), (22, 531), (23, 531), (24, 532), (28, 532), (29, 533), (30, 533), (31, 534)]),
   (2024, 6, [(3, 535), (4, 533), (5, 533), (6, 533), (7, 533), (10, 532), (11, 532), (12, 531), (13, 531), (14, 531), (17, 533)])]

example : closeTo (getCouponRates .act_360 (dated sofr5) [mkDate 2024 3 18] [mkDate 2024 6 18] .dailyCompounded)
    [535383702507/10000000000000] = true := by decide +kernel

example : closeTo (getCouponRates .act_360 (dated sofr5) [mkDate 2024 3 18] [mkDate 2024 6 18] .weightedAverage)
    [531793478261/10000000000000] = true := by decide +kernel

example : closeTo (getCouponRates .act_360 (dated sofr5) [mkDate 2024 3 18] [mkDate 2024 6 18] .simpleAverage)
    [531734375000/10000000000000] = true := by decide +kernel

/-- The fixings of the sheet `usd_sofr` from 2022-10-04 to 2023-10-03, in hundredths of a percent: year, month, then days and fixings. -/
def sofr6 : List (Int × Int × List (Int × Int)) :=
  [(2022, 10, [(4, 304), (5, 304), (6, 305), (7, 305), (11, 305), (12, 304), (13, 304), (14, 304), (17, 305), (18, 304), (19, 304), (20, 303), (21, 302), (24, 301), (25, 302), (26, 303), (27, 304), (28, 305), (31, 305)]),
   (2022, 11, [(1, 305), (2, 305), (3, 380), (4, 380), (7, 378), (8, 378), (9, 378), (10, 378), (14, 379), (15, 380), (16, 381), (17, 380), (18, 380), (21, 380), (22, 380), (23, 379), (25, 380), (28, 380), (29, 381), (30, 382)]),
   (2022, 12, [(1, 382), (2, 381), (5, 381), (6, 380), (7, 380), (8, 380), (9, 380), (12, 380), (13, 380), (14, 380), (15, 432), (16, 432), (19, 430), (20, 430), (21, 430), (22, 430), (23, 430), (27, 430), (28, 430), (29, 430), (30, 430)]),
   (2023, 1, [(3, 431), (4, 430), (5, 431), (6, 431), (9, 431), (10, 431), (11, 430), (12, 430), (13, 430), (17, 431), (18, 430), (19, 431), (20, 430), (23, 430), (24, 430), (25, 431), (26, 430), (27, 430), (30, 430), (31, 431)]),
   (2023, 2, [(1, 431), (2, 456), (3, 455), (6, 455), (7, 455), (8, 455), (9, 455), (10, 455), (13, 455), (14, 455), (15, 455), (16, 455), (17, 455), (21, 455), (22, 455), (23, 455), (24, 455), (27, 455), (28, 455)]),
   (2023, 3, [(1, 455), (2, 455), (3, 455), (6, 455), (7, 455), (8, 455), (9, 455), (10, 455), (13, 455), (14, 455), (15, 458), (16, 457), (17, 455), (20, 455), (21, 455), (22, 455), (23, 480), (24, 480), (27, 481), (28, 484), (29, 483), (30, 482), (31, 487)]),
   (2023, 4, [(3, 484), (4, 483), (5, 481), (6, 481), (10, 481), (11, 480), (12, 480), (13, 480), (14, 480), (17, 480), (18, 480), (19, 480), (20, 480), (21, 480), (24, 480), (25, 480), (26, 480), (27, 481), (28, 481)]),
   (2023, 5, [(1, 481), (2, 481), (3, 481), (4, 506), (5, 506), (8, 506), (9, 506), (10, 506), (11, 505), (12, 505), (15, 506), (16, 505), (17, 505), (18, 505), (19, 505), (22, 505), (23, 505), (24, 505), (25, 506), (26, 506), (30, 506), (31, 508)]),
   (2023, 6, [(1, 508), (2, 507), (5, 506), (6, 505), (7, 505), (8, 505), (9, 505), (12, 505), (13, 505), (14, 505), (15, 506), (16, 505), (20, 505), (21, 505), (22, 505), (23, 505), (26, 505), (27, 505), (28, 506), (29, 506), (30, 509)]),
   (2023, 7, [(3, 506), (5, 506), (6, 506), (7, 506), (10, 506), (11, 506), (12, 505), (13, 506), (14, 505), (17, 506), (18, 506), (19, 505), (20, 506), (21, 505), (24, 505), (25, 506), (26, 506), (27, 531), (28, 530), (31, 531)]),
   (2023, 8, [(1, 531), (2, 530), (3, 530), (4, 530), (7, 530), (8, 530), (9, 530), (10, 530), (11, 530), (14, 530), (15, 530), (16, 530), (17, 530), (18, 530), (21, 530), (22, 530), (23, 530), (24, 530), (25, 530), (28, 530), (29, 530), (30, 530), (31, 531)]),
   (2023, 9, [(1, 531), (5, 531), (6, 530), (7, 531), (8, 530), (11, 530), (12, 530), (13, 530), (14, 530), (15, 531), (18, 531), (19, 531), (20, 530), (21, 530), (22, 530), (25, 531), (26, 531), (27, 532), (28, 531), (29, 531)]),
   (2023, 10, [(2, 532)])]

example : closeTo (getCouponRates .act_360 (dated sofr6) [mkDate 2022 10 4] [mkDate 2023 10 3] .dailyCompounded)
    [47019224/1000000000] = true := by decide +kernel

example : closeTo (getCouponRates .act_360 (dated sofr6) [mkDate 2022 10 4] [mkDate 2023 10 3] .weightedAverage)
    [45938736/1000000000] = true := by decide +kernel

example : closeTo (getCouponRates .act_360 (dated sofr6) [mkDate 2022 10 4] [mkDate 2023 10 3] .simpleAverage)
    [45956855/1000000000] = true := by decide +kernel

/-- The fixings of the sheet `nzd_bkbm_3m` from 20 June 2024 on. -/
def bkbm : List (Int × Int × List (Int × Int)) :=
  [(2024, 6, [(20, 561), (21, 561), (24, 562), (25, 561), (26, 562), (27, 563)]),
   (2024, 7, [(1, 563), (2, 562), (3, 563), (4, 561), (5, 561), (8, 561), (9, 560), (10, 560), (11, 555), (12, 555), (15, 556), (16, 555), (17, 553), (18, 554), (19, 554), (22, 555), (23, 554), (24, 553), (25, 549), (26, 548), (29, 546), (30, 545), (31, 546)]),
   (2024, 8, [(1, 546), (2, 544), (5, 533), (6, 532), (7, 535), (8, 544), (9, 535), (12, 536), (13, 538), (14, 537), (15, 527), (16, 525), (19, 524), (20, 525), (21, 525), (22, 524), (23, 524), (26, 522), (27, 522), (28, 522), (29, 523), (30, 523)]),
   (2024, 9, [(2, 521), (3, 520), (4, 519), (5, 515), (6, 513), (9, 512), (10, 511), (11, 511), (12, 510), (13, 510), (16, 507), (17, 501), (18, 501), (19, 500), (20, 499), (23, 497), (24, 494), (25, 492), (26, 490), (27, 490)])]

/-- The four dates the tests look up, in their order. -/
example : indexHistoricalFixings (sortBy (·.1)) (dated bkbm) [mkDate 2024 9 25, mkDate 2024 6 25, mkDate 2024 9 25, mkDate 2024 6 25]
    = .ok [some (492/10000), some (561/10000), some (492/10000), some (561/10000)] := by decide +kernel

end Frm.Tests
