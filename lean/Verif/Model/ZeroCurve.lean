import Mathlib.Analysis.SpecialFunctions.Log.Basic
import Mathlib.Data.List.Sort
import Verif.Model.Rates
import Verif.Model.Fixings
import Verif.Model.Tenor

/-!
# `frm/term_structures/zero_curve.py`

Floats are real numbers.  This file models `LINEAR_ON_LN_DISCOUNT`; the two cubic-spline methods are in `SplineCurve.lean`.
Printing is not modelled; plotting is in `Verif/Model/Plots.lean`.
-/

namespace Frm

set_option autoImplicit false

/-- The columns of the user's `pillar_df`; `others` counts columns with other names.
For `frm/term_structures/zero_curve.py:44-62`. -/
structure PillarColumns where
  tenor : Option (List Str) := none
  date : Option (List Int) := none
  days : Option (List Int) := none
  years : Option (List ℝ) := none
  zeroRate : Option (List ℝ) := none
  discountFactor : Option (List ℝ) := none
  others : Nat := 0

/-- A row of the processed `pillar_df` (`zero_curve.py:147-148`); the columns `tenor`, `days`, `cczr` are not used for
lookups and left out. -/
structure PillarRow where
  date : Option Int
  years : ℝ
  discountFactor : ℝ

/-- The time column chosen by `_process_pillar_df`.  For `frm/term_structures/zero_curve.py:54-57`. -/
inductive PillarX where
  | tenor (l : List Str)
  | date (l : List Int)
  | days (l : List Int)
  | years (l : List ℝ)

/-- The value column chosen by `_process_pillar_df`.  For `frm/term_structures/zero_curve.py:59-62`. -/
inductive PillarY where
  | zeroRate (l : List ℝ)
  | discountFactor (l : List ℝ)

/-- The columns that are present among `tenor`, `date`, `days`, `years` (`zero_curve.py:54`). -/
def PillarColumns.xs (c : PillarColumns) : List PillarX :=
  (c.tenor.map .tenor).toList ++ (c.date.map .date).toList ++ (c.days.map .days).toList ++ (c.years.map .years).toList

/-- The columns that are present among `zero_rate`, `discount_factor` (`zero_curve.py:59`). -/
def PillarColumns.ys (c : PillarColumns) : List PillarY :=
  (c.zeroRate.map .zeroRate).toList ++ (c.discountFactor.map .discountFactor).toList

/-- The column checks (`zero_curve.py:46-62`). -/
def chooseColumns (c : PillarColumns) : Except Err (PillarX × PillarY) :=
  if c.xs.length + c.ys.length + c.others ≠ 2 then .error .value
  else match c.xs, c.ys with
    | [x], [y] => .ok (x, y)
    | _, _ => .error .value

/-- One tenor pillar date (`zero_curve.py:71-74`). -/
def tenorPillarDate (cal : BusCal) (curveDate : Int) (s : Str) : Except Err Int :=
  (tenorToDateOffset (cleanTenor s)).map (fun o => following cal (o.addTo curveDate))

/-- Pillar dates and years (`zero_curve.py:64-84`).  The assignment `dt = 1e-6` of line 120 makes `dt` a local variable of the whole
function, so `dt.timedelta` in the lambda of line 81 is an unbound name: days raise `NameError` as soon as there is a row. -/
noncomputable def pillarTimes (cal : BusCal) (basis : DayCountBasis) (curveDate : Int) (x : PillarX) :
    Except Err (List (Option Int × ℝ)) :=
  let ofDates (dates : List Int) : Except Err (List (Option Int × ℝ)) :=
    (yearFrac [curveDate] dates basis none).map (fun ys => (dates.map some).zip (ys.map (fun (y : Rat) => (y : ℝ))))
  match x with
  | .tenor l => (l.mapM (tenorPillarDate cal curveDate)).bind ofDates
  | .date l => ofDates l
  | .days l => if l = [] then .ok [] else .error .name
  | .years l => .ok (l.map (fun y => (none, y)))

/-- The discount factor of a pillar (`zero_curve.py:89-97`). -/
noncomputable def pillarValues (freq : Option CompoundingFreq) (years : List ℝ) (y : PillarY) : Except Err (List ℝ) :=
  match y with
  | .discountFactor l => .ok l
  | .zeroRate l =>
    match freq with
    | none => .error .value
    | some f => .ok ((years.zip l).map (fun p => f.discountFactor p.1 p.2))

/-- `_process_pillar_df` for `LINEAR_ON_LN_DISCOUNT` (`zero_curve.py:44-150`).  The rows are sorted by years and preceded
by a unit pillar at time 0; a table that already starts at 0 falls into the `case _` of line 143 and is refused.
Simplification: the missing `compounding_freq` is reported before the column checks (line 40), here with them; both are
`ValueError`. -/
noncomputable def processPillars (cal : BusCal) (basis : DayCountBasis) (curveDate : Int)
    (freq : Option CompoundingFreq) (c : PillarColumns) : Except Err (List PillarRow) := do
  let xy ← chooseColumns c
  let times ← pillarTimes cal basis curveDate xy.1
  let values ← pillarValues freq (times.map (·.2)) xy.2
  let rows := (times.zip values).map (fun p => ({ date := p.1.1, years := p.1.2, discountFactor := p.2 } : PillarRow))
  match rows.insertionSort (fun a b => a.years ≤ b.years) with
  | [] => .error .index
  | first :: rest =>
    if first.years ≠ 0 then
      .ok ({ date := first.date.map (fun _ => curveDate), years := 0, discountFactor := 1 } :: first :: rest)
    else .error .value

/-- `np.interp(x, xp, fp)` (numpy) for increasing `xp`: constant outside, linear between.
For `frm/term_structures/zero_curve.py:166-178`. -/
noncomputable def npInterp (x : ℝ) : List (ℝ × ℝ) → ℝ
  | [] => 0
  | [p] => p.2
  | p :: q :: rest =>
    if x < p.1 then p.2
    else if x < q.1 then (q.2 - p.2) / (q.1 - p.1) * (x - p.1) + p.2
    else npInterp x (q :: rest)

/-- A row of `daily_df` (`zero_curve.py:170-174`); `cczr` is `nan` on the curve date.  The column `days` is not used for
lookups and left out. -/
structure DailyRow where
  date : Int
  years : ℝ
  cczr : Option ℝ
  discountFactor : ℝ

/-- `int(x)`.  For `frm/term_structures/zero_curve.py:158`. -/
noncomputable def pyIntReal (x : ℝ) : Int := if 0 ≤ x then ⌊x⌋ else ⌈x⌉

/-- The search for the last day when only years are known (`zero_curve.py:159-161`). -/
def lastDayLoop (basis : DayCountBasis) (curveDate : Int) (maxYears : Int) : Nat → Int → Except Err Int
  | 0, d => .ok d
  | fuel + 1, d => do
    let y ← yearFrac [curveDate] [d] basis none
    if (y.head?).any (fun v => decide (v < (maxYears : Rat))) then lastDayLoop basis curveDate maxYears fuel (d + 1)
    else pure d

/-- The last day of the daily table (`zero_curve.py:155-161`). -/
noncomputable def lastDay (basis : DayCountBasis) (curveDate : Int) (pillars : List PillarRow) : Except Err Int :=
  match (pillars.filterMap (·.date)).max? with
  | some d => .ok d
  | none =>
    let maxYears := pyIntReal ((pillars.map (·.years)).foldl max 0)
    lastDayLoop basis curveDate maxYears ((366 * maxYears).toNat + 1) (addMonths curveDate (12 * maxYears))

/-- `_setup_daily_df` (`zero_curve.py:153-174`). -/
noncomputable def setupDaily (basis : DayCountBasis) (curveDate : Int) (pillars : List PillarRow) :
    Except Err (List DailyRow) := do
  let last ← lastDay basis curveDate pillars
  let dates := dateRange curveDate last
  let years ← yearFrac [curveDate] dates basis none
  pure ((dates.zip years).map (fun p =>
    let lnDf := npInterp (p.2 : ℝ) (pillars.map (fun r => (r.years, Real.log r.discountFactor)))
    { date := p.1, years := p.2, cczr := if (p.2 : ℝ) = 0 then none else some (-lnDf / p.2),
      discountFactor := Real.exp lnDf }))

/-- A constructed curve.  For `frm/term_structures/zero_curve.py:16-42`. -/
structure ZeroCurve where
  curveDate : Int
  basis : DayCountBasis
  cal : BusCal
  pillars : List PillarRow
  daily : List DailyRow

/-- `ZeroCurve(...)` (`zero_curve.py:33-42`). -/
noncomputable def makeZeroCurve (curveDate : Int) (c : PillarColumns) (freq : Option CompoundingFreq)
    (basis : DayCountBasis) (cal : BusCal) : Except Err ZeroCurve := do
  let pillars ← processPillars cal basis curveDate freq c
  let daily ← setupDaily basis curveDate pillars
  pure { curveDate, basis, cal, pillars, daily }

/-- `index_daily_data(dates=...)` (`zero_curve.py:351-394`): dates outside the table are dropped — the comparisons of the
extrapolation method with strings (374, 376, 386, 388) are never true — and the rest are merged with the table. -/
def ZeroCurve.indexDates (z : ZeroCurve) (dates : List Int) : List (Option DailyRow) :=
  let lo := (z.daily.map (·.date)).min?
  let hi := (z.daily.map (·.date)).max?
  (dates.filter (fun d => !natGt lo (some d) && !natGt (some d) hi)).map
    (fun d => z.daily.find? (fun r => r.date == d))

/-- The argument of a lookup: which of the three keyword arguments were given.
For `frm/term_structures/zero_curve.py:209-222`. -/
structure LookupArgs where
  dates : Option (List Int) := none
  days : Option Int := none
  years : Option (List ℝ) := none

/-- `index_daily_data` (`zero_curve.py:321-394`) under linear interpolation: by years it raises, because line 332 compares
the method with a string. -/
def ZeroCurve.indexDailyData (z : ZeroCurve) (a : LookupArgs) : Except Err (List (Option DailyRow)) :=
  match a.dates, a.days, a.years with
  | some l, none, none => .ok (z.indexDates l)
  | none, some n, none => .ok (z.indexDates [z.curveDate + n])
  | none, none, some _ => .error .value
  | _, _, _ => .error .value

/-- `get_discount_factors(dates=...)` for a vector of dates (`zero_curve.py:295-302`). -/
def ZeroCurve.discountFactors (z : ZeroCurve) (dates : List Int) : List (Option ℝ) :=
  (z.indexDates dates).map (fun r => r.map (·.discountFactor))

/-- `get_discount_factors(dates=...)` for one date: `result[0]`.  For `frm/term_structures/zero_curve.py:295-302`. -/
def ZeroCurve.discountFactor (z : ZeroCurve) (date : Int) : Except Err (Option ℝ) :=
  match z.discountFactors [date] with
  | [] => .error .index
  | x :: _ => .ok x

/-- `get_zero_rates(compounding_freq, dates=...)` (`zero_curve.py:305-318`); `nan` where the years are 0. -/
noncomputable def ZeroCurve.zeroRates (z : ZeroCurve) (f : CompoundingFreq) (dates : List Int) : List (Option ℝ) :=
  (z.indexDates dates).map (fun r => r.bind (fun row =>
    if f = .continuous then row.cczr
    else if row.years = 0 then none else some (f.zeroRate row.years row.discountFactor)))

/-- `TermRate` and `RFRFixingCalcMethod` (`frm/enums/term_structures.py`). -/
inductive ForwardRateType where
  | simple | continuous | annual | dailyCompounded | weightedAverage | simpleAverage
deriving DecidableEq, Repr

/-- The average rates (`zero_curve.py:233-267`): means of the daily simple rates of the days from the start up to the day
before the end. -/
noncomputable def averageRates (z : ZeroCurve) (starts ends : List Int) (businessOnly : Bool) :
    Except Err (List (Option ℝ)) :=
  match starts.min?, ends.max? with
  | some lo, some hi =>
    let dates := dateRange lo hi
    let dfs := z.discountFactors dates
    if dfs.length ≠ dates.length then .error .value
    else
      let rates := (dfs.dropLast.zip dfs.tail).map (fun p =>
        match p.1, p.2, z.basis.daysPerYear with
        | some a, some b, some n => some ((a / b - 1) * n)
        | _, _, _ => none)
      let rows := dates.dropLast.zip rates
      .ok ((starts.zip ends).map (fun p =>
        let sel := rows.filter (fun r => decide (p.1 ≤ r.1) && decide (r.1 < p.2) && (!businessOnly || isBusDay z.cal r.1))
        let vals := sel.filterMap (·.2)
        if vals = [] then none else some (vals.sum / vals.length)))
  | _, _ => .error .value

/-- One forward rate from its year fraction and discount factors (`zero_curve.py:274-281`).  A zero year fraction gives
`nan` or an infinity, both `none` here. -/
noncomputable def forwardRate (t : ForwardRateType) (dt df1 df2 : ℝ) : Option ℝ :=
  if dt = 0 then none
  else match t with
    | .simple | .dailyCompounded => some (1 / dt * (df1 / df2 - 1))
    | .continuous => some (1 / dt * (Real.log df1 - Real.log df2))
    | .annual => some ((df1 / df2) ^ (1 / dt) - 1)
    | .weightedAverage | .simpleAverage => none

/-- Elementwise combination of two one-dimensional arrays (numpy): equal lengths, or an array of length 1 is repeated.
For `frm/term_structures/zero_curve.py:225-232`. -/
def npBroadcast {α β : Type} (a : List α) (b : List β) : Except Err (List (α × β)) :=
  if a.length = b.length then .ok (a.zip b)
  else match a, b with
    | [x], _ => .ok (b.map (fun y => (x, y)))
    | _, [y] => .ok (a.map (fun x => (x, y)))
    | _, _ => .error .value

/-- The branch of `get_forward_rates` for all but the averaging types (`zero_curve.py:263-281`). -/
noncomputable def ratioRates (z : ZeroCurve) (starts ends : List Int) (t : ForwardRateType) :
    Except Err (List (Option ℝ)) := do
  let dts ← yearFrac starts ends z.basis none
  let ratio ← npBroadcast (z.discountFactors starts) (z.discountFactors ends)
  let rows ← npBroadcast dts ratio
  if rows.length ≠ dts.length then .error .value
  else .ok (rows.map (fun p =>
    match p.2.1, p.2.2 with
    | some a, some b => forwardRate t (p.1 : ℝ) a b
    | _, _ => none))

/-- `get_forward_rates` (`zero_curve.py:209-283`). -/
noncomputable def ZeroCurve.forwardRates (z : ZeroCurve) (starts ends : List Int) (t : ForwardRateType) :
    Except Err (List (Option ℝ)) := do
  pyAssert (decide (starts.length = ends.length))
  pyAssert (starts.all (fun s => decide (z.curveDate ≤ s)))
  pyAssert ((starts.zip ends).all (fun p => decide (p.1 ≤ p.2)))
  match t with
  | .weightedAverage => averageRates z starts ends false
  | .simpleAverage => averageRates z starts ends true
  | t => ratioRates z starts ends t

end Frm
