/-!
# Calendar dates

`frm` works with midnight `pd.Timestamp` / `datetime64[D]` values.  The model identifies a date with its
proleptic Gregorian ordinal (an `Int`; 0001-01-01 is day 1, as `datetime.date.toordinal`).  Month arithmetic
(`pd.DateOffset(months=k)`, `years=k`) is done on the civil triple.

Simplification: pandas restricts timestamps to the years 1677–2262 (nanoseconds); the model has no bound.
-/

namespace Frm




/-- Gregorian leap-year rule (the calendar underlying `pd.Timestamp`; also used literally, through
`calendar.isleap`/`is_leap_year`, in `frm/utils/daycount.py:145-157`). -/
def isLeap (y : Int) : Bool := decide (y % 4 = 0 ∧ (y % 100 ≠ 0 ∨ y % 400 = 0))

/-- Length of a calendar year in days (`frm/utils/daycount.py:145-157`). -/
def yearLength (y : Int) : Int := if isLeap y then 366 else 365

/-- Number of days before 1 January of year `y`.  For `frm/utils/daycount.py:163-200`. -/
def daysBeforeYear (y : Int) : Int := 365 * (y - 1) + (y - 1) / 4 - (y - 1) / 100 + (y - 1) / 400

/-- Length of month `m` (1..12) of year `y`.  For `frm/utils/daycount.py:163-200`. -/
def daysInMonth (y m : Int) : Int :=
  if m = 2 then (if isLeap y then 29 else 28)
  else if m = 4 ∨ m = 6 ∨ m = 9 ∨ m = 11 then 30 else 31

/-- Days of year `y` before the first of month `m` (1..12).  For `frm/utils/daycount.py:163-200`. -/
def daysBeforeMonth (y m : Int) : Int :=
  (if m ≤ 1 then 0 else if m = 2 then 31 else if m = 3 then 59 else if m = 4 then 90 else if m = 5 then 120
   else if m = 6 then 151 else if m = 7 then 181 else if m = 8 then 212 else if m = 9 then 243
   else if m = 10 then 273 else if m = 11 then 304 else 334)
  + (if m > 2 ∧ isLeap y then 1 else 0)

/-- A civil date: `pd.Timestamp.year`, `.month`, `.day`.  For `frm/utils/daycount.py:163-200`. -/
structure Civil where
  year : Int
  month : Int
  day : Int
deriving DecidableEq, Repr

/-- The triples that denote an existing calendar day.  For `frm/utils/daycount.py:163-200`. -/
def Civil.Valid (c : Civil) : Prop :=
  1 ≤ c.month ∧ c.month ≤ 12 ∧ 1 ≤ c.day ∧ c.day ≤ daysInMonth c.year c.month

instance (c : Civil) : Decidable c.Valid := by unfold Civil.Valid; exact inferInstance

/-- Ordinal of a civil date.  For `frm/utils/daycount.py:163-200`. -/
def ofCivil (c : Civil) : Int := daysBeforeYear c.year + daysBeforeMonth c.year c.month + c.day

/-- Shorthand: the ordinal of year-month-day.  For `frm/utils/daycount.py:163-200`. -/
def mkDate (y m d : Int) : Int := ofCivil ⟨y, m, d⟩

/-- Year containing an ordinal: an estimate from the mean year length 146097/400, corrected by at most one.
For `frm/utils/daycount.py:163-200`. -/
def yearOf (n : Int) : Int :=
  let e := (400 * n) / 146097
  if n ≤ daysBeforeYear e then e - 1
  else if n ≤ daysBeforeYear (e + 1) then e
  else if n ≤ daysBeforeYear (e + 2) then e + 1
  else e + 2

/-- Month of the `k`-th day (1-based) of year `y`.  For `frm/utils/daycount.py:163-200`. -/
def monthOfDay (y k : Int) : Int :=
  if k ≤ daysBeforeMonth y 2 then 1 else if k ≤ daysBeforeMonth y 3 then 2
  else if k ≤ daysBeforeMonth y 4 then 3 else if k ≤ daysBeforeMonth y 5 then 4
  else if k ≤ daysBeforeMonth y 6 then 5 else if k ≤ daysBeforeMonth y 7 then 6
  else if k ≤ daysBeforeMonth y 8 then 7 else if k ≤ daysBeforeMonth y 9 then 8
  else if k ≤ daysBeforeMonth y 10 then 9 else if k ≤ daysBeforeMonth y 11 then 10
  else if k ≤ daysBeforeMonth y 12 then 11 else 12

/-- Civil triple of a date (`Timestamp.year`, `.month`, `.day`).  For `frm/utils/daycount.py:163-200`. -/
def toCivil (n : Int) : Civil :=
  let y := yearOf n
  let k := n - daysBeforeYear y
  let m := monthOfDay y k
  ⟨y, m, k - daysBeforeMonth y m⟩

/-- Day of week, Monday = 0 (`Timestamp.weekday()`, the index into numpy's week mask).
For `frm/utils/daycount.py:163-200`. -/
def weekday (n : Int) : Int := (n + 6) % 7

/-- Last day of a month, `pd.offsets.MonthEnd(0)` rolls a date forward to this
(`frm/utils/schedule.py:459-478`, `apply_specific_day_roll`). -/
def monthEnd (n : Int) : Int :=
  let c := toCivil n
  mkDate c.year c.month (daysInMonth c.year c.month)

/-- `date + pd.DateOffset(months=k)`: same day of month in the `k`-th following month, clamped to that month's
last day (dateutil `relativedelta`).  Used by `frm/enums/utils.py:340-392` and `frm/utils/tenor.py:40-76`. -/
def addMonths (n : Int) (k : Int) : Int :=
  let c := toCivil n
  let t := 12 * c.year + (c.month - 1) + k
  let y := t / 12
  let m := t % 12 + 1
  mkDate y m (min c.day (daysInMonth y m))

/-- `pd.DateOffset(days=…)` / `(weeks=…)` / `(months=…)` / `(years=…)` as constructed by
`tenor_to_date_offset` (`frm/utils/tenor.py:40-76`) and `PeriodFreq.date_offset` (`frm/enums/utils.py:340-364`).
Exactly one unit is set in every construction in the code. -/
inductive DateOffset where
  | days (n : Int)
  | weeks (n : Int)
  | months (n : Int)
  | years (n : Int)
deriving DecidableEq, Repr

/-- `date + offset` (dateutil: years are 12 months, weeks 7 days).  For `frm/utils/tenor.py:44-76`. -/
def DateOffset.addTo (o : DateOffset) (d : Int) : Int :=
  match o with
  | .days n => d + n
  | .weeks n => d + 7 * n
  | .months n => addMonths d n
  | .years n => addMonths d (12 * n)

end Frm
